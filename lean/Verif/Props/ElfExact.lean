import Verif.Proofs.ElfExact
import Verif.Props.ElfVerify
import Verif.Props.ElfTotal

/-!
# What signing an ELF file writes, byte by byte
-/

namespace Ksusig.Props

open Ksusig Spec

/-- C98. Signing an ELF file succeeds exactly if it can be opened, has a name table, the offset of the name `.ksu_sign` has room in
32 bits, there are then at most 65535 sections, and the result is shorter than 2^63 bytes (a `Vec` cannot be longer); these bytes are
then written, and no others. -/
theorem C98_written (acc : Bytes → Bool) (f : ElfFile) (b : SigningBlock) (out : Bytes) (hlen : f.data.length < 2 ^ 63) :
    f.writeWithSignature acc b = .ok out ↔ acc f.data = true ∧ ∃ e n body table, ElfView f.data e ∧ Plan e f.data b.toU8 n body table ∧
      n < 2 ^ 32 ∧ table.length ≤ 65535 ∧ out = withTable e body table ∧ out.length < 2 ^ 63 := by
  constructor
  · intro h
    have h0 := h
    unfold ElfFile.writeWithSignature at h0
    obtain ⟨e, h1, h0⟩ := Res.bind_eq_ok.mp h0
    obtain ⟨t, h2, _⟩ := Res.bind_eq_ok.mp h0
    obtain ⟨hd, ha⟩ := parseElf_ok.mp h1
    have hv := decodeElf_iff.mp hd
    obtain ⟨sh, hsh, _⟩ := (nameTable_load (by omega) t).mp h2
    obtain ⟨n, body, table, hp⟩ := Spec.Plan.exists_of b.toU8 hsh
    refine ⟨ha, e, n, body, table, hv, hp, ?_⟩
    rw [write_plan ha hv hlen hp] at h
    split at h
    · cases h
    split at h
    · cases h
    split at h
    · cases h
    split at h
    · cases h
    cases h
    exact ⟨by omega, by omega, rfl, by omega⟩
  · rintro ⟨ha, e, n, body, table, hv, hp, hn, ht, rfl, hl⟩
    obtain ⟨y, hy⟩ := hp.body
    have hlt := withTable_length hv hy table
    have hge := roundUp_ge (n := body.length) (a := entryLength e.is64) (by unfold entryLength; cases e.is64 <;> decide)
    rw [write_plan ha hv hlen hp, if_neg (by omega), if_neg (by omega), if_neg (by omega), if_neg (by omega)]

/-- C98. Signing an ELF file panics exactly if the result would be longer than a `Vec` can be. -/
theorem C98_panics (acc : Bytes → Bool) (f : ElfFile) (b : SigningBlock) (hlen : f.data.length < 2 ^ 63) :
    f.writeWithSignature acc b = .panic ↔ acc f.data = true ∧ ∃ e n body table, ElfView f.data e ∧ Plan e f.data b.toU8 n body table ∧
      (2 ^ 63 ≤ body.length ∨ n < 2 ^ 32 ∧ 2 ^ 63 ≤ (withTable e body table).length) := by
  constructor
  · intro h
    cases hp : parseElf acc f.data with
    | err x => unfold ElfFile.writeWithSignature at h; rw [hp] at h; cases h
    | panic =>
      unfold parseElf at hp
      split at hp
      · split at hp <;> cases hp
      · cases hp
    | ok e =>
      obtain ⟨hd, ha⟩ := parseElf_ok.mp hp
      have hv := decodeElf_iff.mp hd
      cases hl : loadShstrtab e f.data with
      | err x => unfold ElfFile.writeWithSignature at h; rw [hp, Res.ok_bind, hl] at h; cases h
      | panic =>
        unfold loadShstrtab at hl
        split at hl
        · cases hl
        · split at hl
          · cases hl
          · revert hl
            cases slice? f.data _ _ <;> intro hl <;> cases hl
      | ok t =>
        obtain ⟨sh, hsh, _⟩ := (nameTable_load (by omega) t).mp hl
        obtain ⟨n, body, table, hpl⟩ := Spec.Plan.exists_of b.toU8 hsh
        refine ⟨ha, e, n, body, table, hv, hpl, ?_⟩
        rw [write_plan ha hv hlen hpl] at h
        split at h
        · exact .inl ‹_›
        split at h
        · cases h
        split at h
        · exact .inr ⟨by omega, ‹_›⟩
        split at h <;> cases h
  · rintro ⟨ha, e, n, body, table, hv, hp, h⟩
    rw [write_plan ha hv hlen hp]
    rcases h with h | ⟨h1, h2⟩
    · rw [if_pos h]
    · split
      · rfl
      · rw [if_neg (by omega)]

/-- C98. What is to be written is determined by the file and the block. -/
theorem C98_plan_unique {e : Elf} {d blk : Bytes} {n n' : Nat} {b b' : Bytes} {t t' : List Shdr} (h : Plan e d blk n b t)
    (h' : Plan e d blk n' b' t') : n = n' ∧ b = b' ∧ t = t' := h.unique h'

/-- C98. The sign command on an ELF file succeeds exactly if the names given are accepted, the signer makes a block for the digests of
the selected sections, and writing succeeds; these bytes are then written. -/
theorem C98_sign_command (E : Env) (p : Profile) (acc : Bytes → Bool) (clock : Option UInt64) (m : ModuleSigner)
    (names : List (List Char)) (ip : Bool) (file out : Bytes) (f0 : ElfFile) (ho : SignableFile.open acc file = .ok (.elf f0))
    (hlen : file.length < 2 ^ 63) : cliSign E p acc clock m names ip file = (some out, .ok ()) ↔
      ∃ f b e n body table, cliElfSelect f0 names = .ok f ∧ cliElfBlock E p acc clock m f = .ok b ∧ ElfView file e ∧
        Plan e file b.toU8 n body table ∧ n < 2 ^ 32 ∧ table.length ≤ 65535 ∧ out = withTable e body table ∧ out.length < 2 ^ 63 := by
  obtain ⟨rfl, hnew, e0, hd0, ha0⟩ := open_elf_inv ho
  have hdata : ∀ f, cliElfSelect (⟨file, defaultSections⟩ : ElfFile) names = .ok f → f.data = file := by
    intro f hf
    exact (cliElfSelect_ok (.opened hnew) hf).2.1
  rw [cliSign_elf ho]
  constructor
  · rintro ⟨f, b, h1, h2, h3⟩
    have hf := hdata f h1
    obtain ⟨_, e, n, body, table, h⟩ := (C98_written acc f b out (by rw [hf]; exact hlen)).mp h3
    rw [hf] at h
    exact ⟨f, b, e, n, body, table, h1, h2, h⟩
  · rintro ⟨f, b, e, n, body, table, h1, h2, h⟩
    have hf := hdata f h1
    refine ⟨f, b, h1, h2, (C98_written acc f b out (by rw [hf]; exact hlen)).mpr ?_⟩
    rw [hf]
    exact ⟨ha0, e, n, body, table, h⟩

theorem first_sample {acc : Bytes → Bool} {d out : Bytes} {secs : List (List Char)} {b : SigningBlock} {k m : Nat}
    (h : (⟨d, secs⟩ : ElfFile).writeWithSignature acc b = .ok out) (hlen : d.length < 2 ^ 63)
    (hk : (match decodeElf d with
      | some e => decide (e.shdrs.length = k) && (e.findSection ksuBytes).isNone && decide ((e.shdrs[e.hdr.shstrndx]?.map (·.size)) = some m)
      | none => false) = true) : ∃ e body table, ElfView d e ∧ Plan e d b.toU8 m body table ∧
      (¬ ∃ s, FirstNamed e ksuBytes s) ∧ table.length = k + 1 ∧ out = withTable e body table := by
  obtain ⟨_, e, n, body, table, hv, hp, _, _, ho, _⟩ := (C98_written _ _ _ _ hlen).mp h
  dsimp only at hv hp
  rw [decodeElf_iff.mpr hv] at hk
  simp only [Bool.and_eq_true, decide_eq_true_eq, Option.isNone_iff_eq_none] at hk
  have hnone : ¬ ∃ s, FirstNamed e ksuBytes s := by
    rintro ⟨s, hs⟩
    rw [firstNamed_iff.mpr hs] at hk
    cases hk.1.2
  have hn : n = m ∧ table.length = k + 1 := by
    cases hp with
    | again _ h => exact absurd ⟨_, _, h⟩ hnone
    | first h _ =>
      have := hk.2
      rw [h.1] at this
      exact ⟨Option.some.inj this, by rw [List.length_append, List.length_set, hk.1.1]; rfl⟩
  obtain ⟨rfl, ht⟩ := hn
  exact ⟨e, body, table, hv, hp, hnone, ht, ho⟩

theorem again_sample {acc : Bytes → Bool} {d out : Bytes} {secs : List (List Char)} {b : SigningBlock} {k m : Nat}
    (h : (⟨d, secs⟩ : ElfFile).writeWithSignature acc b = .ok out) (hlen : d.length < 2 ^ 63)
    (hk : (match decodeElf d with
      | some e => decide (e.shdrs.length = k) && decide ((e.findSection ksuBytes).map (·.name) = some m)
      | none => false) = true) : ∃ e body table, ElfView d e ∧ Plan e d b.toU8 m body table ∧
      (∃ s, FirstNamed e ksuBytes s) ∧ table.length = k ∧ out = withTable e body table := by
  obtain ⟨_, e, n, body, table, hv, hp, _, _, ho, _⟩ := (C98_written _ _ _ _ hlen).mp h
  dsimp only at hv hp
  rw [decodeElf_iff.mpr hv] at hk
  simp only [Bool.and_eq_true, decide_eq_true_eq] at hk
  have hsome : ∃ s, FirstNamed e ksuBytes s := by
    cases hf : e.findSection ksuBytes with
    | none => rw [hf] at hk; cases hk.2
    | some s => exact ⟨s, firstNamed_iff.mp hf⟩
  have hn : n = m ∧ table.length = k := by
    cases hp with
    | again _ h =>
      have := hk.2
      rw [firstNamed_iff.mpr ⟨_, h⟩] at this
      exact ⟨Option.some.inj this, by rw [List.length_set, hk.1]⟩
    | first _ h => exact absurd hsome h
  obtain ⟨rfl, ht⟩ := hn
  exact ⟨e, body, table, hv, hp, hsome, ht, ho⟩

set_option maxRecDepth 100000 in
/-- The sample file is signed for the first time. -/
example : ∃ e body table, ElfView elf64 e ∧ Plan e elf64 tinyBlock.toU8 25 body table ∧ (¬ ∃ s, FirstNamed e ksuBytes s) ∧
    table.length = 5 ∧ signTiny elf64 = withTable e body table :=
  first_sample signTiny_64 (by decide +kernel) (by decide +kernel)

set_option maxRecDepth 100000 in
/-- The signed sample file is signed again. -/
example : ∃ e body table, ElfView (signTiny elf64) e ∧ Plan e (signTiny elf64) tinyBlock.toU8 25 body table ∧
    (∃ s, FirstNamed e ksuBytes s) ∧ table.length = 5 ∧ signTiny (signTiny elf64) = withTable e body table :=
  again_sample (acc := anyElf) (secs := defaultSections) (by decide +kernel) (by decide +kernel) (by decide +kernel)

set_option maxRecDepth 100000 in
/-- A file with an absurd alignment: the panic happens. -/
example : ∃ e n body table, ElfView elfHugeAlign e ∧ Plan e elfHugeAlign tinyBlock.toU8 n body table ∧
    (2 ^ 63 ≤ body.length ∨ n < 2 ^ 32 ∧ 2 ^ 63 ≤ (withTable e body table).length) :=
  ((C98_panics anyElf ⟨elfHugeAlign, defaultSections⟩ tinyBlock (by decide +kernel)).mp C61_huge_alignment_panics.1).2

end Ksusig.Props
