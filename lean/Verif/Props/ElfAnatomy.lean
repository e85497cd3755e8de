import Verif.Proofs.ElfAnatomy
import Verif.Props.ElfTamper
import Verif.Props.IsSigned
import Verif.Props.Grammar

/-!
# ELF files, byte by byte
-/

namespace Ksusig.Props

open Ksusig Spec

/-- C97. An ELF file is opened exactly if the parts that only matter for being rejected are accepted and its header, section headers
and section names are where the format says; what is then known about it is what its bytes say, and nothing else. -/
theorem C97_parse (acc : Bytes → Bool) (d : Bytes) (e : Elf) : parseElf acc d = .ok e ↔ acc d = true ∧ ElfView d e := by
  rw [parseElf_ok, decodeElf_iff, and_comm]

/-- C97. The bytes of a file say one thing only. -/
theorem C97_unique {d : Bytes} {e e' : Elf} (h : ElfView d e) (h' : ElfView d e') : e = e' := ElfView.unique h h'

/-- C97. Names in a file are accepted exactly if they are text. -/
theorem C97_text (t : Bytes) : validUtf8 t = true ↔ Utf8 t := valid_iff

theorem view_bounds {d : Bytes} {e : Elf} (h : ElfView d e) {s : Shdr} (hs : s ∈ e.shdrs) : s.offset < 2 ^ 64 ∧ s.size < 2 ^ 64 := by
  obtain ⟨rest, hd⟩ := decodeElf_some (decodeElf_iff.mpr h)
  have hf := (bounds_of_fit (parseShdrs_ok hd.shdrs s hs)).2.2.2.2
  have h1 := hf s.offset (by simp)
  have h2 := hf s.size (by simp)
  have : 2 ^ (if e.is64 then 64 else 32) ≤ 2 ^ 64 := by cases e.is64 <;> decide
  omega

/-- C97. An ELF file is reported as not signed exactly if it can be opened and has no section called `.ksu_sign`, or the first one
has size 0. -/
theorem C97_unsigned (p : Profile) (acc : Bytes → Bool) (f : ElfFile) : f.getSigningBlock p acc = .ok none ↔ acc f.data = true ∧ ∃ e, ElfView f.data e ∧
      ((¬ ∃ s, FirstNamed e ksuBytes s) ∨ ∃ s, FirstNamed e ksuBytes s ∧ s.size = 0) := by
  unfold ElfFile.getSigningBlock
  rw [utf8_ksu, ksuName_eq]
  constructor
  · intro h
    obtain ⟨e, h1, h⟩ := Res.bind_eq_ok.mp h
    obtain ⟨ha, hv⟩ := (C97_parse acc f.data e).mp h1
    refine ⟨ha, e, hv, ?_⟩
    cases hf : e.findSection ksuBytes with
    | none =>
      refine .inl ?_
      rintro ⟨s, hs⟩
      rw [firstNamed_iff.mpr hs] at hf
      cases hf
    | some s =>
      rw [hf] at h
      dsimp only at h
      split at h
      · cases h
      · split at h
        · rename_i h0
          exact .inr ⟨s, firstNamed_iff.mp hf, h0⟩
        · obtain ⟨x, _, h⟩ := Res.bind_eq_ok.mp h
          obtain ⟨y, _, h⟩ := Res.bind_eq_ok.mp h
          cases h
  · rintro ⟨ha, e, hv, h⟩
    rw [(C97_parse acc f.data e).mpr ⟨ha, hv⟩, Res.ok_bind]
    rcases h with h | ⟨s, hs, h0⟩
    · cases hf : e.findSection ksuBytes with
      | none => rfl
      | some s => exact absurd ⟨s, firstNamed_iff.mp hf⟩ h
    · rw [firstNamed_iff.mpr hs]
      dsimp only
      obtain ⟨i, hi⟩ := hs
      have := (view_bounds hv (List.mem_of_getElem? hi.here)).1
      rw [if_neg (by omega), if_pos h0]

/-- C97. The block of an ELF file is returned exactly if it can be opened, its first section called `.ksu_sign` is not empty and lies
in the file, and its bytes hold a block; what is returned is what the grammar assigns to them. -/
theorem C97_block (p : Profile) (acc : Bytes → Bool) (f : ElfFile) (b : SigningBlock) (hlen : f.data.length < 2 ^ 63) :
    f.getSigningBlock p acc = .ok (some b) ↔ acc f.data = true ∧ ∃ e s, ElfView f.data e ∧ FirstNamed e ksuBytes s ∧ s.size ≠ 0 ∧
      s.offset + s.size ≤ f.data.length ∧ HoldsBlock (sectionBytes f.data s) b := by
  unfold ElfFile.getSigningBlock HoldsBlock
  rw [utf8_ksu, ksuName_eq]
  constructor
  · intro h
    obtain ⟨e, h1, h⟩ := Res.bind_eq_ok.mp h
    obtain ⟨ha, hv⟩ := (C97_parse acc f.data e).mp h1
    refine ⟨ha, e, ?_⟩
    cases hf : e.findSection ksuBytes with
    | none => rw [hf] at h; cases h
    | some s =>
      rw [hf] at h
      dsimp only at h
      split at h
      · cases h
      · split at h
        · cases h
        · rename_i h0
          obtain ⟨x, hx, h⟩ := Res.bind_eq_ok.mp h
          obtain ⟨y, hy, h⟩ := Res.bind_eq_ok.mp h
          cases h
          have hx : slice? f.data s.offset (s.offset + s.size) = some x := by
            cases hsl : slice? f.data s.offset (s.offset + s.size) with
            | none => rw [hsl] at hx; cases hx
            | some x' => rw [hsl] at hx; cases hx; rfl
          obtain ⟨h2, rfl⟩ := slice?_some.mp hx
          have hy : SigningBlock.fromU8 p ((f.data.drop s.offset).take s.size) = .ok b := by
            cases hb : SigningBlock.fromU8 p ((f.data.drop s.offset).take s.size) with
            | ok b' => rw [hb] at hy; cases hy; rfl
            | err e' => rw [hb] at hy; cases hy
            | panic => rw [hb] at hy; cases hy
          exact ⟨s, hv, firstNamed_iff.mp hf, h0, h2, (C88_from_u8 _ _ _).mp hy⟩
  · rintro ⟨ha, e, s, hv, hs, h0, h2, hb⟩
    rw [(C97_parse acc f.data e).mpr ⟨ha, hv⟩, Res.ok_bind, firstNamed_iff.mpr hs]
    dsimp only
    rw [if_neg (by omega), if_neg h0, slice?_some.mpr ⟨h2, rfl⟩]
    have := (C88_from_u8 p _ b).mpr hb
    unfold sectionBytes at this
    simp only [Res.ofOption, Res.ok_bind, this, Res.mapErr]

/-- C97. The sections of a selection are resolved exactly if the file can be opened and every selected name has a section with bytes
in the file; the result is these sections by offset, those at the same offset in the order of their selection. -/
theorem C97_sections (acc : Bytes → Bool) (f : ElfFile) (l : List Resolved) : f.resolvedSections acc = .ok l ↔
    acc f.data = true ∧ ∃ e, ElfView f.data e ∧ Selected e f.sections l := resolved_iff

/-- C97. A digest of an ELF file is computed exactly if its selection is resolved; it is then the two-level digest of the bytes of
these sections, as far as they are in the file. -/
theorem C97_digest (E : Env) (acc : Bytes → Bool) (f : ElfFile) (algo : Algo) (dg : Bytes) : f.digest E acc algo = .ok dg ↔
    acc f.data = true ∧ ∃ e l, ElfView f.data e ∧ Selected e f.sections l ∧
      dg = treeDigest (algo.hash E) (l.map fun x => (f.data.drop x.2.1).take x.2.2) := by
  constructor
  · intro h
    have h0 := h
    unfold ElfFile.digest at h
    obtain ⟨l, hl, _⟩ := Res.bind_eq_ok.mp h
    obtain ⟨ha, e, hv, hs⟩ := resolved_iff.mp hl
    rw [C62_digest_of_contents hl] at h0
    exact ⟨ha, e, l, hv, hs, (Res.ok.inj h0).symm⟩
  · rintro ⟨ha, e, l, hv, hs, rfl⟩
    exact C62_digest_of_contents (resolved_iff.mpr ⟨ha, e, hv, hs⟩) algo

/-- C97. A selection is resolved in one way only. -/
theorem C97_selection_unique {e : Elf} {names : List (List Char)} {l l' : List Resolved} (h : Selected e names l)
    (h' : Selected e names l') : l = l' := by
  obtain ⟨l0, h1, rfl⟩ := selected_iff.mp h
  obtain ⟨l1, h2, rfl⟩ := selected_iff.mp h'
  rw [h1] at h2
  rw [List.map_inj_right (fun a b h => Option.some.inj h) |>.mp h2]

set_option maxRecDepth 100000 in
/-- The sample file can be opened, is not signed, and its selection is resolved, so a digest is computed; after signing it has a
block. -/
example : ∃ e l dg, ElfView elf64 e ∧ 4 ≤ e.shdrs.length ∧ (¬ ∃ s, FirstNamed e ksuBytes s) ∧
    Selected e defaultSections l ∧ l.length = 2 ∧ (⟨elf64, defaultSections⟩ : ElfFile).digest toyEnv anyElf .p256 = .ok dg := by
  have h1 : ∃ e, parseElf anyElf elf64 = .ok e := Res.exists_of_isOk (by decide +kernel)
  obtain ⟨e, he⟩ := h1
  have hv := ((C97_parse _ _ _).mp he).2
  have hr : (⟨elf64, defaultSections⟩ : ElfFile).resolvedSections anyElf =
    .ok [(".text".toList, 64, 8), (".rodata".toList, 72, 4)] := by decide +kernel
  obtain ⟨_, e', hv', hs⟩ := (C97_sections _ _ _).mp hr
  obtain rfl := C97_unique hv hv'
  have hn : (match parseElf anyElf elf64 with
    | .ok e => decide (4 ≤ e.shdrs.length) && (e.findSection ksuBytes).isNone
    | _ => false) = true := by decide +kernel
  rw [he] at hn
  simp only [Bool.and_eq_true, decide_eq_true_eq, Option.isNone_iff_eq_none] at hn
  refine ⟨e, _, _, hv, hn.1, ?_, hs, rfl, (C97_digest _ _ _ _ _).mpr ⟨rfl, e, _, hv, hs, rfl⟩⟩
  rintro ⟨s, h⟩
  rw [firstNamed_iff.mpr h] at hn
  cases hn.2

set_option maxRecDepth 100000 in
/-- The signed sample file has a block in its signature section. -/
example : ∃ b e s, (⟨signTiny elf64, defaultSections⟩ : ElfFile).getSigningBlock .release anyElf = .ok (some b) ∧
    ElfView (signTiny elf64) e ∧ FirstNamed e ksuBytes s ∧ HoldsBlock (sectionBytes (signTiny elf64) s) b := by
  have hb : (match (⟨signTiny elf64, defaultSections⟩ : ElfFile).getSigningBlock .release anyElf with
    | .ok (some _) => true
    | _ => false) = true := by decide +kernel
  split at hb
  · rename_i b h
    obtain ⟨_, e, s, hv, hs, _, _, hh⟩ := (C97_block _ _ _ _ (by decide +kernel)).mp h
    exact ⟨b, e, s, h, hv, hs, hh⟩
  · cases hb

set_option maxRecDepth 100000 in
/-- With the size of its signature section set to 0, the signed file is not signed. -/
example : (⟨(signTiny elf64).set 736 0, defaultSections⟩ : ElfFile).getSigningBlock .release anyElf = .ok none ∧
    ∃ e s, ElfView ((signTiny elf64).set 736 0) e ∧ FirstNamed e ksuBytes s ∧ s.size = 0 := by
  have h : (⟨(signTiny elf64).set 736 0, defaultSections⟩ : ElfFile).getSigningBlock .release anyElf = .ok none := by decide +kernel
  refine ⟨h, ?_⟩
  obtain ⟨_, e, hv, h' | ⟨s, hs, h0⟩⟩ := (C97_unsigned _ _ _).mp h
  · have hn : ((decodeElf ((signTiny elf64).set 736 0)).bind fun e => e.findSection ksuBytes).isSome = true := by decide +kernel
    rw [decodeElf_iff.mpr hv, Option.bind_some] at hn
    obtain ⟨s, hs⟩ := Option.isSome_iff_exists.mp hn
    exact absurd ⟨s, firstNamed_iff.mp hs⟩ h'
  · exact ⟨e, s, hv, hs, h0⟩

end Ksusig.Props
