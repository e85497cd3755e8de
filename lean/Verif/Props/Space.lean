import Verif.Props.Growth

/-! # C132: how much space signing an ELF file takes -/

namespace Ksusig.Props

open Ksusig Spec

theorem roundUp_lt {n a : Nat} (ha : 0 < a) : roundUp n a < n + a := by
  unfold roundUp
  have := Nat.div_mul_le_self (n + a - 1) a
  omega

theorem le_roundUp {n a : Nat} (ha : 0 < a) (hn : 0 < n) : a ≤ roundUp n a := by
  unfold roundUp
  have : 1 ≤ (n + a - 1) / a := by
    rw [Nat.le_div_iff_mul_le ha]
    omega
  calc a = 1 * a := (Nat.one_mul a).symm
    _ ≤ _ := Nat.mul_le_mul_right a this

theorem entry_le (b : Bool) : entryLength b ≤ 64 := by cases b <;> decide
theorem align_le (b : Bool) : blockAlign b ≤ 8 := by cases b <;> decide

/-- The length of the body that stands before the new section headers. -/
theorem plan_length {e : Elf} {d blk body : Bytes} {n : Nat} {table : List Shdr} {sh : Shdr}
    (hsh : e.shdrs[e.hdr.shstrndx]? = some sh) (hp : Plan e d blk n body table) :
    (∃ y, body = d ++ y) ∧
    ((∃ s, FirstNamed e ksuBytes s) ∧ table.length = e.shdrs.length ∧ body.length ≤ d.length + 7 + blk.length ∨
      (¬ ∃ s, FirstNamed e ksuBytes s) ∧ table.length = e.shdrs.length + 1 ∧
        body.length = roundUp (roundUp d.length (blockAlign e.is64) + blk.length) (max 1 sh.addralign) + (sh.size + 10) ∧
        sh.offset + sh.size ≤ d.length) := by
  have ha := blockAlign_pos e.is64
  have ha8 := align_le e.is64
  have hlt := roundUp_lt (n := d.length) ha
  cases hp with
  | again h1 h2 =>
    refine ⟨⟨List.replicate (roundUp d.length (blockAlign e.is64) - d.length) 0 ++ blk, by unfold padTo; rw [List.append_assoc]⟩,
      .inl ⟨⟨_, _, h2⟩, List.length_set, ?_⟩⟩
    rw [List.length_append, padTo_length ha]
    omega
  | first h1 h2 =>
    rename_i sh'
    obtain rfl : sh' = sh := by
      have := h1.1
      rw [hsh] at this
      exact (Option.some.inj this).symm
    have hm : 0 < max 1 sh'.addralign := by omega
    refine ⟨?_, .inr ⟨h2, ?_, ?_, h1.2⟩⟩
    · refine ⟨List.replicate (roundUp d.length (blockAlign e.is64) - d.length) 0 ++ (blk ++
        (List.replicate (roundUp (padTo (blockAlign e.is64) d ++ blk).length (max 1 sh'.addralign) -
          (padTo (blockAlign e.is64) d ++ blk).length) 0 ++ (sectionBytes d sh' ++ ksuBytes ++ [0]))), ?_⟩
      simp only [padTo, List.append_assoc]
    · rw [List.length_append, List.length_set]; rfl
    · have hs : (sectionBytes d sh').length = sh'.size := by
        unfold sectionBytes
        rw [List.length_take, List.length_drop]
        have := h1.2
        omega
      have hk : ksuBytes.length = 9 := rfl
      rw [List.length_append, padTo_length hm, List.length_append (bs := blk), padTo_length ha]
      simp only [List.length_append, hs, hk, List.length_cons, List.length_nil]

/-- C132: the space signing an ELF file takes. If the file has a signature section already, the output is at most twice as long
as the file, plus the block and 70 bytes. If it has none, it is at most three times as long, plus the block and 143 bytes, plus the
alignment that the file itself asks for in the header of its name table; and it is at least as long as this alignment. -/
theorem C132_space {acc : Bytes → Bool} {f : ElfFile} {e : Elf} {sh : Shdr} {b : SigningBlock} {out : Bytes}
    (hlen : f.data.length < 2 ^ 63) (hv : ElfView f.data e) (hsh : e.shdrs[e.hdr.shstrndx]? = some sh)
    (h : f.writeWithSignature acc b = .ok out) :
    ((∃ s, FirstNamed e ksuBytes s) → out.length ≤ 2 * f.data.length + b.toU8.length + 70) ∧
    ((¬ ∃ s, FirstNamed e ksuBytes s) → sh.addralign ≤ out.length ∧
      out.length ≤ 3 * f.data.length + b.toU8.length + max 1 sh.addralign + 143) := by
  obtain ⟨_, e', n, body, table, hv', hp, _, _, rfl, _⟩ := (C98_written acc f b out hlen).mp h
  obtain rfl := C97_unique hv hv'
  obtain ⟨⟨y, hy⟩, hc⟩ := plan_length hsh hp
  have hw := withTable_length hv hy table
  have hp := entryLength_pos e.is64
  have he := entry_le e.is64
  have hr := roundUp_lt (n := body.length) hp
  have hr' := roundUp_ge (n := body.length) hp
  have hin := hv.inside
  have hroom := hv.room
  have hh : 0 < headerLength e.is64 := by cases e.is64 <;> decide
  rcases hc with ⟨h1, h2, h3⟩ | ⟨h1, h2, h3, h4⟩
  · refine ⟨fun _ => ?_, fun hn => absurd h1 hn⟩
    rw [hw, h2]
    omega
  · refine ⟨fun hn => absurd hn h1, fun _ => ?_⟩
    have hm : 0 < max 1 sh.addralign := by omega
    have ha := blockAlign_pos e.is64
    have ha8 := align_le e.is64
    have k1 := roundUp_lt (n := f.data.length) ha
    have k0 := roundUp_ge (n := f.data.length) ha
    have k2 := roundUp_lt (n := roundUp f.data.length (blockAlign e.is64) + b.toU8.length) hm
    have k3 := le_roundUp (n := roundUp f.data.length (blockAlign e.is64) + b.toU8.length) hm (by omega)
    rw [hw, h2, Nat.mul_add]
    omega

/-- The sample file, with another alignment of the name table. -/
def wideElf (a : Nat) : Bytes := elf64.take 344 ++ leBytes 8 a ++ elf64.drop 352

set_option maxRecDepth 100000 in
/-- C132: there is no bound in terms of the length of the file: a file of 360 bytes can be signed (if there is memory for it), with
any block, and the result has more than 2^62 bytes. -/
theorem C132_amplified {b : SigningBlock} (hb : b.toU8.length < 2 ^ 32) : (wideElf (2 ^ 62)).length = 360 ∧
    ∃ out, (⟨wideElf (2 ^ 62), defaultSections⟩ : ElfFile).writeWithSignature anyElf b = .ok out ∧ 2 ^ 62 ≤ out.length := by
  have hl : (wideElf (2 ^ 62)).length = 360 := by decide +kernel
  refine ⟨hl, ?_⟩
  have h : ∃ e, decodeElf (wideElf (2 ^ 62)) = some e ∧ ((e.shdrs[e.hdr.shstrndx]?.any fun s => decide (s.addralign = 2 ^ 62) &&
      decide (s.offset + s.size ≤ 360)) && decide (e.shdrs.length = 4) && (e.findSection ksuBytes).isNone) = true := exists_elf (by decide +kernel)
  obtain ⟨e, he, h⟩ := h
  simp only [Bool.and_eq_true, decide_eq_true_eq, Option.any_eq_true] at h
  obtain ⟨⟨⟨sh, hsh, h1, h2⟩, h3⟩, h4⟩ := h
  have hv := decodeElf_iff.mp he
  have hno : ¬ ∃ s, FirstNamed e ksuBytes s := by
    rintro ⟨s, hs⟩
    rw [firstNamed_iff.mpr hs] at h4
    cases h4
  obtain ⟨n, body, table, hn, hp⟩ : ∃ n body table, n = sh.size ∧ Plan e (wideElf (2 ^ 62)) b.toU8 n body table :=
    ⟨_, _, _, rfl, .first ⟨hsh, by rw [hl]; exact h2⟩ hno⟩
  obtain ⟨⟨y, hy⟩, hc⟩ := plan_length hsh hp
  rcases hc with ⟨hc, _⟩ | ⟨_, ht, hbody, _⟩
  · exact absurd hc hno
  have hw := withTable_length hv hy table
  have he := entry_le e.is64
  have hr := roundUp_lt (n := body.length) (entryLength_pos e.is64)
  have ha := blockAlign_pos e.is64
  have ha8 := align_le e.is64
  have k1 := roundUp_lt (n := (wideElf (2 ^ 62)).length) ha
  have hm : max 1 sh.addralign = 2 ^ 62 := by rw [h1]; decide
  have k2 := roundUp_lt (n := roundUp (wideElf (2 ^ 62)).length (blockAlign e.is64) + b.toU8.length)
    (a := max 1 sh.addralign) (by omega)
  have hout : (withTable e body table).length < 2 ^ 63 := by
    rw [hw, ht, h3]
    have : entryLength e.is64 * (4 + 1) ≤ 64 * 5 := Nat.mul_le_mul_right 5 he
    omega
  have hwr := (C98_written anyElf ⟨wideElf (2 ^ 62), defaultSections⟩ b _ (by show (wideElf (2 ^ 62)).length < _; rw [hl]; decide)).mpr
    ⟨rfl, e, _, _, _, hv, hp, by omega, by omega, rfl, hout⟩
  refine ⟨_, hwr, ?_⟩
  rw [← h1]
  exact ((C132_space (f := ⟨wideElf (2 ^ 62), defaultSections⟩) (by show (wideElf (2 ^ 62)).length < _; rw [hl]; decide) hv hsh hwr).2
    hno).1

example : ∃ out, (⟨wideElf (2 ^ 62), defaultSections⟩ : ElfFile).writeWithSignature anyElf tinyBlock = .ok out ∧ 2 ^ 62 ≤ out.length :=
  (C132_amplified (by decide)).2

set_option maxRecDepth 100000 in
/-- The signed sample has a signature section, and can be signed again. -/
example : ∃ e sh out, ElfView (signTiny elf64) e ∧ e.shdrs[e.hdr.shstrndx]? = some sh ∧ (∃ s, FirstNamed e ksuBytes s) ∧
    (⟨signTiny elf64, []⟩ : ElfFile).writeWithSignature anyElf tinyBlock = .ok out := by
  have h : ∃ e, decodeElf (signTiny elf64) = some e ∧ (e.shdrs[e.hdr.shstrndx]?.isSome && (e.findSection ksuBytes).isSome) = true :=
    exists_elf (by decide +kernel)
  obtain ⟨e, he, h⟩ := h
  rw [Bool.and_eq_true, Option.isSome_iff_exists, Option.isSome_iff_exists] at h
  obtain ⟨⟨sh, h1⟩, s, h2⟩ := h
  obtain ⟨out, ho⟩ : ∃ out, (⟨signTiny elf64, []⟩ : ElfFile).writeWithSignature anyElf tinyBlock = .ok out :=
    Res.exists_of_isOk (by decide +kernel)
  exact ⟨e, sh, out, decodeElf_iff.mp he, h1, ⟨s, firstNamed_iff.mp h2⟩, ho⟩

end Ksusig.Props
