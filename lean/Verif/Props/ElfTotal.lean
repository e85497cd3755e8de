import Verif.Props.ElfInfo

/-! # When signing an ELF file succeeds: C61 -/

namespace Ksusig.Props

open Ksusig Spec

theorem alignTo_le (v a : Nat) : alignTo v a ≤ v + a := by
  unfold alignTo
  split
  · omega
  · dsimp only
    split <;> omega

theorem appendAligned_small {t d : Bytes} {a : Nat} (h : t.length + max a 1 + d.length < 2 ^ 63) :
    ∃ pad : Bytes, appendAligned t d a = .ok (t ++ pad ++ d, (t ++ pad).length) ∧ pad.length ≤ max a 1 := by
  have h1 := alignTo_le t.length (max a 1)
  have h2 := alignTo_ge t.length (max a 1)
  refine ⟨List.replicate (alignTo t.length (max a 1) - t.length) 0, ?_, ?_⟩
  · unfold appendAligned
    dsimp only
    rw [if_neg (by omega)]
    congr 2
    rw [List.length_append, List.length_replicate]; omega
  · rw [List.length_replicate]; omega

/-- C61: signing an ELF file below 4 GiB with fewer than 65535 sections and a section name table with an alignment below 4 GiB
succeeds, and adds at most 8 GiB and the block. -/
theorem C61_signing_succeeds_partial {acc : Bytes → Bool} {f : ElfFile} {e : Elf} {sh : Shdr} {b : SigningBlock}
    (hd : decodeElf f.data = some e) (ha : acc f.data = true) (hsh : e.shdrs[e.hdr.shstrndx]? = some sh)
    (hn : e.shdrs.length < 65535) (hlen : f.data.length < 2 ^ 32) (hal : sh.addralign < 2 ^ 32) (hb : b.toU8.length < 2 ^ 32) :
    ∃ out, f.writeWithSignature acc b = .ok out := by
  obtain ⟨rest, hdec⟩ := decodeElf_some hd
  have hidx : e.hdr.shstrndx < e.shdrs.length := by rw [List.getElem?_eq_some_iff] at hsh; exact hsh.1
  obtain ⟨hchk, hsl, hutf⟩ := strtab_of hdec hsh (by omega)
  obtain ⟨h1, h2, _⟩ := slice?_iff.mp hsl
  have hss := slice?_length hsl
  have hfit : ∀ s ∈ e.shdrs, s.Fit e.is64 := parseShdrs_ok hdec.shdrs
  have hc : alignForContainer e.is64 ≤ 8 := by cases e.is64 <;> decide
  have hes : shdrSize e.is64 ≤ 64 := by cases e.is64 <;> decide
  unfold ElfFile.writeWithSignature
  rw [parseElf_ok.mpr ⟨hd, ha⟩, Res.ok_bind]
  unfold loadShstrtab
  rw [hsh]
  dsimp only
  rw [if_neg (by omega), hsl, Res.ofOption_some, Res.ok_bind]
  obtain ⟨pad1, hp1, hpl1⟩ := appendAligned_small (t := f.data) (d := b.toU8) (a := alignForContainer e.is64) (by omega)
  rw [hp1, Res.ok_bind]
  dsimp only
  rw [Res.ofOption_some, Res.ok_bind, utf8_ksu]
  have htab : ∀ (n : Nat), n ≤ 65535 → shdrSize e.is64 * n ≤ 64 * 65535 := fun n hn => Nat.mul_le_mul hes hn
  rcases findIdx_of_find (l := e.shdrs) (q := e.named ksuName) with ⟨f1, f2⟩ | ⟨i, s, f1, f2, f3, f4, f5⟩
  · have hno : e.nameOffset ksuName = none := by unfold Elf.nameOffset; rw [f1]; rfl
    have hfi : e.findIndex ksuName = none := f2
    rw [hno, hfi]
    simp only [Option.isNone_none, if_true, Option.getD_none]
    have hl : (e.strtab ++ ksuName ++ [0]).length ≠ sh.size := by
      simp only [List.length_append, List.length_cons, List.length_nil]; omega
    rw [if_pos hl]
    obtain ⟨pad2, hp2, hpl2⟩ := appendAligned_small (t := f.data ++ pad1 ++ b.toU8) (d := e.strtab ++ ksuName ++ [0])
      (a := max sh.addralign 1) (by simp only [List.length_append, List.length_cons, List.length_nil, ksuName]; omega)
    rw [hp2, Res.ok_bind, Res.ok_bind]
    dsimp only
    rw [if_neg (by omega)]
    have hlen3 : (e.shdrs.set e.hdr.shstrndx { sh with offset := (f.data ++ pad1 ++ b.toU8 ++ pad2).length, size := (e.strtab ++ ksuName ++ [0]).length } ++
        [ksuHeader e.strtab.length (f.data ++ pad1).length b.toU8.length (alignForContainer e.is64)]).length ≤ 65535 := by
      simp only [List.length_append, List.length_set, List.length_cons, List.length_nil]; omega
    have := alignTo_le (f.data ++ pad1 ++ b.toU8 ++ pad2 ++ (e.strtab ++ ksuName ++ [0])).length (max (shdrSize e.is64) 8)
    have hlo : (f.data ++ pad1 ++ b.toU8 ++ pad2 ++ (e.strtab ++ ksuName ++ [0])).length < 2 ^ 36 := by
      simp only [List.length_append, List.length_cons, List.length_nil, ksuName]; omega
    have := htab _ hlen3
    rw [if_neg (by omega), if_neg (by omega)]
    exact ⟨_, rfl⟩
  · have hno : e.nameOffset ksuName = some s.name := by unfold Elf.nameOffset; rw [f1]; rfl
    have hfi : e.findIndex ksuName = some i := f2
    rw [hno, hfi]
    simp only [Option.isNone_some, Option.getD_some, Bool.false_eq_true, if_false]
    rw [if_neg (show ¬ e.strtab.length ≠ sh.size by omega), Res.ok_bind]
    dsimp only
    have hsn := (bounds_of_fit (hfit s (List.mem_of_getElem? f3))).1
    rw [if_neg (by omega)]
    have hlen3 : (e.shdrs.set i (ksuHeader s.name (f.data ++ pad1).length b.toU8.length (alignForContainer e.is64))).length ≤ 65535 := by
      simp only [List.length_set]; omega
    have := alignTo_le (f.data ++ pad1 ++ b.toU8).length (max (shdrSize e.is64) 8)
    have hlo : (f.data ++ pad1 ++ b.toU8).length < 2 ^ 36 := by
      simp only [List.length_append]; omega
    have := htab _ hlen3
    rw [if_neg (by omega), if_neg (by omega)]
    exact ⟨_, rfl⟩

set_option maxRecDepth 100000 in
example : ∃ e sh, decodeElf elf64 = some e ∧ e.shdrs[e.hdr.shstrndx]? = some sh ∧ e.shdrs.length < 65535 ∧ sh.addralign < 2 ^ 32 ∧
    elf64.length < 2 ^ 32 := by
  have h : ∃ e, decodeElf elf64 = some e ∧ ((e.shdrs[e.hdr.shstrndx]?.map fun s => decide (s.addralign < 2 ^ 32)) == some true &&
      decide (e.shdrs.length < 65535)) = true := exists_elf (by decide +kernel)
  obtain ⟨e, he, h⟩ := h
  rw [Bool.and_eq_true, beq_iff_eq] at h
  cases hs : e.shdrs[e.hdr.shstrndx]? with
  | none => rw [hs] at h; cases h.1
  | some sh =>
    rw [hs] at h
    exact ⟨e, sh, he, hs, of_decide_eq_true h.2, by simpa using h.1, by decide +kernel⟩

set_option maxRecDepth 100000 in
/-- C61 fails: a file can ask for an alignment of the section name table that no buffer can hold, and signing it panics. -/
theorem C61_huge_alignment_panics : (⟨elfHugeAlign, defaultSections⟩ : ElfFile).writeWithSignature anyElf tinyBlock = .panic ∧
    (⟨elfHugeAlign, defaultSections⟩ : ElfFile).resolvedSections anyElf =
      .ok [(".text".toList, 64, 3), (".rodata".toList, 67, 2)] := by
  constructor <;> decide +kernel

end Ksusig.Props
