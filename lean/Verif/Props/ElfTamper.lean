import Verif.Props.ElfVerify

/-! # What the digest of an ELF file protects: C62 -/

namespace Ksusig.Props

open Ksusig Spec

/-- The contents of the resolved sections. -/
def sectionContents (data : Bytes) (l : List Resolved) : List Bytes := l.map fun x => (data.drop x.2.1).take x.2.2

theorem digestElfSections_eq (E : Env) (data : Bytes) (l : List Resolved) (algo : Algo) :
    digestElfSections E data l algo = treeDigest (algo.hash E) (sectionContents data l) := by
  have h : ∀ l : List Resolved, (l.flatMap fun x =>
      let d := (data.drop x.2.1).take x.2.2
      (chunksBy fullReads d.length 0 d).map (elfDigestChunk E algo)) =
      ((sectionContents data l).flatMap pieces).map fun c => algo.hash E (pieceInput c) := by
    intro l
    induction l with
    | nil => rfl
    | cons x l ih =>
      rw [List.flatMap_cons, ih]
      unfold sectionContents
      rw [List.map_cons, List.flatMap_cons, List.map_append]
      dsimp only
      rw [chunksBy_full fullReads_ge _ _ _ (Nat.le_refl _)]
      rfl
  unfold digestElfSections elfDigestFinal treeDigest topInput
  rw [h, List.length_map]

/-- C62: the digest of an ELF file is the two-level digest of the contents of the chosen sections in the order of their places in
the file. -/
theorem C62_digest_of_contents {E : Env} {acc : Bytes → Bool} {f : ElfFile} {l : List Resolved}
    (hl : f.resolvedSections acc = .ok l) (algo : Algo) :
    f.digest E acc algo = .ok (treeDigest (algo.hash E) (sectionContents f.data l)) := by
  unfold ElfFile.digest
  rw [hl, Res.ok_bind, digestElfSections_eq]

theorem flatten_pieces_flatMap (xs : List Bytes) : (xs.flatMap pieces).flatten = xs.flatten := by
  induction xs with
  | nil => rfl
  | cons x xs ih => rw [List.flatMap_cons, List.flatten_append, ih, pieces_flatten _ x (Nat.le_refl _)]; rfl

theorem flatten_inj_lengths : ∀ {xs ys : List Bytes}, xs.map List.length = ys.map List.length → xs.flatten = ys.flatten → xs = ys
  | [], [], _, _ => rfl
  | [], _ :: _, h, _ => by cases h
  | _ :: _, [], h, _ => by cases h
  | x :: xs, y :: ys, h, hf => by
    rw [List.map_cons, List.map_cons] at h
    injection h with h1 h2
    rw [List.flatten_cons, List.flatten_cons] at hf
    obtain ⟨h3, h4⟩ := List.append_inj hf h1
    rw [h3, flatten_inj_lengths h2 h4]

/-- C62: if the digests of two ELF files are equal, the contents of the chosen sections, put one after the other, are equal, and
also one by one if the lengths are; or two different hashed inputs with the same hash value can be read off. -/
theorem C62_tamper_evident_partial {E : Env} {acc : Bytes → Bool} {algo : Algo} (hE : FixedLength (algo.hash E)) {f f' : ElfFile}
    {l l' : List Resolved} {d : Bytes} (hl : f.resolvedSections acc = .ok l) (hl' : f'.resolvedSections acc = .ok l')
    (hd : f.digest E acc algo = .ok d) (hd' : f'.digest E acc algo = .ok d) :
    ((sectionContents f.data l).flatten = (sectionContents f'.data l').flatten ∧
      ((sectionContents f.data l).map List.length = (sectionContents f'.data l').map List.length →
        sectionContents f.data l = sectionContents f'.data l')) ∨
    ∃ x ∈ hashInputs (algo.hash E) (sectionContents f.data l), ∃ y ∈ hashInputs (algo.hash E) (sectionContents f'.data l'),
      x ≠ y ∧ algo.hash E x = algo.hash E y := by
  rw [C62_digest_of_contents hl] at hd
  rw [C62_digest_of_contents hl'] at hd'
  injection hd with hd
  injection hd' with hd'
  rcases treeDigest_eq hE (hd.trans hd'.symm) with h | h
  · refine .inl ?_
    have hf : (sectionContents f.data l).flatten = (sectionContents f'.data l').flatten := by
      rw [← flatten_pieces_flatMap, h, flatten_pieces_flatMap]
    exact ⟨hf, fun hlen => flatten_inj_lengths hlen hf⟩
  · exact .inr h

set_option maxRecDepth 100000 in
example : ∃ l d, (⟨elf64, defaultSections⟩ : ElfFile).resolvedSections anyElf = .ok l ∧
    (⟨elf64, defaultSections⟩ : ElfFile).digest toyEnv anyElf .p256 = .ok d ∧
    (⟨signTiny elf64, defaultSections⟩ : ElfFile).digest toyEnv anyElf .p256 = .ok d ∧ FixedLength (Algo.p256.hash toyEnv) := by
  have h1 : ∃ l, (⟨elf64, defaultSections⟩ : ElfFile).resolvedSections anyElf = .ok l := Res.exists_of_isOk (by decide +kernel)
  have h2 : ∃ d, (⟨elf64, defaultSections⟩ : ElfFile).digest toyEnv anyElf .p256 = .ok d := Res.exists_of_isOk (by decide +kernel)
  have h3 : (⟨signTiny elf64, defaultSections⟩ : ElfFile).digest toyEnv anyElf .p256 =
    (⟨elf64, defaultSections⟩ : ElfFile).digest toyEnv anyElf .p256 := by decide +kernel
  obtain ⟨l, h1⟩ := h1
  obtain ⟨d, h2⟩ := h2
  exact ⟨l, d, h1, h2, h3.trans h2, toyHash_fixed (by decide)⟩

set_option maxRecDepth 100000 in
/-- C62 fails for the names: exchanging the names of `.text` and `.rodata` changes what these sections contain and changes no
digest. -/
theorem C62_names_not_covered :
    (⟨elf64, defaultSections⟩ : ElfFile).resolvedSections anyElf = .ok [(".text".toList, 64, 8), (".rodata".toList, 72, 4)] ∧
    (⟨elfSwapped, defaultSections⟩ : ElfFile).resolvedSections anyElf = .ok [(".rodata".toList, 64, 8), (".text".toList, 72, 4)] ∧
    ∀ (E : Env) (algo : Algo), (⟨elf64, defaultSections⟩ : ElfFile).digest E anyElf algo =
      (⟨elfSwapped, defaultSections⟩ : ElfFile).digest E anyElf algo := by
  have h1 : (⟨elf64, defaultSections⟩ : ElfFile).resolvedSections anyElf =
      .ok [(".text".toList, 64, 8), (".rodata".toList, 72, 4)] := by decide +kernel
  have h2 : (⟨elfSwapped, defaultSections⟩ : ElfFile).resolvedSections anyElf =
      .ok [(".rodata".toList, 64, 8), (".text".toList, 72, 4)] := by decide +kernel
  refine ⟨h1, h2, fun E algo => ?_⟩
  rw [C62_digest_of_contents h1, C62_digest_of_contents h2]
  have : sectionContents elf64 [(".text".toList, 64, 8), (".rodata".toList, 72, 4)] =
    sectionContents elfSwapped [(".rodata".toList, 64, 8), (".text".toList, 72, 4)] := by decide +kernel
  dsimp only
  rw [this]

set_option maxRecDepth 100000 in
/-- C62 fails for the rest of the file: changing where the program starts changes no digest. -/
theorem C62_entry_not_covered : (decodeElf elf64).map (·.hdr.entry) = some 0 ∧
    (decodeElf (elf64.set 24 72)).map (·.hdr.entry) = some 72 ∧
    ∀ (E : Env) (algo : Algo), (⟨elf64, defaultSections⟩ : ElfFile).digest E anyElf algo =
      (⟨elf64.set 24 72, defaultSections⟩ : ElfFile).digest E anyElf algo := by
  have h1 : (⟨elf64, defaultSections⟩ : ElfFile).resolvedSections anyElf =
      .ok [(".text".toList, 64, 8), (".rodata".toList, 72, 4)] := by decide +kernel
  have h2 : (⟨elf64.set 24 72, defaultSections⟩ : ElfFile).resolvedSections anyElf =
      .ok [(".text".toList, 64, 8), (".rodata".toList, 72, 4)] := by decide +kernel
  refine ⟨by decide +kernel, by decide +kernel, fun E algo => ?_⟩
  rw [C62_digest_of_contents h1, C62_digest_of_contents h2]
  have : sectionContents elf64 [(".text".toList, 64, 8), (".rodata".toList, 72, 4)] =
    sectionContents (elf64.set 24 72) [(".text".toList, 64, 8), (".rodata".toList, 72, 4)] := by decide +kernel
  dsimp only
  rw [this]

/-- C62 fails for where one section ends and the next begins, at multiples of 1 MiB: one section of `n` bytes beyond 1 MiB has
the same digest as two sections, of 1 MiB and of `n` bytes. -/
theorem C62_boundaries_not_covered (E : Env) (algo : Algo) (a b : Bytes) (ha : a.length = 2 ^ 20) (n m k : List Char) :
    digestElfSections E (a ++ b) [(n, 0, 2 ^ 20 + b.length)] algo =
      digestElfSections E (a ++ b) [(m, 0, 2 ^ 20), (k, 2 ^ 20, b.length)] algo := by
  have hne : a ++ b ≠ [] := by
    intro h
    have := congrArg List.length h
    rw [List.length_append] at this
    simp only [List.length_nil] at this
    omega
  have hne' : a ≠ [] := by rintro rfl; simp at ha
  have hp : pieces (a ++ b) = a :: pieces b := by
    rw [pieces_cons hne, ← ha, List.take_left, List.drop_left]
  rw [digestElfSections_eq, digestElfSections_eq]
  unfold treeDigest topInput sectionContents
  simp only [List.map_cons, List.map_nil, List.flatMap_cons, List.flatMap_nil, List.append_nil, List.drop_zero]
  rw [List.take_of_length_le (by rw [List.length_append]; omega), hp, ← ha, List.take_left, List.drop_left,
    List.take_of_length_le (Nat.le_refl _), pieces_small hne' (by omega)]
  rfl

end Ksusig.Props
