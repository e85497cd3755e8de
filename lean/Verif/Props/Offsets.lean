import Verif.SpecOffsets
import Verif.Proofs.Digest
import Verif.Props.ElfTamper

/-! C130: `digest_module` with arbitrary offsets. -/

namespace Ksusig.Props
open Ksusig Spec

theorem eocdForDigest_short {file : Bytes} {start off : Nat} (h : (file.drop start).length < 20) :
    eocdForDigest file start off = .err .invalidData := by
  unfold eocdForDigest
  dsimp only
  by_cases h16 : 16 ≤ (file.drop start).length
  · rw [slice?_of_le (by omega) h16, sliceFrom?, if_neg (by omega)]; rfl
  · have : slice? (file.drop start) 0 16 = none := by unfold slice?; rw [if_neg (by omega)]
    rw [this]; rfl

/-- A size that is subtracted the wrong way round is larger than any file. -/
theorem usub_extent {p : Profile} {file : Bytes} {start stop : Nat} (hl : file.length < 2 ^ 63) (h1 : start < 2 ^ 63)
    (hp : p = .dev → start ≤ stop) :
    ∃ n, usub p stop start = .ok n ∧ (file.drop start).take n = extent file start stop := by
  by_cases h : start ≤ stop
  · exact ⟨_, usub_of_le h, by unfold extent; rw [if_pos h]⟩
  · cases p with
    | dev => exact absurd (hp rfl) h
    | release =>
      refine ⟨2 ^ 64 + stop - start, by unfold usub; rw [if_neg h], ?_⟩
      unfold extent
      rw [if_neg h]
      exact List.take_of_length_le (by rw [List.length_drop]; omega)

theorem usub_dev_of_lt {a b : Nat} (h : a < b) : usub .dev a b = .panic := by unfold usub; rw [if_neg (by omega)]

/-- C130: with offsets that are not reversed, and 20 bytes or more from the start of the end record, the digest is the two-level
hash of the three parts, for every reader that fills its buffer. -/
theorem C130_digest (E : Env) {p : Profile} {s1 s2 : Sched} (hs1 : ∀ k, chunkSize ≤ s1 k) (hs2 : ∀ k, chunkSize ≤ s2 k)
    {file : Bytes} {o : FileOffsets} (algo : Algo) (hl : file.length < 2 ^ 63) (ho : Positions o) (hr : ¬ Reversed p o)
    (h20 : o.startEocd + 20 ≤ file.length) :
    digestModule E p s1 s2 file o algo = .ok (treeDigest (algo.hash E) (givenParts file o)) := by
  unfold Reversed at hr
  obtain ⟨n1, a1, b1⟩ := usub_extent (p := p) (stop := o.stopContent) hl ho.startContent
    (fun hp => Nat.not_lt.mp fun h => hr (.inr ⟨hp, .inl h⟩))
  obtain ⟨n2, a2, b2⟩ := usub_extent (p := p) (stop := o.stopCd) hl ho.startCd
    (fun hp => Nat.not_lt.mp fun h => hr (.inr ⟨hp, .inr h⟩))
  unfold digestModule
  rw [a1, a2, usub_of_le (Nat.not_lt.mp fun h => hr (.inl h))]
  simp only [Res.ok_bind, digestRegion_eq E hs1, digestRegion_eq E hs2, digestEocd, b1, b2,
    eocdForDigest_eq (file := file) (start := o.startEocd) (off := o.stopContent) (by rw [List.length_drop]; omega),
    chunksBy_full fullReads_ge _ _ _ (Nat.le_refl _)]
  congr 1
  simp only [digestFinal, treeDigest, topInput, givenParts, List.flatMap_cons, List.flatMap_nil, List.append_nil, List.map_append,
    List.length_append, List.length_map, List.flatten_append, List.append_assoc]
  rfl

/-- C130: with fewer than 20 bytes from the start of the end record the call fails. -/
theorem C130_short (E : Env) {p : Profile} (s1 s2 : Sched) {file : Bytes} {o : FileOffsets} (algo : Algo)
    (hl : file.length < 2 ^ 63) (ho : Positions o) (hr : ¬ Reversed p o) (h20 : file.length < o.startEocd + 20) :
    digestModule E p s1 s2 file o algo = .err .invalidData := by
  unfold Reversed at hr
  obtain ⟨n1, a1, _⟩ := usub_extent (p := p) (stop := o.stopContent) hl ho.startContent
    (fun hp => Nat.not_lt.mp fun h => hr (.inr ⟨hp, .inl h⟩))
  obtain ⟨n2, a2, _⟩ := usub_extent (p := p) (stop := o.stopCd) hl ho.startCd
    (fun hp => Nat.not_lt.mp fun h => hr (.inr ⟨hp, .inr h⟩))
  unfold digestModule
  rw [a1, a2, usub_of_le (Nat.not_lt.mp fun h => hr (.inl h))]
  simp only [Res.ok_bind, digestEocd, eocdForDigest_short (file := file) (start := o.startEocd) (off := o.stopContent)
    (by rw [List.length_drop]; omega)]
  rfl

/-- C130: the call panics exactly for reversed offsets. -/
theorem C130_panic (E : Env) {p : Profile} (s1 s2 : Sched) {file : Bytes} {o : FileOffsets} (algo : Algo)
    (hl : file.length < 2 ^ 63) (ho : Positions o) :
    digestModule E p s1 s2 file o algo = .panic ↔ Reversed p o := by
  constructor
  · intro h
    refine Classical.byContradiction fun hr => ?_
    by_cases h20 : o.startEocd + 20 ≤ file.length
    · unfold Reversed at hr
      obtain ⟨n1, a1, _⟩ := usub_extent (p := p) (stop := o.stopContent) hl ho.startContent
        (fun hp => Nat.not_lt.mp fun h => hr (.inr ⟨hp, .inl h⟩))
      obtain ⟨n2, a2, _⟩ := usub_extent (p := p) (stop := o.stopCd) hl ho.startCd
        (fun hp => Nat.not_lt.mp fun h => hr (.inr ⟨hp, .inr h⟩))
      unfold digestModule at h
      rw [a1, a2, usub_of_le (Nat.not_lt.mp fun h => hr (.inl h))] at h
      simp only [Res.ok_bind, digestEocd, eocdForDigest_eq (file := file) (start := o.startEocd) (off := o.stopContent)
        (by rw [List.length_drop]; omega)] at h
      cases h
    · rw [C130_short E s1 s2 algo hl ho hr (by omega)] at h
      cases h
  · intro hr
    unfold digestModule
    cases p with
    | dev =>
      by_cases h1 : o.stopContent < o.startContent
      · rw [usub_dev_of_lt h1]; rfl
      · rw [usub_of_le (Nat.not_lt.mp h1)]
        by_cases h2 : o.stopCd < o.startCd
        · rw [usub_dev_of_lt h2]; rfl
        · rw [usub_of_le (Nat.not_lt.mp h2)]
          rcases hr with h3 | ⟨_, h3 | h3⟩
          · rw [usub_dev_of_lt h3]; rfl
          · exact absurd h3 h1
          · exact absurd h3 h2
    | release =>
      obtain ⟨n1, a1, _⟩ := usub_extent (p := .release) (stop := o.stopContent) hl ho.startContent (fun hp => nomatch hp)
      obtain ⟨n2, a2, _⟩ := usub_extent (p := .release) (stop := o.stopCd) hl ho.startCd (fun hp => nomatch hp)
      rcases hr with h3 | ⟨hp, _⟩
      · rw [a1, a2, usub_dev_of_lt h3]; rfl
      · cases hp

/-- C130: where the end record is said to end has no influence on a digest: everything to the end of the file is hashed. -/
theorem C130_end_ignored (E : Env) {p : Profile} {s1 s2 : Sched} {file : Bytes} {o : FileOffsets} {stop : Nat} (algo : Algo)
    (h : o.startEocd ≤ o.stopEocd) (h' : o.startEocd ≤ stop) :
    digestModule E p s1 s2 file { o with stopEocd := stop } algo = digestModule E p s1 s2 file o algo := by
  unfold digestModule
  dsimp only
  rw [usub_of_le h, usub_of_le h']
  rfl

/-- C130: with the same offsets, development and release builds compute the same digest, unless the development build panics. -/
theorem C130_builds (E : Env) {s1 s2 : Sched} {file : Bytes} {o : FileOffsets} (algo : Algo)
    (h : digestModule E .dev s1 s2 file o algo ≠ .panic) :
    digestModule E .release s1 s2 file o algo = digestModule E .dev s1 s2 file o algo := by
  unfold digestModule at h ⊢
  by_cases h1 : o.stopContent < o.startContent
  · rw [usub_dev_of_lt h1] at h; exact absurd rfl h
  · rw [usub_of_le (Nat.not_lt.mp h1)] at h
    by_cases h2 : o.stopCd < o.startCd
    · rw [usub_dev_of_lt h2] at h; exact absurd rfl h
    · rw [usub_of_le (Nat.not_lt.mp h1), usub_of_le (Nat.not_lt.mp h1), usub_of_le (Nat.not_lt.mp h2), usub_of_le (Nat.not_lt.mp h2)]

/-- C130: for any list of sections, in the given order and whether or not they overlap or lie within the file, the digest of an
ELF file is the two-level hash of their contents as far as they lie in the file; their names have no influence. -/
theorem C130_elf (E : Env) (data : Bytes) (l : List Resolved) (algo : Algo) :
    digestElfSections E data l algo =
      treeDigest (algo.hash E) (l.map fun x => (data.take (x.2.1 + x.2.2)).drop x.2.1) := by
  rw [digestElfSections_eq]
  unfold sectionContents
  congr 1
  refine List.map_congr_left fun x _ => ?_
  rw [List.drop_take, Nat.add_sub_cancel_left]

/-- C130: sections without contents, and sections outside the file, may be added anywhere without changing the digest. -/
theorem C130_elf_empty (E : Env) (data : Bytes) (l r : List Resolved) (x : Resolved) (algo : Algo)
    (hx : x.2.2 = 0 ∨ data.length ≤ x.2.1) :
    digestElfSections E data (l ++ x :: r) algo = digestElfSections E data (l ++ r) algo := by
  have he : (data.drop x.2.1).take x.2.2 = [] := by
    rcases hx with h | h
    · rw [h, List.take_zero]
    · rw [List.drop_of_length_le h, List.take_nil]
  have hp : pieces [] = [] := by unfold pieces; decide
  simp only [digestElfSections_eq, treeDigest, topInput, sectionContents, List.map_append, List.map_cons, he, List.flatMap_append,
    List.flatMap_cons, hp, List.nil_append]

example : ((".bss".toList, 5, 0) : Resolved).2.2 = 0 ∧
    (([1, 2, 3, 4, 5] : Bytes).take (3 + 9)).drop 3 = [4, 5] := by decide

/-- Thirty bytes; the directory is given the wrong way round, which only a development build refuses. -/
example : Positions ⟨0, 4, 8, 6, 10, 30⟩ ∧ ¬ Reversed .release ⟨0, 4, 8, 6, 10, 30⟩ ∧ Reversed .dev ⟨0, 4, 8, 6, 10, 30⟩ ∧
    ¬ Reversed .dev ⟨0, 4, 6, 8, 10, 30⟩ ∧ Reversed .release ⟨0, 4, 6, 8, 10, 9⟩ ∧
    givenParts ((List.range 30).map UInt8.ofNat) ⟨0, 4, 8, 6, 10, 30⟩ =
      [[0, 1, 2, 3], (List.range' 8 22).map UInt8.ofNat,
       (List.range' 10 16).map UInt8.ofNat ++ [4, 0, 0, 0]] :=
  ⟨⟨by decide, by decide, by decide, by decide, by decide, by decide⟩, by unfold Reversed; decide, by unfold Reversed; decide,
    by unfold Reversed; decide, by unfold Reversed; decide, by decide⟩

end Ksusig.Props
