import Verif.Proofs.Reads
import Verif.Props.Digest

/-!
# C125: digests taken through a reader that delivers less than asked for
-/

namespace Ksusig.Props

open Ksusig Spec

/-- **C125**: the digests that readers of the same file can give are exactly those over the cuts of the two regions into pieces. -/
theorem C125_possible {E : Env} {p : Profile} {file body block cd tail : Bytes} (hs : Split p file body block cd tail) {o : FileOffsets}
    (ho : (Module.new file).getOffsets p file = .ok o) (algo : Algo) (d : Bytes) :
    (∃ s1 s2, digestModule E p s1 s2 file o algo = .ok d) ↔
      ∃ cs cs', CutOf body cs ∧ CutOf cd cs' ∧ d = piecesDigest (algo.hash E) (cs ++ cs' ++ [patchOffset tail body.length]) := by
  constructor
  · rintro ⟨s1, s2, h⟩
    rw [hs.digest_by E s1 s2 ho] at h
    cases h
    exact ⟨_, _, chunksBy_cut s1 _ _ _ (Nat.le_refl _), chunksBy_cut s2 _ _ _ (Nat.le_refl _), rfl⟩
  · rintro ⟨cs, cs', h1, h2, rfl⟩
    refine ⟨fun k => (cs.getD k []).length, fun k => (cs'.getD k []).length, ?_⟩
    rw [hs.digest_by E _ _ ho, cut_chunksBy _ _ _ (Nat.le_refl _) h1 ?_, cut_chunksBy _ _ _ (Nat.le_refl _) h2 ?_]
    · intro j c hj
      simp [List.getD, hj]
    · intro j c hj
      simp [List.getD, hj]

/-- **C125**: whatever the readers, equal digests mean equal entries, directories and end records, or a collision. A reader that delivers
less can make an intact module look changed, but not a changed one look intact. -/
theorem C125_tamper_evident {E : Env} {p p' : Profile} {algo : Algo} (hE : FixedLength (algo.hash E))
    {file body block cd tail file' body' block' cd' tail' d : Bytes} (hs : Split p file body block cd tail)
    (hs' : Split p' file' body' block' cd' tail') {o o' : FileOffsets} (ho : (Module.new file).getOffsets p file = .ok o)
    (ho' : (Module.new file').getOffsets p' file' = .ok o') {s1 s2 s1' s2' : Sched} (h : digestModule E p s1 s2 file o algo = .ok d)
    (h' : digestModule E p' s1' s2' file' o' algo = .ok d) :
    (body = body' ∧ cd = cd' ∧ patchOffset tail body.length = patchOffset tail' body'.length) ∨
      ∃ cs ds cs' ds', CutOf body cs ∧ CutOf cd ds ∧ CutOf body' cs' ∧ CutOf cd' ds' ∧
        PieceCollision (algo.hash E) (cs ++ ds ++ [patchOffset tail body.length]) (cs' ++ ds' ++ [patchOffset tail' body'.length]) := by
  rw [hs.digest_by E s1 s2 ho] at h
  rw [hs'.digest_by E s1' s2' ho'] at h'
  have heq := (Res.ok.inj h).trans (Res.ok.inj h').symm
  obtain ⟨t1, t2, t3⟩ := hs.tail_bounds
  obtain ⟨t1', t2', t3'⟩ := hs'.tail_bounds
  have c1 := chunksBy_cut s1 _ 0 body (Nat.le_refl _)
  have c2 := chunksBy_cut s2 _ 0 cd (Nat.le_refl _)
  have c1' := chunksBy_cut s1' _ 0 body' (Nat.le_refl _)
  have c2' := chunksBy_cut s2' _ 0 cd' (Nat.le_refl _)
  rcases piecesDigest_eq hE heq with h1 | h1
  · left
    obtain ⟨h2, h3⟩ := List.append_inj' h1 rfl
    have h3 : patchOffset tail body.length = patchOffset tail' body'.length := by simpa using h3
    have hl := patchOffset_inj_off t3 t3' t1 t1' h3
    have h4 := congrArg List.flatten h2
    rw [List.flatten_append, List.flatten_append, c1.1, c2.1, c1'.1, c2'.1] at h4
    obtain ⟨h5, h6⟩ := List.append_inj h4 hl
    exact ⟨h5, h6, h3⟩
  · exact .inr ⟨_, _, _, _, c1, c2, c1', c2', h1⟩

/-- **C125**: a reader that fills the buffer as long as there is enough left gives the digest of the file. -/
theorem C125_filling {E : Env} {p : Profile} {algo : Algo} {file body block cd tail : Bytes} (hs : Split p file body block cd tail)
    {o : FileOffsets} (ho : (Module.new file).getOffsets p file = .ok o) {s1 s2 : Sched} (h1 : Fills s1 body.length) (h2 : Fills s2 cd.length) :
    digestModule E p s1 s2 file o algo = (Module.new file).digest E p file algo := by
  have e1 := chunksBy_pieces (s := s1) _ 0 body (Nat.le_refl _)
  have e2 := chunksBy_pieces (s := s2) _ 0 cd (Nat.le_refl _)
  simp only [Nat.zero_add] at e1 e2
  have ho' := ho
  unfold Module.getOffsets at ho'
  simp only [Module.digest, Module.digestT, ho', Res.ok_bind]
  rw [hs.digest_by E _ _ ho, hs.digest_by E _ _ ho, e1.mpr h1, e2.mpr h2, chunksBy_full fullReads_ge _ _ _ (Nat.le_refl _),
    chunksBy_full fullReads_ge _ _ _ (Nat.le_refl _)]

/-- **C125**: a reader that delivers less than that even once gives another digest, or there is a collision. -/
theorem C125_short {E : Env} {p : Profile} {algo : Algo} (hE : FixedLength (algo.hash E)) {file body block cd tail : Bytes}
    (hs : Split p file body block cd tail) {o : FileOffsets} (ho : (Module.new file).getOffsets p file = .ok o) {s1 s2 : Sched}
    (h : ¬ (Fills s1 body.length ∧ Fills s2 cd.length))
    (heq : digestModule E p s1 s2 file o algo = (Module.new file).digest E p file algo) :
    ∃ cs cs', CutOf body cs ∧ CutOf cd cs' ∧ PieceCollision (algo.hash E) (cs ++ cs' ++ [patchOffset tail body.length])
      (pieces body ++ pieces cd ++ [patchOffset tail body.length]) := by
  have e1 := chunksBy_pieces (s := s1) _ 0 body (Nat.le_refl _)
  have e2 := chunksBy_pieces (s := s2) _ 0 cd (Nat.le_refl _)
  simp only [Nat.zero_add] at e1 e2
  have c1 := chunksBy_cut s1 _ 0 body (Nat.le_refl _)
  have ho' := ho
  unfold Module.getOffsets at ho'
  simp only [Module.digest, Module.digestT, ho', Res.ok_bind] at heq
  rw [hs.digest_by E _ _ ho, hs.digest_by E _ _ ho, chunksBy_full fullReads_ge _ _ _ (Nat.le_refl _),
    chunksBy_full fullReads_ge _ _ _ (Nat.le_refl _)] at heq
  rcases piecesDigest_eq hE (Res.ok.inj heq) with h1 | h1
  · exfalso
    have h2 := (List.append_inj' h1 rfl).1
    have h3 := cut_append_inj (fun c hc => (c1.2 c hc).1) (fun c hc => ((pieces_cut body).2 c hc).1) (c1.1.trans (pieces_cut body).1.symm) h2
    rw [h3] at h2
    exact h ⟨e1.mp h3, e2.mp (List.append_cancel_left h2)⟩
  · exact ⟨_, _, c1, chunksBy_cut s2 _ 0 cd (Nat.le_refl _), h1⟩

/-- A module, a reader that hands it out in portions of seven bytes, and one that hands out the entries at once and then the directory. -/
example : ∃ body block cd tail o, Split .dev sampleArchive.unsigned body block cd tail ∧
    (Module.new sampleArchive.unsigned).getOffsets .dev sampleArchive.unsigned = .ok o ∧ ¬ Fills (fun _ => 7) body.length ∧
    Fills (fun _ => 30) body.length ∧ Fills (fun _ => 7) cd.length ∧
    digestModule toyEnv .dev (fun _ => 7) (fun _ => 7) sampleArchive.unsigned o .p256 ≠
      (Module.new sampleArchive.unsigned).digest toyEnv .dev sampleArchive.unsigned .p256 := by
  refine ⟨_, _, _, _, FileOffsets.new 30 30 34 58, split_unsigned .dev sampleArchive_signable.comment sampleArchive_signable.cleanOld
    sampleArchive_signable.sizeOld sampleArchive_noMagic, by decide +kernel, ?_, ?_, ?_, by decide +kernel⟩
  · intro h
    exact absurd (h 0 (by decide)) (by decide)
  · intro k hk
    have : sampleArchive.body.length = 30 := by decide
    rw [this] at hk ⊢
    dsimp only
    omega
  · intro k hk
    have : sampleArchive.cd.length = 4 := by decide
    rw [this] at hk ⊢
    dsimp only
    omega

end Ksusig.Props
