import Verif.SpecReads
import Verif.Proofs.Digest

/-! The pieces a reader delivers (for C125). -/

namespace Ksusig

open Spec

theorem chunksBy_cut (s : Sched) : ∀ (fuel k : Nat) (d : Bytes), d.length ≤ fuel → CutOf d (chunksBy s fuel k d)
  | 0, k, d, h => by
    have : d = [] := List.eq_nil_of_length_eq_zero (by omega)
    subst this
    exact ⟨rfl, nofun⟩
  | fuel + 1, k, d, h => by
    rw [chunksBy]
    split
    · rename_i hd; subst hd; exact ⟨rfl, nofun⟩
    · rename_i hd
      have hpos : 0 < d.length := List.length_pos_iff.mpr hd
      have hc : chunkSize = 1048576 := rfl
      dsimp only
      obtain ⟨h1, h2⟩ := chunksBy_cut s fuel (k + 1) (d.drop (max 1 (min (s k) (min chunkSize d.length)))) (by rw [List.length_drop]; omega)
      refine ⟨by rw [List.flatten_cons, h1, List.take_append_drop], ?_⟩
      intro c hm
      rcases List.mem_cons.mp hm with rfl | hm
      · constructor
        · intro h0
          have := congrArg List.length h0
          rw [List.length_take, List.length_nil] at this
          omega
        · rw [List.length_take]; omega
      · exact h2 c hm

theorem cut_chunksBy {s : Sched} : ∀ {cs : List Bytes} (fuel k : Nat) (d : Bytes), d.length ≤ fuel → CutOf d cs →
    (∀ j c, cs[j]? = some c → s (k + j) = c.length) → chunksBy s fuel k d = cs
  | [], fuel, k, d, _, hc, _ => by
    have : d = [] := hc.1.symm
    subst this
    cases fuel <;> simp [chunksBy]
  | c :: cs, 0, k, d, h, hc, _ => by
    have hd : d = [] := List.eq_nil_of_length_eq_zero (by omega)
    have h1 := hc.1
    rw [hd, List.flatten_cons] at h1
    exact absurd (List.append_eq_nil_iff.mp h1).1 (hc.2 c List.mem_cons_self).1
  | c :: cs, fuel + 1, k, d, h, hc, hs => by
    have h1 : c ++ cs.flatten = d := by rw [← List.flatten_cons]; exact hc.1
    obtain ⟨h2, h3⟩ := hc.2 c List.mem_cons_self
    have hpos := List.length_pos_iff.mpr h2
    have hlen : d.length = c.length + cs.flatten.length := by rw [← h1, List.length_append]
    have hd : d ≠ [] := fun h0 => by rw [h0] at hlen; simp at hlen; omega
    have hsk : s k = c.length := hs 0 c rfl
    have hcs : chunkSize = 1048576 := rfl
    have en : max 1 (min (s k) (min chunkSize d.length)) = c.length := by omega
    rw [chunksBy, if_neg hd]
    dsimp only
    rw [en]
    have ht : d.take c.length = c := by rw [← h1, List.take_left]
    have hdr : d.drop c.length = cs.flatten := by rw [← h1, List.drop_left]
    rw [ht, hdr, cut_chunksBy fuel (k + 1) _ (by omega) ⟨rfl, fun x hx => hc.2 x (List.mem_cons_of_mem _ hx)⟩ ?_]
    intro j x hx
    have := hs (j + 1) x (by simpa using hx)
    rwa [show k + 1 + j = k + (j + 1) by omega]

theorem fills_step {N n : Nat} {s : Nat → Nat} (hn : 0 < n) :
    (∀ k, k * N < n → min N (n - k * N) ≤ max 1 (s k)) ↔
      min N n ≤ max 1 (s 0) ∧ ∀ k, k * N < n - N → min N (n - N - k * N) ≤ max 1 (s (k + 1)) := by
  constructor
  · intro hf
    refine ⟨by simpa using hf 0 (by simpa using hn), fun j hj => ?_⟩
    have e : (j + 1) * N = j * N + N := Nat.succ_mul j N
    have := hf (j + 1) (by omega)
    rw [e] at this
    omega
  · rintro ⟨h0, hf⟩ j hj
    cases j with
    | zero => simpa using h0
    | succ j =>
      have e : (j + 1) * N = j * N + N := Nat.succ_mul j N
      rw [e] at hj ⊢
      have := hf j (by omega)
      omega

theorem chunksBy_pieces {s : Sched} : ∀ (fuel k : Nat) (d : Bytes), d.length ≤ fuel →
    (chunksBy s fuel k d = pieces d ↔ Fills (fun j => s (k + j)) d.length)
  | 0, k, d, h => by
    have : d = [] := List.eq_nil_of_length_eq_zero (by omega)
    subst this
    rw [pieces_nil]
    exact ⟨fun _ j hj => by simp at hj, fun _ => rfl⟩
  | fuel + 1, k, d, h => by
    rw [chunksBy]
    split
    · rename_i hd; subst hd; rw [pieces_nil]
      exact ⟨fun _ j hj => by simp at hj, fun _ => rfl⟩
    · rename_i hd
      have hpos : 0 < d.length := List.length_pos_iff.mpr hd
      have hc : chunkSize = 1048576 := rfl
      dsimp only
      rw [pieces_cons hd, List.cons.injEq]
      have hstep : Fills (fun j => s (k + j)) d.length ↔
          min (2 ^ 20) d.length ≤ max 1 (s k) ∧ Fills (fun j => s (k + 1 + j)) (d.length - 2 ^ 20) := by
        refine (fills_step (s := fun j => s (k + j)) (N := 2 ^ 20) hpos).trans (and_congr_right fun _ => ?_)
        simp only [show ∀ j, k + 1 + j = k + (j + 1) by omega]
        exact Iff.rfl
      rw [hstep]
      have hfirst : d.take (max 1 (min (s k) (min chunkSize d.length))) = d.take (2 ^ 20) ↔ min (2 ^ 20) d.length ≤ max 1 (s k) := by
        constructor
        · intro he
          have := congrArg List.length he
          rw [List.length_take, List.length_take] at this
          omega
        · intro he
          rw [List.take_eq_take_iff]
          omega
      rw [hfirst]
      refine and_congr_right fun he => ?_
      have hdrop : d.drop (max 1 (min (s k) (min chunkSize d.length))) = d.drop (2 ^ 20) := by
        by_cases hl : d.length ≤ 2 ^ 20
        · rw [List.drop_eq_nil_of_le (by omega), List.drop_eq_nil_of_le hl]
        · congr 1
          omega
      rw [hdrop, chunksBy_pieces fuel (k + 1) _ (by rw [List.length_drop]; omega), List.length_drop]

/-- Two cuts of the same bytes with further pieces behind them. -/
theorem cut_append_inj : ∀ {cs ds cs' ds' : List Bytes}, (∀ c ∈ cs, c ≠ []) → (∀ c ∈ ds, c ≠ []) → cs.flatten = ds.flatten →
    cs ++ cs' = ds ++ ds' → cs = ds
  | [], [], _, _, _, _, _, _ => rfl
  | [], d :: ds, _, _, _, hd, h, _ => by
    rw [List.flatten_nil, List.flatten_cons] at h
    exact absurd (List.append_eq_nil_iff.mp h.symm).1 (hd d List.mem_cons_self)
  | c :: cs, [], _, _, hc, _, h, _ => by
    rw [List.flatten_nil, List.flatten_cons] at h
    exact absurd (List.append_eq_nil_iff.mp h).1 (hc c List.mem_cons_self)
  | c :: cs, d :: ds, _, _, hc, hd, h, h' => by
    rw [List.cons_append, List.cons_append, List.cons.injEq] at h'
    obtain ⟨rfl, h'⟩ := h'
    rw [List.flatten_cons, List.flatten_cons] at h
    rw [cut_append_inj (fun x hx => hc x (List.mem_cons_of_mem _ hx)) (fun x hx => hd x (List.mem_cons_of_mem _ hx))
      (List.append_cancel_left h) h']

theorem pieces_cut (d : Bytes) : CutOf d (pieces d) := by
  rw [← chunksBy_full (s := fullReads) fullReads_ge d.length 0 d (Nat.le_refl _)]
  exact chunksBy_cut _ _ _ _ (Nat.le_refl _)

theorem piecesDigest_eq {h : Bytes → Bytes} (hh : FixedLength h) {cs cs' : List Bytes} (heq : piecesDigest h cs = piecesDigest h cs') :
    cs = cs' ∨ PieceCollision h cs cs' := by
  obtain ⟨n, hn, hl⟩ := hh
  by_cases ht : (0x5a :: (leBytes 4 cs.length ++ (cs.map fun c => h (pieceInput c)).flatten)) =
      (0x5a :: (leBytes 4 cs'.length ++ (cs'.map fun c => h (pieceInput c)).flatten))
  · have h1 := (List.append_inj (List.cons.inj ht).2 (by simp)).2
    have h2 := fixed_flatten_inj hn _ _ (fun x hx => by
      obtain ⟨c, _, rfl⟩ := List.mem_map.mp hx; exact hl _) (fun x hx => by
      obtain ⟨c, _, rfl⟩ := List.mem_map.mp hx; exact hl _) h1
    rcases map_hash_eq h _ _ h2 with h3 | ⟨x, hx, y, hy, h3, h4⟩
    · exact .inl h3
    · exact .inr ⟨pieceInput x, List.mem_cons_of_mem _ (List.mem_map.mpr ⟨x, hx, rfl⟩), pieceInput y,
        List.mem_cons_of_mem _ (List.mem_map.mpr ⟨y, hy, rfl⟩), h3, h4⟩
  · exact .inr ⟨_, List.mem_cons_self, _, List.mem_cons_self, ht, heq⟩

/-- The digest through any reader. -/
theorem digestModule_by (E : Env) (p : Profile) (s1 s2 : Sched) (file : Bytes) (o : FileOffsets) (algo : Algo)
    (h1 : o.startContent ≤ o.stopContent) (h2 : o.startCd ≤ o.stopCd) (h3 : o.startEocd ≤ o.stopEocd)
    (h4 : 20 ≤ (file.drop o.startEocd).length) :
    digestModule E p s1 s2 file o algo =
      .ok (piecesDigest (algo.hash E)
        (chunksBy s1 ((file.drop o.startContent).take (o.stopContent - o.startContent)).length 0
            ((file.drop o.startContent).take (o.stopContent - o.startContent)) ++
          chunksBy s2 ((file.drop o.startCd).take (o.stopCd - o.startCd)).length 0 ((file.drop o.startCd).take (o.stopCd - o.startCd)) ++
          pieces (patchOffset (file.drop o.startEocd) o.stopContent))) := by
  unfold digestModule
  rw [usub_of_le h1, usub_of_le h2, usub_of_le h3]
  simp only [Res.ok_bind, digestRegion, digestEocd, eocdForDigest_eq h4, chunksBy_full fullReads_ge _ _ _ (Nat.le_refl _)]
  congr 1
  simp only [digestFinal, piecesDigest, List.map_append, List.length_append, List.length_map, List.flatten_append, List.append_assoc]
  rfl

/-- The same for a module in terms of its parts. -/
theorem Spec.Split.digest_by (E : Env) {p : Profile} {file body block cd tail : Bytes} (h : Split p file body block cd tail) (s1 s2 : Sched)
    {o : FileOffsets} (ho : (Module.new file).getOffsets p file = .ok o) (algo : Algo) :
    digestModule E p s1 s2 file o algo =
      .ok (piecesDigest (algo.hash E) (chunksBy s1 body.length 0 body ++ chunksBy s2 cd.length 0 cd ++ [patchOffset tail body.length])) := by
  have ht := h.tail_bounds
  rw [h.offsets] at ho
  cases ho
  have hl : file.length = body.length + block.length + cd.length + tail.length := by
    rw [h.file_eq]; simp only [List.length_append]
  have hdt : file.drop (body.length + block.length + cd.length) = tail := by
    rw [h.file_eq]
    apply drop_append_left
    simp only [List.length_append]
  rw [digestModule_by E p s1 s2 file _ algo (by simp [FileOffsets.new]) (by simp [FileOffsets.new])
    (by simp only [FileOffsets.new]; omega) (by simp only [FileOffsets.new, hdt]; omega)]
  simp only [FileOffsets.new, hdt]
  have e1 : (file.drop 0).take (body.length - 0) = body := by
    rw [h.file_eq]
    simp only [List.drop_zero, Nat.sub_zero, List.append_assoc]
    exact take_append_left rfl
  have e2 : (file.drop (body.length + block.length)).take (body.length + block.length + cd.length - (body.length + block.length)) = cd :=
    take_mid (pre := body ++ block) (post := tail) h.file_eq (by simp) (by omega)
  have hpl := patchOffset_length (a := body.length) ht.1
  rw [e1, e2, pieces_small (fun h0 => by rw [h0] at hpl; simp at hpl; omega) (by omega)]

end Ksusig
