import Verif.Proofs.Accept

/-! The backward scans for the magic. -/

namespace Ksusig

open Spec

/-- The magic occurs at offset `t`. -/
def MagicAt (d : Bytes) (t : Nat) : Prop := slice? d t (t + 16) = some Ksusig.magic

theorem fromU8Scan_cases (p : Profile) (d : Bytes) : ∀ s, s + 16 ≤ d.length →
    (fromU8Scan p d s = .err .magicNotFound ∧ ∀ u, 1 ≤ u → u ≤ s → ¬ MagicAt d u) ∨
    ∃ t, 1 ≤ t ∧ t ≤ s ∧ MagicAt d t ∧ (∀ u, t < u → u ≤ s → ¬ MagicAt d u) ∧
      fromU8Scan p d s = fromU8At p d t := by
  intro s
  induction s with
  | zero => intro _; exact .inl ⟨rfl, fun u h1 h2 => by omega⟩
  | succ s ih =>
    intro hs
    rw [fromU8Scan]
    have hsl : slice? d (s + 1) (s + 1 + 16) = some ((d.drop (s + 1)).take (s + 1 + 16 - (s + 1))) :=
      slice?_of_le (by omega) (by omega)
    rw [hsl]
    dsimp only
    by_cases hm : (d.drop (s + 1)).take (s + 1 + 16 - (s + 1)) = Ksusig.magic
    · right
      refine ⟨s + 1, by omega, Nat.le_refl _, by rw [MagicAt, hsl, hm], fun u h1 h2 => by omega, ?_⟩
      rw [if_pos hm]
    · have hnot : ¬ MagicAt d (s + 1) := by
        intro h; rw [MagicAt, hsl] at h; exact hm (Option.some.inj h)
      rw [if_neg hm]
      rcases ih (by omega) with ⟨h1, h2⟩ | ⟨t, h1, h2, h3, h4, h5⟩
      · refine .inl ⟨h1, fun u hu1 hu2 => ?_⟩
        by_cases hu : u = s + 1
        · subst hu; exact hnot
        · exact h2 u hu1 (by omega)
      · refine .inr ⟨t, h1, by omega, h3, fun u hu1 hu2 => ?_, h5⟩
        by_cases hu : u = s + 1
        · subst hu; exact hnot
        · exact h4 u hu1 (by omega)

theorem fromReaderScan_cases (p : Profile) (file : Bytes) (fl ws : Nat) (w : Bytes) : ∀ n,
    (fromReaderScan p file fl ws w n = .err .magicNotFound ∧ ∀ u, 8 ≤ u → u < n → ¬ MagicAt w u) ∨
    ∃ t s, 8 ≤ t ∧ t < n ∧ MagicAt w t ∧ slice? w (t - 8) t = some s ∧
      (∀ u, t < u → u < n → ¬ MagicAt w u) ∧ fromReaderScan p file fl ws w n = fromReaderAt p file fl ws w t s := by
  intro n
  induction n with
  | zero => exact .inl ⟨rfl, fun u h1 h2 => by omega⟩
  | succ n ih =>
    have step : ∀ (hnot : n < 8 ∨ ¬ MagicAt w n)
        (_ : fromReaderScan p file fl ws w (n + 1) = fromReaderScan p file fl ws w n)
        (_ : ¬ MagicAt w n ∨ n < 8),
      (fromReaderScan p file fl ws w (n + 1) = .err .magicNotFound ∧ ∀ u, 8 ≤ u → u < n + 1 → ¬ MagicAt w u) ∨
      ∃ t s, 8 ≤ t ∧ t < n + 1 ∧ MagicAt w t ∧ slice? w (t - 8) t = some s ∧
        (∀ u, t < u → u < n + 1 → ¬ MagicAt w u) ∧
        fromReaderScan p file fl ws w (n + 1) = fromReaderAt p file fl ws w t s := by
      intro hnot he _
      rw [he]
      rcases ih with ⟨h1, h2⟩ | ⟨t, s, h1, h2, h3, h4, h5, h6⟩
      · refine .inl ⟨h1, fun u hu1 hu2 => ?_⟩
        by_cases hu : u = n
        · subst hu
          rcases hnot with h | h
          · omega
          · exact h
        · exact h2 u hu1 (by omega)
      · refine .inr ⟨t, s, h1, by omega, h3, h4, fun u hu1 hu2 => ?_, h6⟩
        by_cases hu : u = n
        · subst hu
          rcases hnot with h | h
          · omega
          · exact h
        · exact h5 u hu1 (by omega)
    cases hs : slice? w n (n + 16) with
    | none =>
      have : ¬ MagicAt w n := by rw [MagicAt, hs]; simp
      refine step (.inr this) ?_ (.inl this)
      rw [fromReaderScan, hs]
    | some m =>
      by_cases hm : m = Ksusig.magic
      · by_cases h8 : n < 8
        · refine step (.inl h8) ?_ (.inr h8)
          rw [fromReaderScan, hs]
          simp only [hm, if_true, h8]
        · have hlen := (slice?_eq_some hs).2.1
          have hsz : slice? w (n - 8) (n - 8 + 8) = some ((w.drop (n - 8)).take (n - 8 + 8 - (n - 8))) :=
            slice?_of_le (by omega) (by omega)
          refine .inr ⟨n, (w.drop (n - 8)).take (n - 8 + 8 - (n - 8)), by omega, by omega, by rw [MagicAt, hs, hm], ?_,
            fun u h1 h2 => by omega, ?_⟩
          · rw [show n - 8 + 8 = n by omega] at hsz ⊢; exact hsz
          · rw [fromReaderScan, hs]
            simp only [hm, if_true, h8, if_false, hsz]
      · have : ¬ MagicAt w n := by
          rw [MagicAt, hs]; intro h; exact hm (Option.some.inj h)
        refine step (.inr this) ?_ (.inl this)
        rw [fromReaderScan, hs]
        simp only [hm, if_false]

theorem usub_release (a b : Nat) : ∃ c, usub .release a b = .ok c := by
  unfold usub; split
  · exact ⟨_, rfl⟩
  · exact ⟨_, rfl⟩

theorem usub_of_le {p : Profile} {a b : Nat} (h : b ≤ a) : usub p a b = .ok (a - b) := by
  unfold usub; rw [if_pos h]

theorem uadd_of_lt {p : Profile} {a b : Nat} (h : a + b < 2 ^ 64) : uadd p a b = .ok (a + b) := by
  unfold uadd; rw [if_pos h]

/-- `fromU8At` when the arithmetic is in range: the normal path. -/
theorem fromU8At_eq (p : Profile) (d : Bytes) (t : Nat) (h8 : 8 ≤ t) (ht : t + 16 ≤ d.length)
    (h16 : 16 ≤ leNat ((d.drop (t - 8)).take 8)) :
    fromU8At p d t =
      let n := leNat ((d.drop (t - 8)).take 8)
      if n > maxBlockSize then .err .blockTooLarge
      else if t + 8 < n then .err .beyondData
      else parseFullBlock p ((d.drop (t + 8 - n)).take (n + 8)) := by
  unfold fromU8At
  have hs : slice? d (t - 8) t = some ((d.drop (t - 8)).take 8) := by
    rw [slice?_of_le (by omega) (by omega), show t - (t - 8) = 8 by omega]
  rw [usub_of_le h8]
  simp only [Res.ok_bind, hs, Res.ofOption_some]
  generalize leNat ((d.drop (t - 8)).take 8) = n at *
  have hm : maxBlockSize = 16384 := rfl
  by_cases h1 : n > maxBlockSize
  · rw [if_pos h1, if_pos h1]
  · rw [if_neg h1, if_neg h1, usub_of_le h16]
    simp only [Res.ok_bind]
    rw [uadd_of_lt (by omega)]
    simp only [Res.ok_bind]
    by_cases h2 : t + 8 < n
    · rw [if_pos (by omega), if_pos h2]
    · rw [if_neg (by omega), if_neg h2]
      have hf : slice? d (t - (n - 16 + 8)) (t + 16) = some ((d.drop (t + 8 - n)).take (n + 8)) := by
        rw [slice?_of_le (by omega) (by omega), show t - (n - 16 + 8) = t + 8 - n by omega,
          show t + 16 - (t + 8 - n) = n + 8 by omega]
      rw [hf]
      rfl

/-- The two arithmetic underflows of `from_u8`: dev panics, release returns an error. -/
theorem fromU8At_under (d : Bytes) (t : Nat) (ht : t + 16 ≤ d.length)
    (hu : t < 8 ∨ leNat ((d.drop (t - 8)).take 8) < 16) :
    fromU8At .dev d t = .panic ∧ ∃ e, e ≠ .fuel ∧ fromU8At .release d t = .err e := by
  by_cases h8 : t < 8
  · constructor
    · unfold fromU8At usub
      rw [if_neg (by omega)]
      rfl
    · refine ⟨.beyondData, by decide, ?_⟩
      unfold fromU8At usub
      rw [if_neg (by omega)]
      simp only [Res.ok_bind]
      have : slice? d (2 ^ 64 + t - 8) t = none := by
        unfold slice?; rw [if_neg (by omega)]
      rw [this]
      rfl
  · have hn : leNat ((d.drop (t - 8)).take 8) < 16 := by
      rcases hu with h | h
      · omega
      · exact h
    have hs : slice? d (t - 8) t = some ((d.drop (t - 8)).take 8) := by
      rw [slice?_of_le (by omega) (by omega), show t - (t - 8) = 8 by omega]
    have hm : maxBlockSize = 16384 := rfl
    constructor
    · unfold fromU8At
      rw [usub_of_le (by omega)]
      simp only [Res.ok_bind, hs, Res.ofOption_some]
      rw [if_neg (by omega)]
      unfold usub
      rw [if_neg (by omega)]
      rfl
    · unfold fromU8At
      rw [usub_of_le (by omega)]
      simp only [Res.ok_bind, hs, Res.ofOption_some]
      generalize leNat ((d.drop (t - 8)).take 8) = n at *
      rw [if_neg (by omega)]
      have : usub .release n 16 = .ok (2 ^ 64 + n - 16) := by unfold usub; rw [if_neg (by omega)]
      rw [this]
      simp only [Res.ok_bind]
      by_cases hn8 : n < 8
      · rw [uadd_of_lt (by omega)]
        simp only [Res.ok_bind]
        by_cases h2 : t < 2 ^ 64 + n - 16 + 8
        · rw [if_pos h2]
          exact ⟨_, by decide, rfl⟩
        · rw [if_neg h2]
          have hsl := slice?_of_le (d := d) (a := t - (2 ^ 64 + n - 16 + 8)) (b := t + 16) (by omega) ht
          rw [hsl]
          simp only [Res.ofOption_some, Res.ok_bind]
          have htot := parseFullBlock_total ((d.drop (t - (2 ^ 64 + n - 16 + 8))).take
            (t + 16 - (t - (2 ^ 64 + n - 16 + 8))))
          cases hp : parseFullBlock .release ((d.drop (t - (2 ^ 64 + n - 16 + 8))).take
            (t + 16 - (t - (2 ^ 64 + n - 16 + 8)))) with
          | ok b =>
            exfalso
            obtain ⟨_, _, _, hlt, _⟩ := parseFullBlock_ok hp
            rw [List.length_take, List.length_drop] at hlt
            have := parseFullBlock_ok hp
            obtain ⟨pairs, hw, _, _, _⟩ := this
            -- the end size field is `n`, far smaller than the length
            have hl32 : 32 ≤ ((d.drop (t - (2 ^ 64 + n - 16 + 8))).take
                (t + 16 - (t - (2 ^ 64 + n - 16 + 8)))).length := by
              rw [List.length_take, List.length_drop]; omega
            rw [List.length_take, List.length_drop] at hl32
            omega
          | err e => exact ⟨e, fun h => htot.2.1 (by rw [hp, h]), rfl⟩
          | panic => exact absurd hp htot.1
      · have hadd : uadd .release (2 ^ 64 + n - 16) 8 = .ok (n - 8) := by
          unfold uadd
          rw [if_neg (by omega)]
          simp only
          congr 1
          omega
        rw [hadd]
        simp only [Res.ok_bind]
        by_cases h2 : t < n - 8
        · rw [if_pos h2]; exact ⟨_, by decide, rfl⟩
        · rw [if_neg h2]
          have hsl := slice?_of_le (d := d) (a := t - (n - 8)) (b := t + 16) (by omega) ht
          rw [hsl]
          simp only [Res.ofOption_some, Res.ok_bind]
          refine ⟨.tooShort, by decide, ?_⟩
          unfold parseFullBlock
          rw [if_pos]
          rw [List.length_take, List.length_drop]
          omega

end Ksusig
