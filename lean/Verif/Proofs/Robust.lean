import Verif.Proofs.ModuleVerify
import Verif.Proofs.Archive

/-! A magic that is seen is never reported as "not signed"; release builds do not panic. -/

namespace Ksusig

theorem slice?_iff {d x : Bytes} {a b : Nat} :
    slice? d a b = some x ↔ a ≤ b ∧ b ≤ d.length ∧ x = (d.drop a).take (b - a) := by
  unfold slice?
  constructor
  · intro h
    split at h
    · rename_i hc; cases h; exact ⟨hc.1, hc.2, rfl⟩
    · cases h
  · rintro ⟨h1, h2, rfl⟩
    rw [if_pos ⟨h1, h2⟩]

theorem parseFullBlock_real {p : Profile} {d : Bytes} {e : Err}
    (hm : 32 ≤ d.length → d.drop (d.length - 16) = Ksusig.magic) (h : parseFullBlock p d = .err e) : e.real = true := by
  by_cases hl : 32 ≤ d.length
  · rw [parseFullBlock_eq p d hl, if_neg (by simpa using hm hl)] at h
    split at h
    · cases p <;> cases h
      rfl
    · split at h
      · cases h; rfl
      · split at h
        · cases h; rfl
        · have hx := extractValues_total ((d.drop 8).take (d.length - 32))
          cases he : extractValues ((d.drop 8).take (d.length - 32)) with
          | ok vs => rw [he] at h; cases h
          | err e' => rw [he] at h hx; cases h; exact hx
          | panic => rw [he] at h; cases h
  · unfold parseFullBlock at h
    rw [if_pos (by omega)] at h
    cases h
    rfl

theorem slice?_tail {d full : Bytes} {a t : Nat} (h : slice? d a (t + 16) = some full) (hm : MagicAt d t)
    (ha : a ≤ t) : full.drop (full.length - 16) = Ksusig.magic := by
  obtain ⟨h1, h2, rfl⟩ := slice?_iff.mp h
  obtain ⟨k1, k2, k3⟩ := slice?_iff.mp hm
  have hl : ((d.drop a).take (t + 16 - a)).length = t + 16 - a := by
    rw [List.length_take, List.length_drop]; omega
  rw [hl, List.drop_take, List.drop_drop, show a + (t + 16 - a - 16) = t by omega,
    show t + 16 - a - (t + 16 - a - 16) = t + 16 - t by omega]
  exact k3.symm

theorem magicAt_window {file w : Bytes} {ws t n : Nat} (hw : slice? file ws (ws + n) = some w) (hm : MagicAt w t) :
    MagicAt file (ws + t) := by
  obtain ⟨h1, h2, rfl⟩ := slice?_iff.mp hw
  obtain ⟨k1, k2, k3⟩ := slice?_iff.mp hm
  rw [List.length_take, List.length_drop] at k2
  refine slice?_iff.mpr ⟨by omega, by omega, ?_⟩
  rw [k3, List.drop_take, List.drop_drop, List.take_take]
  congr 1
  omega

theorem window_magicAt {file w : Bytes} {ws u n : Nat} (hw : slice? file ws (ws + n) = some w)
    (hm : MagicAt file u) (h1 : ws ≤ u) (h2 : u + 16 ≤ ws + n) : MagicAt w (u - ws) := by
  obtain ⟨g1, g2, rfl⟩ := slice?_iff.mp hw
  obtain ⟨k1, k2, k3⟩ := slice?_iff.mp hm
  refine slice?_iff.mpr ⟨by omega, by rw [List.length_take, List.length_drop]; omega, ?_⟩
  rw [k3, List.drop_take, List.drop_drop, List.take_take, show ws + (u - ws) = u by omega]
  congr 1
  omega

theorem fromReaderAt_real {p : Profile} {file w s : Bytes} {fl ws t n : Nat} {e : Err}
    (hw : slice? file ws (ws + n) = some w) (hm : MagicAt w t)
    (h : fromReaderAt p file fl ws w t s = .err e) : e.real = true := by
  unfold fromReaderAt at h
  dsimp only at h
  split at h
  · cases h; rfl
  · split at h
    · cases h; rfl
    · split at h
      · split at h
        · cases h; rfl
        · rename_i hb
          unfold readExactAt at h
          rw [show ws + (t + 16) - (leNat s + 8) + (leNat s + 8) = ws + t + 16 by omega] at h
          cases hf : slice? file (ws + (t + 16) - (leNat s + 8)) (ws + t + 16) with
          | none => rw [hf] at h; cases h; rfl
          | some full =>
            rw [hf] at h
            simp only [Res.ofOption_some, Res.ok_bind] at h
            cases hp : parseFullBlock p full with
            | ok b => rw [hp] at h; cases h
            | err e' =>
              rw [hp] at h
              cases h
              refine parseFullBlock_real (fun hl => ?_) hp
              refine slice?_tail hf (magicAt_window hw hm) ?_
              obtain ⟨q1, q2, q3⟩ := slice?_iff.mp hf
              rw [q3, List.length_take, List.length_drop] at hl
              omega
            | panic => rw [hp] at h; cases h
      · cases hf : slice? w (t + 16 - (leNat s + 8)) (t + 16) with
        | none => rw [hf] at h; cases h; rfl
        | some full =>
          rw [hf] at h
          simp only [Res.ofOption_some, Res.ok_bind] at h
          cases hp : parseFullBlock p full with
          | ok b => rw [hp] at h; cases h
          | err e' =>
            rw [hp] at h
            cases h
            refine parseFullBlock_real (fun hl => ?_) hp
            refine slice?_tail hf hm ?_
            obtain ⟨q1, q2, q3⟩ := slice?_iff.mp hf
            rw [q3, List.length_take, List.length_drop] at hl
            omega
          | panic => rw [hp] at h; cases h

/-- "Not signed" is only said when the search window holds no magic, except in its first eight bytes. -/
theorem fromReader_not_missing {p : Profile} {file : Bytes} {fl eo : Nat} {e : Err}
    (h : SigningBlock.fromReader p file fl eo = .err e) (he : e.real = false) :
    e = .magicNotFound ∧ ∀ u, fl - eo - min (fl - eo) 16777216 + 8 ≤ u → u + 16 ≤ fl - eo → ¬ MagicAt file u := by
  unfold SigningBlock.fromReader at h
  dsimp only at h
  have hmw : maxWindow = 16777216 := rfl
  rw [hmw] at h
  split at h
  · cases h; cases he
  · rename_i h24
    generalize hn : min (fl - eo) 16777216 = n at *
    generalize hws : fl - eo - n = ws at *
    cases hw : slice? file ws (ws + n) with
    | none =>
      unfold readExactAt at h
      rw [hw] at h; cases h; cases he
    | some w =>
      unfold readExactAt at h
      rw [hw] at h
      simp only [Res.ofOption_some, Res.ok_bind] at h
      rcases fromReaderScan_cases p file fl ws w (n - 16 + 1) with ⟨h1, h2⟩ | ⟨t, s, h1, h2, h3, h4, h5, h6⟩
      · rw [h1] at h
        cases h
        refine ⟨rfl, fun u hu1 hu2 hm => ?_⟩
        exact h2 (u - ws) (by omega) (by omega) (window_magicAt hw hm (by omega) (by omega))
      · rw [h6] at h
        have := fromReaderAt_real hw h3 h
        rw [he] at this
        cases this

theorem isMissing_not_real {e : Err} (h : e.isMissing = true) : e.real = false := by
  cases e <;> first | rfl | cases h

end Ksusig
