import Verif.SpecTorn
import Verif.Proofs.Anatomy

/-!
# Helper proofs about files on which a development build panics
-/

namespace Ksusig

open Spec

theorem parseFullBlock_panic {p : Profile} {d : Bytes} : parseFullBlock p d = .panic ↔
    p = .dev ∧ 32 ≤ d.length ∧ d.drop (d.length - 16) = Ksusig.magic ∧
      leNat (d.take 8) ≠ leNat ((d.drop (d.length - 24)).take 8) := by
  by_cases hl : 32 ≤ d.length
  · rw [parseFullBlock_eq p d hl]
    by_cases h1 : d.drop (d.length - 16) = Ksusig.magic
    · rw [if_neg (not_not_intro h1)]
      by_cases h2 : leNat (d.take 8) = leNat ((d.drop (d.length - 24)).take 8)
      · rw [if_neg (not_not_intro h2)]
        have hx := extractValues_total ((d.drop 8).take (d.length - 32))
        constructor
        · intro h
          split at h
          · cases h
          · split at h
            · cases h
            · cases hv : extractValues ((d.drop 8).take (d.length - 32)) with
              | panic => rw [hv] at hx; exact hx.elim
              | err e => rw [hv] at h; cases h
              | ok vs => rw [hv] at h; cases h
        · rintro ⟨_, _, _, h⟩; exact absurd h2 h
      · rw [if_pos h2]
        cases p with
        | dev => exact ⟨fun _ => ⟨rfl, hl, h1, h2⟩, fun _ => rfl⟩
        | release => exact ⟨nofun, fun h => nomatch h.1⟩
    · rw [if_pos h1]
      exact ⟨nofun, fun h => absurd h.2.2.1 h1⟩
  · constructor
    · intro h
      unfold parseFullBlock at h
      rw [if_pos (by omega)] at h
      cases h
    · intro h; exact absurd h.2.1 hl

/-- The bytes from a size field back from a magic: they parse with a panic exactly if they are torn. -/
theorem parse_torn {p : Profile} {d full : Bytes} {u : Nat} (h8 : 8 ≤ u) (hm : MagicAt d u) (hs : wordAt d (u - 8) ≤ u + 8)
    (hf : slice? d (u + 8 - wordAt d (u - 8)) (u + 16) = some full) :
    parseFullBlock p full = .panic ↔ p = .dev ∧ 24 ≤ wordAt d (u - 8) ∧
      wordAt d (u + 8 - wordAt d (u - 8)) ≠ wordAt d (u - 8) := by
  obtain ⟨k1, k2, k3⟩ := slice?_iff.mp hf
  obtain ⟨m1, m2, m3⟩ := slice?_iff.mp hm
  have hfl : full.length = wordAt d (u - 8) + 8 := by
    rw [k3, List.length_take, List.length_drop]; omega
  rw [parseFullBlock_panic]
  constructor
  · rintro ⟨h1, h2, h3, h4⟩
    refine ⟨h1, by omega, ?_⟩
    have e1 : full.take 8 = (d.drop (u + 8 - wordAt d (u - 8))).take 8 := by
      rw [k3, List.take_take, Nat.min_eq_left (by omega)]
    have e2 : (full.drop (full.length - 24)).take 8 = (d.drop (u - 8)).take 8 := by
      rw [hfl, k3, take_drop_take (by omega)]
      congr 2; omega
    rw [e1, e2] at h4
    exact h4
  · rintro ⟨h1, h2, h3⟩
    refine ⟨h1, by omega, ?_, ?_⟩
    · rw [hfl, k3, List.drop_take, List.drop_drop, m3]
      congr 1
      · omega
      · congr 1; omega
    · have e1 : full.take 8 = (d.drop (u + 8 - wordAt d (u - 8))).take 8 := by
        rw [k3, List.take_take, Nat.min_eq_left (by omega)]
      have e2 : (full.drop (full.length - 24)).take 8 = (d.drop (u - 8)).take 8 := by
        rw [hfl, k3, take_drop_take (by omega)]
        congr 2; omega
      rw [e1, e2]
      exact h3

theorem bind_ok_panic {α β : Type} {x : Res α} {f : α → β} : (x >>= fun a => Res.ok (f a)) = .panic ↔ x = .panic := by
  cases x with
  | ok a => exact ⟨nofun, nofun⟩
  | err e => exact ⟨nofun, nofun⟩
  | panic => exact ⟨fun _ => rfl, fun _ => rfl⟩

theorem fromReaderAt_panic {p : Profile} {file w s : Bytes} {fl ws t n : Nat} (hw : slice? file ws (ws + n) = some w)
    (hfl : ws + n ≤ fl) (h8 : 8 ≤ t) (ht : t + 16 ≤ n) (hm : MagicAt w t) (hs : slice? w (t - 8) t = some s) :
    fromReaderAt p file fl ws w t s = .panic ↔ p = .dev ∧ Torn file (ws + t) := by
  obtain ⟨g1, g2, g3⟩ := slice?_iff.mp hw
  have hmf : MagicAt file (ws + t) := by
    have := window_slice hw (show t ≤ t + 16 by omega) ht
    unfold MagicAt
    rw [← Nat.add_assoc] at this
    rw [← this]; exact hm
  have hsf : slice? file (ws + (t - 8)) (ws + t) = some s := by
    rw [← window_slice hw (by omega) (by omega)]; exact hs
  have hnum : leNat s = wordAt file (ws + t - 8) := by
    obtain ⟨_, _, q3⟩ := slice?_iff.mp hsf
    rw [q3, show ws + t - (ws + (t - 8)) = 8 by omega, show ws + (t - 8) = ws + t - 8 by omega]
    rfl
  have htorn : Torn file (ws + t) ↔ 24 ≤ wordAt file (ws + t - 8) ∧ wordAt file (ws + t - 8) ≤ 16384 ∧
      wordAt file (ws + t - 8) ≤ ws + t + 8 ∧
      wordAt file (ws + t + 8 - wordAt file (ws + t - 8)) ≠ wordAt file (ws + t - 8) :=
    ⟨fun h => ⟨h.least, h.most, h.inside, h.differ⟩, fun h => ⟨hmf, by omega, h.1, h.2.1, h.2.2.1, h.2.2.2⟩⟩
  unfold fromReaderAt
  dsimp only
  rw [htorn, hnum]
  have hk := @parse_torn p file
  generalize hz : wordAt file (ws + t - 8) = z at *
  have hmax : maxBlockSize = 16384 := rfl
  by_cases c1 : z > maxBlockSize
  · rw [if_pos c1]; exact ⟨nofun, fun h => by omega⟩
  rw [if_neg c1]
  by_cases c2 : z > fl
  · rw [if_pos c2]; exact ⟨nofun, fun h => by omega⟩
  rw [if_neg c2]
  by_cases c3 : t + 16 < z + 8
  · rw [if_pos c3]
    by_cases c4 : ws + (t + 16) < z + 8
    · rw [if_pos c4]; exact ⟨nofun, fun h => by omega⟩
    rw [if_neg c4]
    have hsl : slice? file (ws + t + 8 - z) (ws + t + 16) =
        some ((file.drop (ws + t + 8 - z)).take (ws + t + 16 - (ws + t + 8 - z))) :=
      slice?_of_le (by omega) (by omega)
    have hrd : readExactAt file (ws + (t + 16) - (z + 8)) (z + 8) =
        .ok ((file.drop (ws + t + 8 - z)).take (ws + t + 16 - (ws + t + 8 - z))) := by
      unfold readExactAt
      rw [show ws + (t + 16) - (z + 8) = ws + t + 8 - z by omega, show ws + t + 8 - z + (z + 8) = ws + t + 16 by omega, hsl]
      rfl
    rw [hrd, Res.ok_bind, bind_ok_panic]
    have := hk (u := ws + t) (by omega) hmf (by rw [hz]; omega) (by rw [hz]; exact hsl)
    rw [hz] at this
    rw [this]
    exact ⟨fun h => ⟨h.1, h.2.1, by omega, by omega, h.2.2⟩, fun h => ⟨h.1, h.2.1, h.2.2.2.2⟩⟩
  · rw [if_neg c3]
    have hsl : slice? file (ws + t + 8 - z) (ws + t + 16) =
        some ((file.drop (ws + t + 8 - z)).take (ws + t + 16 - (ws + t + 8 - z))) :=
      slice?_of_le (by omega) (by omega)
    have hwin : slice? w (t + 16 - (z + 8)) (t + 16) =
        some ((file.drop (ws + t + 8 - z)).take (ws + t + 16 - (ws + t + 8 - z))) := by
      rw [window_slice hw (by omega) ht, ← hsl]
      congr 1; omega
    rw [hwin, Res.ofOption_some, Res.ok_bind, bind_ok_panic]
    have := hk (u := ws + t) (by omega) hmf (by rw [hz]; omega) (by rw [hz]; exact hsl)
    rw [hz] at this
    rw [this]
    exact ⟨fun h => ⟨h.1, h.2.1, by omega, by omega, h.2.2⟩, fun h => ⟨h.1, h.2.1, h.2.2.2.2⟩⟩

/-- Reading the block at the end of the searched part panics exactly on torn blocks. -/
theorem fromReader_panic {p : Profile} {file : Bytes} {fl eo : Nat} :
    SigningBlock.fromReader p file fl eo = .panic ↔
      p = .dev ∧ fl - eo ≤ file.length ∧ ∃ u, TornBefore file (fl - eo) u := by
  unfold SigningBlock.fromReader
  dsimp only
  have hmw : maxWindow = 16777216 := rfl
  have hle : fl - eo ≤ fl := by omega
  generalize fl - eo = se at *
  by_cases c1 : min se maxWindow < 16 + 8
  · rw [if_pos c1]
    refine ⟨nofun, ?_⟩
    rintro ⟨_, _, u, h⟩
    have := h.torn.room
    have := h.fits
    omega
  rw [if_neg c1]
  by_cases c2 : se ≤ file.length
  · generalize hn : min se maxWindow = n at *
    have hsl : slice? file (se - n) (se - n + n) = some ((file.drop (se - n)).take n) := by
      rw [slice?_of_le (by omega) (by omega)]; congr 2; omega
    have hrd : readExactAt file (se - n) n = .ok ((file.drop (se - n)).take n) := by
      unfold readExactAt; rw [hsl]; rfl
    rw [hrd, Res.ok_bind]
    generalize (file.drop (se - n)).take n = w at *
    rcases fromReaderScan_cases p file fl (se - n) w (n - 16 + 1) with ⟨h1, h2⟩ | ⟨t, s, h1, h2, h3, h4, h5, h6⟩
    · rw [h1]
      refine ⟨nofun, ?_⟩
      rintro ⟨_, _, u, h⟩
      have k1 := h.torn.room
      have k2 := h.fits
      have k3 := h.reach
      have hmag := window_magicAt hsl (magicAt_iff.mpr h.torn.magic) (by omega) (by omega)
      exact absurd hmag (h2 _ (by omega) (by omega))
    · rw [h6, fromReaderAt_panic hsl (by omega) h1 (by omega) h3 h4]
      have hmf : MagicAt file (se - n + t) := by
        have := window_slice hsl (show t ≤ t + 16 by omega) (by omega)
        unfold MagicAt
        rw [← Nat.add_assoc] at this
        rw [← this]; exact h3
      constructor
      · rintro ⟨hp, ht⟩
        refine ⟨hp, c2, se - n + t, ht, by omega, by omega, ?_⟩
        intro v hv hmv
        by_cases hlt : se - n + t < v
        · exact absurd (window_magicAt hsl (magicAt_iff.mpr hmv) (by omega) (by omega)) (h5 _ (by omega) (by omega))
        · omega
      · rintro ⟨hp, _, u, h⟩
        refine ⟨hp, ?_⟩
        have k1 := h.torn.room
        have k2 := h.fits
        have k3 := h.reach
        have k4 := h.last (se - n + t) (by omega) (magicAt_iff.mp hmf)
        by_cases hlt : se - n + t < u
        · exact absurd (window_magicAt hsl (magicAt_iff.mpr h.torn.magic) (by omega) (by omega)) (h5 _ (by omega) (by omega))
        · have : u = se - n + t := by omega
          rw [← this]; exact h.torn
  · have hsl : slice? file (se - min se maxWindow) (se - min se maxWindow + min se maxWindow) = none := by
      unfold slice?; rw [if_neg (by omega)]
    unfold readExactAt
    rw [hsl]
    refine ⟨nofun, ?_⟩
    rintro ⟨_, h, _⟩
    exact absurd h c2

/-- Parsing bytes panics exactly if the last magic is too near the start, or its size field is below 16, or the block is torn. -/
theorem fromU8_panic {p : Profile} {d : Bytes} : SigningBlock.fromU8 p d = .panic ↔
    p = .dev ∧ 32 ≤ d.length ∧ ∃ t, 1 ≤ t ∧ MagicAtPos d t ∧ (∀ v, MagicAtPos d v → v ≤ t) ∧
      (t < 8 ∨ wordAt d (t - 8) < 16 ∨ Torn d t) := by
  unfold SigningBlock.fromU8
  by_cases hl : d.length < 8 + 8 + 16
  · rw [if_pos hl]; exact ⟨nofun, fun h => by omega⟩
  rw [if_neg hl]
  have inside : ∀ v, MagicAtPos d v → v ≤ d.length - 16 := fun v hv => by
    have := (slice?_iff.mp hv).2.1; omega
  rcases fromU8Scan_cases p d (d.length - 16) (by omega) with ⟨h1, h2⟩ | ⟨t, h1, h2, h3, h4, h5⟩
  · rw [h1]
    refine ⟨nofun, ?_⟩
    rintro ⟨_, _, t, k1, k2, _⟩
    exact absurd (magicAt_iff.mpr k2) (h2 t k1 (inside t k2))
  · rw [h5]
    have hlast : ∀ v, MagicAtPos d v → v ≤ t := fun v hv => by
      by_cases hlt : t < v
      · exact absurd (magicAt_iff.mpr hv) (h4 v hlt (inside v hv))
      · omega
    have hiff : (∃ t, 1 ≤ t ∧ MagicAtPos d t ∧ (∀ v, MagicAtPos d v → v ≤ t) ∧ (t < 8 ∨ wordAt d (t - 8) < 16 ∨ Torn d t)) ↔
        (t < 8 ∨ wordAt d (t - 8) < 16 ∨ Torn d t) := by
      constructor
      · rintro ⟨t', k1, k2, k3, k4⟩
        have : t' = t := Nat.le_antisymm (hlast _ k2) (k3 _ (magicAt_iff.mp h3))
        rw [this] at k4; exact k4
      · intro k; exact ⟨t, h1, magicAt_iff.mp h3, hlast, k⟩
    rw [hiff]
    clear hiff
    by_cases hu : t < 8 ∨ wordAt d (t - 8) < 16
    · obtain ⟨k1, e, k2, k3⟩ := fromU8At_under d t (by omega) hu
      cases p with
      | dev => rw [k1]; exact ⟨fun _ => ⟨rfl, by omega, hu.elim .inl (fun h => .inr (.inl h))⟩, fun _ => rfl⟩
      | release => rw [k3]; exact ⟨nofun, fun h => nomatch h.1⟩
    · have e8 : 8 ≤ t := by omega
      rw [fromU8At_eq p d t e8 (by omega) (by show 16 ≤ wordAt d (t - 8); omega)]
      show (if wordAt d (t - 8) > maxBlockSize then Res.err Err.blockTooLarge
        else if t + 8 < wordAt d (t - 8) then .err .beyondData
        else parseFullBlock p ((d.drop (t + 8 - wordAt d (t - 8))).take (wordAt d (t - 8) + 8))) = .panic ↔ _
      have hmax : maxBlockSize = 16384 := rfl
      have htorn : (t < 8 ∨ wordAt d (t - 8) < 16 ∨ Torn d t) ↔ 24 ≤ wordAt d (t - 8) ∧ wordAt d (t - 8) ≤ 16384 ∧
          wordAt d (t - 8) ≤ t + 8 ∧ wordAt d (t + 8 - wordAt d (t - 8)) ≠ wordAt d (t - 8) := by
        constructor
        · rintro (h | h | h)
          · omega
          · omega
          · exact ⟨h.least, h.most, h.inside, h.differ⟩
        · intro h; exact .inr (.inr ⟨magicAt_iff.mp h3, e8, h.1, h.2.1, h.2.2.1, h.2.2.2⟩)
      rw [htorn]
      by_cases c1 : wordAt d (t - 8) > maxBlockSize
      · rw [if_pos c1]; exact ⟨nofun, fun h => by omega⟩
      rw [if_neg c1]
      by_cases c2 : t + 8 < wordAt d (t - 8)
      · rw [if_pos c2]; exact ⟨nofun, fun h => by omega⟩
      rw [if_neg c2]
      have hsl : slice? d (t + 8 - wordAt d (t - 8)) (t + 16) =
          some ((d.drop (t + 8 - wordAt d (t - 8))).take (wordAt d (t - 8) + 8)) := by
        rw [slice?_of_le (by omega) (by omega)]; congr 2; omega
      rw [parse_torn e8 h3 (by omega) hsl]
      exact ⟨fun h => ⟨h.1, by omega, h.2.1, by omega, by omega, h.2.2⟩, fun h => ⟨h.1, h.2.2.1, h.2.2.2.2.2⟩⟩

end Ksusig
