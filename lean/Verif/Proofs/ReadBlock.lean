import Verif.Proofs.Scan

/-! Inversion and totality of `from_u8` and `from_reader`. -/

namespace Ksusig

open Spec

theorem wireFrame_length' (x : Bytes) : (wireFrame x).length = x.length + 32 := by
  simp [wireFrame]; omega

theorem split_at {d : Bytes} {a n : Nat} (h : a + n ≤ d.length) :
    d = d.take a ++ (d.drop a).take n ++ d.drop (a + n) := by
  have := slice?_split (slice?_of_le (d := d) (a := a) (b := a + n) (by omega) h)
  rwa [show a + n - a = n by omega] at this

theorem fromU8_ok {p : Profile} {d : Bytes} {b : SigningBlock} (h : SigningBlock.fromU8 p d = .ok b) :
    ∃ pre pairs post, d = pre ++ wireFrame pairs ++ post ∧ pairs.length + 24 ≤ maxBlockSize ∧
      extractValues pairs = .ok b.content ∧
      (∀ u, MagicAt d u → u ≤ pre.length + pairs.length + 16) ∧
      b = ⟨0, pairs.length + 32, pairs.length + 24, pairs.length, b.content, pairs.length + 24, Ksusig.magic⟩ := by
  unfold SigningBlock.fromU8 at h
  split at h
  · cases h
  · rename_i hl
    rcases fromU8Scan_cases p d (d.length - 16) (by omega) with ⟨h1, _⟩ | ⟨t, h1, h2, h3, h4, h5⟩
    · rw [h1] at h; cases h
    · rw [h5] at h
      by_cases hu : t < 8 ∨ leNat ((d.drop (t - 8)).take 8) < 16
      · obtain ⟨hdev, e, _, hrel⟩ := fromU8At_under d t (by omega) hu
        cases p
        · rw [hdev] at h; cases h
        · rw [hrel] at h; cases h
      · rw [fromU8At_eq p d t (by omega) (by omega) (by omega)] at h
        dsimp only at h
        generalize hn : leNat ((d.drop (t - 8)).take 8) = n at *
        split at h
        · cases h
        · split at h
          · cases h
          · rename_i hmax hmin
            obtain ⟨pairs, hw, ht, _, hb⟩ := parseFullBlock_ok h
            have hlen : ((d.drop (t + 8 - n)).take (n + 8)).length = n + 8 := by
              rw [List.length_take, List.length_drop]; omega
            have hpl : pairs.length + 32 = n + 8 := by rw [← hlen, hw, wireFrame_length']
            refine ⟨d.take (t + 8 - n), pairs, d.drop (t + 8 - n + (n + 8)), ?_, by omega, ht, ?_, ?_⟩
            · rw [← hw]; exact split_at (by omega)
            · intro u hu
              rw [List.length_take]
              have : u + 16 ≤ d.length := (slice?_eq_some hu).2.1
              by_cases hut : t < u
              · exact absurd hu (h4 u hut (by omega))
              · omega
            · rw [hlen] at hb; rw [hpl]; exact hb

theorem fromU8_release_total (d : Bytes) :
    (∃ b, SigningBlock.fromU8 .release d = .ok b) ∨ ∃ e, e ≠ .fuel ∧ SigningBlock.fromU8 .release d = .err e := by
  unfold SigningBlock.fromU8
  split
  · exact .inr ⟨_, by decide, rfl⟩
  · rename_i hl
    rcases fromU8Scan_cases .release d (d.length - 16) (by omega) with ⟨h1, _⟩ | ⟨t, h1, h2, h3, h4, h5⟩
    · exact .inr ⟨_, by decide, h1⟩
    · rw [h5]
      by_cases hu : t < 8 ∨ leNat ((d.drop (t - 8)).take 8) < 16
      · obtain ⟨_, e, he, hrel⟩ := fromU8At_under d t (by omega) hu
        exact .inr ⟨e, he, hrel⟩
      · rw [fromU8At_eq _ d t (by omega) (by omega) (by omega)]
        dsimp only
        split
        · exact .inr ⟨_, by decide, rfl⟩
        · split
          · exact .inr ⟨_, by decide, rfl⟩
          · have := parseFullBlock_total ((d.drop (t + 8 - leNat ((d.drop (t - 8)).take 8))).take
              (leNat ((d.drop (t - 8)).take 8) + 8))
            cases hp : parseFullBlock .release ((d.drop (t + 8 - leNat ((d.drop (t - 8)).take 8))).take
              (leNat ((d.drop (t - 8)).take 8) + 8)) with
            | ok b => exact .inl ⟨b, rfl⟩
            | err e => exact .inr ⟨e, fun he => this.2.1 (by rw [hp, he]), rfl⟩
            | panic => exact absurd hp this.1

/-- What makes an overflow-checked build panic in `from_u8`. -/
def DevTrap (d : Bytes) (t : Nat) : Prop :=
  MagicAt d t ∧ (t < 8 ∨ leNat ((d.drop (t - 8)).take 8) < 16 ∨
    (leNat ((d.drop (t - 8)).take 8) ≤ t + 8 ∧
      leNat ((d.drop (t + 8 - leNat ((d.drop (t - 8)).take 8))).take 8) ≠ leNat ((d.drop (t - 8)).take 8)))

theorem take_drop_take {d : Bytes} {a n k m : Nat} (h : k + m ≤ n) :
    (((d.drop a).take n).drop k).take m = (d.drop (a + k)).take m := by
  rw [List.drop_take, List.take_take, List.drop_drop, Nat.min_eq_left (by omega)]

theorem fromU8_dev (d : Bytes) :
    SigningBlock.fromU8 .dev d = SigningBlock.fromU8 .release d ∨
      (SigningBlock.fromU8 .dev d = .panic ∧ ∃ t, DevTrap d t) := by
  unfold SigningBlock.fromU8
  split
  · exact .inl rfl
  · rename_i hl
    rcases fromU8Scan_cases .dev d (d.length - 16) (by omega) with ⟨h1, h1'⟩ | ⟨t, h1, h2, h3, h4, h5⟩
    · rcases fromU8Scan_cases .release d (d.length - 16) (by omega) with ⟨g1, _⟩ | ⟨t, g1, g2, g3, _, _⟩
      · left; rw [h1, g1]
      · exact absurd g3 (h1' t g1 g2)
    · rcases fromU8Scan_cases .release d (d.length - 16) (by omega) with ⟨g1, g1'⟩ | ⟨t', g1, g2, g3, g4, g5⟩
      · exact absurd h3 (g1' t h1 h2)
      · have htt : t = t' := by
          by_cases hlt : t < t'
          · exact absurd g3 (h4 t' hlt g2)
          · by_cases hgt : t' < t
            · exact absurd h3 (g4 t hgt h2)
            · omega
        subst htt
        rw [h5, g5]
        by_cases hu : t < 8 ∨ leNat ((d.drop (t - 8)).take 8) < 16
        · obtain ⟨hdev, _⟩ := fromU8At_under d t (by omega) hu
          refine .inr ⟨hdev, t, h3, ?_⟩
          rcases hu with h | h
          · exact .inl h
          · exact .inr (.inl h)
        · rw [fromU8At_eq _ d t (by omega) (by omega) (by omega), fromU8At_eq _ d t (by omega) (by omega) (by omega)]
          dsimp only
          generalize hn : leNat ((d.drop (t - 8)).take 8) = n at *
          split
          · exact .inl rfl
          · split
            · exact .inl rfl
            · rename_i hmax hmin
              have := parseFullBlock_total ((d.drop (t + 8 - n)).take (n + 8))
              rcases this.2.2 with h | ⟨h, hlen, hne⟩
              · exact .inl h
              · refine .inr ⟨h, t, h3, .inr (.inr ⟨by omega, ?_⟩)⟩
                rw [hn]
                have hl2 : ((d.drop (t + 8 - n)).take (n + 8)).length = n + 8 := by
                  rw [List.length_take, List.length_drop]; omega
                rw [hl2] at hne hlen
                rw [List.take_take, Nat.min_eq_left (by omega), take_drop_take (by omega),
                  show t + 8 - n + (n + 8 - 24) = t - 8 by omega, hn] at hne
                exact hne

/-! ### from_reader -/

theorem readExactAt_ok {file : Bytes} {a n : Nat} {x : Bytes} (h : readExactAt file a n = .ok x) :
    slice? file a (a + n) = some x := by
  unfold readExactAt at h
  cases hs : slice? file a (a + n) with
  | none => rw [hs] at h; cases h
  | some y => rw [hs] at h; cases h; rfl

/-- The bytes at window position `a` are the file's bytes at `ws + a`. -/
theorem window_slice {file w : Bytes} {ws n a b : Nat} (hw : slice? file ws (ws + n) = some w) (hab : a ≤ b)
    (hb : b ≤ n) : slice? w a b = slice? file (ws + a) (ws + b) := by
  obtain ⟨h1, h2, h3, h4⟩ := slice?_eq_some hw
  rw [slice?_of_le hab (by omega), slice?_of_le (by omega) (by omega), h3]
  rw [List.drop_take, List.take_take, List.drop_drop]
  congr 2
  omega

theorem fromReader_ok {p : Profile} {file : Bytes} {fl eo : Nat} {b : SigningBlock}
    (h : SigningBlock.fromReader p file fl eo = .ok b) :
    ∃ pre pairs post, file = pre ++ wireFrame pairs ++ post ∧ pairs.length + 24 ≤ maxBlockSize ∧
      extractValues pairs = .ok b.content ∧ pre.length + pairs.length + 32 ≤ fl - eo ∧
      (∀ u, u + 16 ≤ fl - eo → MagicAt file u → u ≤ pre.length + pairs.length + 16) ∧
      b = ⟨pre.length, pre.length + pairs.length + 32, pairs.length + 24, pairs.length, b.content, pairs.length + 24,
        Ksusig.magic⟩ := by
  unfold SigningBlock.fromReader at h
  dsimp only at h
  generalize hse : fl - eo = se at *
  split at h
  · cases h
  · rename_i hbig
    have hmw : maxWindow = 16 * 1024 * 1024 := rfl
    obtain ⟨w, hw, h⟩ := Res.bind_eq_ok.mp h
    have hw := readExactAt_ok hw
    generalize hws : min se maxWindow = n at *
    generalize hst : se - n = ws at *
    have hwl := (slice?_eq_some hw).2.2.2
    have hwf := (slice?_eq_some hw).2.1
    rcases fromReaderScan_cases p file fl ws w (n - 16 + 1) with ⟨h1, _⟩ | ⟨t, s, h1, h2, h3, h4, h5, h6⟩
    · rw [h1] at h; cases h
    · rw [h6] at h
      have hmag : ∀ u, u + 16 ≤ se → MagicAt file u → u ≤ ws + t := by
        intro u hu2 hu3
        by_cases hle : u ≤ ws + t
        · exact hle
        · exfalso
          refine h5 (u - ws) (by omega) (by omega) ?_
          rw [MagicAt, window_slice hw (by omega) (by omega), show ws + (u - ws) = u by omega,
            show ws + (u - ws + 16) = u + 16 by omega]
          exact hu3
      unfold fromReaderAt at h
      dsimp only at h
      generalize hbs : leNat s = bs at *
      split at h
      · cases h
      · split at h
        · cases h
        · split at h
          · split at h
            · cases h
            · rename_i hmax _ _ hmin
              obtain ⟨full, hf, h⟩ := Res.bind_eq_ok.mp h
              obtain ⟨sig, hp, h⟩ := Res.bind_eq_ok.mp h
              have hf := readExactAt_ok hf
              obtain ⟨pairs, hwf2, ht, _, hb⟩ := parseFullBlock_ok hp
              have hfl := (slice?_eq_some hf).2.2.2
              have hpl : pairs.length + 32 = bs + 8 := by
                have := wireFrame_length' pairs
                rw [← hwf2] at this; omega
              have hle := (slice?_eq_some hf).2.1
              cases h
              refine ⟨file.take (ws + (t + 16) - (bs + 8)), pairs, file.drop (ws + (t + 16) - (bs + 8) + (bs + 8)),
                ?_, by omega, ht, ?_, ?_, ?_⟩
              · rw [← hwf2]; exact slice?_split hf
              · rw [List.length_take]; omega
              · intro u hu2 hu3
                have := hmag u hu2 hu3
                rw [List.length_take]; omega
              · have hl : (file.take (ws + (t + 16) - (bs + 8))).length = ws + (t + 16) - (bs + 8) := by
                  rw [List.length_take]; omega
                rw [hl, hb]
                congr 1
                omega
          · rename_i hmax _ hmin
            obtain ⟨full, hf, h⟩ := Res.bind_eq_ok.mp h
            obtain ⟨sig, hp, h⟩ := Res.bind_eq_ok.mp h
            have hf : slice? w (t + 16 - (bs + 8)) (t + 16) = some full := by
              cases hx : slice? w (t + 16 - (bs + 8)) (t + 16) with
              | none => rw [hx] at hf; cases hf
              | some y => rw [hx] at hf; cases hf; rfl
            rw [window_slice hw (by omega) (by omega)] at hf
            obtain ⟨pairs, hwf2, ht, _, hb⟩ := parseFullBlock_ok hp
            have hfl := (slice?_eq_some hf).2.2.2
            have hpl : pairs.length + 32 = bs + 8 := by
              have := wireFrame_length' pairs
              rw [← hwf2] at this; omega
            have hle := (slice?_eq_some hf).2.1
            cases h
            have hl : (file.take (ws + (t + 16 - (bs + 8)))).length = ws + (t + 16 - (bs + 8)) := by
              rw [List.length_take]; omega
            refine ⟨file.take (ws + (t + 16 - (bs + 8))), pairs, file.drop (ws + (t + 16)),
              ?_, by omega, ht, ?_, ?_, ?_⟩
            · rw [← hwf2]; exact slice?_split hf
            · rw [hl]; omega
            · intro u hu2 hu3
              have := hmag u hu2 hu3
              rw [hl]; omega
            · rw [hl, hb]
              congr 1
              omega

theorem fromReaderAt_total (file : Bytes) (fl ws : Nat) (w : Bytes) (t : Nat) (s : Bytes) :
    ((∃ b, fromReaderAt .release file fl ws w t s = .ok b) ∨
      ∃ e, e ≠ .fuel ∧ fromReaderAt .release file fl ws w t s = .err e) ∧
    (fromReaderAt .dev file fl ws w t s = fromReaderAt .release file fl ws w t s ∨
      (fromReaderAt .dev file fl ws w t s = .panic ∧
        ∃ e, fromReaderAt .release file fl ws w t s = .err e)) := by
  unfold fromReaderAt
  dsimp only
  split
  · exact ⟨.inr ⟨_, by decide, rfl⟩, .inl rfl⟩
  · split
    · exact ⟨.inr ⟨_, by decide, rfl⟩, .inl rfl⟩
    · have key : ∀ (full : Bytes) (f : SigningBlock → SigningBlock),
        ((∃ b, (parseFullBlock .release full >>= fun x => Res.ok (f x)) = .ok b) ∨
          ∃ e, e ≠ .fuel ∧ (parseFullBlock .release full >>= fun x => Res.ok (f x)) = .err e) ∧
        ((parseFullBlock .dev full >>= fun x => Res.ok (f x)) =
            (parseFullBlock .release full >>= fun x => Res.ok (f x)) ∨
          ((parseFullBlock .dev full >>= fun x => Res.ok (f x)) = .panic ∧
            ∃ e, (parseFullBlock .release full >>= fun x => Res.ok (f x)) = .err e)) := by
        intro full f
        obtain ⟨h1, h2, h3⟩ := parseFullBlock_total full
        constructor
        · cases hp : parseFullBlock .release full with
          | ok b => exact .inl ⟨_, rfl⟩
          | err e => exact .inr ⟨e, fun he => h2 (by rw [hp, he]), rfl⟩
          | panic => exact absurd hp h1
        · rcases h3 with h | ⟨h, hl, hne⟩
          · left; rw [h]
          · right
            refine ⟨by rw [h]; rfl, ?_⟩
            cases hp : parseFullBlock .release full with
            | ok b =>
              exfalso
              rw [parseFullBlock_eq _ _ hl] at hp
              split at hp
              · cases hp
              · cases hp
            | err e => exact ⟨e, rfl⟩
            | panic => exact absurd hp h1
      split
      · split
        · exact ⟨.inr ⟨_, by decide, rfl⟩, .inl rfl⟩
        · unfold readExactAt
          cases slice? file (ws + (t + 16) - (leNat s + 8)) (ws + (t + 16) - (leNat s + 8) + (leNat s + 8)) with
          | none => exact ⟨.inr ⟨_, by decide, rfl⟩, .inl rfl⟩
          | some full =>
            simp only [Res.ofOption_some, Res.ok_bind]
            exact key full fun sig => { sig with fileStart := _, fileEnd := _ }
      · cases slice? w (t + 16 - (leNat s + 8)) (t + 16) with
        | none => exact ⟨.inr ⟨_, by decide, rfl⟩, .inl rfl⟩
        | some full =>
          simp only [Res.ofOption_some, Res.ok_bind]
          exact key full fun sig => { sig with fileStart := _, fileEnd := _ }

theorem fromReader_total (file : Bytes) (fl eo : Nat) :
    ((∃ b, SigningBlock.fromReader .release file fl eo = .ok b) ∨
      ∃ e, e ≠ .fuel ∧ SigningBlock.fromReader .release file fl eo = .err e) ∧
    (SigningBlock.fromReader .dev file fl eo = SigningBlock.fromReader .release file fl eo ∨
      (SigningBlock.fromReader .dev file fl eo = .panic ∧
        ∃ e, SigningBlock.fromReader .release file fl eo = .err e)) := by
  unfold SigningBlock.fromReader
  dsimp only
  split
  · exact ⟨.inr ⟨_, by decide, rfl⟩, .inl rfl⟩
  · unfold readExactAt
    cases slice? file (fl - eo - min (fl - eo) maxWindow)
      (fl - eo - min (fl - eo) maxWindow + min (fl - eo) maxWindow) with
    | none => exact ⟨.inr ⟨_, by decide, rfl⟩, .inl rfl⟩
    | some w =>
      simp only [Res.ofOption_some, Res.ok_bind]
      generalize fl - eo - min (fl - eo) maxWindow = ws
      generalize min (fl - eo) maxWindow - 16 + 1 = n
      rcases fromReaderScan_cases .release file fl ws w n with ⟨h1, h1'⟩ | ⟨t, s, h1, h2, h3, h4, h5, h6⟩
      · rcases fromReaderScan_cases .dev file fl ws w n with ⟨g1, _⟩ | ⟨t, s, g1, g2, g3, _, _, _⟩
        · rw [h1, g1]; exact ⟨.inr ⟨_, by decide, rfl⟩, .inl rfl⟩
        · exact absurd g3 (h1' t g1 g2)
      · rcases fromReaderScan_cases .dev file fl ws w n with ⟨g1, g1'⟩ | ⟨t', s', g1, g2, g3, g4, g5, g6⟩
        · exact absurd h3 (g1' t h1 h2)
        · have htt : t = t' := by
            by_cases hlt : t < t'
            · exact absurd g3 (h5 t' hlt g2)
            · by_cases hgt : t' < t
              · exact absurd h3 (g5 t hgt h2)
              · omega
          subst htt
          rw [h4] at g4
          cases g4
          rw [h6, g6]
          exact fromReaderAt_total file fl ws w t s

/-! ### What is kept in memory -/

theorem extractValues_weight {d : Bytes} {vs : List Value} (h : extractValues d = .ok vs) :
    (vs.map Value.weight).sum ≤ d.length := by
  have := extractValues_total d
  rw [h] at this
  exact this

theorem fromU8_weight {p : Profile} {d : Bytes} {b : SigningBlock} (h : SigningBlock.fromU8 p d = .ok b) :
    (b.content.map Value.weight).sum ≤ d.length := by
  obtain ⟨pre, pairs, post, rfl, _, hx, _⟩ := fromU8_ok h
  have := extractValues_weight hx
  simp only [List.length_append, wireFrame_length']
  omega

theorem fromReader_weight {p : Profile} {file : Bytes} {fl eo : Nat} {b : SigningBlock}
    (h : SigningBlock.fromReader p file fl eo = .ok b) :
    (b.content.map Value.weight).sum ≤ file.length ∧ (b.content.map Value.weight).sum ≤ 16384 + 8 := by
  obtain ⟨pre, pairs, post, rfl, hm, hx, _⟩ := fromReader_ok h
  have := extractValues_weight hx
  simp only [List.length_append, wireFrame_length']
  have : maxBlockSize = 16384 := rfl
  omega

end Ksusig
