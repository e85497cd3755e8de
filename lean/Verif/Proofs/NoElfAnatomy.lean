import Verif.Proofs.NoElf
import Verif.Proofs.Anatomy
import Verif.SpecNoElfAnatomy

/-!
# Exactly what the build without ELF support reads

The counterparts of the lemmas on the full build (`Proofs/Grammar.lean`, `Proofs/ReadBlock.lean`, `Proofs/Anatomy.lean`).
-/

namespace Ksusig.NoElf

open Ksusig Spec

/-- The value of a pair, on its own slice. -/
theorem parseBody_iff {id : UInt32} {value : Bytes} {r r' : Reader} {v : Value} :
    parseBody (4 + value.length) id ⟨value, 0⟩ r = .ok (v, r') ↔ r' = r ∧ BareValue id value v := by
  have on_iff : ∀ {α : Type} (q : P α) (g : α → Value),
      (P.on ⟨value, 0⟩ q >>= fun s => (Pure.pure (g s) : P Value)) r = .ok (v, r') ↔
        r' = r ∧ ∃ a, (∃ s', q ⟨value, 0⟩ = .ok (a, s')) ∧ v = g a := by
    intro α q g
    constructor
    · intro h
      obtain ⟨a, r1, h1, h2⟩ := P.bind_ok h
      obtain ⟨rfl, s', h3⟩ := P.on_ok h1
      rw [P.pure_def] at h2
      cases h2
      exact ⟨rfl, a, ⟨s', h3⟩, rfl⟩
    · rintro ⟨rfl, a, ⟨s', h⟩, rfl⟩
      rw [P.bind_def]
      simp only [P.on, h, Res.bind_ok, P.pure_def]
  unfold parseBody
  split
  · rename_i hid
    have hid' : id = 0x7109871a := hid
    rw [on_iff]
    refine and_congr_right fun _ => ?_
    constructor
    · rintro ⟨s, hs, rfl⟩
      obtain ⟨w, rest, h1, s', h2, rfl⟩ := ((Exact.bindPure (g := fun s => (⟨4 + value.length, id, s⟩ : SchemeV2))
        SignersV2.exact).alone value s).mp hs
      exact ⟨hid', rfl, rfl, w, rest, h1, h2⟩
    · intro h
      cases v with
      | v2 s =>
        obtain ⟨h0, h1, h2, w, rest, h3, h4⟩ := h
        obtain ⟨size, i, ss⟩ := s
        dsimp only at h1 h2 h4
        subst h1 h2
        exact ⟨_, ((Exact.bindPure (g := fun s => (⟨4 + value.length, i, s⟩ : SchemeV2))
          SignersV2.exact).alone value _).mpr ⟨w, rest, h3, ss, h4, rfl⟩, rfl⟩
      | stamp s => rw [hid'] at h; exact absurd h.1 (by decide)
      | elf s => exact absurd h (fun h => h)
      | raw s => exact absurd hid' h.2.1
  · rename_i hid1
    split
    · rename_i hid
      have hid' : id = 0x6dff800d := hid
      rw [on_iff]
      refine and_congr_right fun _ => ?_
      constructor
      · rintro ⟨s, hs, rfl⟩
        obtain ⟨w, rest, h1, s', h2, rfl⟩ := ((Exact.bindPure (g := fun s => (⟨4 + value.length, id, s⟩ : SourceStamp))
          StampBlock.exact).alone value s).mp hs
        exact ⟨hid', rfl, rfl, w, rest, h1, h2⟩
      · intro h
        cases v with
        | stamp s =>
          obtain ⟨h0, h1, h2, w, rest, h3, h4⟩ := h
          obtain ⟨size, i, ss⟩ := s
          dsimp only at h1 h2 h4
          subst h1 h2
          exact ⟨_, ((Exact.bindPure (g := fun s => (⟨4 + value.length, i, s⟩ : SourceStamp))
            StampBlock.exact).alone value _).mpr ⟨w, rest, h3, ss, h4, rfl⟩, rfl⟩
        | v2 s => exact absurd h.1 hid1
        | elf s => exact absurd h (fun h => h)
        | raw s => exact absurd hid' h.2.2
    · rename_i hid2
      rw [P.pure_def]
      constructor
      · intro h; cases h; exact ⟨rfl, rfl, hid1, hid2⟩
      · rintro ⟨rfl, h⟩
        cases v with
        | raw s => obtain ⟨rfl, _⟩ := h; rfl
        | v2 s => exact absurd h.1 hid1
        | stamp s => exact absurd h.1 hid2
        | elf s => exact absurd h (fun h => h)

/-- One pair. -/
theorem parse_exact : Exact NoElf.parse (fun w v => ∃ id value, w = wirePair id value ∧ 4 + value.length ≤ 16384 ∧
    BareValue id value v) := by
  intro pre rest v r'
  have hmp : maxPairSize = 16384 := rfl
  constructor
  · intro h
    obtain ⟨ps, r1, h1, h2⟩ := P.bind_ok h
    obtain ⟨w1, p1, rfl, ⟨rfl, hlt⟩, rfl⟩ := (Exact.readSizeU64 _ _ _ _).mp h1
    split at h2
    · cases h2
    · rename_i hmax
      obtain ⟨id, r2, h3, h4⟩ := P.bind_ok h2
      rw [show (⟨pre ++ (leBytes 8 ps ++ p1), pre.length + (leBytes 8 ps).length⟩ : Reader) =
        ⟨(pre ++ leBytes 8 ps) ++ p1, (pre ++ leBytes 8 ps).length⟩ by simp] at h3
      obtain ⟨w2, p2, rfl, rfl, rfl⟩ := (Exact.readU32 _ _ _ _).mp h3
      split at h4
      · cases h4
      · rename_i hmin
        obtain ⟨s, r3, h5, h6⟩ := P.bind_ok h4
        obtain ⟨value, c1, rfl, rfl⟩ := P.asSlice_ok h5
        dsimp only at c1 h6
        rw [show (pre ++ leBytes 8 ps ++ (leBytes 4 id.toNat ++ p2)) = (pre ++ leBytes 8 ps ++ leBytes 4 id.toNat) ++ p2 by simp,
          show (pre ++ leBytes 8 ps).length + (leBytes 4 id.toNat).length = (pre ++ leBytes 8 ps ++ leBytes 4 id.toNat).length by simp] at c1
        obtain ⟨_, h8, h9, h10⟩ := slice?_eq_some c1
        rw [List.drop_left, Nat.add_sub_cancel_left] at h9
        rw [Nat.add_sub_cancel_left] at h10
        obtain ⟨rfl, hv⟩ := parseBody_iff.mp (by rw [show 4 + value.length = ps by omega]; exact h6)
        have hp2 : p2 = value ++ p2.drop (ps - 4) := by rw [h9, List.take_append_drop]
        refine ⟨wirePair id value, p2.drop (ps - 4), ?_, ⟨id, value, rfl, by omega, hv⟩, ?_⟩
        · rw [wirePair, show 4 + value.length = ps by omega]
          conv => lhs; rw [hp2]
          simp
        · simp [wirePair]; omega
  · rintro ⟨w, post, rfl, ⟨id, value, rfl, hl, hv⟩, rfl⟩
    have h1 := Parses.readSizeU64 (x := 4 + value.length) (by omega) pre (leBytes 4 id.toNat ++ value ++ post)
    have h2 := Parses.readU32 id (pre ++ leBytes 8 (4 + value.length)) (value ++ post)
    have h3 := slice?_append (pre ++ leBytes 8 (4 + value.length) ++ leBytes 4 id.toNat) value post
    unfold NoElf.parse
    rw [show pre ++ (wirePair id value ++ post) = pre ++ leBytes 8 (4 + value.length) ++ (leBytes 4 id.toNat ++ value ++ post) by
      simp [wirePair]]
    rw [P.bind_def, h1]
    simp only [Res.bind_ok]
    rw [if_neg (by omega)]
    rw [show pre ++ leBytes 8 (4 + value.length) ++ (leBytes 4 id.toNat ++ value ++ post) =
      pre ++ leBytes 8 (4 + value.length) ++ leBytes 4 id.toNat ++ (value ++ post) by simp]
    rw [← List.length_append, P.bind_def, h2]
    simp only [Res.bind_ok]
    rw [if_neg (by omega), P.bind_def, P.asSlice_eq]
    dsimp only
    rw [← List.length_append, show 4 + value.length - 4 = value.length by omega, ← List.append_assoc, h3]
    simp only [Res.bind_ok]
    rw [parseBody_iff.mpr ⟨rfl, hv⟩]
    simp [wirePair]
    omega

theorem entries_content {w : Bytes} {vs : List Value} (hw : w.length ≤ 16384) :
    Entries (fun w v => ∃ id value, w = wirePair id value ∧ 4 + value.length ≤ 16384 ∧ BareValue id value v) w.length w vs ↔
      BareContent w vs := by
  constructor
  · intro h
    generalize hn : w.length = n at h
    clear hw
    induction h with
    | done => exact .nil
    | more n w ws a as h0 hi hE ih =>
      obtain ⟨id, value, rfl, _, hv⟩ := hi
      exact .cons id value a ws as hv (ih (by simp at hn ⊢; omega))
  · intro h
    induction h with
    | nil => exact .done
    | cons id value v rest vs hv hc ih =>
      have hl : (wirePair id value).length = 12 + value.length := by simp [wirePair]; omega
      rw [List.length_append, hl] at hw
      refine .more _ _ _ _ _ (by rw [List.length_append, hl]; omega) ⟨id, value, rfl, by omega, hv⟩ ?_
      rw [List.length_append, Nat.add_sub_cancel_left]
      exact ih (by omega)

/-- The pairs of a block. -/
theorem extractValues_iff {d : Bytes} {vs : List Value} (hd : d.length ≤ 16384) : extractValues d = .ok vs ↔ BareContent d vs := by
  have h := Exact.loopSub parse_exact (fun w a h => by obtain ⟨id, value, rfl, _⟩ := h; simp [wirePair]; omega) d vs
  rw [entries_content hd] at h
  rw [← h]
  unfold NoElf.extractValues Reader.new
  cases hl : P.loopTo NoElf.parse d.length ⟨d, 0⟩ with
  | ok x => obtain ⟨a, r⟩ := x; constructor <;> intro hh
            · cases hh; exact ⟨r, rfl⟩
            · obtain ⟨s', hs⟩ := hh; cases hs; rfl
  | err e => constructor <;> intro hh
             · cases hh
             · obtain ⟨s', hs⟩ := hh; cases hs
  | panic => constructor <;> intro hh
             · cases hh
             · obtain ⟨s', hs⟩ := hh; cases hs

theorem parseFullBlock_eq (p : Profile) (d : Bytes) (hl : 32 ≤ d.length) :
    parseFullBlock p d =
      if d.drop (d.length - 16) ≠ Ksusig.magic then .err .magicNotFound
      else if leNat (d.take 8) ≠ leNat ((d.drop (d.length - 24)).take 8) then
        (match p with | .dev => .panic | .release => .err .sizeMismatch)
      else if leNat (d.take 8) < 24 then .err .blockTooSmall
      else if d.length ≠ leNat (d.take 8) + 8 then .err .lengthMismatch
      else (extractValues ((d.drop 8).take (d.length - 32))).bind fun content =>
        .ok ⟨0, d.length, d.length - 8, d.length - 32, content, d.length - 8, Ksusig.magic⟩ := by
  unfold NoElf.parseFullBlock
  rw [if_neg (by omega)]
  have s1 : slice? d (d.length - 16) d.length = some (d.drop (d.length - 16)) := by
    rw [slice?_of_le (by omega) (Nat.le_refl _)]
    congr 1
    rw [List.take_of_length_le]
    simp
  have s2 : slice? d 0 8 = some (d.take 8) := by
    rw [slice?_of_le (by omega) (by omega)]; simp
  have s3 : slice? d (d.length - 16 - 8) (d.length - 16) = some ((d.drop (d.length - 24)).take 8) := by
    rw [slice?_of_le (by omega) (by omega)]
    rw [show d.length - 16 - 8 = d.length - 24 by omega, show d.length - 16 - (d.length - 24) = 8 by omega]
  have s4 : slice? d 8 (d.length - 16 - 8) = some ((d.drop 8).take (d.length - 32)) := by
    rw [slice?_of_le (by omega) (by omega)]
    rw [show d.length - 16 - 8 - 8 = d.length - 32 by omega]
  rw [s1, s2, s3, s4]
  simp only [Res.ofOption_some, Res.ok_bind]
  by_cases hm : d.drop (d.length - 16) = Ksusig.magic
  · simp only [hm, ne_eq, not_true, if_false]
    generalize leNat (d.take 8) = a
    generalize leNat ((d.drop (d.length - 24)).take 8) = b
    by_cases hab : a = b
    · subst hab
      have : debugAssert p (a == a) = .ok () := by cases p <;> simp [debugAssert]
      rw [this]
      simp only [Res.ok_bind, not_true, if_false]
      by_cases h1 : a < 24
      · rw [if_pos h1, if_pos h1]
      · rw [if_neg h1, if_neg h1]
        by_cases h2 : d.length = a + 8
        · simp only [h2, not_true, if_false]
          rw [show a + 8 - 32 = a - 8 - 16 by omega, show a + 8 - 8 = a by omega]
          rfl
        · simp only [h2, not_false_eq_true, if_true]
    · have hne : (a == b) = false := by simpa using hab
      cases p
      · simp [debugAssert, hne, hab]
      · simp [debugAssert, hab]
  · simp only [ne_eq, hm, not_false_eq_true, if_true]

theorem parseFullBlock_ok {p : Profile} {d : Bytes} {b : SigningBlock} (h : parseFullBlock p d = .ok b) :
    ∃ pairs, d = wireFrame pairs ∧ extractValues pairs = .ok b.content ∧ d.length < 2 ^ 64 + 8 ∧
      b = ⟨0, d.length, pairs.length + 24, pairs.length, b.content, pairs.length + 24, Ksusig.magic⟩ := by
  by_cases hl : 32 ≤ d.length
  · rw [parseFullBlock_eq p d hl] at h
    split at h
    · cases h
    · rename_i hm
      split at h
      · cases p <;> cases h
      · rename_i hab
        split at h
        · cases h
        · split at h
          · cases h
          · rename_i h24 hlen
            simp only [ne_eq, Decidable.not_not] at hm hab hlen
            cases hx : extractValues ((d.drop 8).take (d.length - 32)) with
            | ok vs =>
              rw [hx] at h
              cases h
              have hpl : ((d.drop 8).take (d.length - 32)).length = d.length - 32 := by simp; omega
              refine ⟨(d.drop 8).take (d.length - 32), ?_, hx, ?_, ?_⟩
              · have t1 : leBytes 8 (leNat (d.take 8)) = d.take 8 := by
                  have := leBytes_leNat (d.take 8)
                  rwa [List.length_take, Nat.min_eq_left (by omega)] at this
                have t2 : leBytes 8 (leNat (d.take 8)) = (d.drop (d.length - 24)).take 8 := by
                  rw [hab]
                  have := leBytes_leNat ((d.drop (d.length - 24)).take 8)
                  rwa [List.length_take, List.length_drop, Nat.min_eq_left (by omega)] at this
                rw [wireFrame, hpl, show d.length - 32 + 24 = leNat (d.take 8) by omega]
                have hm' : d.drop (d.length - 16) = _ := hm
                unfold Ksusig.magic at hm'
                rw [← hm']
                conv => rhs; rw [List.append_assoc, List.append_assoc]
                rw [t2]
                have e1 : (d.drop (d.length - 24)).take 8 ++ d.drop (d.length - 16) = d.drop (d.length - 24) := by
                  have := List.take_append_drop 8 (d.drop (d.length - 24))
                  rw [List.drop_drop, show d.length - 24 + 8 = d.length - 16 by omega] at this
                  exact this
                rw [e1]
                have e2 : (d.drop 8).take (d.length - 32) ++ d.drop (d.length - 24) = d.drop 8 := by
                  have := List.take_append_drop (d.length - 32) (d.drop 8)
                  rw [List.drop_drop, show 8 + (d.length - 32) = d.length - 24 by omega] at this
                  exact this
                rw [e2, ← t2, t1]
                exact (List.take_append_drop 8 d).symm
              · have := leNat_lt (d.take 8)
                rw [List.length_take, Nat.min_eq_left (by omega)] at this
                omega
              · rw [hpl]
                rw [show d.length - 32 + 24 = d.length - 8 by omega]
            | err e => rw [hx] at h; cases h
            | panic => rw [hx] at h; cases h
  · unfold parseFullBlock at h
    rw [if_pos (by omega)] at h
    cases h

theorem parseFullBlock_frame (p : Profile) (pairs : Bytes) (hl : pairs.length + 24 ≤ 16384) :
    parseFullBlock p (wireFrame pairs) = (extractValues pairs).bind fun content =>
      .ok ⟨0, pairs.length + 32, pairs.length + 24, pairs.length, content, pairs.length + 24, Ksusig.magic⟩ := by
  have hwl := wireFrame_length' pairs
  have hsz : leNat (leBytes 8 (pairs.length + 24)) = pairs.length + 24 :=
    leNat_leBytes_of_lt (by have : (256 : Nat) ^ 8 = 2 ^ 64 := by decide
                            omega)
  have h1 : (wireFrame pairs).drop ((wireFrame pairs).length - 16) = Ksusig.magic := by
    rw [hwl, wireFrame]
    rw [show pairs.length + 32 - 16 = (leBytes 8 (pairs.length + 24) ++ pairs ++ leBytes 8 (pairs.length + 24)).length by
      simp; omega, List.drop_left]
    rfl
  have h2 : (wireFrame pairs).take 8 = leBytes 8 (pairs.length + 24) := by
    rw [wireFrame, List.append_assoc, List.append_assoc]
    rw [List.take_append_of_le_length (by simp), List.take_of_length_le (by simp)]
  have h3 : ((wireFrame pairs).drop ((wireFrame pairs).length - 24)).take 8 = leBytes 8 (pairs.length + 24) := by
    rw [hwl, wireFrame, List.append_assoc]
    rw [show pairs.length + 32 - 24 = (leBytes 8 (pairs.length + 24) ++ pairs).length by simp; omega, List.drop_left]
    rw [List.take_append_of_le_length (by simp), List.take_of_length_le (by simp)]
  have h4 : ((wireFrame pairs).drop 8).take ((wireFrame pairs).length - 32) = pairs := by
    rw [hwl, wireFrame, List.append_assoc, List.append_assoc, List.drop_append_of_le_length (by simp)]
    rw [List.drop_of_length_le (by simp), List.nil_append]
    rw [show pairs.length + 32 - 32 = pairs.length by omega, List.take_left]
  rw [parseFullBlock_eq p _ (by omega), h1, h2, h3, h4, hsz]
  rw [if_neg (by simp), if_neg (by simp), if_neg (by omega), if_neg (by omega), hwl]
  rw [show pairs.length + 32 - 8 = pairs.length + 24 by omega, show pairs.length + 32 - 32 = pairs.length by omega]

theorem fromReaderScan_cases (p : Profile) (file : Bytes) (fl ws : Nat) (w : Bytes) : ∀ n,
    (fromReaderScan p file fl ws w n = .err .magicNotFound ∧ ∀ u, 8 ≤ u → u < n → ¬ MagicAt w u) ∨
    ∃ t s, 8 ≤ t ∧ t < n ∧ MagicAt w t ∧ slice? w (t - 8) t = some s ∧
      (∀ u, t < u → u < n → ¬ MagicAt w u) ∧ fromReaderScan p file fl ws w n = fromReaderAt p file fl ws w t s := by
  intro n
  induction n with
  | zero => exact .inl ⟨rfl, fun u h1 h2 => by omega⟩
  | succ n ih =>
    have step : ∀ (hnot : n < 8 ∨ ¬ MagicAt w n)
        (_ : fromReaderScan p file fl ws w (n + 1) = fromReaderScan p file fl ws w n)
        (_ : ¬ MagicAt w n ∨ n < 8),
      (fromReaderScan p file fl ws w (n + 1) = .err .magicNotFound ∧ ∀ u, 8 ≤ u → u < n + 1 → ¬ MagicAt w u) ∨
      ∃ t s, 8 ≤ t ∧ t < n + 1 ∧ MagicAt w t ∧ slice? w (t - 8) t = some s ∧
        (∀ u, t < u → u < n + 1 → ¬ MagicAt w u) ∧
        fromReaderScan p file fl ws w (n + 1) = fromReaderAt p file fl ws w t s := by
      intro hnot he _
      rw [he]
      rcases ih with ⟨h1, h2⟩ | ⟨t, s, h1, h2, h3, h4, h5, h6⟩
      · refine .inl ⟨h1, fun u hu1 hu2 => ?_⟩
        by_cases hu : u = n
        · subst hu
          rcases hnot with h | h
          · omega
          · exact h
        · exact h2 u hu1 (by omega)
      · refine .inr ⟨t, s, h1, by omega, h3, h4, fun u hu1 hu2 => ?_, h6⟩
        by_cases hu : u = n
        · subst hu
          rcases hnot with h | h
          · omega
          · exact h
        · exact h5 u hu1 (by omega)
    cases hs : slice? w n (n + 16) with
    | none =>
      have : ¬ MagicAt w n := by rw [MagicAt, hs]; simp
      refine step (.inr this) ?_ (.inl this)
      rw [fromReaderScan, hs]
    | some m =>
      by_cases hm : m = Ksusig.magic
      · by_cases h8 : n < 8
        · refine step (.inl h8) ?_ (.inr h8)
          rw [fromReaderScan, hs]
          simp only [hm, if_true, h8]
        · have hlen := (slice?_eq_some hs).2.1
          have hsz : slice? w (n - 8) (n - 8 + 8) = some ((w.drop (n - 8)).take (n - 8 + 8 - (n - 8))) :=
            slice?_of_le (by omega) (by omega)
          refine .inr ⟨n, (w.drop (n - 8)).take (n - 8 + 8 - (n - 8)), by omega, by omega, by rw [MagicAt, hs, hm], ?_,
            fun u h1 h2 => by omega, ?_⟩
          · rw [show n - 8 + 8 = n by omega] at hsz ⊢; exact hsz
          · rw [fromReaderScan, hs]
            simp only [hm, if_true, h8, if_false, hsz]
      · have : ¬ MagicAt w n := by
          rw [MagicAt, hs]; intro h; exact hm (Option.some.inj h)
        refine step (.inr this) ?_ (.inl this)
        rw [fromReaderScan, hs]
        simp only [hm, if_false]

theorem fromReader_ok {p : Profile} {file : Bytes} {fl eo : Nat} {b : SigningBlock}
    (h : NoElf.fromReader p file fl eo = .ok b) :
    ∃ pre pairs post, file = pre ++ wireFrame pairs ++ post ∧ pairs.length + 24 ≤ maxBlockSize ∧
      extractValues pairs = .ok b.content ∧ pre.length + pairs.length + 32 ≤ fl - eo ∧
      (∀ u, u + 16 ≤ fl - eo → MagicAt file u → u ≤ pre.length + pairs.length + 16) ∧
      b = ⟨pre.length, pre.length + pairs.length + 32, pairs.length + 24, pairs.length, b.content, pairs.length + 24,
        Ksusig.magic⟩ := by
  unfold NoElf.fromReader at h
  dsimp only at h
  generalize hse : fl - eo = se at *
  split at h
  · cases h
  · rename_i hbig
    have hmw : maxWindow = 16 * 1024 * 1024 := rfl
    obtain ⟨w, hw, h⟩ := Res.bind_eq_ok.mp h
    have hw := readExactAt_ok hw
    generalize hws : min se maxWindow = n at *
    generalize hst : se - n = ws at *
    have hwl := (slice?_eq_some hw).2.2.2
    have hwf := (slice?_eq_some hw).2.1
    rcases fromReaderScan_cases p file fl ws w (n - 16 + 1) with ⟨h1, _⟩ | ⟨t, s, h1, h2, h3, h4, h5, h6⟩
    · rw [h1] at h; cases h
    · rw [h6] at h
      have hmag : ∀ u, u + 16 ≤ se → MagicAt file u → u ≤ ws + t := by
        intro u hu2 hu3
        by_cases hle : u ≤ ws + t
        · exact hle
        · exfalso
          refine h5 (u - ws) (by omega) (by omega) ?_
          rw [MagicAt, window_slice hw (by omega) (by omega), show ws + (u - ws) = u by omega,
            show ws + (u - ws + 16) = u + 16 by omega]
          exact hu3
      unfold NoElf.fromReaderAt at h
      dsimp only at h
      generalize hbs : leNat s = bs at *
      split at h
      · cases h
      · split at h
        · cases h
        · split at h
          · split at h
            · cases h
            · rename_i hmax _ _ hmin
              obtain ⟨full, hf, h⟩ := Res.bind_eq_ok.mp h
              obtain ⟨sig, hp, h⟩ := Res.bind_eq_ok.mp h
              have hf := readExactAt_ok hf
              obtain ⟨pairs, hwf2, ht, _, hb⟩ := parseFullBlock_ok hp
              have hfl := (slice?_eq_some hf).2.2.2
              have hpl : pairs.length + 32 = bs + 8 := by
                have := wireFrame_length' pairs
                rw [← hwf2] at this; omega
              have hle := (slice?_eq_some hf).2.1
              cases h
              refine ⟨file.take (ws + (t + 16) - (bs + 8)), pairs, file.drop (ws + (t + 16) - (bs + 8) + (bs + 8)),
                ?_, by omega, ht, ?_, ?_, ?_⟩
              · rw [← hwf2]; exact slice?_split hf
              · rw [List.length_take]; omega
              · intro u hu2 hu3
                have := hmag u hu2 hu3
                rw [List.length_take]; omega
              · have hl : (file.take (ws + (t + 16) - (bs + 8))).length = ws + (t + 16) - (bs + 8) := by
                  rw [List.length_take]; omega
                rw [hl, hb]
                congr 1
                omega
          · rename_i hmax _ hmin
            obtain ⟨full, hf, h⟩ := Res.bind_eq_ok.mp h
            obtain ⟨sig, hp, h⟩ := Res.bind_eq_ok.mp h
            have hf : slice? w (t + 16 - (bs + 8)) (t + 16) = some full := by
              cases hx : slice? w (t + 16 - (bs + 8)) (t + 16) with
              | none => rw [hx] at hf; cases hf
              | some y => rw [hx] at hf; cases hf; rfl
            rw [window_slice hw (by omega) (by omega)] at hf
            obtain ⟨pairs, hwf2, ht, _, hb⟩ := parseFullBlock_ok hp
            have hfl := (slice?_eq_some hf).2.2.2
            have hpl : pairs.length + 32 = bs + 8 := by
              have := wireFrame_length' pairs
              rw [← hwf2] at this; omega
            have hle := (slice?_eq_some hf).2.1
            cases h
            have hl : (file.take (ws + (t + 16 - (bs + 8)))).length = ws + (t + 16 - (bs + 8)) := by
              rw [List.length_take]; omega
            refine ⟨file.take (ws + (t + 16 - (bs + 8))), pairs, file.drop (ws + (t + 16)),
              ?_, by omega, ht, ?_, ?_, ?_⟩
            · rw [← hwf2]; exact slice?_split hf
            · rw [hl]; omega
            · intro u hu2 hu3
              have := hmag u hu2 hu3
              rw [hl]; omega
            · rw [hl, hb]
              congr 1
              omega

theorem fromReader_window {p : Profile} {file : Bytes} {fl eo : Nat} {b : SigningBlock}
    (h : NoElf.fromReader p file fl eo = .ok b) :
    fl - eo ≤ file.length ∧ fl - eo + 24 ≤ b.fileEnd + 16777216 := by
  unfold NoElf.fromReader at h
  dsimp only at h
  generalize hse : fl - eo = se at *
  split at h
  · cases h
  · rename_i hbig
    have hmw : maxWindow = 16777216 := rfl
    obtain ⟨w, hw, h⟩ := Res.bind_eq_ok.mp h
    have hw := readExactAt_ok hw
    have hwf := (slice?_eq_some hw).2.1
    refine ⟨by omega, ?_⟩
    rcases fromReaderScan_cases p file fl (se - min se maxWindow) w (min se maxWindow - 16 + 1) with
      ⟨h1, _⟩ | ⟨t, s, h1, h2, h3, h4, h5, h6⟩
    · rw [h1] at h; cases h
    · rw [h6] at h
      unfold NoElf.fromReaderAt at h
      dsimp only at h
      split at h
      · cases h
      · split at h
        · cases h
        · split at h
          · split at h
            · cases h
            · obtain ⟨full, hf, h⟩ := Res.bind_eq_ok.mp h
              obtain ⟨sig, hp, h⟩ := Res.bind_eq_ok.mp h
              cases h
              dsimp only
              omega
          · obtain ⟨full, hf, h⟩ := Res.bind_eq_ok.mp h
            obtain ⟨sig, hp, h⟩ := Res.bind_eq_ok.mp h
            cases h
            dsimp only
            omega

theorem fromReader_frame_any (p : Profile) (pre pairs post : Bytes) {file : Bytes} {fl eo : Nat}
    (hfile : file = pre ++ wireFrame pairs ++ post)
    (hlim : pairs.length + 24 ≤ maxBlockSize) (hle : fl - eo ≤ file.length)
    (hend : pre.length + (pairs.length + 32) ≤ fl - eo)
    (hwin : fl - eo + 24 ≤ pre.length + (pairs.length + 32) + maxWindow)
    (hlast : ∀ u, u + 16 ≤ fl - eo → MagicAt file u → u ≤ pre.length + pairs.length + 16) :
    NoElf.fromReader p file fl eo =
      (parseFullBlock p (wireFrame pairs) >>= fun sig =>
        .ok { sig with fileStart := pre.length, fileEnd := pre.length + (pairs.length + 32) }) := by
  have hmb : maxBlockSize = 16384 := rfl
  have hwl := wireFrame_length' pairs
  unfold NoElf.fromReader
  dsimp only
  have hfl : fl - eo ≤ fl := Nat.sub_le _ _
  generalize fl - eo = se at *
  generalize hws : min se maxWindow = ws
  have hmw : maxWindow = 16777216 := rfl
  rw [if_neg (by omega)]
  have hsl : slice? file (se - ws) (se - ws + ws) = some ((file.drop (se - ws)).take ws) := by
    rw [slice?_of_le (by omega) (by omega)]; simp
  have hread : readExactAt file (se - ws) ws = .ok ((file.drop (se - ws)).take ws) := by
    unfold readExactAt; rw [hsl]; rfl
  generalize (file.drop (se - ws)).take ws = w at hread hsl
  generalize hst : se - ws = st at *
  rw [hread]
  simp only [Res.ok_bind]
  have f1 : slice? file (pre.length + pairs.length + 16) (pre.length + pairs.length + 32) = some Ksusig.magic := by
    rw [hfile]; exact frame_magic pre pairs post
  have f2 : slice? file (pre.length + pairs.length + 8) (pre.length + pairs.length + 16) =
      some (leBytes 8 (pairs.length + 24)) := by
    rw [hfile]; exact frame_tail pre pairs post
  have f3 : slice? file pre.length (pre.length + (pairs.length + 32)) = some (wireFrame pairs) := by
    rw [hfile]; exact frame_whole pre pairs post
  have w1 : MagicAt w (pre.length + pairs.length + 16 - st) := by
    unfold MagicAt
    rw [window_slice hsl (by omega) (by omega), ← f1]; congr 1 <;> omega
  have w2 : slice? w (pre.length + pairs.length + 16 - st - 8) (pre.length + pairs.length + 16 - st) =
      some (leBytes 8 (pairs.length + 24)) := by
    rw [window_slice hsl (by omega) (by omega), ← f2]; congr 1 <;> omega
  rcases fromReaderScan_cases p file fl st w (ws - 16 + 1) with ⟨_, h⟩ | ⟨t, s, h1, h2, h3, h4, h5, h6⟩
  · exact absurd w1 (h _ (by omega) (by omega))
  · have ht : t = pre.length + pairs.length + 16 - st := by
      rcases Nat.lt_trichotomy t (pre.length + pairs.length + 16 - st) with hlt | heq | hgt
      · exact absurd w1 (h5 _ hlt (by omega))
      · exact heq
      · exfalso
        have := hlast (st + t) (by omega) (by
          unfold MagicAt at h3 ⊢
          rw [window_slice hsl (by omega) (by omega)] at h3
          exact h3)
        omega
    subst ht
    rw [w2] at h4
    cases h4
    rw [h6]
    unfold NoElf.fromReaderAt
    have hsz : leNat (leBytes 8 (pairs.length + 24)) = pairs.length + 24 :=
      leNat_leBytes_of_lt (by have : (256 : Nat) ^ 8 = 2 ^ 64 := by decide
                              omega)
    simp only [hsz]
    rw [if_neg (by omega), if_neg (by omega)]
    by_cases hstr : pre.length + pairs.length + 16 - st + 16 < pairs.length + 24 + 8
    · rw [if_pos hstr, if_neg (by omega)]
      have e1 : st + (pre.length + pairs.length + 16 - st + 16) - (pairs.length + 24 + 8) = pre.length := by omega
      rw [e1]
      unfold readExactAt
      rw [show pre.length + (pairs.length + 24 + 8) = pre.length + (pairs.length + 32) by omega, f3]
      simp only [Res.ofOption_some, Res.ok_bind]
      rw [show st + (pre.length + pairs.length + 16 - st + 16) = pre.length + (pairs.length + 32) by omega]
    · rw [if_neg hstr]
      have w3 : slice? w (pre.length - st) (pre.length + (pairs.length + 32) - st) = some (wireFrame pairs) := by
        rw [window_slice hsl (by omega) (by omega), show st + (pre.length - st) = pre.length by omega,
          show st + (pre.length + (pairs.length + 32) - st) = pre.length + (pairs.length + 32) by omega]
        exact f3
      rw [show pre.length + pairs.length + 16 - st + 16 - (pairs.length + 24 + 8) = pre.length - st by omega,
        show pre.length + pairs.length + 16 - st + 16 = pre.length + (pairs.length + 32) - st by omega, w3]
      simp only [Res.ofOption_some, Res.ok_bind]
      rw [show st + (pre.length - st) = pre.length by omega,
        show st + (pre.length + (pairs.length + 32) - st) = pre.length + (pairs.length + 32) by omega]

/-- Exactly what `from_reader` accepts. -/
theorem fromReader_iff {p : Profile} {file : Bytes} {fl eo : Nat} {b : SigningBlock} :
    NoElf.fromReader p file fl eo = .ok b ↔
    ∃ pre pairs post, file = pre ++ wireFrame pairs ++ post ∧ pairs.length + 24 ≤ 16384 ∧ BareContent pairs b.content ∧
      fl - eo ≤ file.length ∧ pre.length + pairs.length + 32 ≤ fl - eo ∧
      fl - eo + 24 ≤ pre.length + pairs.length + 32 + 16777216 ∧
      (∀ u, u + 16 ≤ fl - eo → MagicAt file u → u ≤ pre.length + pairs.length + 16) ∧
      b = ⟨pre.length, pre.length + pairs.length + 32, pairs.length + 24, pairs.length, b.content, pairs.length + 24,
        Ksusig.magic⟩ := by
  have hmb : maxBlockSize = 16384 := rfl
  have hmw : maxWindow = 16777216 := rfl
  constructor
  · intro h
    obtain ⟨pre, pairs, post, h1, h2, h3, h4, h5, h6⟩ := fromReader_ok h
    obtain ⟨h7, h8⟩ := fromReader_window h
    have h9 : b.fileEnd = pre.length + pairs.length + 32 := by rw [h6]
    exact ⟨pre, pairs, post, h1, h2, (extractValues_iff (by omega)).mp h3, h7, h4, by omega, h5, h6⟩
  · rintro ⟨pre, pairs, post, hd, hl, hc, hle, hend, hwin, hlast, hb⟩
    rw [fromReader_frame_any p pre pairs post hd (by omega) hle (by omega) (by omega) hlast, parseFullBlock_frame p pairs hl,
      (extractValues_iff (by omega)).mpr hc]
    simp only [Res.bind_ok, Res.ok_bind]
    rw [hb, show pre.length + (pairs.length + 32) = pre.length + pairs.length + 32 by omega]

/-- The block that is read is the one in force. -/
theorem fromReader_before {p : Profile} {file : Bytes} {off : Nat} {b : SigningBlock} :
    NoElf.fromReader p file file.length (file.length - off) = .ok b ↔
    ∃ pre pairs, BareBlock file (min file.length off) pre pairs b.content ∧
      b = ⟨pre.length, pre.length + pairs.length + 32, pairs.length + 24, pairs.length, b.content, pairs.length + 24,
        Ksusig.magic⟩ := by
  rw [fromReader_iff, limit_eq]
  constructor
  · rintro ⟨pre, pairs, post, h1, h2, h3, _, h5, h6, h7, h8⟩
    exact ⟨pre, pairs, ⟨⟨post, h1⟩, h2, h3, h5, h6, h7⟩, h8⟩
  · rintro ⟨pre, pairs, ⟨⟨post, h1⟩, h2, h3, h5, h6, h7⟩, h8⟩
    exact ⟨pre, pairs, post, h1, h2, h3, by omega, h5, h6, h7, h8⟩

/-- "Not signed" is said exactly when nothing looks like a block. -/
theorem fromReader_missing {p : Profile} {file : Bytes} {off : Nat} :
    (∃ e, NoElf.fromReader p file file.length (file.length - off) = .err e ∧ e.isMissing = true) ↔
      Unsigned file (min file.length off) := by
  rw [← Ksusig.fromReader_missing (p := p)]
  have h := fromReader_sides p file file.length (file.length - off)
  generalize SigningBlock.fromReader p file file.length (file.length - off) = x at h
  generalize NoElf.fromReader p file file.length (file.length - off) = y at h
  constructor
  · rintro ⟨e, rfl, hm⟩
    cases h with
    | same => exact ⟨e, rfl, hm⟩
    | errs e' _ _ h2 => rw [hm] at h2; cases h2
  · rintro ⟨e, rfl, hm⟩
    cases h with
    | same => exact ⟨e, rfl, hm⟩
    | errs _ e' h1 _ => rw [hm] at h1; cases h1
    | more _ _ h1 _ => rw [hm] at h1; cases h1

end Ksusig.NoElf
