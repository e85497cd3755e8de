import Verif.Spec
import Verif.Proofs.Total

/-! Inversion of successful decoding. -/

namespace Ksusig

open Spec

theorem slice?_concat {d x y : Bytes} {a b c : Nat} (h1 : slice? d a b = some x) (h2 : slice? d b c = some y) :
    slice? d a c = some (x ++ y) := by
  obtain ⟨a1, a2, a3, a4⟩ := slice?_eq_some h1
  obtain ⟨b1, b2, b3, b4⟩ := slice?_eq_some h2
  rw [slice?_of_le (by omega) b2, a3, b3]
  congr 1
  have e : c - a = (b - a) + (c - b) := by omega
  rw [e, List.take_add]
  congr 2
  rw [List.drop_drop]; congr 1; omega

theorem slice?_self {d : Bytes} {a : Nat} (h : a ≤ d.length) : slice? d a a = some [] := by
  rw [slice?_of_le (Nat.le_refl _) h]; simp

theorem slice?_all (d : Bytes) : slice? d 0 d.length = some d := by
  rw [slice?_of_le (Nat.zero_le _) (Nat.le_refl _)]; simp

namespace P

theorem bind_ok {p : P α} {f : α → P β} {r r' : Reader} {b : β} (h : (p >>= f) r = .ok (b, r')) :
    ∃ a r1, p r = .ok (a, r1) ∧ f a r1 = .ok (b, r') := by
  rw [bind_def] at h
  cases hp : p r with
  | ok x => obtain ⟨a, r1⟩ := x; rw [hp] at h; exact ⟨a, r1, rfl, h⟩
  | err e => rw [hp] at h; cases h
  | panic => rw [hp] at h; cases h

theorem getTo_ok {n : Nat} {r r' : Reader} {d : Bytes} (h : getTo n r = .ok (d, r')) :
    slice? r.data r.pos (r.pos + n) = some d ∧ r' = ⟨r.data, r.pos + n⟩ := by
  unfold getTo at h
  cases hs : slice? r.data r.pos (r.pos + n) with
  | none => rw [hs] at h; cases h
  | some x => rw [hs] at h; cases h; exact ⟨rfl, rfl⟩

theorem readLe_ok {n x : Nat} {r r' : Reader} (h : readLe n r = .ok (x, r')) :
    slice? r.data r.pos (r.pos + n) = some (leBytes n x) ∧ x < 256 ^ n ∧ r' = ⟨r.data, r.pos + n⟩ := by
  obtain ⟨d, r1, h1, h2⟩ := bind_ok h
  obtain ⟨h3, rfl⟩ := getTo_ok h1
  rw [pure_def] at h2
  cases h2
  have hl := (slice?_eq_some h3).2.2.2
  have hl' : d.length = n := by omega
  refine ⟨?_, ?_, rfl⟩
  · rw [h3]; congr 1; rw [← hl']; exact (leBytes_leNat d).symm
  · rw [← hl']; exact leNat_lt d

theorem readU32_ok {x : UInt32} {r r' : Reader} (h : readU32 r = .ok (x, r')) :
    slice? r.data r.pos (r.pos + 4) = some (leBytes 4 x.toNat) ∧ r' = ⟨r.data, r.pos + 4⟩ := by
  obtain ⟨y, r1, h1, h2⟩ := bind_ok h
  obtain ⟨h3, h4, rfl⟩ := readLe_ok h1
  rw [pure_def] at h2
  cases h2
  refine ⟨?_, rfl⟩
  rw [h3]; congr 2
  rw [UInt32.toNat_ofNat']
  exact (Nat.mod_eq_of_lt (by simpa using h4)).symm

theorem asSlice_ok {n : Nat} {r r' s : Reader} (h : asSlice n r = .ok (s, r')) :
    ∃ d, slice? r.data r.pos (r.pos + n) = some d ∧ s = ⟨d, 0⟩ ∧ r' = ⟨r.data, r.pos + n⟩ := by
  rw [asSlice_eq] at h
  cases hs : slice? r.data r.pos (r.pos + n) with
  | none => rw [hs] at h; cases h
  | some d => rw [hs] at h; cases h; exact ⟨d, rfl, rfl, rfl⟩

theorem on_ok {s r r' : Reader} {p : P α} {a : α} (h : on s p r = .ok (a, r')) :
    r' = r ∧ ∃ s', p s = .ok (a, s') := by
  unfold on at h
  cases hp : p s with
  | ok x => obtain ⟨b, s'⟩ := x; rw [hp] at h; cases h; exact ⟨rfl, s', rfl⟩
  | err e => rw [hp] at h; cases h
  | panic => rw [hp] at h; cases h

end P

theorem P.repeatN_length {item : P α} : ∀ (n : Nat) {r r' : Reader} {l : List α},
    P.repeatN item n r = .ok (l, r') → l.length = n
  | 0, r, r', l, h => by cases h; rfl
  | n + 1, r, r', l, h => by
    obtain ⟨a, r1, _, h2⟩ := P.bind_ok h
    obtain ⟨as, r2, h3, h4⟩ := P.bind_ok h2
    rw [P.pure_def] at h4; cases h4
    simp [P.repeatN_length n h3]

theorem Value.parseBody_ok {ps : Nat} {id : UInt32} {value : Bytes} {r r' : Reader} {v : Value}
    (hps : ps = 4 + value.length) (h : Value.parseBody ps id ⟨value, 0⟩ r = .ok (v, r')) :
    r' = r ∧ PairOk id value v := by
  unfold Value.parseBody at h
  split at h
  · rename_i hid
    obtain ⟨s, r1, h1, h2⟩ := P.bind_ok h
    obtain ⟨rfl, s', h3⟩ := P.on_ok h1
    rw [P.pure_def] at h2; cases h2
    obtain ⟨x, r2, _, h4⟩ := P.bind_ok h3
    rw [P.pure_def] at h4; cases h4
    exact ⟨rfl, hid, rfl, hps⟩
  · rename_i hid1
    split at h
    · rename_i hid
      obtain ⟨s, r1, h1, h2⟩ := P.bind_ok h
      obtain ⟨rfl, s', h3⟩ := P.on_ok h1
      rw [P.pure_def] at h2; cases h2
      obtain ⟨x, r2, _, h4⟩ := P.bind_ok h3
      rw [P.pure_def] at h4; cases h4
      exact ⟨rfl, hid, rfl, hps⟩
    · rename_i hid2
      split at h
      · rename_i hid
        obtain ⟨s, r1, h1, h2⟩ := P.bind_ok h
        obtain ⟨rfl, s', h3⟩ := P.on_ok h1
        rw [P.pure_def] at h2; cases h2
        obtain ⟨x, r2, _, h4⟩ := P.bind_ok h3
        obtain ⟨y, r3, h6, h5⟩ := P.bind_ok h4
        rw [P.pure_def] at h5; cases h5
        exact ⟨rfl, hid, rfl, hps, (P.repeatN_length _ h6).symm⟩
      · rename_i hid3
        rw [P.pure_def] at h; cases h
        exact ⟨rfl, by rw [hps], hid1, hid2, hid3⟩

theorem Value.parse_ok {r r' : Reader} {v : Value} (h : Value.parse r = .ok (v, r')) :
    ∃ id value, value.length + 4 ≤ maxPairSize ∧ slice? r.data r.pos r'.pos = some (wirePair id value) ∧
      PairOk id value v ∧ r'.data = r.data ∧ r'.pos = r.pos + 12 + value.length := by
  obtain ⟨ps, r1, h1, h2⟩ := P.bind_ok h
  obtain ⟨a1, a2, rfl⟩ := P.readLe_ok h1
  split at h2
  · cases h2
  · rename_i hmax
    obtain ⟨id, r2, h3, h4⟩ := P.bind_ok h2
    obtain ⟨b1, rfl⟩ := P.readU32_ok h3
    dsimp only at h4 b1
    split at h4
    · cases h4
    · rename_i hmin
      obtain ⟨s, r3, h5, h6⟩ := P.bind_ok h4
      obtain ⟨value, c1, rfl, rfl⟩ := P.asSlice_ok h5
      dsimp only at c1 h6
      have hl := (slice?_eq_some c1).2.2.2
      obtain ⟨rfl, hok⟩ := Value.parseBody_ok (by omega) h6
      refine ⟨id, value, by omega, ?_, hok, rfl, by dsimp only; omega⟩
      have := slice?_concat (slice?_concat a1 b1) c1
      rw [wirePair]
      rw [show 4 + value.length = ps by omega]
      exact this

theorem whileLt_tiled (max : Nat) : ∀ (f : Nat) (r r' : Reader) (vs : List Value),
    max ≤ r.data.length → r.pos ≤ max → r.data.length = max →
    P.whileLt Value.parse max f r = .ok (vs, r') →
      ∃ seg, slice? r.data r.pos max = some seg ∧ Tiled seg vs := by
  intro f
  induction f with
  | zero =>
    intro r r' vs h1 h2 h3 h
    rw [P.whileLt] at h
    dsimp only at h
    split at h
    · cases h
    · cases h
      have : r.pos = max := by omega
      rw [this]
      exact ⟨[], slice?_self h1, .nil⟩
  | succ f ih =>
    intro r r' vs h1 h2 h3 h
    rw [P.whileLt] at h
    dsimp only at h
    split at h
    · cases hv : Value.parse r with
      | ok x =>
        obtain ⟨v, r1⟩ := x
        rw [hv] at h
        simp only [Res.bind_ok] at h
        obtain ⟨id, value, _, hs, hok, hd, hp⟩ := Value.parse_ok hv
        have hle := (slice?_eq_some hs).2.1
        cases hw : P.whileLt Value.parse max f r1 with
        | ok y =>
          obtain ⟨vs', r2⟩ := y
          rw [hw] at h
          cases h
          obtain ⟨seg, hseg, ht⟩ := ih r1 r2 vs' (by rw [hd]; exact h1) (by omega) (by rw [hd]; exact h3) hw
          rw [hd] at hseg
          exact ⟨_, slice?_concat hs hseg, .cons id value v seg vs' hok ht⟩
        | err e => rw [hw] at h; cases h
        | panic => rw [hw] at h; cases h
      | err e => rw [hv] at h; cases h
      | panic => rw [hv] at h; cases h
    · cases h
      have : r.pos = max := by omega
      rw [this]
      exact ⟨[], slice?_self h1, .nil⟩

theorem extractValues_ok {d : Bytes} {vs : List Value} (h : extractValues d = .ok vs) : Tiled d vs := by
  unfold extractValues P.loopTo at h
  cases hw : P.whileLt Value.parse d.length ((Reader.new d).data.length + 1) (Reader.new d) with
  | ok x =>
    obtain ⟨ws, r⟩ := x
    rw [hw] at h
    cases h
    obtain ⟨seg, hseg, ht⟩ := whileLt_tiled d.length _ (Reader.new d) r vs (Nat.le_refl _) (Nat.zero_le _) rfl hw
    simp only [Reader.new, slice?_all] at hseg
    cases hseg
    exact ht
  | err e => rw [hw] at h; cases h
  | panic => rw [hw] at h; cases h

/-- `parse_full_block` with the always-successful slices resolved. -/
theorem parseFullBlock_eq (p : Profile) (d : Bytes) (hl : 32 ≤ d.length) :
    parseFullBlock p d =
      if d.drop (d.length - 16) ≠ Ksusig.magic then .err .magicNotFound
      else if leNat (d.take 8) ≠ leNat ((d.drop (d.length - 24)).take 8) then
        (match p with | .dev => .panic | .release => .err .sizeMismatch)
      else if leNat (d.take 8) < 24 then .err .blockTooSmall
      else if d.length ≠ leNat (d.take 8) + 8 then .err .lengthMismatch
      else (extractValues ((d.drop 8).take (d.length - 32))).bind fun content =>
        .ok ⟨0, d.length, d.length - 8, d.length - 32, content, d.length - 8, Ksusig.magic⟩ := by
  unfold parseFullBlock
  rw [if_neg (by omega)]
  have s1 : slice? d (d.length - 16) d.length = some (d.drop (d.length - 16)) := by
    rw [slice?_of_le (by omega) (Nat.le_refl _)]
    congr 1
    rw [List.take_of_length_le]
    simp
  have s2 : slice? d 0 8 = some (d.take 8) := by
    rw [slice?_of_le (by omega) (by omega)]; simp
  have s3 : slice? d (d.length - 16 - 8) (d.length - 16) = some ((d.drop (d.length - 24)).take 8) := by
    rw [slice?_of_le (by omega) (by omega)]
    rw [show d.length - 16 - 8 = d.length - 24 by omega, show d.length - 16 - (d.length - 24) = 8 by omega]
  have s4 : slice? d 8 (d.length - 16 - 8) = some ((d.drop 8).take (d.length - 32)) := by
    rw [slice?_of_le (by omega) (by omega)]
    rw [show d.length - 16 - 8 - 8 = d.length - 32 by omega]
  rw [s1, s2, s3, s4]
  simp only [Res.ofOption_some, Res.ok_bind]
  by_cases hm : d.drop (d.length - 16) = Ksusig.magic
  · simp only [hm, ne_eq, not_true, if_false]
    generalize leNat (d.take 8) = a
    generalize leNat ((d.drop (d.length - 24)).take 8) = b
    by_cases hab : a = b
    · subst hab
      have : debugAssert p (a == a) = .ok () := by cases p <;> simp [debugAssert]
      rw [this]
      simp only [Res.ok_bind, not_true, if_false]
      by_cases h1 : a < 24
      · rw [if_pos h1, if_pos h1]
      · rw [if_neg h1, if_neg h1]
        by_cases h2 : d.length = a + 8
        · simp only [h2, not_true, if_false]
          rw [show a + 8 - 32 = a - 8 - 16 by omega, show a + 8 - 8 = a by omega]
          rfl
        · simp only [h2, not_false_eq_true, if_true]
    · have hne : (a == b) = false := by simpa using hab
      cases p
      · simp [debugAssert, hne, hab]
      · simp [debugAssert, hab]
  · simp only [ne_eq, hm, not_false_eq_true, if_true]

/-- Success of `parse_full_block`. -/
theorem parseFullBlock_ok {p : Profile} {d : Bytes} {b : SigningBlock} (h : parseFullBlock p d = .ok b) :
    ∃ pairs, d = wireFrame pairs ∧ extractValues pairs = .ok b.content ∧ d.length < 2 ^ 64 + 8 ∧
      b = ⟨0, d.length, pairs.length + 24, pairs.length, b.content, pairs.length + 24, Ksusig.magic⟩ := by
  by_cases hl : 32 ≤ d.length
  · rw [parseFullBlock_eq p d hl] at h
    split at h
    · cases h
    · rename_i hm
      split at h
      · cases p <;> cases h
      · rename_i hab
        split at h
        · cases h
        · split at h
          · cases h
          · rename_i h24 hlen
            simp only [ne_eq, Decidable.not_not] at hm hab hlen
            cases hx : extractValues ((d.drop 8).take (d.length - 32)) with
            | ok vs =>
              rw [hx] at h
              cases h
              have hpl : ((d.drop 8).take (d.length - 32)).length = d.length - 32 := by simp; omega
              refine ⟨(d.drop 8).take (d.length - 32), ?_, hx, ?_, ?_⟩
              · have t1 : leBytes 8 (leNat (d.take 8)) = d.take 8 := by
                  have := leBytes_leNat (d.take 8)
                  rwa [List.length_take, Nat.min_eq_left (by omega)] at this
                have t2 : leBytes 8 (leNat (d.take 8)) = (d.drop (d.length - 24)).take 8 := by
                  rw [hab]
                  have := leBytes_leNat ((d.drop (d.length - 24)).take 8)
                  rwa [List.length_take, List.length_drop, Nat.min_eq_left (by omega)] at this
                rw [wireFrame, hpl, show d.length - 32 + 24 = leNat (d.take 8) by omega]
                have hm' : d.drop (d.length - 16) = _ := hm
                unfold Ksusig.magic at hm'
                rw [← hm']
                conv => rhs; rw [List.append_assoc, List.append_assoc]
                rw [t2]
                have e1 : (d.drop (d.length - 24)).take 8 ++ d.drop (d.length - 16) = d.drop (d.length - 24) := by
                  have := List.take_append_drop 8 (d.drop (d.length - 24))
                  rw [List.drop_drop, show d.length - 24 + 8 = d.length - 16 by omega] at this
                  exact this
                rw [e1]
                have e2 : (d.drop 8).take (d.length - 32) ++ d.drop (d.length - 24) = d.drop 8 := by
                  have := List.take_append_drop (d.length - 32) (d.drop 8)
                  rw [List.drop_drop, show 8 + (d.length - 32) = d.length - 24 by omega] at this
                  exact this
                rw [e2, ← t2, t1]
                exact (List.take_append_drop 8 d).symm
              · have := leNat_lt (d.take 8)
                rw [List.length_take, Nat.min_eq_left (by omega)] at this
                omega
              · rw [hpl]
                rw [show d.length - 32 + 24 = d.length - 8 by omega]
            | err e => rw [hx] at h; cases h
            | panic => rw [hx] at h; cases h
  · unfold parseFullBlock at h
    rw [if_pos (by omega)] at h
    cases h

/-- `parse_full_block` on untrusted data. -/
theorem parseFullBlock_total (d : Bytes) :
    parseFullBlock .release d ≠ .panic ∧ parseFullBlock .release d ≠ .err .fuel ∧
      (parseFullBlock .dev d = parseFullBlock .release d ∨
        (parseFullBlock .dev d = .panic ∧ 32 ≤ d.length ∧
          leNat (d.take 8) ≠ leNat ((d.drop (d.length - 24)).take 8))) := by
  by_cases hl : 32 ≤ d.length
  · rw [parseFullBlock_eq _ d hl, parseFullBlock_eq _ d hl]
    have hx := extractValues_total ((d.drop 8).take (d.length - 32))
    by_cases h1 : d.drop (d.length - 16) ≠ Ksusig.magic
    · rw [if_pos h1, if_pos h1]; simp
    · rw [if_neg h1, if_neg h1]
      by_cases h2 : leNat (d.take 8) ≠ leNat ((d.drop (d.length - 24)).take 8)
      · rw [if_pos h2, if_pos h2]
        exact ⟨by simp, by simp, .inr ⟨rfl, hl, h2⟩⟩
      · rw [if_neg h2, if_neg h2]
        refine ⟨?_, ?_, .inl rfl⟩
        · split
          · simp
          · split
            · simp
            · cases he : extractValues ((d.drop 8).take (d.length - 32)) with
              | ok vs => simp
              | err e => simp
              | panic => rw [he] at hx; exact hx.elim
        · split
          · simp
          · split
            · simp
            · cases he : extractValues ((d.drop 8).take (d.length - 32)) with
              | ok vs => simp
              | err e => rw [he] at hx; simpa using Err.real_ne hx
              | panic => simp
  · unfold parseFullBlock
    rw [if_pos (by omega), if_pos (by omega)]
    simp

end Ksusig
