import Verif.Model.Zip
import Verif.Proofs.Accept

/-! Finding the end-of-central-directory record. -/

namespace Ksusig

open Spec

/-- The record described by the bytes at the front of `d`. -/
def eocdOf (d : Bytes) (fo : Nat) : Eocd :=
  ⟨fo, d.take 4, UInt16.ofNat (leNat ((d.drop 4).take 2)), UInt16.ofNat (leNat ((d.drop 6).take 2)),
    UInt16.ofNat (leNat ((d.drop 8).take 2)), UInt16.ofNat (leNat ((d.drop 10).take 2)),
    UInt32.ofNat (leNat ((d.drop 12).take 4)), UInt32.ofNat (leNat ((d.drop 16).take 4)),
    UInt16.ofNat (leNat ((d.drop 20).take 2)), (d.drop 22).take (leNat ((d.drop 20).take 2))⟩

theorem u16At_eq {d : Bytes} {a : Nat} (h : a + 2 ≤ d.length) :
    u16At d a = .ok (UInt16.ofNat (leNat ((d.drop a).take 2))) := by
  unfold u16At
  rw [slice?_of_le (by omega) h]
  simp

theorem u32At_eq {d : Bytes} {a : Nat} (h : a + 4 ≤ d.length) :
    u32At d a = .ok (UInt32.ofNat (leNat ((d.drop a).take 4))) := by
  unfold u32At
  rw [slice?_of_le (by omega) h]
  simp

theorem leNat2_lt (d : Bytes) : leNat (d.take 2) < 65536 := by
  have h := leNat_lt (d.take 2)
  have : (d.take 2).length ≤ 2 := by simp; omega
  calc leNat (d.take 2) < 256 ^ (d.take 2).length := h
    _ ≤ 256 ^ 2 := Nat.pow_le_pow_right (by omega) this

theorem leNat4_lt (d : Bytes) : leNat (d.take 4) < 2 ^ 32 := by
  have h := leNat_lt (d.take 4)
  have : (d.take 4).length ≤ 4 := by simp; omega
  calc leNat (d.take 4) < 256 ^ (d.take 4).length := h
    _ ≤ 256 ^ 4 := Nat.pow_le_pow_right (by omega) this

theorem u16_toNat_leNat (d : Bytes) : (UInt16.ofNat (leNat (d.take 2))).toNat = leNat (d.take 2) := by
  have := leNat2_lt d
  simp only [UInt16.toNat_ofNat']
  omega

theorem u32_toNat_leNat (d : Bytes) : (UInt32.ofNat (leNat (d.take 4))).toNat = leNat (d.take 4) := by
  have := leNat4_lt d
  simp only [UInt32.toNat_ofNat']
  omega

theorem parseEocdAt_eq {buf : Bytes} {i : Nat} (bo fl : Nat) (h : i + 22 ≤ buf.length) :
    parseEocdAt buf i bo fl =
      if bo + i + (22 + leNat ((buf.drop (i + 20)).take 2)) > fl then .err .eocdInvalid
      else if buf.length - i < 22 + leNat ((buf.drop (i + 20)).take 2) then .err .eocdInvalid
      else .ok (eocdOf (buf.drop i) (bo + i)) := by
  unfold parseEocdAt
  have hd : (buf.drop i).length = buf.length - i := List.length_drop
  rw [sliceFrom?, if_pos (by omega)]
  simp only [Res.ofOption_some, Res.ok_bind]
  rw [if_neg (by rw [hd]; simp only [minEocdSize]; omega), slice?_of_le (by omega) (by omega)]
  rw [u16At_eq (by omega), u16At_eq (by omega), u16At_eq (by omega), u16At_eq (by omega), u32At_eq (by omega),
    u32At_eq (by omega), u16At_eq (by omega)]
  simp only [Res.ofOption_some, Res.ok_bind, u16_toNat_leNat, List.drop_drop, hd, minEocdSize]
  by_cases h1 : bo + i + (22 + leNat ((buf.drop (i + 20)).take 2)) > fl
  · rw [if_pos h1, if_pos h1]
  · rw [if_neg h1, if_neg h1]
    by_cases h2 : buf.length - i < 22 + leNat ((buf.drop (i + 20)).take 2)
    · rw [if_pos h2, if_pos h2]
    · rw [if_neg h2, if_neg h2, slice?_of_le (by omega) (by rw [hd]; omega)]
      simp only [eocdOf, Option.getD_some, List.drop_drop, Nat.sub_zero, Nat.add_sub_cancel_left, Nat.add_zero]

theorem eocdOf_toU8 {d : Bytes} (fo : Nat) (h : 22 + leNat ((d.drop 20).take 2) ≤ d.length) :
    (eocdOf d fo).toU8 = d.take (22 + leNat ((d.drop 20).take 2)) := by
  have b2 : ∀ a, a + 2 ≤ d.length → leBytes 2 (UInt16.ofNat (leNat ((d.drop a).take 2))).toNat = (d.drop a).take 2 := by
    intro a ha
    rw [u16_toNat_leNat]
    have := leBytes_leNat ((d.drop a).take 2)
    rwa [List.length_take, List.length_drop, Nat.min_eq_left (by omega)] at this
  have b4 : ∀ a, a + 4 ≤ d.length → leBytes 4 (UInt32.ofNat (leNat ((d.drop a).take 4))).toNat = (d.drop a).take 4 := by
    intro a ha
    rw [u32_toNat_leNat]
    have := leBytes_leNat ((d.drop a).take 4)
    rwa [List.length_take, List.length_drop, Nat.min_eq_left (by omega)] at this
  simp only [Eocd.toU8, eocdOf]
  rw [b2 4 (by omega), b2 6 (by omega), b2 8 (by omega), b2 10 (by omega), b4 12 (by omega), b4 16 (by omega),
    b2 20 (by omega)]
  generalize leNat ((d.drop 20).take 2) = n
  rw [← List.take_add, ← List.take_add, ← List.take_add, ← List.take_add, ← List.take_add, ← List.take_add,
    ← List.take_add, ← List.take_add]

/-- Does the record test succeed at `i`? -/
theorem RecordAt.iff {d : Bytes} {i : Nat} : RecordAt d i ↔
    i + 22 ≤ d.length ∧ slice? d i (i + 4) = some eocdSig ∧
      i + 22 + leNat ((d.drop (i + 20)).take 2) ≤ d.length := by
  exact ⟨fun ⟨a, b, c⟩ => ⟨b, a, c⟩, fun ⟨a, b, c⟩ => ⟨b, a, c⟩⟩

theorem findEocdScan_spec (buf : Bytes) (bo fl : Nat) (hfl : bo + buf.length = fl) : ∀ n, n + 21 ≤ buf.length ∨ n = 0 →
    (findEocdScan buf bo fl n = .err .eocdNotFound ∧ ∀ i, i < n → ¬ RecordAt buf i) ∨
    ∃ i, i < n ∧ RecordAt buf i ∧ (∀ j, i < j → j < n → ¬ RecordAt buf j) ∧
      findEocdScan buf bo fl n = .ok (eocdOf (buf.drop i) (bo + i)) := by
  intro n
  induction n with
  | zero => intro _; exact .inl ⟨rfl, fun i hi => absurd hi (by omega)⟩
  | succ n ih =>
    intro hn
    have hstep : ¬ RecordAt buf n → findEocdScan buf bo fl (n + 1) = findEocdScan buf bo fl n := by
      intro hr
      rw [findEocdScan]
      split
      · rename_i hs
        rw [parseEocdAt_eq bo fl (by omega)]
        have : ¬ (n + 22 + leNat ((buf.drop (n + 20)).take 2) ≤ buf.length) := by
          intro hle; exact hr (RecordAt.iff.mpr ⟨by omega, hs, hle⟩)
        rw [if_pos (by omega)]
      · rfl
    by_cases hr : RecordAt buf n
    · right
      refine ⟨n, by omega, hr, fun j h1 h2 => by omega, ?_⟩
      obtain ⟨h1, h2, h3⟩ := RecordAt.iff.mp hr
      rw [findEocdScan, if_pos h2, parseEocdAt_eq bo fl h1, if_neg (by omega), if_neg (by omega)]
    · rw [hstep hr]
      rcases ih (by omega) with ⟨h1, h2⟩ | ⟨i, h1, h2, h3, h4⟩
      · left
        refine ⟨h1, fun i hi => ?_⟩
        by_cases hin : i = n
        · rw [hin]; exact hr
        · exact h2 i (by omega)
      · right
        refine ⟨i, by omega, h2, fun j hj1 hj2 => ?_, h4⟩
        by_cases hjn : j = n
        · rw [hjn]; exact hr
        · exact h3 j hj1 (by omega)

theorem RecordAt.shift {d : Bytes} {a i : Nat} (ha : a ≤ d.length) : RecordAt (d.drop a) i ↔ RecordAt d (a + i) := by
  unfold RecordAt slice?
  simp only [List.length_drop, List.drop_drop, Nat.add_sub_cancel_left]
  have e' : a + (i + 20) = a + i + 20 := by omega
  rw [e']
  constructor
  · rintro ⟨h1, h2, h3⟩
    refine ⟨?_, by omega, by omega⟩
    rw [if_pos (by omega)] at h1 ⊢
    exact h1
  · rintro ⟨h1, h2, h3⟩
    refine ⟨?_, by omega, by omega⟩
    rw [if_pos (by omega)] at h1 ⊢
    exact h1

/-- What `find_eocd` does, on the first `fl` bytes of the file. -/
theorem findEocd_spec {file : Bytes} {fl : Nat} (hfl : fl ≤ file.length) (h22 : 22 ≤ fl) :
    (findEocd file fl = .err .eocdNotFound ∧ ∀ k, fl ≤ k + 65557 → ¬ RecordAt (file.take fl) k) ∨
    ∃ k, fl ≤ k + 65557 ∧ RecordAt (file.take fl) k ∧ (∀ j, k < j → ¬ RecordAt (file.take fl) j) ∧
      findEocd file fl = .ok (eocdOf ((file.take fl).drop k) k) := by
  have hlen : (file.take fl).length = fl := by rw [List.length_take]; omega
  generalize hd : file.take fl = d at *
  unfold findEocd
  rw [if_neg (by simp only [minEocdSize]; omega)]
  simp only [maxCommentLen, minEocdSize]
  generalize hss : min (65535 + 22) fl = ss
  have hbuf : readExactAt file (fl - ss) ss = .ok (d.drop (fl - ss)) := by
    unfold readExactAt
    rw [slice?_of_le (by omega) (by omega), ← hd, List.drop_take]
    simp only [Res.ofOption_some]
    congr 2
    omega
  rw [hbuf]
  simp only [Res.ok_bind]
  have hbl : (d.drop (fl - ss)).length = ss := by rw [List.length_drop]; omega
  rcases findEocdScan_spec (d.drop (fl - ss)) (fl - ss) fl (by omega) (ss - 22 + 1) (by omega) with
    ⟨h1, h2⟩ | ⟨i, h1, h2, h3, h4⟩
  · left
    rw [hbl]
    refine ⟨h1, fun k hk hr => ?_⟩
    have hk22 : k + 22 ≤ d.length := hr.2.1
    apply h2 (k - (fl - ss)) (by omega)
    rw [RecordAt.shift (by omega)]
    rwa [show fl - ss + (k - (fl - ss)) = k by omega]
  · right
    rw [hbl]
    refine ⟨fl - ss + i, by omega, (RecordAt.shift (by omega)).mp h2, fun j hj hr => ?_, ?_⟩
    · have hk22 : j + 22 ≤ d.length := hr.2.1
      apply h3 (j - (fl - ss)) (by omega) (by omega)
      rw [RecordAt.shift (by omega)]
      rwa [show fl - ss + (j - (fl - ss)) = j by omega]
    · rw [h4, List.drop_drop]

theorem findEocd_small {file : Bytes} {fl : Nat} (h : fl < 22) : findEocd file fl = .err .notZip := by
  unfold findEocd; rw [if_pos (by simpa [minEocdSize] using h)]

theorem findEocd_eof {file : Bytes} {fl : Nat} (h : file.length < fl) (h22 : 22 ≤ fl) :
    findEocd file fl = .err .unexpectedEof := by
  unfold findEocd
  rw [if_neg (by simp only [minEocdSize]; omega)]
  have h1 : readExactAt file (fl - min (maxCommentLen + minEocdSize) fl) (min (maxCommentLen + minEocdSize) fl) =
      .err .unexpectedEof := by
    unfold readExactAt slice?
    rw [if_neg (by omega)]
    rfl
  simp only [h1, Res.err_bind]

/-- `find_eocd` is total. -/
theorem findEocd_total (file : Bytes) (fl : Nat) :
    (∃ e, findEocd file fl = .ok e) ∨ ∃ e, findEocd file fl = .err e ∧ (e = .notZip ∨ e = .unexpectedEof ∨ e = .eocdNotFound) := by
  by_cases h22 : fl < 22
  · exact .inr ⟨_, findEocd_small h22, .inl rfl⟩
  · by_cases hl : file.length < fl
    · exact .inr ⟨_, findEocd_eof hl (by omega), .inr (.inl rfl)⟩
    · rcases findEocd_spec (file := file) (fl := fl) (by omega) (by omega) with ⟨h, _⟩ | ⟨k, _, _, _, h⟩
      · exact .inr ⟨_, h, .inr (.inr rfl)⟩
      · exact .inl ⟨_, h⟩

end Ksusig
