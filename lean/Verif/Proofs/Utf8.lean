import Verif.Model.Elf

/-!
# UTF-8
-/

namespace Ksusig

theorem inRange_toNat {lo hi b : UInt8} : inRange lo hi b = true ↔ lo.toNat ≤ b.toNat ∧ b.toNat ≤ hi.toNat := by
  unfold inRange
  simp [UInt8.le_iff_toNat_le]

/-- The encoding of the character with this number. -/
theorem encode_ofNat {v : Nat} (hv : v < 0xd800 ∨ (0xdfff < v ∧ v < 0x110000)) : ∃ c : Char, String.utf8EncodeChar c =
    if v ≤ 0x7f then [UInt8.ofNat v]
    else if v ≤ 0x7ff then [UInt8.ofNat (v / 64 % 32 + 192), UInt8.ofNat (v % 64 + 128)]
    else if v ≤ 0xffff then [UInt8.ofNat (v / 4096 % 16 + 224), UInt8.ofNat (v / 64 % 64 + 128), UInt8.ofNat (v % 64 + 128)]
    else [UInt8.ofNat (v / 262144 % 8 + 240), UInt8.ofNat (v / 4096 % 64 + 128), UInt8.ofNat (v / 64 % 64 + 128),
      UInt8.ofNat (v % 64 + 128)] := by
  have hn : Nat.isValidChar v := hv
  refine ⟨⟨UInt32.ofNatLT v (by show v < 4294967296; omega), ?_⟩, ?_⟩
  · show Nat.isValidChar _
    simpa using hn
  · unfold String.utf8EncodeChar
    simp

theorem byte_eq {b : UInt8} {n : Nat} (h : n = b.toNat) : UInt8.ofNat n = b := by subst h; simp

/-- Every byte string the check accepts is the encoding of a text. -/
theorem utf8_of_valid : ∀ {n : Nat} {t : Bytes}, t.length ≤ n → validUtf8 t = true → ∃ s : List Char, utf8 s = t
  | _, [], _, _ => ⟨[], rfl⟩
  | 0, _ :: _, hl, _ => by simp at hl
  | n + 1, b0 :: rest, hl, h => by
    have fin : ∀ {v : Nat} {w rest' : Bytes}, (v < 0xd800 ∨ (0xdfff < v ∧ v < 0x110000)) → rest'.length ≤ n → validUtf8 rest' = true →
        (if v ≤ 0x7f then [UInt8.ofNat v]
          else if v ≤ 0x7ff then [UInt8.ofNat (v / 64 % 32 + 192), UInt8.ofNat (v % 64 + 128)]
          else if v ≤ 0xffff then [UInt8.ofNat (v / 4096 % 16 + 224), UInt8.ofNat (v / 64 % 64 + 128), UInt8.ofNat (v % 64 + 128)]
          else [UInt8.ofNat (v / 262144 % 8 + 240), UInt8.ofNat (v / 4096 % 64 + 128), UInt8.ofNat (v / 64 % 64 + 128),
            UInt8.ofNat (v % 64 + 128)]) = w → ∃ s : List Char, utf8 s = w ++ rest' := by
      intro v w rest' hv hl' hr hw
      obtain ⟨s, hs⟩ := utf8_of_valid hl' hr
      obtain ⟨c, hc⟩ := encode_ofNat hv
      refine ⟨c :: s, ?_⟩
      unfold utf8 at hs ⊢
      rw [List.flatMap_cons, hs, hc, hw]
    simp only [List.length_cons] at hl
    have h0 := b0.toNat_lt
    unfold validUtf8 at h
    by_cases c1 : b0 < 0x80
    · rw [if_pos c1] at h
      rw [UInt8.lt_iff_toNat_lt] at c1
      have c1 : b0.toNat < 128 := c1
      refine fin (v := b0.toNat) (w := [b0]) (by omega) (by omega) h ?_
      rw [if_pos (by omega)]
      simp
    rw [if_neg c1] at h
    by_cases c2 : inRange 0xC2 0xDF b0 = true
    · rw [if_pos c2] at h
      rw [inRange_toNat] at c2
      have c2 : 194 ≤ b0.toNat ∧ b0.toNat ≤ 223 := c2
      match rest, hl, h with
      | b1 :: rest', hl, h =>
        simp only [List.length_cons] at hl
        rw [Bool.and_eq_true, inRange_toNat] at h
        have h1 : 128 ≤ b1.toNat ∧ b1.toNat ≤ 191 := h.1
        refine fin (v := (b0.toNat - 192) * 64 + (b1.toNat - 128)) (w := [b0, b1]) (by omega) (by omega) h.2 ?_
        rw [if_neg (by omega), if_pos (by omega), byte_eq (b := b0) (by omega), byte_eq (b := b1) (by omega)]
    rw [if_neg c2] at h
    by_cases c3 : inRange 0xE0 0xEF b0 = true
    · rw [if_pos c3] at h
      rw [inRange_toNat] at c3
      have c3 : 224 ≤ b0.toNat ∧ b0.toNat ≤ 239 := c3
      match rest, hl, h with
      | b1 :: b2 :: rest', hl, h =>
        simp only [List.length_cons] at hl
        rw [Bool.and_eq_true, Bool.and_eq_true, inRange_toNat, inRange_toNat] at h
        obtain ⟨⟨h1, h2⟩, h3⟩ := h
        have h2 : 128 ≤ b2.toNat ∧ b2.toNat ≤ 191 := h2
        have h1a : 128 ≤ b1.toNat ∧ (b0.toNat = 224 → 160 ≤ b1.toNat) := by
          split at h1
          · have : 160 ≤ b1.toNat := h1.1
            omega
          · rename_i hne
            have : 128 ≤ b1.toNat := h1.1
            refine ⟨this, fun h => absurd (UInt8.toNat_inj.mp (h.trans rfl)) hne⟩
        have h1b : b1.toNat ≤ 191 ∧ (b0.toNat = 237 → b1.toNat ≤ 159) := by
          have h1 := h1.2
          split at h1
          · have : b1.toNat ≤ 159 := h1
            omega
          · rename_i hne
            have : b1.toNat ≤ 191 := h1
            refine ⟨this, fun h => absurd (UInt8.toNat_inj.mp (h.trans rfl)) hne⟩
        refine fin (v := (b0.toNat - 224) * 4096 + (b1.toNat - 128) * 64 + (b2.toNat - 128)) (w := [b0, b1, b2]) (by omega)
          (by omega) h3 ?_
        rw [if_neg (by omega), if_neg (by omega), if_pos (by omega), byte_eq (b := b0) (by omega), byte_eq (b := b1) (by omega),
          byte_eq (b := b2) (by omega)]
    rw [if_neg c3] at h
    by_cases c4 : inRange 0xF0 0xF4 b0 = true
    · rw [if_pos c4] at h
      rw [inRange_toNat] at c4
      have c4 : 240 ≤ b0.toNat ∧ b0.toNat ≤ 244 := c4
      match rest, hl, h with
      | b1 :: b2 :: b3 :: rest', hl, h =>
        simp only [List.length_cons] at hl
        rw [Bool.and_eq_true, Bool.and_eq_true, Bool.and_eq_true, inRange_toNat, inRange_toNat, inRange_toNat] at h
        obtain ⟨⟨⟨h1, h2⟩, h3⟩, h4⟩ := h
        have h2 : 128 ≤ b2.toNat ∧ b2.toNat ≤ 191 := h2
        have h3 : 128 ≤ b3.toNat ∧ b3.toNat ≤ 191 := h3
        have h1a : 128 ≤ b1.toNat ∧ (b0.toNat = 240 → 144 ≤ b1.toNat) := by
          split at h1
          · have : 144 ≤ b1.toNat := h1.1
            omega
          · rename_i hne
            have : 128 ≤ b1.toNat := h1.1
            refine ⟨this, fun h => absurd (UInt8.toNat_inj.mp (h.trans rfl)) hne⟩
        have h1b : b1.toNat ≤ 191 ∧ (b0.toNat = 244 → b1.toNat ≤ 143) := by
          have h1 := h1.2
          split at h1
          · have : b1.toNat ≤ 143 := h1
            omega
          · rename_i hne
            have : b1.toNat ≤ 191 := h1
            refine ⟨this, fun h => absurd (UInt8.toNat_inj.mp (h.trans rfl)) hne⟩
        refine fin (v := (b0.toNat - 240) * 262144 + (b1.toNat - 128) * 4096 + (b2.toNat - 128) * 64 + (b3.toNat - 128))
          (w := [b0, b1, b2, b3]) (by omega) (by omega) h4 ?_
        rw [if_neg (by omega), if_neg (by omega), if_neg (by omega), byte_eq (b := b0) (by omega), byte_eq (b := b1) (by omega),
          byte_eq (b := b2) (by omega), byte_eq (b := b3) (by omega)]
    rw [if_neg c4] at h
    cases h

end Ksusig
