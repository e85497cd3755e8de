import Verif.Props.ElfDigest

/-! # The record of the signed sections: C48 -/

namespace Ksusig.Props

open Ksusig Spec

theorem inRange_ofNat {lo hi : UInt8} {n : Nat} (h1 : lo.toNat ≤ n) (h2 : n ≤ hi.toNat) : inRange lo hi (UInt8.ofNat n) = true := by
  have h3 : hi.toNat < 256 := hi.toNat_lt
  have hn : (UInt8.ofNat n).toNat = n := by rw [UInt8.toNat_ofNat']; exact Nat.mod_eq_of_lt (by simpa using (by omega : n < 256))
  unfold inRange
  rw [Bool.and_eq_true, decide_eq_true_eq, decide_eq_true_eq, UInt8.le_iff_toNat_le, UInt8.le_iff_toNat_le, hn]
  exact ⟨h1, h2⟩

theorem ofNat_eq_iff {n : Nat} {b : UInt8} (h : n < 256) : UInt8.ofNat n = b ↔ n = b.toNat := by
  rw [← UInt8.toNat_inj, UInt8.toNat_ofNat', Nat.mod_eq_of_lt (by simpa using h)]

theorem not_lt80 {n : Nat} (h : 0x80 ≤ n) (h2 : n < 256) : ¬ UInt8.ofNat n < 0x80 := by
  rw [UInt8.lt_iff_toNat_lt, UInt8.toNat_ofNat', Nat.mod_eq_of_lt (by simpa using h2)]
  show ¬ n < 128
  omega

theorem not_inRange {lo hi : UInt8} {n : Nat} (h : n < lo.toNat ∨ hi.toNat < n) (h2 : n < 256) :
    inRange lo hi (UInt8.ofNat n) = false := by
  have hn : (UInt8.ofNat n).toNat = n := by rw [UInt8.toNat_ofNat']; exact Nat.mod_eq_of_lt (by simpa using h2)
  rw [← Bool.not_eq_true]
  unfold inRange
  rw [Bool.and_eq_true, decide_eq_true_eq, decide_eq_true_eq, UInt8.le_iff_toNat_le, UInt8.le_iff_toNat_le, hn]
  omega

/-- Rust's check accepts the encoding of every character. -/
theorem validUtf8_char (c : Char) : validUtf8 (String.utf8EncodeChar c) = true := by
  have hv : c.val.toNat < 0xd800 ∨ (0xdfff < c.val.toNat ∧ c.val.toNat < 0x110000) := c.valid
  unfold String.utf8EncodeChar
  dsimp only
  generalize c.val.toNat = v at hv
  by_cases h1 : v ≤ 0x7f
  · rw [if_pos h1]
    have : UInt8.ofNat v < 0x80 := by
      rw [UInt8.lt_iff_toNat_lt, UInt8.toNat_ofNat', Nat.mod_eq_of_lt (by simpa using (by omega : v < 256))]
      show v < 128
      omega
    unfold validUtf8
    rw [if_pos this]; rfl
  rw [if_neg h1]
  by_cases h2 : v ≤ 0x7ff
  · rw [if_pos h2]
    unfold validUtf8
    rw [if_neg (not_lt80 (by omega) (by omega)), if_pos (inRange_ofNat (by simp; omega) (by simp; omega))]
    dsimp only
    rw [inRange_ofNat (by simp) (by simp; omega)]; rfl
  rw [if_neg h2]
  by_cases h3 : v ≤ 0xffff
  · rw [if_pos h3]
    unfold validUtf8
    rw [if_neg (not_lt80 (by omega) (by omega)), if_neg (by rw [not_inRange (.inr (by show _ < _; simp <;> omega)) (by omega)]; decide),
      if_pos (inRange_ofNat (by simp) (by simp; omega))]
    dsimp only
    rw [inRange_ofNat (lo := 0x80) (n := v % 64 + 128) (by simp) (by simp; omega)]
    rw [inRange_ofNat]
    · rfl
    · split
      · rename_i h; rw [ofNat_eq_iff (by omega)] at h
        have h' : v / 4096 % 16 + 224 = 224 := h
        simp; omega
      · simp
    · split
      · rename_i h; rw [ofNat_eq_iff (by omega)] at h
        have h' : v / 4096 % 16 + 224 = 237 := h
        simp; omega
      · simp; omega
  rw [if_neg h3]
  unfold validUtf8
  rw [if_neg (not_lt80 (by omega) (by omega)), if_neg (by rw [not_inRange (.inr (by show _ < _; simp <;> omega)) (by omega)]; decide),
    if_neg (by rw [not_inRange (.inr (by show _ < _; simp <;> omega)) (by omega)]; decide),
    if_pos (inRange_ofNat (by simp) (by simp; omega))]
  dsimp only
  rw [inRange_ofNat (lo := 0x80) (n := v % 64 + 128) (by simp) (by simp; omega),
    inRange_ofNat (lo := 0x80) (n := v / 64 % 64 + 128) (by simp) (by simp; omega)]
  rw [inRange_ofNat]
  · rfl
  · split
    · rename_i h; rw [ofNat_eq_iff (by omega)] at h
      have h' : v / 262144 % 8 + 240 = 240 := h
      simp; omega
    · simp
  · split
    · rename_i h; rw [ofNat_eq_iff (by omega)] at h
      have h' : v / 262144 % 8 + 240 = 244 := h
      simp; omega
    · simp; omega

theorem validUtf8_utf8 : ∀ s : List Char, validUtf8 (utf8 s) = true
  | [] => rfl
  | c :: s => by
    unfold utf8
    rw [List.flatMap_cons, validUtf8_append (validUtf8_char c)]
    exact validUtf8_utf8 s

/-- The info for sections given by name, offset and size. -/
def infoOf (es : List (List Char × UInt64 × UInt64)) : ElfSectionInfo :=
  ElfSectionInfo.fromTuples (es.map fun x => (utf8 x.1, x.2.1, x.2.2))

/-- C48: the info of sections whose names are shorter than 65536 bytes is decoded to itself, and lists just these sections. -/
theorem C48_roundtrip_partial (es : List (List Char × UInt64 × UInt64)) (hn : es.length < 2 ^ 32)
    (hs : ∀ x ∈ es, (utf8 x.1).length < 2 ^ 16) :
    (∃ r, ElfSectionInfo.parse (infoOf es).size (infoOf es).id (Reader.new ((infoOf es).toU8.drop 12)) = .ok (infoOf es, r)) ∧
      (infoOf es).toU8.take 12 = leBytes 8 (infoOf es).size ++ leBytes 4 0x4c45534b ∧
      (infoOf es).sections.map (fun s => (s.name, s.offset, s.size)) = es.map fun x => (utf8 x.1, x.2.1, x.2.2) := by
  have hwf : (infoOf es).WF := by
    refine build_wf (c := .elf (es.map fun x => (utf8 x.1, x.2.1, x.2.2))) ?_ ?_
    · intro e he
      obtain ⟨x, _, rfl⟩ := List.mem_map.mp he
      exact validUtf8_utf8 x.1
    · refine ⟨by rw [List.length_map]; exact hn, ?_⟩
      intro e he
      obtain ⟨x, hx, rfl⟩ := List.mem_map.mp he
      exact hs x hx
  have hb : (infoOf es).toU8 = (leBytes 8 (infoOf es).size ++ leBytes 4 0x4c45534b) ++
      (leBytes 4 (infoOf es).count.toNat ++ (infoOf es).sections.flatMap SectionEntry.toU8) := by
    unfold ElfSectionInfo.toU8
    simp only [List.append_assoc]
    rfl
  refine ⟨?_, ?_, ?_⟩
  · have := (ElfSectionInfo.parses hwf) [] []
    rw [List.nil_append, List.append_nil] at this
    rw [hb, List.drop_left' (by simp)]
    exact ⟨_, this⟩
  · rw [hb, List.take_left' (by simp)]
  · unfold infoOf ElfSectionInfo.fromTuples ElfSectionInfo.new
    simp [SectionEntry.new]

example : [(".text".toList, (64 : UInt64), (8 : UInt64)), (".röhre".toList, 72, 4)].length < 2 ^ 32 ∧
    ∀ x ∈ [(".text".toList, (64 : UInt64), (8 : UInt64)), (".röhre".toList, 72, 4)], (utf8 x.1).length < 2 ^ 16 := by
  decide +kernel

theorem sectionEntry_short {r r' : Reader} {e : SectionEntry} (h : SectionEntry.parse r = .ok (e, r')) :
    e.name.length < 2 ^ 16 := by
  unfold SectionEntry.parse at h
  obtain ⟨n, r1, _, h⟩ := P.bind_ok h
  obtain ⟨name, r2, h2, h⟩ := P.bind_ok h
  have hl := (slice?_eq_some (P.getTo_ok h2).1).2.2.2
  have hn : n.toNat < 2 ^ 16 := n.toNat_lt
  split at h
  · obtain ⟨o, r3, _, h⟩ := P.bind_ok h
    obtain ⟨z, r4, _, h⟩ := P.bind_ok h
    cases h
    show name.length < _
    omega
  · cases h

theorem repeatN_mem {α : Type} {q : α → Prop} {item : P α} (hq : ∀ r a r', item r = .ok (a, r') → q a) :
    ∀ {n : Nat} {r r' : Reader} {l : List α}, P.repeatN item n r = .ok (l, r') → ∀ a ∈ l, q a
  | 0, r, r', l, h => by cases h; simp
  | n + 1, r, r', l, h => by
    unfold P.repeatN at h
    obtain ⟨a, r1, h1, h⟩ := P.bind_ok h
    obtain ⟨as, r2, h2, h⟩ := P.bind_ok h
    cases h
    intro x hx
    rcases List.mem_cons.mp hx with rfl | hx
    · exact hq _ _ _ h1
    · exact repeatN_mem hq h2 x hx

/-- C48 fails for every list with a name of 65536 bytes or more: its length is stored in two bytes, so nothing decodes to it. -/
theorem C48_long_name_fails (es : List (List Char × UInt64 × UInt64)) {x : List Char × UInt64 × UInt64} (hx : x ∈ es)
    (hl : 2 ^ 16 ≤ (utf8 x.1).length) (size : Nat) (id : UInt32) (d r : Reader) :
    ElfSectionInfo.parse size id d ≠ .ok (infoOf es, r) := by
  intro h
  unfold ElfSectionInfo.parse at h
  obtain ⟨c, r1, _, h⟩ := P.bind_ok h
  obtain ⟨l, r2, h2, h⟩ := P.bind_ok h
  have hsec : l = (infoOf es).sections := by
    have h' : (Res.ok ((⟨size, id, c, l⟩ : ElfSectionInfo), r2) : Res (ElfSectionInfo × Reader)) = .ok (infoOf es, r) := h
    injection h' with h'
    have := congrArg (fun y : ElfSectionInfo × Reader => y.1.sections) h'
    exact this
  have hm : SectionEntry.new (utf8 x.1) x.2.1 x.2.2 ∈ l := by
    rw [hsec]
    unfold infoOf ElfSectionInfo.fromTuples ElfSectionInfo.new
    dsimp only
    rw [List.map_map]
    exact List.mem_map.mpr ⟨x, hx, rfl⟩
  have := repeatN_mem (q := fun e : SectionEntry => e.name.length < 2 ^ 16) (fun _ _ _ => sectionEntry_short) h2 _ hm
  have h' : (utf8 x.1).length < 2 ^ 16 := this
  omega

/-- Such names exist. -/
example : 2 ^ 16 ≤ (utf8 (List.replicate 65536 'a')).length := by
  have : ∀ n, (utf8 (List.replicate n 'a')).length = n := by
    intro n
    induction n with
    | zero => rfl
    | succ n ih =>
      rw [List.replicate_succ]
      unfold utf8 at ih ⊢
      rw [List.flatMap_cons, List.length_append, ih, show (String.utf8EncodeChar 'a').length = 1 from by decide]
      omega
  rw [this]; decide

end Ksusig.Props
