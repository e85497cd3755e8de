import Verif.SpecAnatomy
import Verif.Proofs.Grammar
import Verif.Proofs.Robust
import Verif.Proofs.Digest

/-! The searches of the library find exactly what the anatomy of a file says. -/

namespace Ksusig

open Spec

theorem fullRecord {file : Bytes} {k : Nat} (h : RecordAt file k) :
    ∃ (t : Tail) (off : Nat) (before after : Bytes), file = before ++ wireEocd t off ++ after ∧ before.length = k ∧
      t.comment.length ≤ 65535 ∧ off < 2 ^ 32 := by
  obtain ⟨h1, h2, h3⟩ := h
  have hd : (file.drop k).length = file.length - k := List.length_drop
  have e20 : ((file.drop k).drop 20).take 2 = (file.drop (k + 20)).take 2 := by rw [List.drop_drop]
  have hu := eocdOf_toU8 (d := file.drop k) k (by rw [e20]; omega)
  obtain ⟨_, _, hs, _⟩ := slice?_eq_some h1
  have hc : leNat (((file.drop k).drop 20).take 2) < 65536 := by
    have := leNat_lt (((file.drop k).drop 20).take 2)
    have hl : (((file.drop k).drop 20).take 2).length = 2 := by simp only [List.length_take, List.length_drop]; omega
    rw [hl] at this
    simpa using this
  have hcl : ((((file.drop k).drop 22).take (leNat (((file.drop k).drop 20).take 2)))).length =
      leNat (((file.drop k).drop 20).take 2) := by
    rw [e20]
    simp only [List.length_take, List.length_drop]
    omega
  generalize he : eocdOf (file.drop k) k = e at hu
  refine ⟨⟨e.diskNumber, e.diskWithCd, e.numEntries, e.totalEntries, e.cdSize, e.comment⟩, e.cdOffset.toNat, file.take k,
    (file.drop k).drop (22 + leNat (((file.drop k).drop 20).take 2)), ?_, ?_, ?_, ?_⟩
  · have hw : wireEocd ⟨e.diskNumber, e.diskWithCd, e.numEntries, e.totalEntries, e.cdSize, e.comment⟩ e.cdOffset.toNat = e.toU8 := by
      subst he
      have h4 : (file.drop k).take 4 = [0x50, 0x4b, 0x05, 0x06] := by rw [hs]; congr 1
      simp only [wireEocd, Eocd.toU8, eocdOf, h4, hcl, u16_toNat_leNat]
    rw [hw, hu, List.append_assoc, List.take_append_drop, List.take_append_drop]
  · rw [List.length_take]; omega
  · subst he
    show ((((file.drop k).drop 22).take (leNat (((file.drop k).drop 20).take 2)))).length ≤ 65535
    rw [hcl]; omega
  · exact e.cdOffset.toNat_lt

theorem endRecord_recordAt {file : Bytes} {pos : Nat} {t : Tail} {off : Nat} (h : EndRecord file pos t off) :
    RecordAt file pos := by
  obtain ⟨⟨before, after, hf, hl⟩, hc, _⟩ := h
  have := (RecordAt.shift (d := file) (a := before.length) (i := 0) (by rw [hf]; simp)).mp
    (by rw [hf, List.append_assoc, List.drop_left]; exact recordAt_wire t off after hc)
  rwa [Nat.add_zero, hl] at this

/-- The end record that is found is the one in force. -/
theorem findEocd_iff {file : Bytes} {e : Eocd} : findEocd file file.length = .ok e ↔
    ∃ pos t off, EndRecord file pos t off ∧ e = t.eocd off pos := by
  constructor
  · intro h
    rcases Nat.lt_or_ge file.length 22 with hl | hl
    · rw [findEocd_small hl] at h; cases h
    · rcases findEocd_spec (file := file) (fl := file.length) (Nat.le_refl _) hl with ⟨h', _⟩ | ⟨k, h1, h2, h3, h'⟩
      · rw [h'] at h; cases h
      · rw [h'] at h
        rw [List.take_length] at h h2 h3
        cases h
        obtain ⟨t, off, before, after, hf, hb, hc, ho⟩ := fullRecord h2
        refine ⟨k, t, off, ⟨⟨before, after, hf, hb⟩, hc, ho, h1, h3⟩, ?_⟩
        rw [← hb]
        conv => lhs; rw [hf, List.append_assoc, List.drop_left]
        exact eocdOf_wire t off _ after hc
  · rintro ⟨pos, t, off, h, rfl⟩
    have hr := endRecord_recordAt h
    obtain ⟨⟨before, after, hf, hl⟩, hc, ho, hreach, hlast⟩ := h
    have hwl := wireEocd_length t off
    have h22 : 22 ≤ file.length := by rw [hf]; simp only [List.length_append]; omega
    rcases findEocd_spec (file := file) (fl := file.length) (Nat.le_refl _) h22 with ⟨_, h'⟩ | ⟨k, h1, h2, h3, h'⟩
    · rw [List.take_length] at h'
      exact absurd hr (h' pos hreach)
    · rw [List.take_length] at h' h2 h3
      have hk : k = pos := by
        rcases Nat.lt_trichotomy k pos with h | h | h
        · exact absurd hr (h3 pos h)
        · exact h
        · exact absurd h2 (hlast k h)
      rw [h', hk, ← hl]
      conv => lhs; rw [hf, List.append_assoc, List.drop_left]
      rw [eocdOf_wire t off _ after hc]

theorem Spec.EndRecord.unique {file : Bytes} {pos pos' : Nat} {t t' : Tail} {off off' : Nat} (h : EndRecord file pos t off)
    (h' : EndRecord file pos' t' off') : pos = pos' ∧ t = t' ∧ off = off' := by
  have a := findEocd_iff.mpr ⟨pos, t, off, h, rfl⟩
  have b := findEocd_iff.mpr ⟨pos', t', off', h', rfl⟩
  rw [a] at b
  simp only [Spec.Tail.eocd, Res.ok.injEq, Eocd.mk.injEq] at b
  obtain ⟨b0, _, b1, b2, b3, b4, b5, b6, _, b8⟩ := b
  refine ⟨b0, ?_, ?_⟩
  · cases t; cases t'; simp_all
  · rw [← u32_ofNat_toNat h.offset, b6, u32_ofNat_toNat h'.offset]

theorem limit_eq (n off : Nat) : n - (n - off) = min n off := by omega

/-- The block that is read is the one in force. -/
theorem fromReader_before {p : Profile} {file : Bytes} {off : Nat} {b : SigningBlock} :
    SigningBlock.fromReader p file file.length (file.length - off) = .ok b ↔
    ∃ pre pairs, BlockBefore file (min file.length off) pre pairs b.content ∧
      b = ⟨pre.length, pre.length + pairs.length + 32, pairs.length + 24, pairs.length, b.content, pairs.length + 24,
        Ksusig.magic⟩ := by
  rw [fromReader_iff, limit_eq]
  constructor
  · rintro ⟨pre, pairs, post, h1, h2, h3, _, h5, h6, h7, h8⟩
    exact ⟨pre, pairs, ⟨⟨post, h1⟩, h2, h3, h5, h6, h7⟩, h8⟩
  · rintro ⟨pre, pairs, ⟨⟨post, h1⟩, h2, h3, h5, h6, h7⟩, h8⟩
    exact ⟨pre, pairs, post, h1, h2, h3, by omega, h5, h6, h7, h8⟩

/-- "Not signed" is said exactly when nothing looks like a block. -/
theorem fromReader_missing {p : Profile} {file : Bytes} {off : Nat} :
    (∃ e, SigningBlock.fromReader p file file.length (file.length - off) = .err e ∧ e.isMissing = true) ↔
      Unsigned file (min file.length off) := by
  constructor
  · rintro ⟨e, h, he⟩
    obtain ⟨rfl, hn⟩ := fromReader_not_missing h (isMissing_not_real he)
    rw [limit_eq] at hn
    refine ⟨?_, fun u h1 h2 h3 => hn u (by omega) h3⟩
    unfold SigningBlock.fromReader at h
    dsimp only at h
    split at h
    · cases h
    · rename_i h24
      rw [limit_eq] at h24
      omega
  · rintro ⟨h24, hn⟩
    refine ⟨.magicNotFound, ?_, rfl⟩
    unfold SigningBlock.fromReader
    simp only
    rw [limit_eq]
    generalize hse : min file.length off = se at *
    have hle : se ≤ file.length := by omega
    generalize hws : min se maxWindow = ws
    have hmw : maxWindow = 16777216 := rfl
    rw [hmw] at hws
    rw [if_neg (by omega)]
    have hsl : slice? file (se - ws) (se - ws + ws) = some ((file.drop (se - ws)).take ws) := by
      rw [slice?_of_le (by omega) (by omega)]; simp
    have hread : readExactAt file (se - ws) ws = .ok ((file.drop (se - ws)).take ws) := by
      unfold readExactAt; rw [hsl]; rfl
    rw [hread]
    simp only [Res.ok_bind]
    generalize (file.drop (se - ws)).take ws = w at *
    rcases fromReaderScan_cases p file file.length (se - ws) w (ws - 16 + 1) with ⟨h1, _⟩ | ⟨t, s, h1, h2, h3, _⟩
    · exact h1
    · exfalso
      unfold MagicAt at h3
      rw [window_slice hsl (by omega) (by omega)] at h3
      refine hn (se - ws + t) (by omega) (by omega) (by omega) ?_
      rw [← magicAt_iff]
      unfold MagicAt
      rw [← h3]
      congr 1

/-- The digest of the regions, also when the directory starts after the end record. -/
theorem digestModule_regions (E : Env) (p : Profile) (file : Bytes) (hlen : file.length < 2 ^ 64) (s e pos : Nat) (algo : Algo)
    (hpos : pos + 20 ≤ file.length) (hp : e ≤ pos ∨ p = .release) :
    digestModule E p fullReads fullReads file (FileOffsets.new s e pos file.length) algo =
      .ok (treeDigest (algo.hash E) (regions file s e pos)) := by
  by_cases he : e ≤ pos
  · rw [digestModule_eq E p fullReads_ge fullReads_ge file _ algo (by simp [FileOffsets.new]) he
      (by simp only [FileOffsets.new]; omega) (by simp only [FileOffsets.new, List.length_drop]; omega)]
    simp only [FileOffsets.new, regions, if_pos he, List.drop_zero, Nat.sub_zero]
  · have hp : p = .release := by rcases hp with h | h; exact absurd h he; exact h
    subst hp
    have hu : usub .release pos e = .ok (2 ^ 64 + pos - e) := by unfold usub; rw [if_neg he]
    unfold digestModule FileOffsets.new
    simp only
    rw [usub_of_le (Nat.zero_le _), hu, usub_of_le (by omega)]
    simp only [Res.ok_bind, digestRegion_eq E fullReads_ge, digestEocd,
      eocdForDigest_eq (file := file) (start := pos) (off := s) (by rw [List.length_drop]; omega),
      chunksBy_full fullReads_ge _ _ _ (Nat.le_refl _)]
    have ht : (file.drop e).take (2 ^ 64 + pos - e) = file.drop e := List.take_of_length_le (by rw [List.length_drop]; omega)
    rw [ht]
    congr 1
    simp only [digestFinal, treeDigest, topInput, regions, if_neg he, List.drop_zero, Nat.sub_zero, List.flatMap_cons,
      List.flatMap_nil, List.append_nil, List.map_append, List.length_append, List.length_map, List.flatten_append,
      List.append_assoc]
    rfl

end Ksusig
