import Verif.Proofs.BlockText
import Verif.Props.Anatomy
import Verif.Props.Zip

/-! # C127: the text of a signing block -/

namespace Ksusig.Props

open Ksusig Spec

theorem outline_v2 {v : Value} {id : UInt32} {n : Nat} : outline v = .v2 id n ↔ ∃ s, v = .v2 s ∧ s.id = id ∧ s.signers.data.length = n := by
  cases v <;> simp [outline]

theorem outline_stamp {v : Value} {id : UInt32} : outline v = .stamp id ↔ ∃ s, v = .stamp s ∧ s.id = id := by
  cases v <;> simp [outline]

theorem outline_elf {v : Value} {id : UInt32} {n : Nat} : outline v = .elf id n ↔ ∃ e, v = .elf e ∧ e.id = id ∧ e.sections.length = n := by
  cases v <;> simp [outline]

theorem outline_other {v : Value} {id : UInt32} {n : Nat} : outline v = .other id n ↔ ∃ r, v = .raw r ∧ r.id = id ∧ r.data.length = n := by
  cases v <;> simp [outline]

/-- C127. The line of a value is in the text exactly if the value at this place is of this kind and has this identifier and this many
signers, sections or bytes. -/
theorem C127_values {b : SigningBlock} (i n : Nat) (id : UInt32) :
    (IsLine ("  Block ".toList ++ decimal (i + 1) ++ ": ".toList ++ ("V2 Signature (id=0x".toList ++ hexNat8 id.toNat ++ ", ".toList ++
        decimal n ++ " signers)".toList)) b.text ↔ ∃ s, b.content[i]? = some (.v2 s) ∧ s.id = id ∧ s.signers.data.length = n) ∧
    (IsLine ("  Block ".toList ++ decimal (i + 1) ++ ": ".toList ++ ("Source Stamp (id=0x".toList ++ hexNat8 id.toNat ++ ")".toList)) b.text ↔
      ∃ s, b.content[i]? = some (.stamp s) ∧ s.id = id) ∧
    (IsLine ("  Block ".toList ++ decimal (i + 1) ++ ": ".toList ++ ("ELF Section Info (id=0x".toList ++ hexNat8 id.toNat ++ ", ".toList ++
        decimal n ++ " sections)".toList)) b.text ↔ ∃ e, b.content[i]? = some (.elf e) ∧ e.id = id ∧ e.sections.length = n) ∧
    (IsLine ("  Block ".toList ++ decimal (i + 1) ++ ": ".toList ++ ("Verity Padding".toList ++ " (id=0x".toList ++ hexNat8 id.toNat ++
        ", ".toList ++ decimal n ++ " bytes)".toList)) b.text ↔
      ∃ r, b.content[i]? = some (.raw r) ∧ r.id = id ∧ r.data.length = n ∧ id = 0x42726577) ∧
    (IsLine ("  Block ".toList ++ decimal (i + 1) ++ ": ".toList ++ ("Unknown".toList ++ " (id=0x".toList ++ hexNat8 id.toNat ++
        ", ".toList ++ decimal n ++ " bytes)".toList)) b.text ↔
      ∃ r, b.content[i]? = some (.raw r) ∧ r.id = id ∧ r.data.length = n ∧ id ≠ 0x42726577) := by
  refine ⟨?_, ?_, ?_, ?_, ?_⟩
  · refine (isLine_entry (o := .v2 id n)).trans ⟨?_, ?_⟩
    · rintro ⟨v, h, e⟩
      obtain ⟨s, rfl, h1, h2⟩ := outline_v2.mp e
      exact ⟨s, h, h1, h2⟩
    · rintro ⟨s, h, h1, h2⟩
      exact ⟨_, h, outline_v2.mpr ⟨s, rfl, h1, h2⟩⟩
  · refine (isLine_entry (o := .stamp id)).trans ⟨?_, ?_⟩
    · rintro ⟨v, h, e⟩
      obtain ⟨s, rfl, h1⟩ := outline_stamp.mp e
      exact ⟨s, h, h1⟩
    · rintro ⟨s, h, h1⟩
      exact ⟨_, h, outline_stamp.mpr ⟨s, rfl, h1⟩⟩
  · refine (isLine_entry (o := .elf id n)).trans ⟨?_, ?_⟩
    · rintro ⟨v, h, e⟩
      obtain ⟨s, rfl, h1, h2⟩ := outline_elf.mp e
      exact ⟨s, h, h1, h2⟩
    · rintro ⟨s, h, h1, h2⟩
      exact ⟨_, h, outline_elf.mpr ⟨s, rfl, h1, h2⟩⟩
  · refine isLine_value.trans ⟨?_, ?_⟩
    · rintro ⟨v, h, e⟩
      obtain ⟨e, hp⟩ := outline_word.1.mp e
      obtain ⟨s, rfl, h1, h2⟩ := outline_other.mp e
      exact ⟨s, h, h1, h2, hp⟩
    · rintro ⟨s, h, h1, h2, hp⟩
      exact ⟨_, h, outline_word.1.mpr ⟨outline_other.mpr ⟨s, rfl, h1, h2⟩, hp⟩⟩
  · refine isLine_value.trans ⟨?_, ?_⟩
    · rintro ⟨v, h, e⟩
      obtain ⟨e, hp⟩ := outline_word.2.mp e
      obtain ⟨s, rfl, h1, h2⟩ := outline_other.mp e
      exact ⟨s, h, h1, h2, hp⟩
    · rintro ⟨s, h, h1, h2, hp⟩
      exact ⟨_, h, outline_word.2.mpr ⟨outline_other.mpr ⟨s, rfl, h1, h2⟩, hp⟩⟩

/-- C127. Position, sizes and number of values are those of the block. -/
theorem C127_numbers {b : SigningBlock} :
    (∀ s e, IsLine ("  File offset: ".toList ++ decimal s ++ " - ".toList ++ decimal e) b.text ↔ s = b.fileStart ∧ e = b.fileEnd) ∧
    (∀ n, IsLine ("  Block size: ".toList ++ decimal n ++ " bytes".toList) b.text ↔ n = b.sizeStart) ∧
    (∀ n, IsLine ("  Content size: ".toList ++ decimal n ++ " bytes".toList) b.text ↔ n = b.contentSize) ∧
    ∀ n, IsLine ("  Blocks: ".toList ++ decimal n) b.text ↔ n = b.content.length := by
  obtain ⟨h0, h1, h2, h3, h4⟩ := head_starts b
  refine ⟨fun s e => ?_, fun n => ?_, fun n => ?_, fun n => ?_⟩
  · rw [isLine_head (j := 1) (by omega) (by rw [List.append_assoc, List.append_assoc]; exact h1 _)]
    constructor
    · intro h
      have h' : "  File offset: ".toList ++ decimal s ++ " - ".toList ++ decimal e =
        "  File offset: ".toList ++ decimal b.fileStart ++ " - ".toList ++ decimal b.fileEnd := h
      rw [show " - ".toList = [' ', '-', ' '] from String.toList_ofList] at h'
      simp only [List.append_assoc] at h'
      have hd : ∀ n, ' ' ∉ decimal n := fun n h => absurd (decimal_digit h) (by decide)
      obtain ⟨e1, e2⟩ := first_at (hd _) (hd _) (List.append_cancel_left h')
      have e3 : ['-', ' '] ++ decimal e = ['-', ' '] ++ decimal b.fileEnd := e2
      exact ⟨decimal_inj e1, decimal_inj (List.append_cancel_left e3)⟩
    · rintro ⟨rfl, rfl⟩; rfl
  · rw [isLine_head (j := 2) (by omega) (by rw [List.append_assoc]; exact h2 _)]
    exact ⟨fun h => between_inj h, by rintro rfl; rfl⟩
  · rw [isLine_head (j := 3) (by omega) (by rw [List.append_assoc]; exact h3 _)]
    exact ⟨fun h => between_inj h, by rintro rfl; rfl⟩
  · rw [isLine_head (j := 4) (by omega) (h4 _)]
    exact ⟨fun h => decimal_inj (List.append_cancel_left h), by rintro rfl; rfl⟩

/-- C127. Two blocks have the same text exactly if they have the same position, sizes and outline of their values: nothing else of the
signatures, certificates, digests and data can be seen from the text. -/
theorem C127_same_text {b b' : SigningBlock} : b.text = b'.text ↔
    b.fileStart = b'.fileStart ∧ b.fileEnd = b'.fileEnd ∧ b.sizeStart = b'.sizeStart ∧ b.contentSize = b'.contentSize ∧
      b.content.map outline = b'.content.map outline := by
  constructor
  · intro h
    have p := (C127_numbers (b := b)).1 b.fileStart b.fileEnd
    have q := (C127_numbers (b := b)).2.1 b.sizeStart
    have r := (C127_numbers (b := b)).2.2.1 b.contentSize
    rw [h, (C127_numbers (b := b')).1] at p
    rw [h, (C127_numbers (b := b')).2.1] at q
    rw [h, (C127_numbers (b := b')).2.2.1] at r
    refine ⟨(p.mpr ⟨rfl, rfl⟩).1, (p.mpr ⟨rfl, rfl⟩).2, q.mpr rfl, r.mpr rfl, ?_⟩
    apply List.ext_getElem?
    intro i
    rw [List.getElem?_map, List.getElem?_map]
    apply Option.ext
    intro o
    have e := isLine_entry (b := b) (i := i) (o := o)
    rw [h, isLine_entry] at e
    rw [Option.map_eq_some_iff, Option.map_eq_some_iff]
    exact e.symm
  · rintro ⟨h1, h2, h3, h4, h5⟩
    have hl : b.content.length = b'.content.length := by simpa using congrArg List.length h5
    have he : b.content.mapIdx entryLine = b'.content.mapIdx entryLine := by
      apply List.ext_getElem?
      intro i
      have hi := congrArg (fun l => l[i]?) h5
      simp only [List.getElem?_map] at hi
      rw [List.getElem?_mapIdx, List.getElem?_mapIdx]
      cases hb : b.content[i]? with
      | none =>
        cases hb' : b'.content[i]? with
        | none => rfl
        | some v' => rw [hb, hb'] at hi; cases hi
      | some v =>
        cases hb' : b'.content[i]? with
        | none => rw [hb, hb'] at hi; cases hi
        | some v' =>
          rw [hb, hb'] at hi
          simp only [Option.map_some, Option.some.injEq] at hi
          have hv : v.text = v'.text := by rw [value_text, value_text, hi]
          rw [Option.map_some, Option.map_some]
          exact congrArg (fun x => some ("  Block ".toList ++ decimal (i + 1) ++ ": ".toList ++ x)) hv
    have hb : b.lines = b'.lines := by
      unfold SigningBlock.lines
      exact congr (congrArg _ (by with_reducible rw [h1, h2, h3, h4, hl])) he
    exact congrArg unlines hb

/-- C127. The text of one value: the same exactly if the outline is. -/
theorem C127_same_value {v v' : Value} : v.text = v'.text ↔ outline v = outline v' := by
  rw [value_text, value_text]
  exact ⟨outline_text_inj, fun h => h ▸ rfl⟩

/-- C127. For a block read from a module, the positions are those of the block in the file, and the sizes those written there. -/
theorem C127_module {p : Profile} {file : Bytes} {b : SigningBlock} (h : (Module.new file).getSigningBlock p file = .ok b) :
    ∃ pos t off pre pairs, EndRecord file pos t off ∧ BlockBefore file (min file.length off) pre pairs b.content ∧
      IsLine ("  File offset: ".toList ++ decimal pre.length ++ " - ".toList ++ decimal (pre.length + pairs.length + 32)) b.text ∧
      IsLine ("  Block size: ".toList ++ decimal (pairs.length + 24) ++ " bytes".toList) b.text ∧
      IsLine ("  Content size: ".toList ++ decimal pairs.length ++ " bytes".toList) b.text := by
  obtain ⟨pos, t, off, pre, pairs, h1, h2, h3⟩ := (C89_block p file b).mp h
  refine ⟨pos, t, off, pre, pairs, h1, h2, C127_numbers.1 _ _ |>.mpr ⟨?_, ?_⟩, (C127_numbers.2.1 _).mpr ?_, (C127_numbers.2.2.1 _).mpr ?_⟩
  all_goals rw [h3]

/-- A signed module whose block is read, so that its text can be asked for. -/
example : ∃ b, (Module.new (sampleArchive.signed sampleBlock.toU8)).getSigningBlock .dev (sampleArchive.signed sampleBlock.toU8) = .ok b ∧
    ∃ s e, IsLine ("  File offset: ".toList ++ decimal s ++ " - ".toList ++ decimal e) b.text := by
  obtain ⟨b, hb⟩ := Res.exists_of_isOk (show ((Module.new (sampleArchive.signed sampleBlock.toU8)).getSigningBlock .dev
    (sampleArchive.signed sampleBlock.toU8)).isOk = true by decide +kernel)
  obtain ⟨_, _, _, _, _, _, _, h, _⟩ := C127_module hb
  exact ⟨b, hb, _, _, h⟩

/-- Two different blocks whose texts are the same. -/
example : ∃ b b' : SigningBlock, b.text = b'.text ∧ b ≠ b' ∧ b.content ≠ [] := by
  refine ⟨⟨0, 0, 0, 0, [.raw ⟨5, 7, [1]⟩], 0, []⟩, ⟨0, 0, 0, 0, [.raw ⟨5, 7, [2]⟩], 0, []⟩, C127_same_text.mpr ?_, by decide, by decide⟩
  exact ⟨rfl, rfl, rfl, rfl, rfl⟩

/-- A raw value under the identifier of the V2 scheme is listed as unknown, not as a signature. -/
example : IsLine ("  Block ".toList ++ decimal (0 + 1) ++ ": ".toList ++ ("Unknown".toList ++ " (id=0x".toList ++
      hexNat8 (0x7109871a : UInt32).toNat ++ ", ".toList ++ decimal 1 ++ " bytes)".toList))
    (SigningBlock.text ⟨0, 0, 0, 0, [.raw ⟨5, 0x7109871a, [1]⟩], 0, []⟩) :=
  (C127_values 0 1 0x7109871a).2.2.2.2.mpr ⟨_, rfl, rfl, rfl, by decide⟩

/-- Eight digits. -/
example : hexNat8 (0x7109871a : UInt32).toNat = "7109871a".toList ∧ hexNat8 7 = "00000007".toList := by
  constructor <;> decide +kernel

end Ksusig.Props
