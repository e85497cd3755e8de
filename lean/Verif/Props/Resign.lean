import Verif.Props.SignAgain

/-!
# C95: signing, signing again and stripping at the library level, for arbitrary module files
-/

namespace Ksusig.Props

open Ksusig Spec

/-- Writing a module with a block, as an archive with a block. The archive is determined by the file alone, and whether writing
succeeds does not depend on the block or on the build profile. -/
theorem write_archive {file : Bytes} {pos : Nat} {t : Tail} {off : Nat} (hr : EndRecord file pos t off) (hplain : Plain t)
    (hsize : off + 16392 < 2 ^ 32) :
    (∃ a : Archive, a.tail = t ∧ (∀ n, n ≤ 16392 → Signable a n) ∧
      (∀ p b, b.toU8.length ≤ 16392 → (Module.new file).signableWrite p file b = (a.signed b.toU8, .ok ())) ∧
      (a.unsigned = file ↔ Unsigned file (min file.length off) ∧ pos + 22 + t.comment.length = file.length)) ∨
    ∀ p b out, b.toU8.length ≤ 16392 → (Module.new file).signableWrite p file b ≠ (out, .ok ()) := by
  by_cases hany : ∃ raw pos2 t2 off2, Source file raw ∧ EndRecord raw pos2 t2 off2 ∧ off2 ≤ pos2
  · left
    obtain ⟨raw, pos2, t2, off2, hsrc, hr2, hle⟩ := hany
    have hl : ∃ s e, Located file off s e ∧ s ≤ e ∧ (s = e → raw = file ∧ Unsigned file (min file.length off)) ∧
        (s < e → raw.length + 1 ≤ file.length ∧ ¬ Unsigned file (min file.length off)) := by
      cases hsrc with
      | unsigned pos3 t3 off3 hr3 hu =>
        obtain ⟨rfl, rfl, rfl⟩ := hr.unique hr3
        exact ⟨off, off, .unsigned hu, Nat.le_refl _, fun _ => ⟨rfl, hu⟩, fun h => absurd h (Nat.lt_irrefl _)⟩
      | signed _ hs =>
        obtain ⟨pos3, t3, off3, pre, pairs, vs, hr3, hbb, hc⟩ := hs
        obtain ⟨rfl, rfl, rfl⟩ := hr.unique hr3
        refine ⟨_, _, .signed pre pairs vs hbb, by omega, fun h => by omega, fun _ => ⟨?_, fun hu => ?_⟩⟩
        · simp only [stripped, List.length_append, List.length_take, List.length_drop, wireEocd_length]
          omega
        · have := (C89_unique file).2 _ _ _ _ _ (.unsigned hu) (.signed pre pairs vs hbb)
          omega
    obtain ⟨s, e, hl, hse, heq, hlt⟩ := hl
    obtain ⟨pos4, hr4⟩ := source_record hr hl hplain hsrc
    obtain ⟨rfl, rfl, rfl⟩ := hr2.unique hr4
    have hfit := endRecord_slice hr2
    have hoff := hr.offset
    generalize hoo : off - (e - s) = o at *
    refine ⟨⟨raw.take o, (raw.drop o).take (pos2 - o), t2⟩, rfl, fun n hn => ?_, fun p b hb => ?_, ?_⟩
    · refine ⟨hr.comment, fun k hk => hplain _ k hk, fun k hk => hplain _ k hk, ?_⟩
      simp only [List.length_take]; omega
    · refine (C92_sign p file b _ (by omega)).mpr ⟨raw, hsrc, ?_⟩
      have := Inserted.intro (raw := raw) (block := b.toU8) pos2 t2 o hr2 hle
      simp only [Archive.signed, List.length_take]
      rwa [Nat.min_eq_left (by omega)]
    · have hraw : Archive.unsigned ⟨raw.take o, (raw.drop o).take (pos2 - o), t2⟩ = raw.take (pos2 + 22 + t2.comment.length) := by
        obtain ⟨before, after, hb, hbl⟩ := hr2.bytes
        simp only [Archive.unsigned, List.length_take]
        rw [Nat.min_eq_left (by omega)]
        have h1 : raw.take o ++ (raw.drop o).take (pos2 - o) = raw.take pos2 := by
          rw [← List.take_add]; congr 1; omega
        rw [h1, hb, ← hbl, List.append_assoc, List.take_left' rfl, ← List.append_assoc,
          List.take_left' (by simp only [List.length_append, wireEocd_length]; omega)]
      rw [hraw]
      constructor
      · intro h
        have hlen : min (pos2 + 22 + t2.comment.length) raw.length = file.length := by
          rw [← h, List.length_take]
        rcases Nat.lt_or_eq_of_le hse with hlt' | heq'
        · have := (hlt hlt').1; omega
        · obtain ⟨rfl, hu⟩ := heq heq'
          refine ⟨hu, ?_⟩
          have h2 := hr2.unique hr
          omega
      · rintro ⟨hu, hend⟩
        rcases Nat.lt_or_eq_of_le hse with hlt' | heq'
        · exact absurd hu (hlt hlt').2
        · obtain ⟨rfl, -⟩ := heq heq'
          have h2 := hr2.unique hr
          rw [List.take_of_length_le (by omega)]
  · right
    intro p b out hb h
    obtain ⟨raw, hsrc, hins⟩ := (C92_sign p file b out (by omega)).mp h
    obtain ⟨pos2, t2, off2, hr2, hle⟩ := hins
    exact hany ⟨raw, pos2, t2, off2, hsrc, hr2, hle⟩

/-- C21 for every file whatsoever, signed or not: if signing succeeds, what was written consists of some entries, the block, a
directory and an end record, and unless the new directory offset lies beyond 4 GiB or completes a spurious end record, the block reads
back exactly, located right before the directory. -/
theorem C21_any_module {p p' q : Profile} {file out : Bytes} {b : SigningBlock} (hb : Built p' b)
    (h : (Module.new file).signableWrite p file b = (out, .ok ())) :
    ∃ a : Archive, a.Ok ∧ out = a.signed b.toU8 ∧
      (a.body.length + b.toU8.length < 2 ^ 32 → a.CleanAt (a.body.length + b.toU8.length) →
        ∃ b', (Module.new out).getSigningBlock q out = .ok b' ∧ SameBlock b' b ∧
          b'.fileStart = a.body.length ∧ b'.fileEnd = a.body.length + b.toU8.length ∧
          ∃ e, findEocd out out.length = .ok e ∧ e.cdOffset.toNat = b'.fileEnd) := by
  have hbl := built_length hb
  obtain ⟨raw, _, hins⟩ := (C92_sign p file b out (by omega)).mp h
  obtain ⟨pos, t, off, hr, hle⟩ := hins
  have hroom := endRecord_room hr
  have hcl : t.comment.length ≤ 65535 := hr.comment
  have hlen : (raw.take off).length = off := by rw [List.length_take]; omega
  refine ⟨⟨raw.take off, (raw.drop off).take (pos - off), t⟩, hcl, by unfold Archive.signed; rw [hlen], fun hsz hclean => ?_⟩
  have hout : raw.take off ++ b.toU8 ++ (raw.drop off).take (pos - off) ++ wireEocd t (off + b.toU8.length) =
      Archive.signed ⟨raw.take off, (raw.drop off).take (pos - off), t⟩ b.toU8 := by unfold Archive.signed; rw [hlen]
  rw [hout]
  exact ⟨_, getSigningBlock_signed q hb.wf hcl hclean hsz, ⟨rfl, rfl, rfl, rfl, rfl⟩, rfl, rfl, _, findEocd_signed hcl hclean, u32_ofNat_toNat hsz⟩

/-- C21 by the end record of the file that is signed: if it hides no other record and the file leaves room below 4 GiB, the block that
is written reads back, right before the directory, and the end record is the one of the input with another offset. -/
theorem C21_reads_back {p p' q : Profile} {file out : Bytes} {pos : Nat} {t : Tail} {off : Nat} {b : SigningBlock} (hb : Built p' b)
    (hr : EndRecord file pos t off) (hplain : Plain t) (hsize : off + 16392 < 2 ^ 32)
    (h : (Module.new file).signableWrite p file b = (out, .ok ())) :
    ∃ b' pos', (Module.new out).getSigningBlock q out = .ok b' ∧ SameBlock b' b ∧ b'.fileEnd = b'.fileStart + b.toU8.length ∧
      EndRecord out pos' t b'.fileEnd ∧ pos' + 22 + t.comment.length = out.length := by
  have hbl := built_length hb
  rcases write_archive hr hplain hsize with ⟨a, rfl, hs, hw, _⟩ | hno
  · cases (hw p b hbl).symm.trans h
    have hok : a.tail.comment.length ≤ 65535 := hr.comment
    have hsz : a.body.length + b.toU8.length < 2 ^ 32 := (hs _ hbl).size
    have hclean : a.CleanAt (a.body.length + b.toU8.length) := fun k hk => hplain _ k hk
    refine ⟨_, (a.body ++ b.toU8 ++ a.cd).length, getSigningBlock_signed q hb.wf hok hclean hsz, ⟨rfl, rfl, rfl, rfl, rfl⟩, rfl,
      endRecord_of_plain hplain hok _ hsz, ?_⟩
    have := wireEocd_length a.tail (a.body.length + b.toU8.length)
    unfold Archive.signed
    simp only [List.length_append] at *
    omega
  · exact absurd h (hno p b out hbl)

/-- C95. Stripping what signing wrote gives back the file exactly if the file carried nothing that looks like a block and nothing
follows its end record. In any case the stripped bytes do not depend on the block that was written. -/
theorem C95_strip_after_sign {file : Bytes} {pos : Nat} {t : Tail} {off : Nat} (hr : EndRecord file pos t off) (hplain : Plain t)
    (hsize : off + 16392 < 2 ^ 32) :
    ∃ raw, (∀ p p' q b out, Built p' b → (Module.new file).signableWrite p file b = (out, .ok ()) →
        (Module.new out).getRawModule q out = .ok raw) ∧
      ((∃ p p' b out, Built p' b ∧ (Module.new file).signableWrite p file b = (out, .ok ())) →
        (raw = file ↔ Unsigned file (min file.length off) ∧ pos + 22 + t.comment.length = file.length)) := by
  rcases write_archive hr hplain hsize with ⟨a, rfl, hs, hw, hraw⟩ | hno
  · refine ⟨a.unsigned, fun p p' q b out hb h => ?_, fun _ => hraw⟩
    rw [hw p b (built_length hb)] at h
    obtain rfl := (Prod.mk.inj h).1
    exact C22_strip_signed hb (hs _ (built_length hb))
  · refine ⟨[], fun p p' q b out hb h => absurd h (hno p b out (built_length hb)), ?_⟩
    rintro ⟨p, p', b, out, hb, h⟩
    exact absurd h (hno p b out (built_length hb))

/-- C95. Signatures do not accumulate, whatever the file and the history of signings: the result of signing with several blocks, one
after the other, is what signing the first file with the last block alone gives. -/
theorem C95_last_signing_counts {file : Bytes} {pos : Nat} {t : Tail} {off : Nat} (hr : EndRecord file pos t off)
    (hplain : Plain t) (hsize : off + 16392 < 2 ^ 32) {p p' : Profile} {bs : List SigningBlock} {out : Bytes}
    (h : SignedWith p file bs out) (hbs : ∀ b ∈ bs, Built p' b) :
    (bs = [] ∧ out = file) ∨
      ∃ b, bs.getLast? = some b ∧ (Module.new file).signableWrite p file b = (out, .ok ()) := by
  rcases write_archive hr hplain hsize with ⟨a, rfl, hs, hw, hraw⟩ | hno
  · induction h with
    | none => exact .inl ⟨rfl, rfl⟩
    | step mid out bs b h1 h2 ih =>
      have hb := hbs b (by simp)
      right
      refine ⟨b, by simp, ?_⟩
      rcases ih (fun b' hb' => hbs b' (by simp [hb'])) with ⟨_, rfl⟩ | ⟨b', hl, h3⟩
      · exact h2
      · have hb' := hbs b' (by simp [List.mem_of_getLast? hl])
        rw [hw p b' (built_length hb')] at h3
        obtain rfl := (Prod.mk.inj h3).1
        rw [C24_sign_signed hb' (hs _ (built_length hb')) (hs _ (built_length hb))] at h2
        rw [hw p b (built_length hb)]
        exact h2
  · induction h with
    | none => exact .inl ⟨rfl, rfl⟩
    | step mid out bs b h1 h2 ih =>
      rcases ih (fun b' hb' => hbs b' (by simp [hb'])) with ⟨_, rfl⟩ | ⟨b', hl, h3⟩
      · exact absurd h2 (hno p b out (built_length (hbs b (by simp))))
      · exact absurd h3 (hno p b' mid (built_length (hbs b' (by simp [List.mem_of_getLast? hl]))))

/-- C95. Once a file was signed it can be signed with every other block, in every build profile. -/
theorem C95_signing_again_succeeds {file : Bytes} {pos : Nat} {t : Tail} {off : Nat} (hr : EndRecord file pos t off)
    (hplain : Plain t) (hsize : off + 16392 < 2 ^ 32) {p p' : Profile} {b : SigningBlock} {out : Bytes} (hb : Built p' b)
    (h : (Module.new file).signableWrite p file b = (out, .ok ())) (q q' : Profile) (b' : SigningBlock) (hb' : Built q' b') :
    ∃ out', (Module.new out).signableWrite q out b' = (out', .ok ()) ∧ (Module.new file).signableWrite q file b' = (out', .ok ()) := by
  rcases write_archive hr hplain hsize with ⟨a, rfl, hs, hw, hraw⟩ | hno
  · rw [hw p b (built_length hb)] at h
    obtain rfl := (Prod.mk.inj h).1
    exact ⟨a.signed b'.toU8, C24_sign_signed hb (hs _ (built_length hb)) (hs _ (built_length hb')), hw q b' (built_length hb')⟩
  · exact absurd h (hno p b out (built_length hb))

/-- C95. Stripping a signed file and signing the result is the same as signing the signed file again exactly if nothing in the stripped
file looks like a block: otherwise the second signing takes away one more block, from the entries. -/
theorem C95_strip_then_sign {file : Bytes} {pos : Nat} {t : Tail} {off : Nat} (hr : EndRecord file pos t off)
    (hplain : Plain t) (hsize : off + 16392 < 2 ^ 32) {p p' : Profile} {b : SigningBlock} {out raw : Bytes} (hb : Built p' b)
    (h : (Module.new file).signableWrite p file b = (out, .ok ())) (hraw : (Module.new out).getRawModule p out = .ok raw)
    (q q' : Profile) (b' : SigningBlock) (hb' : Built q' b') :
    ∃ pos2 off2, EndRecord raw pos2 t off2 ∧
      ((Module.new raw).signableWrite q raw b' = (Module.new out).signableWrite q out b' ↔
        Unsigned raw (min raw.length off2)) := by
  rcases write_archive hr hplain hsize with ⟨a, rfl, hs, hw, -⟩ | hno
  · rw [hw p b (built_length hb)] at h
    obtain rfl := (Prod.mk.inj h).1
    rw [C22_strip_signed hb (hs _ (built_length hb))] at hraw
    obtain rfl := Res.ok.inj hraw
    have hsa := (hs 0 (by omega)).size
    have hsb := (hs 16392 (by omega)).size
    have hr2 : EndRecord a.unsigned (a.body ++ a.cd).length a.tail a.body.length :=
      endRecord_of_plain hplain hr.comment (a.body ++ a.cd) (by omega)
    refine ⟨_, _, hr2, ?_⟩
    rw [C24_sign_signed (p := q) hb (hs _ (built_length hb)) (hs _ (built_length hb'))]
    change _ = (a.signed b'.toU8, _) ↔ _
    have hfull : (a.body ++ a.cd).length + 22 + a.tail.comment.length = a.unsigned.length := by
      simp only [Archive.unsigned, List.length_append, wireEocd_length]; omega
    rcases write_archive hr2 hplain hsb with ⟨a', ht, hs', hw', hu'⟩ | hno'
    · rw [hw' q b' (built_length hb')]
      constructor
      · intro h
        have h1 := C22_strip_signed (p := p) hb' (hs' _ (built_length hb'))
        rw [(Prod.mk.inj h).1, C22_strip_signed hb' (hs _ (built_length hb'))] at h1
        exact (hu'.mp (Res.ok.inj h1).symm).1
      · intro hu
        have h1 := hu'.mpr ⟨hu, hfull⟩
        have hsa' := (hs' 0 (by omega)).size
        have hl : a'.body.length = a.body.length := by
          have h2 := congrArg (fun l : Bytes => l.drop (l.length - (22 + a.tail.comment.length))) h1
          simp only [Archive.unsigned, ht, List.length_append, wireEocd_length] at h2
          rw [List.drop_left' (by simp only [List.length_append]; omega),
            List.drop_left' (by simp only [List.length_append]; omega)] at h2
          exact wireEocd_inj_off (by omega) (by omega) h2
        have h3 := h1
        simp only [Archive.unsigned, ht, hl] at h3
        have h4 := List.append_cancel_right h3
        obtain ⟨h5, h6⟩ := List.append_inj h4 hl
        simp only [Archive.signed, ht, h5, h6]
    · constructor
      · intro h
        exact absurd h (hno' q b' _ (built_length hb'))
      · intro hu
        have hp : a.body.length ≤ (a.body ++ a.cd).length := by simp
        exact absurd ((C92_sign q a.unsigned b' _ (by have := built_length hb'; omega)).mpr
          ⟨_, .unsigned _ _ _ hr2 hu, .intro _ _ _ hr2 hp⟩) (hno' q b' _ (built_length hb'))
  · exact absurd h (hno p b out (built_length hb))

theorem nestedPlain_record : EndRecord nestedPlain.unsigned 441 nestedPlain.tail 437 := by
  have h : EndRecord nestedPlain.unsigned (nestedPlain.body ++ nestedPlain.cd).length nestedPlain.tail nestedPlain.body.length :=
    endRecord_of_plain (plain_no_comment rfl) (by decide) (nestedPlain.body ++ nestedPlain.cd) (by decide +kernel)
  have h1 : (nestedPlain.body ++ nestedPlain.cd).length = 441 := by decide +kernel
  have h2 : nestedPlain.body.length = 437 := by decide +kernel
  rwa [h1, h2] at h

set_option maxRecDepth 100000 in
/-- The hypotheses of `C21_any_module` and `C21_reads_back` are met by an archive that is signed. -/
example : ∃ out b, (Module.new plainArchive.unsigned).signableWrite .dev plainArchive.unsigned sampleBlock = (out, .ok ()) ∧
    (Module.new out).getSigningBlock .release out = .ok b ∧ SameBlock b sampleBlock ∧ sampleBlock.content ≠ [] := by
  have h : ((Module.new plainArchive.unsigned).signableWrite .dev plainArchive.unsigned sampleBlock).2 = .ok () := by
    decide +kernel
  obtain ⟨b, _, h1, h2, _⟩ := C21_reads_back (q := .release) (sampleBlock_built .dev) plainArchive_unsigned_record.1
    (plain_no_comment rfl) (by omega) (Prod.ext rfl h)
  exact ⟨_, b, Prod.ext rfl h, h1, h2, by decide +kernel⟩

set_option maxRecDepth 100000 in
/-- A small unsigned archive is given back by stripping; the hypotheses of `C95_strip_after_sign` are met. -/
example : ∃ out, (Module.new plainArchive.unsigned).signableWrite .dev plainArchive.unsigned sampleBlock = (out, .ok ()) ∧
    (Module.new out).getRawModule .dev out = .ok plainArchive.unsigned := by
  obtain ⟨raw, h1, h2⟩ := C95_strip_after_sign plainArchive_unsigned_record.1 (plain_no_comment rfl) (by omega)
  have h : ((Module.new plainArchive.unsigned).signableWrite .dev plainArchive.unsigned sampleBlock).2 = .ok () := by
    decide +kernel
  have h3 := h1 .dev .dev .dev sampleBlock _ (sampleBlock_built .dev) (Prod.ext rfl h)
  have h4 := h2 ⟨.dev, .dev, sampleBlock, _, sampleBlock_built .dev, Prod.ext rfl h⟩
  have hu : Unsigned plainArchive.unsigned (min plainArchive.unsigned.length 30) := by
    obtain ⟨pos, t, off, hr, hu⟩ := (C89_missing .dev plainArchive.unsigned).mp ⟨.magicNotFound, by decide +kernel, rfl⟩
    obtain ⟨rfl, rfl, rfl⟩ := plainArchive_unsigned_record.1.unique hr
    exact hu
  rw [h4.mpr ⟨hu, by decide +kernel⟩] at h3
  exact ⟨_, Prod.ext rfl h, h3⟩

set_option maxRecDepth 100000 in
/-- An archive with a block inside an entry is not given back: the block in the entry is lost. Signing it with two different blocks
one after the other gives what the second alone gives. -/
example : ∃ out out', (Module.new nestedPlain.unsigned).signableWrite .dev nestedPlain.unsigned sampleBlock = (out, .ok ()) ∧
    (Module.new out).getRawModule .dev out ≠ .ok nestedPlain.unsigned ∧
    SignedWith .dev nestedPlain.unsigned [SigningBlock.recalculateSize ⟨0, 0, 0, 0, [], 0, Ksusig.magic⟩, sampleBlock] out' ∧
    out' = out := by
  have h : (match (Module.new nestedPlain.unsigned).signableWrite .dev nestedPlain.unsigned sampleBlock with
    | (out, .ok ()) => decide ((Module.new out).getRawModule .dev out ≠ .ok nestedPlain.unsigned) &&
      match (Module.new nestedPlain.unsigned).signableWrite .dev nestedPlain.unsigned
          (SigningBlock.recalculateSize ⟨0, 0, 0, 0, [], 0, Ksusig.magic⟩) with
      | (mid, .ok ()) => decide ((Module.new mid).signableWrite .dev mid sampleBlock = (out, .ok ()))
      | _ => false
    | _ => false) = true := by decide +kernel
  split at h
  · rename_i out h1
    rw [Bool.and_eq_true] at h
    obtain ⟨h2, h3⟩ := h
    split at h3
    · rename_i mid h4
      exact ⟨out, out, h1, of_decide_eq_true h2, .step _ _ [_] _ (.step _ _ [] _ .none h4) (of_decide_eq_true h3), rfl⟩
    · cases h3
  · cases h

end Ksusig.Props
