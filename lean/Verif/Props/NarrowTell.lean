import Verif.Model.NarrowTell
import Verif.Props.NarrowSign
import Verif.Props.NarrowBack
import Verif.Props.Cli

/-! C129: the digest and the info command on 32-bit machines. -/

namespace Ksusig.Props

open Ksusig Spec

/-- Both machines find regions, or none does. -/
theorem regions_both {p : Profile} {file : Bytes} (hf : file.length + 65557 < 2 ^ 32) {o : FileOffsets}
    (ho : (Module.new file).getOffsets p file = .ok o) :
    (Narrow.digestRegions p file = .panic ∧ (Module.new file).digestRegions p file = .panic) ∨
    (∃ rs, Narrow.digestRegions p file = .ok rs ∧ (Module.new file).digestRegions p file = .ok rs ∧
      ∃ n, rs.foldlM (fun t r => uadd p t r.size) 0 = .ok n) ∨
    ∃ rs rs', p = .release ∧ Narrow.digestRegions p file = .ok rs ∧ (Module.new file).digestRegions p file = .ok rs' ∧
      ∀ f : Bytes, f.length ≤ file.length → (dumpRegions f rs).2 = false ∧ (dumpRegions f rs').2 = false := by
  obtain ⟨s1, s2, s3, s4, s5⟩ := offsets_shape ho
  have s6 := (offsets_twin hf ho).2
  unfold Narrow.digestRegions Module.digestRegions
  rw [ho, (offsets_twin hf ho).1]
  simp only [Res.ok_bind]
  have e1 : Narrow.usub p o.stopContent o.startContent = .ok (o.stopContent - o.startContent) := if_pos (by omega)
  have e1' : usub p o.stopContent o.startContent = .ok (o.stopContent - o.startContent) := if_pos (by omega)
  have e3 : Narrow.usub p o.stopEocd o.startEocd = .ok (o.stopEocd - o.startEocd) := if_pos (by omega)
  have e3' : usub p o.stopEocd o.startEocd = .ok (o.stopEocd - o.startEocd) := if_pos (by omega)
  have s7 : o.stopCd = o.startEocd ∧ o.stopContent ≤ o.startCd := by
    unfold Module.getOffsets Module.getOffsetsT at ho
    obtain ⟨eocd, _, ho⟩ := Res.bind_eq_ok.mp ho
    cases hb : (Module.new file).getSigningBlockT p file file with
    | ok b =>
      rw [hb] at ho
      cases ho
      have hb' : (findEocd file file.length >>= fun eocd =>
        SigningBlock.fromReader p file file.length (file.length - eocd.cdOffset.toNat)) = .ok b := hb
      obtain ⟨eocd', _, h3⟩ := Res.bind_eq_ok.mp hb'
      obtain ⟨pre, pairs, post, _, _, _, _, _, _, _, g8⟩ := fromReader_iff.mp h3
      refine ⟨rfl, ?_⟩
      show b.fileStart ≤ b.fileEnd
      rw [g8]
      dsimp only
      omega
    | panic => rw [hb] at ho; cases ho
    | err e =>
      rw [hb] at ho
      dsimp only at ho
      by_cases hm : e.isMissing = true
      · rw [if_pos hm] at ho; cases ho; exact ⟨rfl, Nat.le_refl _⟩
      · rw [if_neg hm] at ho; cases ho
  rw [e1, e1']
  simp only [Res.ok_bind]
  by_cases hle : o.startCd ≤ o.stopCd
  · have e2 : Narrow.usub p o.stopCd o.startCd = .ok (o.stopCd - o.startCd) := if_pos hle
    have e2' : usub p o.stopCd o.startCd = .ok (o.stopCd - o.startCd) := if_pos hle
    rw [e2, e2', e3, e3']
    simp only [Res.ok_bind]
    refine .inr (.inl ⟨_, rfl, rfl, ?_⟩)
    have u1 : uadd p 0 (o.stopContent - o.startContent) = .ok (o.stopContent - o.startContent) := by
      unfold uadd; rw [if_pos (by omega), Nat.zero_add]
    have u2 : uadd p (o.stopContent - o.startContent) (o.stopCd - o.startCd) =
      .ok (o.stopContent - o.startContent + (o.stopCd - o.startCd)) := if_pos (by omega)
    have u3 : uadd p (o.stopContent - o.startContent + (o.stopCd - o.startCd)) (o.stopEocd - o.startEocd) =
      .ok (o.stopContent - o.startContent + (o.stopCd - o.startCd) + (o.stopEocd - o.startEocd)) := if_pos (by omega)
    simp only [List.foldlM, u1, u2, u3, Res.ok_bind]
    exact ⟨_, rfl⟩
  · cases p with
    | dev =>
      have e2 : Narrow.usub .dev o.stopCd o.startCd = .panic := by unfold Narrow.usub; rw [if_neg hle]
      have e2' : usub .dev o.stopCd o.startCd = .panic := by unfold usub; rw [if_neg hle]
      rw [e2, e2']
      exact .inl ⟨rfl, rfl⟩
    | release =>
      have e2 : Narrow.usub .release o.stopCd o.startCd = .ok (2 ^ 32 + o.stopCd - o.startCd) := by unfold Narrow.usub; rw [if_neg hle]
      have e2' : usub .release o.stopCd o.startCd = .ok (2 ^ 64 + o.stopCd - o.startCd) := by unfold usub; rw [if_neg hle]
      rw [e2, e2', e3, e3']
      simp only [Res.ok_bind]
      refine .inr (.inr ⟨_, _, trivial, rfl, rfl, fun f hfl => ⟨?_, ?_⟩⟩)
      all_goals
        rw [Bool.eq_false_iff]
        intro hd
        have hd := (C49_dump_is_the_regions f _).1.mp hd _ (List.mem_cons_of_mem _ List.mem_cons_self)
        dsimp only at hd
        omega

theorem open_module {acc : Bytes → Bool} {file : Bytes} (h : detectFileFormat file = .ok .module) :
    cliOpen acc [] file = .ok (.module (Module.new file) file) := by
  unfold cliOpen SignableFile.open
  rw [h]
  rfl

/-- A module that is signed in a way only 32-bit machines read, or whose offsets both find. -/
theorem narrow_readable {p : Profile} {file : Bytes} (hf : file.length + 65557 < 2 ^ 32) {o : FileOffsets}
    (ho : Narrow.getOffsets p file = .ok o) : Readable p file ∨ OddBlock p file := by
  unfold Narrow.getOffsets at ho
  obtain ⟨eocd, _, ho⟩ := Res.bind_eq_ok.mp ho
  cases hb : Narrow.getSigningBlock p file with
  | ok b =>
    by_cases hP : SizesAsWritten file b ∧ ∀ v ∈ b.content, ¬ HasHuge v
    · exact .inl (.inl ⟨b, (C108_exact p hf b).mpr ⟨hb, hP⟩⟩)
    · exact .inr ⟨b, hb, hP⟩
  | err e =>
    rw [hb] at ho
    dsimp only at ho
    split at ho
    · rename_i hm
      exact .inl (.inr ((C108_unsigned p hf).mpr ⟨e, hb, hm⟩))
    · cases ho
  | panic => rw [hb] at ho; cases ho

theorem total_release (rs : List DigestRegion) : ∀ t, ∃ n, rs.foldlM (fun t (r : DigestRegion) => uadd .release t r.size) t = .ok n := by
  induction rs with
  | nil => exact fun t => ⟨t, rfl⟩
  | cons r rs ih =>
    intro t
    have hu : ∃ n, uadd .release t r.size = .ok n := by
      unfold uadd
      by_cases h : t + r.size < 2 ^ 64
      · exact ⟨_, if_pos h⟩
      · exact ⟨_, if_neg h⟩
    obtain ⟨n, hn⟩ := hu
    obtain ⟨k, hk⟩ := ih n
    exact ⟨k, by rw [List.foldlM_cons, hn, Res.ok_bind, hk]⟩

/-- The regions of both machines, with the total. -/
theorem totals_both {p : Profile} {acc : Bytes → Bool} {file : Bytes} (hf : file.length + 65557 < 2 ^ 32) (hr : Readable p file) :
    (Narrow.cliRegions p file = .panic ∧ cliRegions p acc (.module (Module.new file) file) = .panic) ∨
    (∃ rs, Narrow.cliRegions p file = .ok rs ∧ cliRegions p acc (.module (Module.new file) file) = .ok rs) ∨
    ∃ rs rs', Narrow.cliRegions p file = .ok rs ∧ cliRegions p acc (.module (Module.new file) file) = .ok rs' ∧
      ∀ f : Bytes, f.length ≤ file.length → (dumpRegions f rs).2 = false ∧ (dumpRegions f rs').2 = false := by
  obtain ⟨o, ho⟩ := readable_offsets hr
  unfold Narrow.cliRegions cliRegions SignableFile.digestRegions
  dsimp only
  rcases regions_both hf ho with ⟨h1, h2⟩ | ⟨rs, h1, h2, n, h3⟩ | ⟨rs, rs', hp, h1, h2, h3⟩
  · rw [h1, h2]
    exact .inl ⟨rfl, rfl⟩
  · rw [h1, h2]
    simp only [Res.ok_bind]
    rw [h3]
    exact .inr (.inl ⟨rs, rfl, rfl⟩)
  · subst hp
    rw [h1, h2]
    simp only [Res.ok_bind]
    obtain ⟨n, hn⟩ := total_release rs 0
    obtain ⟨n', hn'⟩ := total_release rs' 0
    rw [hn, hn']
    exact .inr (.inr ⟨rs, rs', rfl, rfl, h3⟩)

/-- C129: on a module below 4 GiB whose block a 64-bit machine reads, or which it finds to be unsigned, the digest command prints the same on
both machines, or fails on both. -/
theorem C129_digest (E : Env) (p : Profile) (acc : Bytes → Bool) (sha512 : Bool) (format : OutputFormat) {file : Bytes}
    (hf : file.length + 65557 < 2 ^ 32) (hm : detectFileFormat file = .ok .module)
    (hr : (∃ b, (Module.new file).getSigningBlock p file = .ok b) ∨
      ∃ e, (Module.new file).getSigningBlock p file = .err e ∧ e.isMissing = true) :
    Narrow.cliDigest E p sha512 format file = cliDigest E p acc sha512 format [] file := by
  obtain ⟨o, ho⟩ := readable_offsets hr
  have hd : (SignableFile.module (Module.new file) file).digest E p acc (if sha512 = true then .p384 else .p256) =
      Narrow.digest E p file (if sha512 = true then .p384 else .p256) := (digest_twin hf ho _).symm
  unfold Narrow.cliDigest cliDigest
  rw [open_module hm, Res.ok_bind, hd]
  rcases totals_both (acc := acc) hf hr with ⟨h1, h2⟩ | ⟨rs, h1, h2⟩ | ⟨rs, rs', h1, h2, _⟩ <;> rw [h1, h2] <;> rfl

/-- C129: so a digest printed by a 64-bit machine is printed by a 32-bit machine. -/
theorem C129_digest_wide (E : Env) (p : Profile) (acc : Bytes → Bool) (sha512 : Bool) (format : OutputFormat) {file : Bytes} {text : List Char}
    (hf : file.length + 65557 < 2 ^ 32) (hm : detectFileFormat file = .ok .module)
    (h : cliDigest E p acc sha512 format [] file = .ok text) : Narrow.cliDigest E p sha512 format file = .ok text := by
  have h0 := h
  unfold cliDigest at h
  rw [open_module hm, Res.ok_bind] at h
  obtain ⟨rs, h1, _⟩ := Res.bind_eq_ok.mp h
  unfold cliRegions SignableFile.digestRegions Module.digestRegions at h1
  obtain ⟨_, h1, _⟩ := Res.bind_eq_ok.mp h1
  obtain ⟨o, ho, _⟩ := Res.bind_eq_ok.mp h1
  rw [C129_digest E p acc sha512 format hf hm (offsets_readable ho), h0]

/-- C129: and conversely, unless the file has a block that only 32-bit machines read. -/
theorem C129_digest_narrow (E : Env) (p : Profile) (acc : Bytes → Bool) (sha512 : Bool) (format : OutputFormat) {file : Bytes}
    {text : List Char} (hf : file.length + 65557 < 2 ^ 32) (hm : detectFileFormat file = .ok .module)
    (h : Narrow.cliDigest E p sha512 format file = .ok text) :
    cliDigest E p acc sha512 format [] file = .ok text ∨ OddBlock p file := by
  have h0 := h
  unfold Narrow.cliDigest Narrow.cliRegions Narrow.digestRegions at h
  obtain ⟨_, h1, _⟩ := Res.bind_eq_ok.mp h
  obtain ⟨_, h1, _⟩ := Res.bind_eq_ok.mp h1
  obtain ⟨o, ho, _⟩ := Res.bind_eq_ok.mp h1
  rcases narrow_readable hf ho with hr | hr
  · exact .inl (by rw [← C129_digest E p acc sha512 format hf hm hr, h0])
  · exact .inr hr

/-- C129: the same for a dump: both machines succeed with the same bytes, or none does. -/
theorem C129_dump (p : Profile) (acc : Bytes → Bool) (inPlace : Bool) {file : Bytes} (hf : file.length + 65557 < 2 ^ 32)
    (hm : detectFileFormat file = .ok .module)
    (hr : (∃ b, (Module.new file).getSigningBlock p file = .ok b) ∨
      ∃ e, (Module.new file).getSigningBlock p file = .err e ∧ e.isMissing = true) :
    (Narrow.cliDump p inPlace file).2 = (cliDump p acc [] inPlace file).2 ∧
    ((cliDump p acc [] inPlace file).2 = .ok () → Narrow.cliDump p inPlace file = cliDump p acc [] inPlace file) := by
  have hl : (if inPlace = true then [] else file).length ≤ file.length := by
    cases inPlace
    · exact Nat.le_refl _
    · exact Nat.zero_le _
  unfold Narrow.cliDump cliDump
  rw [open_module hm, Res.ok_bind]
  generalize (if inPlace = true then [] else file) = f at hl ⊢
  rcases totals_both (acc := acc) hf hr with ⟨h1, h2⟩ | ⟨rs, h1, h2⟩ | ⟨rs, rs', h1, h2, h3⟩ <;> rw [h1, h2]
  · exact ⟨rfl, fun _ => rfl⟩
  · exact ⟨rfl, fun _ => rfl⟩
  · obtain ⟨h4, h5⟩ := h3 f hl
    dsimp only
    rw [h4, h5]
    refine ⟨rfl, fun h => ?_⟩
    cases h

/-- C129: what a 32-bit machine dumps a 64-bit machine dumps too, unless the file has a block that only 32-bit machines read. -/
theorem C129_dump_narrow (p : Profile) (acc : Bytes → Bool) (inPlace : Bool) {file out : Bytes} (hf : file.length + 65557 < 2 ^ 32)
    (hm : detectFileFormat file = .ok .module) (h : Narrow.cliDump p inPlace file = (some out, .ok ())) :
    cliDump p acc [] inPlace file = (some out, .ok ()) ∨ OddBlock p file := by
  have h0 := h
  have ho : ∃ o, Narrow.getOffsets p file = .ok o := by
    unfold Narrow.cliDump at h
    cases hc : Narrow.cliRegions p file with
    | err e => rw [hc] at h; cases h
    | panic => rw [hc] at h; cases h
    | ok rs =>
      unfold Narrow.cliRegions Narrow.digestRegions at hc
      obtain ⟨_, h1, _⟩ := Res.bind_eq_ok.mp hc
      obtain ⟨o, ho, _⟩ := Res.bind_eq_ok.mp h1
      exact ⟨o, ho⟩
  obtain ⟨o, ho⟩ := ho
  rcases narrow_readable hf ho with hr | hr
  · obtain ⟨h1, h2⟩ := C129_dump p acc inPlace hf hm hr
    exact .inl (by rw [← h2 (by rw [← h1, h0]), h0])
  · exact .inr hr

/-- C129: if a 64-bit machine finds a block in a file below 4 GiB, the info command prints the same on a 32-bit machine, or prints the first
of these lines and panics because signed data is said to take 2 GiB or more. -/
theorem C129_info (E : Env) (p : Profile) (pem : Bytes) (now : Nat) {file : Bytes} (hf : file.length < 2 ^ 32) {lines : List ILine}
    (h : cliInfoRun E p pem now file = (lines, .ok ())) :
    Narrow.cliInfoRun E p pem now file = (lines, .ok ()) ∨
    ∃ some rest, lines = some ++ rest ∧ Narrow.cliInfoRun E p pem now file = (some, .panic) ∧
      ∃ b, cliInfoBlock p file = .ok b ∧ ∃ v ∈ b.content, Bulky v := by
  have hl : Narrow.fileLen file = file.length := Nat.mod_eq_of_lt hf
  unfold cliInfoRun at h
  cases hb : cliInfoBlock p file with
  | err e => rw [hb] at h; cases h
  | panic => rw [hb] at h; cases h
  | ok b =>
    rw [hb] at h
    dsimp only at h
    have hn := ((reader_twin p file file.length 0 b).mp hb).1
    obtain ⟨pre, pairs, post, g1, g2, g3, g4, g5, g6, g7, g8⟩ := fromReader_iff.mp hb
    have hsz : b.sizeStart + 8 < 2 ^ 32 := by rw [g8]; dsimp only; omega
    have hu : Narrow.uadd p b.sizeStart 8 = .ok (b.sizeStart + 8) := if_pos hsz
    have h := (Prod.mk.inj h).1
    unfold Narrow.cliInfoRun
    rw [hl, hn]
    dsimp only
    rw [hu]
    dsimp only
    rcases narrowV2_cases E (Roots.withBuiltin E pem) now b none with h1 | ⟨h1, h2⟩
    · rcases narrowStamp_cases E (Roots.withBuiltin E pem) now b none with h3 | ⟨h3, h4⟩
      · left
        rw [h1, h3, ← h]
        simp only [infoBlockLines, List.append_assoc, List.cons_append, List.nil_append]
      · right
        rw [h1, h3, ← h]
        exact ⟨_, infoStampLines (verifySourceStamp E (Roots.withBuiltin E pem) now b none),
          by simp only [infoBlockLines, List.append_assoc, List.cons_append, List.nil_append], rfl, b, rfl, h4⟩
    · right
      rw [h1, ← h]
      exact ⟨_, infoV2Lines (verifyV2 E (Roots.withBuiltin E pem) now b none) ++
        infoStampLines (verifySourceStamp E (Roots.withBuiltin E pem) now b none),
        by simp only [infoBlockLines, List.append_assoc, List.cons_append, List.nil_append], rfl, b, rfl, h2⟩

/-- C129: what a 32-bit machine reports, a 64-bit machine reports, unless the block it found is one that only 32-bit machines read. -/
theorem C129_info_narrow (E : Env) (p : Profile) (pem : Bytes) (now : Nat) {file : Bytes} (hf : file.length < 2 ^ 32) {lines : List ILine}
    (h : Narrow.cliInfoRun E p pem now file = (lines, .ok ())) :
    cliInfoRun E p pem now file = (lines, .ok ()) ∨
    ∃ b, Narrow.fromReader p file file.length 0 = .ok b ∧ ¬ (SizesAsWritten file b ∧ ∀ v ∈ b.content, ¬ HasHuge v) := by
  have hl : Narrow.fileLen file = file.length := Nat.mod_eq_of_lt hf
  cases hb : Narrow.fromReader p file file.length 0 with
  | err e => unfold Narrow.cliInfoRun at h; rw [hl, hb] at h; cases h
  | panic => unfold Narrow.cliInfoRun at h; rw [hl, hb] at h; cases h
  | ok b =>
    by_cases hP : SizesAsWritten file b ∧ ∀ v ∈ b.content, ¬ HasHuge v
    · left
      have hw : cliInfoBlock p file = .ok b := (reader_twin p file file.length 0 b).mpr ⟨hb, hP⟩
      have hx : cliInfoRun E p pem now file = ((cliInfoRun E p pem now file).1, .ok ()) := by
        unfold cliInfoRun
        rw [hw]
      rcases C129_info E p pem now hf hx with h1 | ⟨_, _, _, h1, _⟩
      · rw [hx, ← h, h1]
      · rw [h] at h1; cases h1
    · exact .inr ⟨b, rfl, hP⟩

/-- C129: the two machines find no block in the same files. -/
theorem C129_info_none (p : Profile) {file : Bytes} (hf : file.length < 2 ^ 32) :
    (∃ e, cliInfoBlock p file = .err e ∧ e.isMissing = true) ↔
      ∃ e, Narrow.fromReader p file (Narrow.fileLen file) 0 = .err e ∧ e.isMissing = true := by
  have hl : Narrow.fileLen file = file.length := Nat.mod_eq_of_lt hf
  rw [hl]
  exact reader_missing p file file.length 0

/-- C129: the size a 32-bit machine shows is the remainder of the length by 4 GiB. -/
theorem C129_info_size (E : Env) (p : Profile) (pem : Bytes) (now : Nat) (file : Bytes) :
    ∃ rest, (Narrow.cliInfoRun E p pem now file).1 = .fileSize (file.length % 2 ^ 32) :: rest := by
  unfold Narrow.cliInfoRun
  dsimp only
  cases Narrow.fromReader p file (Narrow.fileLen file) 0 with
  | err e => exact ⟨_, rfl⟩
  | panic => exact ⟨_, rfl⟩
  | ok b =>
    dsimp only
    cases Narrow.uadd p b.sizeStart 8 with
    | err e => exact ⟨_, rfl⟩
    | panic => exact ⟨_, rfl⟩
    | ok n =>
      dsimp only
      cases Narrow.verifyV2 E (Roots.withBuiltin E pem) now b none with
      | err e => exact ⟨_, rfl⟩
      | panic => exact ⟨_, rfl⟩
      | ok v =>
        dsimp only
        cases Narrow.verifySourceStamp E (Roots.withBuiltin E pem) now b none with
        | err e => exact ⟨_, rfl⟩
        | panic => exact ⟨_, rfl⟩
        | ok w => exact ⟨_, rfl⟩

def narrowTells (r : Res (List Char)) : Bool := match r with | .ok _ => true | _ => false

set_option maxRecDepth 100000 in
/-- C129: there is a file whose digest only 32-bit machines print. -/
theorem C129_digest_more (p : Profile) :
    (∃ text, Narrow.cliDigest toyEnv p false .hex wideFile = .ok text) ∧
      (∀ acc text, cliDigest toyEnv p acc false .hex [] wideFile ≠ .ok text) ∧ OddBlock p wideFile := by
  have h1 : narrowTells (Narrow.cliDigest toyEnv p false .hex wideFile) = true := by cases p <;> decide +kernel
  have hm : detectFileFormat wideFile = .ok .module := by decide +kernel
  have hl : wideFile.length + 65557 < 2 ^ 32 := by decide +kernel
  have h2 : narrowTells (cliDigest toyEnv p (fun _ => true) false .hex [] wideFile) = false := by cases p <;> decide +kernel
  cases hn : Narrow.cliDigest toyEnv p false .hex wideFile with
  | err e => rw [hn] at h1; cases h1
  | panic => rw [hn] at h1; cases h1
  | ok text =>
    have key : ∀ acc text, cliDigest toyEnv p acc false .hex [] wideFile ≠ .ok text := by
      intro acc text h
      have e : cliDigest toyEnv p (fun _ => true) false .hex [] wideFile = cliDigest toyEnv p acc false .hex [] wideFile := by
        unfold cliDigest
        rw [open_module hm, open_module hm]
        rfl
      rw [e, h] at h2
      cases h2
    refine ⟨⟨text, rfl⟩, key, ?_⟩
    rcases C129_digest_narrow toyEnv p (fun _ => true) false .hex hl hm hn with h | h
    · exact absurd h (key _ _)
    · exact h

set_option maxRecDepth 100000 in
/-- C129: and of which only 32-bit machines report the block. -/
theorem C129_info_more (p : Profile) :
    (Narrow.cliInfoRun toyEnv p [7] 0 wideFile).2.isOk = true ∧ (cliInfoRun toyEnv p [7] 0 wideFile).2.isOk = false := by
  cases p <;> exact ⟨by decide +kernel, by decide +kernel⟩

set_option maxRecDepth 100000 in
/-- C129: the panic of the info command is real, in either profile. -/
theorem C129_info_panic (p : Profile) :
    (Narrow.cliInfoRun toyEnv p [7] 0 bulkyFile).2 = .panic := by
  have h1 : Narrow.fileLen bulkyFile = bulkyFile.length := by decide +kernel
  have hb : readsBulky (Narrow.fromReader p bulkyFile bulkyFile.length 0) = true := by cases p <;> decide +kernel
  unfold Narrow.cliInfoRun
  rw [h1]
  generalize Narrow.fromReader p bulkyFile bulkyFile.length 0 = r at hb ⊢
  cases r with
  | err e => cases hb
  | panic => rfl
  | ok b =>
    dsimp only
    generalize hu : Narrow.uadd p b.sizeStart 8 = u
    cases u with
    | err e =>
      unfold Narrow.uadd at hu
      split at hu
      · cases hu
      · cases p <;> cases hu
    | panic => rfl
    | ok n =>
      dsimp only
      rw [narrowV2_bulky toyEnv (Roots.withBuiltin toyEnv [7]) 0 none hb]

/-! ### Examples -/

/-- A module without a signature. -/
example : detectFileFormat plainArchive.unsigned = .ok .module ∧ plainArchive.unsigned.length + 65557 < 2 ^ 32 ∧
    narrowTells (cliDigest toyEnv .dev (fun _ => true) false .hex [] plainArchive.unsigned) = true ∧
    (cliDump .dev (fun _ => true) [] false plainArchive.unsigned).2 = .ok () := by
  refine ⟨?_, ?_, ?_, ?_⟩ <;> decide +kernel

end Ksusig.Props
