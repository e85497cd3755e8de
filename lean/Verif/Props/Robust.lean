import Verif.Proofs.Robust
import Verif.Props.SignVerify

/-! # C52, C54, C58: corrupted blocks, changing files, untrusted files -/

namespace Ksusig.Props

open Ksusig Spec

/-! ### C52 -/

theorem getSigningBlock_seen {p : Profile} {file : Bytes} {e : Eocd} {u : Nat} {err : Err}
    (h1 : findEocd file file.length = .ok e) (h2 : MagicAtPos file u)
    (h3 : u + 16 ≤ min file.length e.cdOffset.toNat)
    (h4 : min file.length e.cdOffset.toNat - min (min file.length e.cdOffset.toNat) 16777216 + 8 ≤ u)
    (h : (Module.new file).getSigningBlock p file = .err err) : err.isMissing = false := by
  rw [getSigningBlock_new, h1] at h
  simp only [Res.ok_bind] at h
  have hle : file.length - (file.length - e.cdOffset.toNat) = min file.length e.cdOffset.toNat := by omega
  cases hm : err.isMissing with
  | false => rfl
  | true =>
    have := (fromReader_not_missing h (isMissing_not_real hm)).2 u
    rw [hle] at this
    exact absurd h2 (this h4 h3)

theorem getOffsets_bad {p : Profile} {file : Bytes}
    (h : (∃ err, (Module.new file).getSigningBlock p file = .err err ∧ err.isMissing = false) ∨
      (Module.new file).getSigningBlock p file = .panic) :
    ∀ o, (Module.new file).getOffsets p file ≠ .ok o := by
  intro o ho
  unfold Module.getOffsets Module.getOffsetsT at ho
  obtain ⟨e, _, ho⟩ := Res.bind_eq_ok.mp ho
  change (match (Module.new file).getSigningBlock p file with
    | .ok sig => _
    | .err e => _
    | .panic => _) = _ at ho
  rcases h with ⟨err, h, hm⟩ | h
  · rw [h] at ho
    dsimp only at ho
    rw [hm] at ho
    cases ho
  · rw [h] at ho; cases ho

/-- C52, negative half: when the magic is found before the central directory (from the ninth byte of the 16 MiB search window
on) but no block can be read, nothing is digested, no unsigned copy is made, both write functions fail without writing a
byte, and the sign command fails without touching the output. (Missing: a magic in the first eight bytes of the window,
`C52_leading_magic`.) -/
theorem C52_corrupted_refused_partial {p : Profile} {file : Bytes} {e : Eocd} {u : Nat}
    (h1 : findEocd file file.length = .ok e) (h2 : MagicAtPos file u)
    (h3 : u + 16 ≤ min file.length e.cdOffset.toNat)
    (h4 : min file.length e.cdOffset.toNat - min (min file.length e.cdOffset.toNat) 16777216 + 8 ≤ u)
    (hbad : ∀ b, (Module.new file).getSigningBlock p file ≠ .ok b) :
    (∀ E algo d, (Module.new file).digest E p file algo ≠ .ok d) ∧
    (∀ rs, (Module.new file).digestRegions p file ≠ .ok rs) ∧
    (∀ r, (Module.new file).getRawModule p file ≠ .ok r) ∧
    (∀ b, ((Module.new file).signableWrite p file b).1 = [] ∧ ((Module.new file).signableWrite p file b).2 ≠ .ok ()) ∧
    (((Module.new file).writeWithSignature p file).1 = [] ∧ ((Module.new file).writeWithSignature p file).2 ≠ .ok ()) ∧
    (∀ E clock m inPlace, (cliSignModule E p clock m inPlace file).1 = none ∧
      (cliSignModule E p clock m inPlace file).2 ≠ .ok ()) := by
  have hb : (∃ err, (Module.new file).getSigningBlock p file = .err err ∧ err.isMissing = false) ∨
      (Module.new file).getSigningBlock p file = .panic := by
    cases h : (Module.new file).getSigningBlock p file with
    | ok b => exact absurd h (hbad b)
    | err err => exact .inl ⟨err, rfl, getSigningBlock_seen h1 h2 h3 h4 h⟩
    | panic => exact .inr rfl
  have ho := getOffsets_bad hb
  have hr : ∀ rs, (Module.new file).digestRegions p file ≠ .ok rs := by
    intro rs h
    unfold Module.digestRegions at h
    obtain ⟨o, h, _⟩ := Res.bind_eq_ok.mp h
    exact ho o h
  refine ⟨?_, hr, ?_, ?_, ?_, ?_⟩
  · intro E algo d h
    unfold Module.digest Module.digestT at h
    obtain ⟨o, h, _⟩ := Res.bind_eq_ok.mp h
    exact ho o h
  · intro r h
    unfold Module.getRawModule at h
    rw [if_neg (by simp [Module.new])] at h
    obtain ⟨b, h, _⟩ := Res.bind_eq_ok.mp h
    exact hbad b h
  · intro b
    unfold Module.signableWrite Module.signSource
    rcases hb with ⟨err, h, hm⟩ | h
    · rw [h]
      dsimp only
      rw [hm]
      exact ⟨rfl, fun h => by cases h⟩
    · rw [h]
      exact ⟨rfl, fun h => by cases h⟩
  · unfold Module.writeWithSignature
    rcases hb with ⟨err, h, hm⟩ | h
    · rw [h]; exact ⟨rfl, fun h => by cases h⟩
    · rw [h]; exact ⟨rfl, fun h => by cases h⟩
  · intro E clock m inPlace
    unfold cliSignModule
    dsimp only
    cases h : (Module.new file).digestRegions p file with
    | ok rs => exact absurd h (hr rs)
    | err e => exact ⟨rfl, fun h => by cases h⟩
    | panic => exact ⟨rfl, fun h => by cases h⟩

/-- A module whose signing block has a damaged size field. -/
def damagedFile : Bytes := (sampleArchive.signed sampleBlock.toU8).set (30 + sampleBlock.toU8.length - 24) 0xff

example : (∃ e, findEocd damagedFile damagedFile.length = .ok e ∧ e.cdOffset.toNat = 30 + sampleBlock.toU8.length) ∧
    MagicAtPos damagedFile (30 + sampleBlock.toU8.length - 16) ∧
    (Module.new damagedFile).getSigningBlock .dev damagedFile = .err .blockExceedsFile := by
  refine ⟨?_, by decide +kernel, by decide +kernel⟩
  have h : (findEocd damagedFile damagedFile.length >>= fun e => Res.ok e.cdOffset.toNat) =
      .ok (30 + sampleBlock.toU8.length) := by decide +kernel
  obtain ⟨e, h1, h2⟩ := Res.bind_eq_ok.mp h
  injection h2 with h2
  exact ⟨e, h1, h2⟩

/-- C52, converse half: a well-formed unsigned module with at least 24 bytes before its directory and without the magic
can be digested, divided into regions and signed with every block. -/
theorem C52_unsigned_accepted_partial {E : Env} {p : Profile} {a : Archive} (hno : a.NoMagic) (hok : a.Ok)
    (hclean : a.CleanAt a.body.length) (hsz : a.body.length < 2 ^ 32) :
    (∀ algo, ∃ d, (Module.new a.unsigned).digest E p a.unsigned algo = .ok d) ∧
    (∃ rs, (Module.new a.unsigned).digestRegions p a.unsigned = .ok rs) ∧
    ∀ b, b.toU8.length < 2 ^ 32 →
      (Module.new a.unsigned).signableWrite p a.unsigned b = (a.signed b.toU8, .ok ()) := by
  have hsp := split_unsigned p hok hclean hsz hno
  refine ⟨fun algo => ⟨_, hsp.digest E algo⟩, ?_, fun b hb => signableWrite_unsigned p hok hclean hsz hb hno⟩
  have hl := a.unsigned_length
  unfold Module.digestRegions
  rw [getOffsets_unsigned p hok hclean hsz hno]
  simp only [Res.ok_bind, FileOffsets.new]
  rw [usub_of_le (by omega), usub_of_le (by omega), usub_of_le (by omega)]
  exact ⟨_, rfl⟩

example : plainArchive.NoMagic ∧ plainArchive.Ok ∧ plainArchive.CleanAt plainArchive.body.length :=
  ⟨noMagic_of_bounded (by decide +kernel) (by decide +kernel), by decide, (plainArchive_signable 0 (by omega)).cleanOld⟩

/-- C52 fails for small modules: every well-formed unsigned archive with fewer than 24 bytes before its directory, for instance
one without entries, is refused as corrupted. -/
theorem C52_small_module_refused {p : Profile} {a : Archive} (hok : a.Ok) (hclean : a.CleanAt a.body.length)
    (hsmall : a.body.length < 24) :
    (∀ E algo, (Module.new a.unsigned).digest E p a.unsigned algo = .err .corrupted) ∧
    (Module.new a.unsigned).digestRegions p a.unsigned = .err .corrupted ∧
    ∀ b, (Module.new a.unsigned).signableWrite p a.unsigned b = ([], .err .refuseCorrupted) := by
  have hl := a.unsigned_length
  have hget : (Module.new a.unsigned).getSigningBlock p a.unsigned = .err .fileTooSmall := by
    rw [getSigningBlock_new, findEocd_unsigned hok hclean]
    simp only [Res.ok_bind, Spec.Tail.eocd, u32_ofNat_toNat (show a.body.length < 2 ^ 32 by omega)]
    unfold SigningBlock.fromReader
    dsimp only
    rw [if_pos (by omega)]
  have ho : (Module.new a.unsigned).getOffsets p a.unsigned = .err .corrupted := by
    have hf : (Module.new a.unsigned).findEocd a.unsigned = _ := findEocd_unsigned hok hclean
    have hg : (Module.new a.unsigned).getSigningBlockT p a.unsigned a.unsigned = _ := hget
    unfold Module.getOffsets Module.getOffsetsT
    rw [hf, Res.ok_bind, hg]
    rfl
  refine ⟨fun E algo => ?_, ?_, fun b => ?_⟩
  · unfold Module.digest Module.digestT
    have : (Module.new a.unsigned).getOffsetsT p a.unsigned a.unsigned a.unsigned = _ := ho
    rw [this]; rfl
  · unfold Module.digestRegions
    rw [ho]; rfl
  · unfold Module.signableWrite Module.signSource
    rw [hget]; rfl

/-- An archive without entries. -/
example : (Module.new (⟨[], [], ⟨0, 0, 0, 0, 0, []⟩⟩ : Archive).unsigned).digestRegions .release
    (⟨[], [], ⟨0, 0, 0, 0, 0, []⟩⟩ : Archive).unsigned = .err .corrupted :=
  (C52_small_module_refused (a := ⟨[], [], ⟨0, 0, 0, 0, 0, []⟩⟩) (by decide) (cleanAt_no_comment rfl) (by decide)).2.1

/-- A module that begins with the magic. -/
def leadingMagic : Archive := ⟨Ksusig.magic ++ List.replicate 20 0, [1, 2, 3], ⟨0, 0, 1, 1, 3, []⟩⟩

/-- C52 fails for a magic in the first eight bytes: the module is digested and signed although no block can be read. -/
theorem C52_leading_magic :
    MagicAtPos leadingMagic.unsigned 0 ∧
    (Module.new leadingMagic.unsigned).getSigningBlock .dev leadingMagic.unsigned = .err .magicNotFound ∧
    (∃ d, (Module.new leadingMagic.unsigned).digest toyEnv .dev leadingMagic.unsigned .p256 = .ok d) ∧
    (Module.new leadingMagic.unsigned).signableWrite .dev leadingMagic.unsigned emptyBlock =
      (leadingMagic.signed emptyBlock.toU8, .ok ()) :=
  ⟨by decide +kernel, by decide +kernel, Res.exists_of_isOk (by decide +kernel), by decide +kernel⟩

/-! ### C58 -/

theorem getSigningBlock_release (file : Bytes) : (Module.new file).getSigningBlock .release file ≠ .panic := by
  rw [getSigningBlock_new]
  rcases findEocd_total file file.length with ⟨e, h⟩ | ⟨e, h, _⟩
  · rw [h]
    simp only [Res.ok_bind]
    rcases (fromReader_total file file.length (file.length - e.cdOffset.toNat)).1 with ⟨b, h⟩ | ⟨e, _, h⟩
    · rw [h]; simp
    · rw [h]; simp
  · rw [h]; simp

/-- The start of the directory as the library sees it. -/
inductive DirStart (p : Profile) (file : Bytes) (e : Eocd) : Nat → Prop where
  | signed (b : SigningBlock) : (Module.new file).getSigningBlock p file = .ok b → DirStart p file e b.fileEnd
  | unsigned (err : Err) : (Module.new file).getSigningBlock p file = .err err → err.isMissing = true →
      DirStart p file e e.cdOffset.toNat

/-- The three ways `get_offsets` ends. -/
theorem getOffsets_cases (p : Profile) (file : Bytes) :
    (∃ e sc n, findEocd file file.length = .ok e ∧ DirStart p file e n ∧
      (Module.new file).getOffsets p file = .ok (FileOffsets.new sc n e.fileOffset file.length)) ∨
    (∃ err, (Module.new file).getOffsets p file = .err err ∧ (∀ n e, findEocd file file.length = .ok e → ¬ DirStart p file e n) ∧
      (Module.new file).getSigningBlock p file ≠ .panic) ∨
    ((Module.new file).getOffsets p file = .panic ∧ (Module.new file).getSigningBlock p file = .panic) := by
  have hgo : (Module.new file).getOffsets p file = (findEocd file file.length >>= fun eocd =>
      match (Module.new file).getSigningBlock p file with
      | .ok sig => .ok (FileOffsets.new sig.fileStart sig.fileEnd eocd.fileOffset file.length)
      | .err e => if e.isMissing then .ok (FileOffsets.withoutSignature eocd.cdOffset.toNat eocd.fileOffset file.length)
          else .err .corrupted
      | .panic => .panic) := rfl
  rcases findEocd_total file file.length with ⟨e, h⟩ | ⟨e, h, _⟩
  · rw [hgo, h]
    simp only [Res.ok_bind]
    cases hg : (Module.new file).getSigningBlock p file with
    | ok b => exact .inl ⟨e, _, _, rfl, .signed b hg, rfl⟩
    | panic => exact .inr (.inr ⟨rfl, rfl⟩)
    | err err =>
      cases hm : err.isMissing with
      | true => exact .inl ⟨e, e.cdOffset.toNat, _, rfl, .unsigned err hg hm, by simp [hm, FileOffsets.withoutSignature]⟩
      | false =>
        refine .inr (.inl ⟨.corrupted, by simp [hm], ?_, by simp⟩)
        intro n e' _ hd
        cases hd with
        | signed b hb => rw [hg] at hb; cases hb
        | unsigned e2 hb hm2 => rw [hg] at hb; cases hb; rw [hm] at hm2; cases hm2
  · refine .inr (.inl ⟨e, by rw [hgo, h]; rfl, fun n e' h' => (by rw [h] at h'; cases h'), ?_⟩)
    rw [getSigningBlock_new, h]
    simp

theorem DirStart.unique {p : Profile} {file : Bytes} {e : Eocd} {n n' : Nat} (h : DirStart p file e n)
    (h' : DirStart p file e n') : n = n' := by
  cases h with
  | signed b hb =>
    cases h' with
    | signed b' hb' => rw [hb] at hb'; cases hb'; rfl
    | unsigned err' hb' _ => rw [hb] at hb'; cases hb'
  | unsigned err hb hm =>
    cases h' with
    | signed b' hb' => rw [hb] at hb'; cases hb'
    | unsigned err' hb' _ => rfl

theorem eocd_inside {file : Bytes} {e : Eocd} (h : findEocd file file.length = .ok e) : e.fileOffset ≤ file.length := by
  rcases Nat.lt_or_ge file.length 22 with hl | hl
  · rw [findEocd_small hl] at h; cases h
  · rcases findEocd_spec (file := file) (fl := file.length) (Nat.le_refl _) hl with ⟨h', _⟩ | ⟨k, _, hr, _, h'⟩
    · rw [h'] at h; cases h
    · rw [h'] at h
      cases h
      obtain ⟨_, hr, _⟩ := hr
      rw [List.length_take] at hr
      show k ≤ file.length
      omega

/-- The panics of a digest computation. -/
theorem digestModule_panic {E : Env} {p : Profile} {file : Bytes} {sc n eo : Nat} {algo : Algo} (he : eo ≤ file.length) :
    digestModule E p fullReads fullReads file (FileOffsets.new sc n eo file.length) algo = .panic ↔ p = .dev ∧ eo < n := by
  unfold digestModule FileOffsets.new
  dsimp only
  rw [usub_of_le (Nat.zero_le _), Res.ok_bind, usub_of_le he]
  have hd : ∀ x : List Bytes, (digestEocd E file eo sc algo >>= fun c3 => Res.ok (digestFinal E (x ++ c3) algo)) ≠ .panic := by
    intro x
    unfold digestEocd eocdForDigest
    dsimp only
    cases slice? (file.drop eo) 0 16 with
    | none => simp
    | some a =>
      cases sliceFrom? (file.drop eo) 20 with
      | none => simp
      | some b => simp
  by_cases hn : n ≤ eo
  · rw [usub_of_le hn]
    simp only [Res.ok_bind]
    constructor
    · intro h; exact absurd h (hd _)
    · rintro ⟨_, h⟩; omega
  · cases p with
    | dev =>
      have : usub .dev eo n = .panic := by unfold usub; rw [if_neg hn]
      rw [this]
      exact ⟨fun _ => ⟨rfl, by omega⟩, fun _ => rfl⟩
    | release =>
      obtain ⟨k, hk⟩ := usub_release eo n
      rw [hk]
      simp only [Res.ok_bind]
      constructor
      · intro h; exact absurd h (hd _)
      · rintro ⟨h, _⟩; cases h

theorem digest_panic_iff {E : Env} {p : Profile} {file : Bytes} {algo : Algo} :
    (Module.new file).digest E p file algo = .panic ↔ (Module.new file).getSigningBlock p file = .panic ∧
      (∃ e, findEocd file file.length = .ok e) ∨
      p = .dev ∧ ∃ e n, findEocd file file.length = .ok e ∧ DirStart p file e n ∧ e.fileOffset < n := by
  have hd : (Module.new file).digest E p file algo = ((Module.new file).getOffsets p file >>= fun o =>
    digestModule E p fullReads fullReads file o algo) := rfl
  rw [hd]
  rcases getOffsets_cases p file with ⟨e, sc, n, he, hn, ho⟩ | ⟨err, ho, hno, hnp⟩ | ⟨ho, hp⟩
  · rw [ho, Res.ok_bind, digestModule_panic (eocd_inside he)]
    constructor
    · rintro ⟨h1, h2⟩; exact .inr ⟨h1, e, n, he, hn, h2⟩
    · rintro (⟨h, _⟩ | ⟨h1, e', n', he', hn', h2⟩)
      · cases hn with
        | signed b hb => rw [hb] at h; cases h
        | unsigned err hb _ => rw [hb] at h; cases h
      · rw [he] at he'; cases he'
        rw [hn.unique hn']
        exact ⟨h1, h2⟩
  · rw [ho]
    constructor
    · intro h; cases h
    · rintro (⟨h, _⟩ | ⟨_, e, n, he, hn, _⟩)
      · exact absurd h hnp
      · exact absurd hn (hno n e he)
  · rw [ho]
    refine ⟨fun _ => .inl ⟨hp, ?_⟩, fun _ => rfl⟩
    rcases findEocd_total file file.length with ⟨e, h⟩ | ⟨e, h, _⟩
    · exact ⟨e, h⟩
    · rw [getSigningBlock_new, h] at hp; cases hp

theorem digestRegions_panic_iff {p : Profile} {file : Bytes} :
    (Module.new file).digestRegions p file = .panic ↔ (Module.new file).getSigningBlock p file = .panic ∧
      (∃ e, findEocd file file.length = .ok e) ∨
      p = .dev ∧ ∃ e n, findEocd file file.length = .ok e ∧ DirStart p file e n ∧ e.fileOffset < n := by
  unfold Module.digestRegions
  rcases getOffsets_cases p file with ⟨e, sc, n, he, hn, ho⟩ | ⟨err, ho, hno, hnp⟩ | ⟨ho, hp⟩
  · have hin := eocd_inside he
    rw [ho, Res.ok_bind]
    simp only [FileOffsets.new]
    rw [usub_of_le (Nat.zero_le _), Res.ok_bind, usub_of_le hin]
    have hr : ¬ ((Module.new file).getSigningBlock p file = .panic ∧ ∃ e, findEocd file file.length = .ok e) := by
      rintro ⟨h, _⟩
      cases hn with
      | signed b hb => rw [hb] at h; cases h
      | unsigned err hb _ => rw [hb] at h; cases h
    have hiff : (p = .dev ∧ ∃ e n, findEocd file file.length = .ok e ∧ DirStart p file e n ∧ e.fileOffset < n) ↔
        p = .dev ∧ e.fileOffset < n := by
      constructor
      · rintro ⟨h1, e', n', he', hn', h2⟩
        rw [he] at he'; cases he'
        rw [hn.unique hn']; exact ⟨h1, h2⟩
      · rintro ⟨h1, h2⟩; exact ⟨h1, e, n, he, hn, h2⟩
    rw [hiff]
    by_cases hle : n ≤ e.fileOffset
    · rw [usub_of_le hle]
      simp only [Res.ok_bind]
      constructor
      · intro h; cases h
      · rintro (h | ⟨_, h⟩)
        · exact absurd h hr
        · omega
    · cases p with
      | dev =>
        have : usub .dev e.fileOffset n = .panic := by unfold usub; rw [if_neg hle]
        rw [this]
        exact ⟨fun _ => .inr ⟨rfl, by omega⟩, fun _ => rfl⟩
      | release =>
        obtain ⟨k, hk⟩ := usub_release e.fileOffset n
        rw [hk]
        simp only [Res.ok_bind]
        constructor
        · intro h; cases h
        · rintro (h | ⟨h, _⟩)
          · exact absurd h hr
          · cases h
  · rw [ho]
    constructor
    · intro h; cases h
    · rintro (⟨h, _⟩ | ⟨_, e, n, he, hn, _⟩)
      · exact absurd h hnp
      · exact absurd hn (hno n e he)
  · rw [ho]
    refine ⟨fun _ => .inl ⟨hp, ?_⟩, fun _ => rfl⟩
    rcases findEocd_total file file.length with ⟨e, h⟩ | ⟨e, h, _⟩
    · exact ⟨e, h⟩
    · rw [getSigningBlock_new, h] at hp; cases hp

theorem verifyWithRoots_no_panic {E : Env} {p : Profile} {file : Bytes} {roots : Roots} {now : Nat}
    (h1 : (Module.new file).getSigningBlock p file ≠ .panic)
    (h2 : ∀ algo, (Module.new file).digest E p file algo ≠ .panic) :
    ∃ v, (Module.new file).verifyWithRoots E p file roots now = .ok v := by
  rw [verifyWithRoots_eq]
  cases hg : (Module.new file).getSigningBlock p file with
  | panic => exact absurd hg h1
  | err e => exact ⟨_, rfl⟩
  | ok b =>
    dsimp only
    rcases digest_form p (Module.new file) file with ⟨ps, h⟩ | ⟨e, h⟩ | h
    · obtain ⟨c, hc, _⟩ := fillCtx_parts (E := E) h (storedAlgos b) DigestCtx.new
      rw [hc]; exact ⟨_, rfl⟩
    · rw [fillCtx_err h]; exact ⟨_, rfl⟩
    · exact absurd (h E .p256) (h2 _)

theorem cliVerify_no_panic {E : Env} {p : Profile} {file pem : Bytes} {root : Option Bytes} {now : Nat}
    (h1 : (Module.new file).getSigningBlock p file ≠ .panic)
    (h2 : ∀ algo, (Module.new file).digest E p file algo ≠ .panic) :
    cliVerify E p pem root now file ≠ .panic := by
  unfold cliVerify
  dsimp only
  cases hg : (Module.new file).getSigningBlock p file with
  | panic => exact absurd hg h1
  | err e => intro h; cases h
  | ok b =>
    have hadd : ∀ a c, ∃ c', cliAddDigest E p (Module.new file) file a c = .ok c' := by
      intro a c
      unfold cliAddDigest
      cases hd : (Module.new file).digest E p file a with
      | ok d => exact ⟨_, rfl⟩
      | err e => exact ⟨_, rfl⟩
      | panic => exact absurd hd (h2 a)
    have hroots : cliRoots E pem root ≠ .panic := by
      unfold cliRoots
      cases root with
      | none => simp
      | some r =>
        simp only [Roots.addPem]
        split <;> (try split) <;> simp
    cases hr : cliRoots E pem root with
    | panic => exact absurd hr hroots
    | err e => intro h; cases h
    | ok roots =>
      obtain ⟨c1, hc1⟩ := hadd .p256 DigestCtx.new
      obtain ⟨c2, hc2⟩ := hadd .p384 c1
      simp only [Res.mapErr, Res.ok_bind, hc1, hc2]
      split
      · simp
      · have hv : cliV2 (verifyV2 E roots now b (some c2)) ≠ .panic := by
          generalize verifyV2 E roots now b (some c2) = v
          cases v with
          | err e => cases e <;> simp [cliV2]
          | ok r => simp only [cliV2]; repeat' split
                    all_goals simp
        cases hv2 : cliV2 (verifyV2 E roots now b (some c2)) with
        | panic => exact absurd hv2 hv
        | err e => simp
        | ok v =>
          simp only [Res.ok_bind]
          cases v <;> dsimp only <;> repeat' split
          all_goals simp

/-- C58 in release builds: for every file, verification ends with a verdict, and digest and digest regions are computed or
refused with an error; the verify command succeeds or fails. Nothing panics. -/
theorem C58_release_partial (E : Env) (file : Bytes) :
    (∀ roots now, ∃ v, (Module.new file).verifyWithRoots E .release file roots now = .ok v) ∧
    (∀ pem now, ∃ v, (Module.new file).verifyFull E .release file pem now = .ok v) ∧
    (∀ algo, (Module.new file).digest E .release file algo ≠ .panic) ∧
    (Module.new file).digestRegions .release file ≠ .panic ∧
    (∀ pem root now, cliVerify E .release pem root now file ≠ .panic) := by
  have h1 := getSigningBlock_release file
  have h2 : ∀ algo, (Module.new file).digest E .release file algo ≠ .panic := by
    intro algo h
    rcases digest_panic_iff.mp h with ⟨h, _⟩ | ⟨h, _⟩
    · exact h1 h
    · cases h
  have h3 : (Module.new file).digestRegions .release file ≠ .panic := by
    intro h
    rcases digestRegions_panic_iff.mp h with ⟨h, _⟩ | ⟨h, _⟩
    · exact h1 h
    · cases h
  refine ⟨fun roots now => verifyWithRoots_no_panic h1 h2, fun pem now => verifyWithRoots_no_panic h1 h2, h2, h3, ?_⟩
  exact fun pem root now => cliVerify_no_panic h1 h2

/-- C58 in development builds, for every file on which the block search does not panic and whose directory does not start
behind its end record. (Missing: the other files, on which development builds do panic, see `C58_dev_panics`.) -/
theorem C58_dev_partial (E : Env) {file : Bytes} (h1 : (Module.new file).getSigningBlock .dev file ≠ .panic)
    (hdir : ∀ e n, findEocd file file.length = .ok e → DirStart .dev file e n → n ≤ e.fileOffset) :
    (∀ roots now, ∃ v, (Module.new file).verifyWithRoots E .dev file roots now = .ok v) ∧
    (∀ pem now, ∃ v, (Module.new file).verifyFull E .dev file pem now = .ok v) ∧
    (∀ algo, (Module.new file).digest E .dev file algo ≠ .panic) ∧
    (Module.new file).digestRegions .dev file ≠ .panic ∧
    (∀ pem root now, cliVerify E .dev pem root now file ≠ .panic) := by
  have h2 : ∀ algo, (Module.new file).digest E .dev file algo ≠ .panic := by
    intro algo h
    rcases digest_panic_iff.mp h with ⟨h, _⟩ | ⟨_, e, n, he, hn, h⟩
    · exact h1 h
    · have := hdir e n he hn; omega
  have h3 : (Module.new file).digestRegions .dev file ≠ .panic := by
    intro h
    rcases digestRegions_panic_iff.mp h with ⟨h, _⟩ | ⟨_, e, n, he, hn, h⟩
    · exact h1 h
    · have := hdir e n he hn; omega
  refine ⟨fun roots now => verifyWithRoots_no_panic h1 h2, fun pem now => verifyWithRoots_no_panic h1 h2, h2, h3, ?_⟩
  exact fun pem root now => cliVerify_no_panic h1 h2

/-- Every signed module meets the condition of `C58_dev_partial`. -/
example {p : Profile} {a : Archive} {b : SigningBlock} (hb : Built p b) (hs : Signable a b.toU8.length) :
    (Module.new (a.signed b.toU8)).getSigningBlock .dev (a.signed b.toU8) ≠ .panic ∧
    ∀ e n, findEocd (a.signed b.toU8) (a.signed b.toU8).length = .ok e → DirStart .dev (a.signed b.toU8) e n →
      n ≤ e.fileOffset := by
  have hg := getSigningBlock_signed .dev hb.wf hs.comment hs.cleanNew hs.size
  refine ⟨by rw [hg]; simp, ?_⟩
  intro e n he hn
  rw [findEocd_signed hs.comment hs.cleanNew] at he
  cases he
  cases hn with
  | signed b' hb' => rw [hg] at hb'; cases hb'; simp only [Spec.Tail.eocd]; omega
  | unsigned err he _ => rw [hg] at he; cases he

/-- Entries that end in a block whose two size fields differ. -/
def mismatchArchive : Archive := ⟨leBytes 8 25 ++ leBytes 8 24 ++ Ksusig.magic, [1, 2, 3], ⟨0, 0, 1, 1, 3, []⟩⟩

/-- C58 fails in development builds: with every environment and root store, verification of one file panics, and computing the
digest or the regions of another, unsigned, file panics. Release builds give verdicts and digests for both. -/
theorem C58_dev_panics (E : Env) :
    (∀ roots now, (Module.new mismatchArchive.unsigned).verifyWithRoots E .dev mismatchArchive.unsigned roots now = .panic) ∧
    (∀ pem root now, cliVerify E .dev pem root now mismatchArchive.unsigned = .panic) ∧
    (∀ algo, (Module.new badOffsetFile).digest E .dev badOffsetFile algo = .panic) ∧
    (Module.new badOffsetFile).digestRegions .dev badOffsetFile = .panic ∧
    (∀ algo, ∃ d, (Module.new badOffsetFile).digest E .release badOffsetFile algo = .ok d) := by
  have hg : (Module.new mismatchArchive.unsigned).getSigningBlock .dev mismatchArchive.unsigned = .panic := by decide +kernel
  have hr : (Module.new badOffsetFile).digestRegions .dev badOffsetFile = .panic := by decide +kernel
  refine ⟨fun roots now => ?_, fun pem root now => ?_, fun algo => ?_, hr, fun algo => ?_⟩
  · rw [verifyWithRoots_eq, hg]
  · unfold cliVerify
    dsimp only
    rw [hg]
    rfl
  · exact digest_panic_iff.mpr (digestRegions_panic_iff.mp hr)
  · obtain ⟨d, h, _⟩ := (C16_release_collision E algo).2.2.1
    exact ⟨d, h⟩

/-! ### C54 -/

/-- C54 for a file that does not change while it is verified, in development builds: a fully valid V2 verdict means that the file
carries a block and that every signer of it vouches for the digest of everything else in the same file. (Missing: a file that
changes, `C54_race`; in release builds the division of the file into parts is only known to exist for well-formed files.) -/
theorem C54_stable_file_partial {E : Env} {file : Bytes} {added : List Bytes} {now : Nat} {v : VAll} {r : VResult}
    (h : (Module.new file).verifyWithRootsT E .dev (fun _ => file) (storeOf E added) now = .ok v) (hv : v.isValid = true)
    (hr : v.v2 = .ok r) :
    ∃ b body block cd tail, (Module.new file).getSigningBlock .dev file = .ok b ∧ Split .dev file body block cd tail ∧
      b.fileStart = body.length ∧ b.fileEnd = body.length + block.length ∧ v2Signers b ≠ [] ∧
      ∀ s ∈ v2Signers b, GoodV2 E added now
        (table (treeDigest (Algo.p256.hash E) [body, cd, patchOffset tail body.length])
          (treeDigest (Algo.p384.hash E) [body, cd, patchOffset tail body.length])) s := by
  obtain ⟨b, ps, hb, hd, hne, hg, _⟩ := verifyWithRoots_valid.mp ⟨v, h, hv, r, hr⟩
  obtain ⟨body, block, cd, tail, hsp⟩ := split_of_digest_dev (hd E .p256)
  have he : ∀ a, treeDigest (Algo.hash E a) ps = treeDigest (Algo.hash E a) [body, cd, patchOffset tail body.length] := by
    intro a
    have h1 := hd E a
    rw [hsp.digest E a] at h1
    injection h1 with h1
    exact h1.symm
  rw [he, he] at hg
  have hloc : b.fileStart = body.length ∧ b.fileEnd = body.length + block.length := by
    obtain ⟨e, _, _, ⟨b', hb', h1, h2⟩ | ⟨err, hb', _⟩⟩ := hsp.parts
    · rw [hb] at hb'; cases hb'; exact ⟨h1, h2⟩
    · rw [hb] at hb'; cases hb'
  exact ⟨b, body, block, cd, tail, hb, hsp, hloc.1, hloc.2, hne, hg⟩

/-- The content that was signed. -/
def raceArchive : Archive := ⟨List.replicate 300 1, [1, 2, 3], ⟨0, 0, 1, 1, 3, []⟩⟩

/-- A block for `raceArchive`, with one V2 signer. -/
def raceBlock : SigningBlock :=
  match (⟨some toyConfig, none, false, false⟩ : ModuleSigner).sign toyEnv .dev none
    (Digests.new [Digest.new .p256 (contentDigest toyEnv raceArchive .p256)]) with
  | .ok b => b
  | _ => emptyBlock

/-- Other content, together with that block as long as the signed content. -/
def raceEvil : Archive := { raceArchive with body := List.replicate (300 - raceBlock.toU8.length) 9 }

/-- The path first holds the other content with the block, then the signed content without a block. -/
def raceFiles (k : Nat) : Bytes := if k < 2 then raceEvil.signed raceBlock.toU8 else raceArchive.unsigned

/-- All four flags, as a computation. -/
def fully (v : Res VAll) : Bool :=
  match v with
  | .ok v => match v.v2 with
    | .ok r => r.sigValid && r.digestValid && r.chainValid && r.trusted
    | .err _ => false
  | _ => false

set_option maxRecDepth 100000 in
/-- C54 fails for a file that changes: verification of the path succeeds although at no moment the file at the path verifies:
the block is read from one content and the digest computed from another. -/
theorem C54_race : ∃ v, (Module.new (raceFiles 0)).verifyWithRootsT toyEnv .dev raceFiles (storeOf toyEnv [[7]]) 0 = .ok v ∧
    v.isValid = true ∧ FullyValid v.v2 ∧
    ∀ k v', (Module.new (raceFiles k)).verifyWithRoots toyEnv .dev (raceFiles k) (storeOf toyEnv [[7]]) 0 = .ok v' →
      ¬ FullyValid v'.v2 := by
  have h0 : ((Module.new (raceFiles 0)).verifyWithRootsT toyEnv .dev raceFiles (storeOf toyEnv [[7]]) 0 >>=
      fun v => Res.ok (v.isValid && fully (.ok v))) = .ok true := by decide +kernel
  obtain ⟨v, hv, hf⟩ := Res.bind_eq_ok.mp h0
  injection hf with hf
  rw [Bool.and_eq_true] at hf
  have key : ∀ v : VAll, FullyValid v.v2 ↔ fully (.ok v) = true := by
    intro v
    obtain ⟨v2, st⟩ := v
    cases v2 with
    | err e => simp [fully, FullyValid]
    | ok r => simp [fully, FullyValid, and_assoc]
  refine ⟨v, hv, hf.1, (key v).mpr hf.2, fun k v' hv' hfull => ?_⟩
  have e1 : fully ((Module.new (raceEvil.signed raceBlock.toU8)).verifyWithRoots toyEnv .dev (raceEvil.signed raceBlock.toU8)
    (storeOf toyEnv [[7]]) 0) = false := by decide +kernel
  have e2 : fully ((Module.new raceArchive.unsigned).verifyWithRoots toyEnv .dev raceArchive.unsigned
    (storeOf toyEnv [[7]]) 0) = false := by decide +kernel
  rw [key, ← hv'] at hfull
  unfold raceFiles at hfull
  split at hfull
  · rw [e1] at hfull; cases hfull
  · rw [e2] at hfull; cases hfull

set_option maxRecDepth 100000 in
/-- A file that does not change and meets the hypotheses of `C54_stable_file_partial`. -/
example : ((Module.new (raceArchive.signed raceBlock.toU8)).verifyWithRootsT toyEnv .dev
    (fun _ => raceArchive.signed raceBlock.toU8) (storeOf toyEnv [[7]]) 0 >>=
      fun v => Res.ok (v.isValid && fully (.ok v))) = .ok true := by decide +kernel

end Ksusig.Props
