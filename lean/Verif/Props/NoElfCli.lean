import Verif.Model.NoElfCli
import Verif.SpecHandle
import Verif.Props.NoElf
import Verif.Props.Commands

/-!
# C112: the commands of the build without ELF support
-/

namespace Ksusig.Props

open Ksusig Spec

/-- The file has a block that only the build without ELF support reads: one with a pair that has the id of a section list and is none. -/
def ReadByOne (p : Profile) (file : Bytes) : Prop :=
  ∃ b', NoElf.getSigningBlock p (Module.new file) file = .ok b' ∧ ∃ v ∈ b'.content, Unreadable v

theorem offsets_refused {p : Profile} {file : Bytes} (h : ReadByOne p file) : (Module.new file).getOffsets p file = .err .corrupted := by
  obtain ⟨b', hb, hu⟩ := h
  have hg : ∃ e, (Module.new file).getSigningBlock p file = .err e ∧ e.isMissing = false := by
    rcases C106_reads_more_only p file b' hb with ⟨_, hn⟩ | ⟨he, _⟩
    · obtain ⟨v, hv, hu⟩ := hu
      exact absurd hu (hn v hv)
    · exact he
  obtain ⟨e, he, hm⟩ := hg
  have hf : ∃ r, (Module.new file).findEocd file = .ok r := by
    unfold NoElf.getSigningBlock at hb
    obtain ⟨r, hr, _⟩ := Res.bind_eq_ok.mp hb
    exact ⟨r, hr⟩
  obtain ⟨r, hr⟩ := hf
  have e0 : (Module.new file).getSigningBlockT p file file = .err e := he
  unfold Module.getOffsets Module.getOffsetsT
  rw [hr, Res.ok_bind, e0]
  simp [hm]

theorem regions_sides (p : Profile) (file : Bytes) :
    (Module.new file).digestRegions p file = NoElf.digestRegions p (Module.new file) file ∨
    ((Module.new file).digestRegions p file = .err .corrupted ∧ ReadByOne p file) := by
  unfold Module.digestRegions NoElf.digestRegions
  rcases offsets_sides p file with h | ⟨h, hb⟩
  · rw [h]; exact .inl rfl
  · rw [h]; exact .inr ⟨rfl, hb⟩

theorem digests_sides (E : Env) (p : Profile) (file : Bytes) (as : List Algo) :
    cliDigests E p (Module.new file) file as = NoElf.cliDigests E p (Module.new file) file as ∨
    ((∃ e, cliDigests E p (Module.new file) file as = .err e) ∧ ReadByOne p file) := by
  induction as with
  | nil => rw [cliDigests, NoElf.cliDigests]; exact .inl rfl
  | cons a as ih =>
    rw [cliDigests, NoElf.cliDigests]
    rcases C106_same_digest E p file a with h | ⟨h, hb⟩
    · rw [h]
      generalize NoElf.digest E p (Module.new file) file a = x
      rcases ih with h | ⟨⟨e, h⟩, hb⟩
      · rw [h]; exact .inl rfl
      · cases x with
        | err e => exact .inl (by simp only [Res.err_bind])
        | panic => exact .inl (by simp only [Res.panic_bind])
        | ok d => rw [h]; exact .inr ⟨⟨e, rfl⟩, hb⟩
    · rw [h]; exact .inr ⟨⟨_, rfl⟩, hb⟩

theorem write_sides (p : Profile) (file : Bytes) (b : SigningBlock) :
    (Module.new file).signableWrite p file b = NoElf.signableWrite p (Module.new file) file b ∨
    ((Module.new file).signableWrite p file b = ([], .err .refuseCorrupted) ∧ ReadByOne p file) := by
  rcases C106_same_source p file with h | ⟨h, hb⟩
  · left
    unfold Module.signableWrite NoElf.signableWrite
    rw [h]
    cases NoElf.signSource p (Module.new file) file with
    | err e => rfl
    | panic => rfl
    | ok x =>
      obtain ⟨raw, eocd⟩ := x
      dsimp only
      cases usub p raw.length eocd.fileOffset with
      | err e => rfl
      | panic => rfl
      | ok n =>
        dsimp only
        cases slice? raw 0 eocd.cdOffset.toNat with
        | none => rfl
        | some header =>
          dsimp only
          cases slice? raw eocd.cdOffset.toNat eocd.fileOffset with
          | none => rfl
          | some cd =>
            dsimp only
            generalize debugAssert p _ = q
            cases q <;> rfl
  · right
    unfold Module.signableWrite
    rw [h]
    exact ⟨rfl, hb⟩

/-- In place the source is gone for both. -/
theorem write_emptied (p : Profile) (file : Bytes) (b : SigningBlock) :
    (Module.new file).signableWrite p [] b = NoElf.signableWrite p (Module.new file) [] b := by
  have hfe : ∃ e, findEocd [] file.length = .err e ∧ e.isMissing = false := by
    by_cases h22 : file.length < 22
    · exact ⟨_, findEocd_small h22, rfl⟩
    · exact ⟨_, findEocd_eof (by simp; omega) (by omega), rfl⟩
  obtain ⟨e, he, hmiss⟩ := hfe
  have hg : (Module.new file).getSigningBlock p [] = .err e := by
    simp only [Module.getSigningBlock, Module.getSigningBlockT, Module.new, Module.findEocd, he, Res.err_bind]
    rfl
  have hg' : NoElf.getSigningBlock p (Module.new file) [] = .err e := by
    simp only [NoElf.getSigningBlock, Module.new, Module.findEocd, he, Res.err_bind]
    rfl
  have h1 : (Module.new file).signSource p [] = .err .refuseCorrupted := by
    unfold Module.signSource
    rw [hg]
    dsimp only
    rw [hmiss]
    rfl
  have h2 : NoElf.signSource p (Module.new file) [] = .err .refuseCorrupted := by
    unfold NoElf.signSource
    rw [hg']
    dsimp only
    rw [hmiss]
    rfl
  unfold Module.signableWrite NoElf.signableWrite
  rw [h1, h2]

theorem open_sides (acc : Bytes → Bool) (sections : List (List Char)) {file : Bytes} (hn : ¬ elfMagic <+: file) :
    cliOpen acc sections file = (NoElf.cliOpen sections file >>= fun m => .ok (.module m file)) ∧
    ∀ m, NoElf.cliOpen sections file = .ok m → m = Module.new file := by
  have hf := C106_same_format file fun rest h => hn ⟨rest, h.symm⟩
  constructor
  · unfold cliOpen SignableFile.open NoElf.cliOpen
    rw [hf]
    cases hd : NoElf.detectFileFormat file with
    | err e => rfl
    | panic => rfl
    | ok fmt =>
      cases fmt with
      | module => cases sections <;> rfl
      | elf =>
        unfold NoElf.detectFileFormat at hd
        obtain ⟨magic, _, hd⟩ := Res.bind_eq_ok.mp hd
        revert hd
        split
        · intro h; cases h
        · split <;> intro h <;> cases h
  · intro m h
    unfold NoElf.cliOpen at h
    obtain ⟨_, _, h⟩ := Res.bind_eq_ok.mp h
    cases sections with
    | nil => cases h; rfl
    | cons a as => cases h

/-- C112, sign. On every file that does not start with the ELF magic the sign command of the build without ELF support does the same
as that of the full build: same output file, same result, for every signer and clock, in place or not. The one exception: the full
build refuses a file with a block that only the other reads, and leaves the output alone. -/
theorem C112_sign (E : Env) (p : Profile) (acc : Bytes → Bool) (clock : Option UInt64) (m : ModuleSigner) (sections : List (List Char))
    (inPlace : Bool) (file : Bytes) (hn : ¬ elfMagic <+: file) :
    NoElf.cliSign E p clock m sections inPlace file = cliSign E p acc clock m sections inPlace file ∨
    (∃ e, cliSign E p acc clock m sections inPlace file = (none, .err e)) ∧ ReadByOne p file := by
  have hf := C106_same_format file fun rest h => hn ⟨rest, h.symm⟩
  unfold NoElf.cliSign cliSign NoElf.cliOpen SignableFile.open
  rw [← hf]
  cases hd : detectFileFormat file with
  | err e => exact .inl rfl
  | panic => exact .inl rfl
  | ok fmt =>
    cases fmt with
    | elf =>
      rw [hf] at hd
      unfold NoElf.detectFileFormat at hd
      obtain ⟨magic, _, hd⟩ := Res.bind_eq_ok.mp hd
      revert hd
      split
      · intro h; cases h
      · split <;> intro h <;> cases h
    | module =>
      cases sections with
      | cons a as => exact .inl rfl
      | nil =>
        simp only [Res.ok_bind, List.isEmpty_nil, if_true]
        unfold cliSignModule
        dsimp only
        by_cases hb : ReadByOne p file
        · refine .inr ⟨⟨.corrupted, ?_⟩, hb⟩
          unfold Module.digestRegions
          rw [offsets_refused hb]
          rfl
        · left
          rw [(regions_sides p file).resolve_right fun h => hb h.2]
          cases NoElf.digestRegions p (Module.new file) file with
          | err e => rfl
          | panic => rfl
          | ok rs =>
            simp only [Res.ok_bind]
            rw [(digests_sides E p file m.requiredAlgorithms).resolve_right fun h => hb h.2]
            cases NoElf.cliDigests E p (Module.new file) file m.requiredAlgorithms with
            | err e => rfl
            | panic => rfl
            | ok ds =>
              simp only [Res.ok_bind]
              cases m.sign E p clock (Digests.new (ds.map fun x => Digest.new x.1 x.2)) with
              | err e => rfl
              | panic => rfl
              | ok b =>
                cases inPlace with
                | true => simp only [Res.ok_bind, if_true, write_emptied]
                | false =>
                  simp only [Res.ok_bind, Bool.false_eq_true, if_false]
                  rw [(write_sides p file b).resolve_right fun h => hb h.2]

theorem cliRegions_sides (p : Profile) (acc : Bytes → Bool) (file : Bytes) :
    cliRegions p acc (.module (Module.new file) file) = NoElf.cliRegions p (Module.new file) file ∨
    (cliRegions p acc (.module (Module.new file) file) = .err .corrupted ∧ ReadByOne p file) := by
  unfold cliRegions NoElf.cliRegions SignableFile.digestRegions
  dsimp only
  rcases regions_sides p file with h | ⟨h, hb⟩
  · rw [h]; exact .inl rfl
  · rw [h]; exact .inr ⟨rfl, hb⟩

/-- C112, digest. The digest command, too, does the same in both builds on files that do not start with the ELF magic: it prints the
same text, dumps the same bytes and fails alike, except that the full build refuses a file with a block that only the other reads. -/
theorem C112_digest (E : Env) (p : Profile) (acc : Bytes → Bool) (sections : List (List Char)) (file : Bytes)
    (hn : ¬ elfMagic <+: file) :
    (∀ sha512 format, NoElf.cliDigest E p sha512 format sections file = cliDigest E p acc sha512 format sections file) ∧
      (∀ inPlace, NoElf.cliDump p sections inPlace file = cliDump p acc sections inPlace file) ∨
    ((∀ sha512 format, ∃ e, cliDigest E p acc sha512 format sections file = .err e) ∧
      ∀ inPlace, ∃ e, cliDump p acc sections inPlace file = (none, .err e)) ∧ ReadByOne p file := by
  obtain ⟨ho, hm⟩ := open_sides acc sections hn
  unfold NoElf.cliDigest cliDigest NoElf.cliDump cliDump
  rw [ho]
  cases hx : NoElf.cliOpen sections file with
  | err e => exact .inl ⟨fun _ _ => rfl, fun _ => rfl⟩
  | panic => exact .inl ⟨fun _ _ => rfl, fun _ => rfl⟩
  | ok m =>
    cases hm m hx
    simp only [Res.ok_bind]
    rcases cliRegions_sides p acc file with h | ⟨h, hb⟩
    · rw [h]
      by_cases hb : ReadByOne p file
      · refine .inr ⟨?_, hb⟩
        have : NoElf.cliRegions p (Module.new file) file = .err .corrupted := by
          rw [← h]
          unfold cliRegions SignableFile.digestRegions Module.digestRegions
          dsimp only
          rw [offsets_refused hb]
          rfl
        rw [this]
        exact ⟨fun _ _ => ⟨_, rfl⟩, fun _ => ⟨_, rfl⟩⟩
      · refine .inl ⟨fun sha512 format => ?_, fun _ => rfl⟩
        have : SignableFile.digest E p acc (.module (Module.new file) file) (if sha512 then .p384 else .p256) =
            NoElf.digest E p (Module.new file) file (if sha512 then .p384 else .p256) :=
          (C106_same_digest E p file _).resolve_right fun h => hb h.2
        rw [this]
    · rw [h]
      exact .inr ⟨⟨fun _ _ => ⟨_, rfl⟩, fun _ => ⟨_, rfl⟩⟩, hb⟩

/-- C112. A file that is neither an archive by its first bytes nor has an end record is refused by the build without ELF support,
an ELF file in particular: the output is not touched. -/
theorem C112_elf_refused (E : Env) (p : Profile) (clock : Option UInt64) (m : ModuleSigner) (sections : List (List Char))
    (file : Bytes) (hm : elfMagic <+: file) (hr : ∀ r, findEocd file file.length ≠ .ok r) (inPlace : Bool) :
    (NoElf.cliSign E p clock m sections inPlace file).1 = none ∧ (NoElf.cliSign E p clock m sections inPlace file).2 ≠ .ok () ∧
    (NoElf.cliDump p sections inPlace file).1 = none ∧ (NoElf.cliDump p sections inPlace file).2 ≠ .ok () ∧
    ∀ sha512 format out, NoElf.cliDigest E p sha512 format sections file ≠ .ok out := by
  have hd : ∀ f, NoElf.detectFileFormat file ≠ .ok f := by
    intro f h
    obtain ⟨rest, rfl⟩ := hm
    unfold NoElf.detectFileFormat at h
    obtain ⟨magic, hmg, h⟩ := Res.bind_eq_ok.mp h
    have : magic = elfMagic := by
      unfold readExactAt at hmg
      cases hs : slice? (elfMagic ++ rest) 0 (0 + 4) with
      | none => rw [hs] at hmg; cases hmg
      | some x =>
        rw [hs] at hmg
        cases hmg
        obtain ⟨_, _, hx, _⟩ := slice?_eq_some hs
        rw [hx]
        simp [elfMagic]
    subst this
    rw [if_neg (by decide)] at h
    revert h
    cases hf : findEocd (elfMagic ++ rest) (elfMagic ++ rest).length with
    | ok r => exact fun _ => hr r hf
    | err e => intro h; cases h
    | panic => intro h; cases h
  have ho : ∀ x, NoElf.cliOpen sections file ≠ .ok x := by
    intro x h
    obtain ⟨f, hf, _⟩ := Res.bind_eq_ok.mp h
    exact hd f hf
  unfold NoElf.cliSign NoElf.cliDump NoElf.cliDigest
  revert ho
  cases NoElf.cliOpen sections file with
  | ok x => intro ho; exact absurd rfl (ho x)
  | err e => intro _; exact ⟨rfl, nofun, rfl, nofun, nofun⟩
  | panic => intro _; exact ⟨rfl, nofun, rfl, nofun, nofun⟩

/-- How the lines of the info command differ: a section list is an unknown block with its id. -/
def withoutElf : ILine → ILine
  | .elfEntry _ => .unknownEntry 0x4c45534b
  | l => l

/-- C112, info. Wherever the full build finds a block the info command of the other finds it, too, and prints the same lines, except
that a section list is shown as an unknown block; and where it finds none, the other prints the same and fails, too, unless there is
a pair with the id of a section list that is none. -/
theorem C112_info (E : Env) (p : Profile) (pem : Bytes) (now : Nat) (file : Bytes) :
    ((cliInfoRun E p pem now file).2 = .ok () → NoElf.cliInfoRun E p pem now file =
      ((cliInfoRun E p pem now file).1.map withoutElf, .ok ())) ∧
    ((cliInfoRun E p pem now file).2 ≠ .ok () →
      ((NoElf.cliInfoRun E p pem now file).1 = (cliInfoRun E p pem now file).1 ∧ (NoElf.cliInfoRun E p pem now file).2 ≠ .ok ()) ∨
      ∃ b', NoElf.fromReader p file file.length 0 = .ok b' ∧ ∃ v ∈ b'.content, Unreadable v) := by
  have hs := fromReader_sides p file file.length 0
  unfold cliInfoRun NoElf.cliInfoRun cliInfoBlock
  generalize SigningBlock.fromReader p file file.length 0 = x at hs
  generalize NoElf.fromReader p file file.length 0 = y at hs
  cases hs with
  | same e => exact ⟨nofun, fun _ => .inl ⟨rfl, nofun⟩⟩
  | errs e e' h h' => exact ⟨nofun, fun _ => .inl ⟨rfl, nofun⟩⟩
  | more e b' h hb => exact ⟨nofun, fun _ => .inr ⟨b', rfl, hb⟩⟩
  | panic => exact ⟨nofun, fun _ => .inl ⟨rfl, nofun⟩⟩
  | both b b' h =>
    refine ⟨fun _ => ?_, fun h => absurd rfl h⟩
    have hv := C106_same_verdict h E (Roots.withBuiltin E pem) now none
    unfold verifyAll at hv
    injection hv with h1 h2
    dsimp only
    rw [← h1, ← h2]
    obtain ⟨c', rfl, hp⟩ := h
    have hc : (c'.map infoEntry) = (b.content.map infoEntry).map withoutElf ∧ c'.isEmpty = b.content.isEmpty := by
      generalize b.content = c at hp
      clear h1 h2
      induction hp with
      | nil => exact ⟨rfl, rfl⟩
      | cons v v' vs vs' hvv _ ih =>
        refine ⟨?_, rfl⟩
        simp only [List.map_cons, ih.1]
        congr 1
        cases v with
        | elf e => obtain ⟨r, rfl, hid, _⟩ := hvv; exact congrArg ILine.unknownEntry hid
        | raw r => obtain ⟨rfl, _⟩ := hvv; rfl
        | v2 s => cases hvv; rfl
        | stamp s => cases hvv; rfl
    have hv2 : ∀ v, (infoV2Lines v).map withoutElf = infoV2Lines v := by
      intro v
      cases v with
      | err e => rfl
      | ok r =>
        unfold infoV2Lines
        simp only [List.map_append, List.map_cons, List.map_nil, List.map_map]
        congr 1
        · congr 1
          · congr 1
            cases r.cert <;> rfl
          · split
            · rfl
            · simp only [List.map_cons, List.map_map]
              rfl
    have hst : ∀ v, (infoStampLines v).map withoutElf = infoStampLines v := by
      intro v
      cases v with
      | err e => rfl
      | ok r =>
        unfold infoStampLines
        dsimp only
        split
        · cases r.cert <;> rfl
        · rfl
    simp only [List.map_append, hv2, hst]
    congr 3
    unfold infoBlockLines
    dsimp only
    rw [hc.1, hc.2]
    simp only [List.map_append]
    congr 1
    split <;> rfl

set_option maxRecDepth 100000 in
/-- C112. The exception is real: a file the full build refuses to sign and the other signs. The result is accepted by both. -/
theorem C112_signs_more : ∃ out, NoElf.cliSign toyEnv .dev none ⟨some toyConfig, none, false, false⟩ [] false emptyListFile = (some out, .ok ()) ∧
    (∃ e, cliSign toyEnv .dev (fun _ => true) none ⟨some toyConfig, none, false, false⟩ [] false emptyListFile = (none, .err e)) ∧
    cliVerify toyEnv .dev [7] none 0 out = .ok () ∧ NoElf.cliVerify toyEnv .dev [7] none 0 out = .ok () := by
  have h : (match NoElf.cliSign toyEnv .dev none ⟨some toyConfig, none, false, false⟩ [] false emptyListFile,
      cliSign toyEnv .dev (fun _ => true) none ⟨some toyConfig, none, false, false⟩ [] false emptyListFile with
    | (some out, .ok ()), (none, .err _) => (cliVerify toyEnv .dev [7] none 0 out).isOk && (NoElf.cliVerify toyEnv .dev [7] none 0 out).isOk
    | _, _ => false) = true := by decide +kernel
  revert h
  split
  · rename_i out e h1 h2
    intro h
    rw [Bool.and_eq_true] at h
    obtain ⟨⟨⟩, h3⟩ := Res.exists_of_isOk h.1
    obtain ⟨⟨⟩, h4⟩ := Res.exists_of_isOk h.2
    exact ⟨out, h1, ⟨e, h2⟩, h3, h4⟩
  · intro h; cases h

set_option maxRecDepth 100000 in
/-- The hypotheses of `C112_sign` and `C112_digest`: an archive that the build without ELF support signs. -/
example : ¬ elfMagic <+: plainArchive.unsigned ∧
    ∃ out, NoElf.cliSign toyEnv .dev none ⟨some toyConfig, none, false, false⟩ [] false plainArchive.unsigned = (some out, .ok ()) ∧
      cliVerify toyEnv .dev [7] none 0 out = .ok () := by
  refine ⟨by decide +kernel, ?_⟩
  have h : (match NoElf.cliSign toyEnv .dev none ⟨some toyConfig, none, false, false⟩ [] false plainArchive.unsigned with
    | (some out, .ok ()) => (cliVerify toyEnv .dev [7] none 0 out).isOk
    | _ => false) = true := by decide +kernel
  revert h
  split
  · rename_i out h1
    intro h
    obtain ⟨⟨⟩, h3⟩ := Res.exists_of_isOk h
    exact ⟨out, h1, h3⟩
  · intro h; cases h

set_option maxRecDepth 100000 in
/-- The hypotheses of `C112_elf_refused`: an ELF file that the full build signs. -/
example : elfMagic <+: elf64 ∧ (∀ r, findEocd elf64 elf64.length ≠ .ok r) ∧
    (cliSign toyEnv .dev anyElf none ⟨some toyConfig, none, false, false⟩ [] false elf64).2 = .ok () := by
  refine ⟨by decide +kernel, ?_, ?_⟩
  · have h : (findEocd elf64 elf64.length).isOk = false := by decide +kernel
    intro r hr
    rw [hr] at h
    cases h
  · have h : (cliSign toyEnv .dev anyElf none ⟨some toyConfig, none, false, false⟩ [] false elf64).2.isOk = true := by decide +kernel
    obtain ⟨⟨⟩, h⟩ := Res.exists_of_isOk h
    exact h

set_option maxRecDepth 100000 in
/-- Both cases of `C112_info`: a signed file, where a block is found, and one that only the build without ELF support reads. -/
example : (cliInfoRun toyEnv .dev [7] 0 (sampleArchive.signed sampleBlock.toU8)).2 = .ok () ∧
    (cliInfoRun toyEnv .dev [7] 0 emptyListFile).2 ≠ .ok () ∧ (NoElf.cliInfoRun toyEnv .dev [7] 0 emptyListFile).2 = .ok () := by
  have h : ((cliInfoRun toyEnv .dev [7] 0 (sampleArchive.signed sampleBlock.toU8)).2.isOk &&
    !(cliInfoRun toyEnv .dev [7] 0 emptyListFile).2.isOk && (NoElf.cliInfoRun toyEnv .dev [7] 0 emptyListFile).2.isOk) = true := by
    decide +kernel
  rw [Bool.and_eq_true, Bool.and_eq_true] at h
  obtain ⟨⟨⟩, h1⟩ := Res.exists_of_isOk h.1.1
  obtain ⟨⟨⟩, h3⟩ := Res.exists_of_isOk h.2
  refine ⟨h1, fun hc => ?_, h3⟩
  rw [hc] at h
  cases h.1.2

end Ksusig.Props
