import Verif.Proofs.NoElf
import Verif.Props.SignVerify

/-!
# C106: the build without ELF support
-/

namespace Ksusig.Props

open Ksusig Spec

/-- C106. Whatever module the full build reads a block from, the build without ELF support reads the same block: at the same place, with
the same sizes and pairs, except that section lists stay bytes. The same for a block in memory. -/
theorem C106_reads_as_much (p : Profile) (file : Bytes) (b : SigningBlock) :
    ((Module.new file).getSigningBlock p file = .ok b → ∃ b', NoElf.getSigningBlock p (Module.new file) file = .ok b' ∧ SameReading b b') ∧
    (SigningBlock.fromU8 p file = .ok b → ∃ b', NoElf.fromU8 p file = .ok b' ∧ SameReading b b') := by
  constructor
  · intro h
    have := getSigningBlock_sides p file
    rw [h] at this
    generalize NoElf.getSigningBlock p (Module.new file) file = y at this
    cases this with | both a a' h => exact ⟨a', rfl, h⟩
  · intro h
    have := fromU8_sides p file
    rw [h] at this
    generalize NoElf.fromU8 p file = y at this
    cases this with | both a a' h => exact ⟨a', rfl, h⟩

/-- C106. What the build without ELF support reads in addition are exactly blocks with a pair that has the id of a section list and is
none; these the full build refuses, with an error that does not mean "unsigned". -/
theorem C106_reads_more_only (p : Profile) (file : Bytes) (b' : SigningBlock)
    (h : NoElf.getSigningBlock p (Module.new file) file = .ok b') :
    ((∃ b, (Module.new file).getSigningBlock p file = .ok b ∧ SameReading b b') ∧ ∀ v ∈ b'.content, ¬ Unreadable v) ∨
    ((∃ e, (Module.new file).getSigningBlock p file = .err e ∧ e.isMissing = false) ∧ ∃ v ∈ b'.content, Unreadable v) := by
  have hs := getSigningBlock_sides p file
  rw [h] at hs
  generalize (Module.new file).getSigningBlock p file = x at hs
  cases hs with
  | both b _ hb =>
    refine .inl ⟨⟨b, rfl, hb⟩, ?_⟩
    obtain ⟨c', rfl, hp⟩ := hb
    generalize b.content = c at hp
    dsimp only
    clear h
    induction hp with
    | nil => intro v hv; cases hv
    | cons v v' vs vs' hvv _ ih =>
      intro u hu
      rcases List.mem_cons.mp hu with rfl | hu
      · rintro ⟨r, rfl, hid, hn⟩
        cases v with
        | elf e =>
          obtain ⟨r', hr, _, _, hv⟩ := hvv
          cases hr
          exact hn e hv
        | raw q =>
          obtain ⟨hr, hq⟩ := hvv
          cases hr
          exact hq hid
        | v2 s => cases hvv
        | stamp s => cases hvv
      · exact ih u hu
  | more e _ he hb => exact .inr ⟨⟨e, rfl, he⟩, hb⟩

/-- C106. The two builds agree on which modules have no block. -/
theorem C106_unsigned (p : Profile) (file : Bytes) :
    (∃ e, (Module.new file).getSigningBlock p file = .err e ∧ e.isMissing = true) ↔
      ∃ e, NoElf.getSigningBlock p (Module.new file) file = .err e ∧ e.isMissing = true := by
  have hs := getSigningBlock_sides p file
  generalize (Module.new file).getSigningBlock p file = x at hs
  generalize NoElf.getSigningBlock p (Module.new file) file = y at hs
  cases hs with
  | both b b' _ => constructor <;> rintro ⟨e, h, _⟩ <;> cases h
  | same e => exact Iff.rfl
  | errs e e' h h' =>
    constructor
    · rintro ⟨_, he, hm⟩
      cases he
      rw [h] at hm
      cases hm
    · rintro ⟨_, he, hm⟩
      cases he
      rw [h'] at hm
      cases hm
  | more e b' h _ =>
    constructor
    · rintro ⟨_, he, hm⟩
      cases he
      rw [h] at hm
      cases hm
    · rintro ⟨_, he, _⟩
      cases he
  | panic => constructor <;> rintro ⟨e, h, _⟩ <;> cases h

/-- C106. What is verified in a block does not depend on the build: same verdict about the V2 signature and about the source stamp, for
every trust store, time and digests. -/
theorem C106_same_verdict {b b' : SigningBlock} (h : SameReading b b') (E : Env) (roots : Roots) (now : Nat) (ctx : Option DigestCtx) :
    verifyAll E roots now b ctx = verifyAll E roots now b' ctx := by
  obtain ⟨c', rfl, hp⟩ := h
  have h2 : verifyV2 E roots now b ctx = verifyV2 E roots now { b with content := c' } ctx := by
    unfold verifyV2
    dsimp only
    congr 1
    generalize b.content = c at hp
    induction hp with
    | nil => rfl
    | cons v v' vs vs' hvv _ ih =>
      rw [List.flatMap_cons, List.flatMap_cons, ih]
      congr 1
      cases v with
      | elf e => obtain ⟨r, rfl, _⟩ := hvv; rfl
      | raw r => obtain ⟨rfl, _⟩ := hvv; rfl
      | v2 s => cases hvv; rfl
      | stamp s => cases hvv; rfl
  have hst : verifySourceStamp E roots now b ctx = verifySourceStamp E roots now { b with content := c' } ctx := by
    clear h2
    unfold verifySourceStamp
    dsimp only
    congr 1
    generalize b.content = c at hp
    induction hp with
    | nil => rfl
    | cons v v' vs vs' hvv _ ih =>
      cases v with
      | elf e => obtain ⟨r, rfl, _⟩ := hvv; exact ih
      | raw r => obtain ⟨rfl, _⟩ := hvv; exact ih
      | v2 s => cases hvv; exact ih
      | stamp s =>
        cases hvv
        simp only [stampLoop, ih]
  unfold verifyAll
  rw [h2, hst]

/-- The offsets, once the block is read alike. -/
theorem offsets_same {p : Profile} {file : Bytes} {b b' : SigningBlock} (h : (Module.new file).getSigningBlock p file = .ok b)
    (h' : NoElf.getSigningBlock p (Module.new file) file = .ok b') (hs : SameReading b b') :
    (Module.new file).getOffsets p file = NoElf.getOffsets p (Module.new file) file := by
  obtain ⟨c', rfl, _⟩ := hs
  unfold Module.getOffsets Module.getOffsetsT NoElf.getOffsets
  have e : (Module.new file).getSigningBlockT p file file = .ok b := h
  rw [e, h']
  rfl

/-- The offsets the two builds compute. -/
theorem offsets_sides (p : Profile) (file : Bytes) : (Module.new file).getOffsets p file = NoElf.getOffsets p (Module.new file) file ∨
    ((Module.new file).getOffsets p file = .err .corrupted ∧
      ∃ b', NoElf.getSigningBlock p (Module.new file) file = .ok b' ∧ ∃ v ∈ b'.content, Unreadable v) := by
  have hs := getSigningBlock_sides p file
  cases hx : (Module.new file).getSigningBlock p file with
  | ok b =>
    rw [hx] at hs
    cases hy : NoElf.getSigningBlock p (Module.new file) file with
    | ok b' => rw [hy] at hs; cases hs with | both _ _ h => exact .inl (offsets_same hx hy h)
    | err e => rw [hy] at hs; cases hs
    | panic => rw [hy] at hs; cases hs
  | err e =>
    have e0 : (Module.new file).getSigningBlockT p file file = .err e := hx
    rw [hx] at hs
    unfold Module.getOffsets Module.getOffsetsT NoElf.getOffsets
    rw [e0]
    cases hy : NoElf.getSigningBlock p (Module.new file) file with
    | ok b' =>
      rw [hy] at hs
      cases hs with
      | more _ _ hm hb =>
        cases hf : (Module.new file).findEocd file with
        | ok eocd =>
          refine .inr ⟨?_, b', rfl, hb⟩
          simp [hm]
        | err e' => exact .inl rfl
        | panic => exact .inl rfl
    | err e' =>
      left
      rw [hy] at hs
      have hee : e = e' ∨ e.isMissing = false ∧ e'.isMissing = false := by
        cases hs with
        | same => exact .inl rfl
        | errs _ _ h h' => exact .inr ⟨h, h'⟩
      rcases hee with rfl | ⟨h, h'⟩
      · rfl
      · simp [h, h']
    | panic => rw [hy] at hs; cases hs
  | panic =>
    have e0 : (Module.new file).getSigningBlockT p file file = .panic := hx
    rw [hx] at hs
    unfold Module.getOffsets Module.getOffsetsT NoElf.getOffsets
    rw [e0]
    cases hy : NoElf.getSigningBlock p (Module.new file) file with
    | ok b' => rw [hy] at hs; cases hs
    | err e => rw [hy] at hs; cases hs
    | panic => exact .inl rfl

/-- C106. The content that is signed does not depend on the build: if the full build determines a digest, the other determines the same
one; it determines one more only where the full build calls the block corrupted. -/
theorem C106_same_digest (E : Env) (p : Profile) (file : Bytes) (a : Algo) :
    (Module.new file).digest E p file a = NoElf.digest E p (Module.new file) file a ∨
    ((Module.new file).digest E p file a = .err .corrupted ∧
      ∃ b', NoElf.getSigningBlock p (Module.new file) file = .ok b' ∧ ∃ v ∈ b'.content, Unreadable v) := by
  have key := offsets_sides p file
  unfold Module.digest Module.digestT NoElf.digest
  rcases key with h | ⟨h, hb⟩
  · left
    have : (Module.new file).getOffsetsT p file file file = _ := h
    rw [this]
  · right
    have : (Module.new file).getOffsetsT p file file file = _ := h
    rw [this]
    exact ⟨rfl, hb⟩

/-- C106. The verify command of the build without ELF support accepts every file the full one accepts, and others only because of a pair
with the id of a section list that is none. -/
theorem C106_command (E : Env) (p : Profile) (pem : Bytes) (root : Option Bytes) (now : Nat) (file : Bytes) :
    (cliVerify E p pem root now file = .ok () → NoElf.cliVerify E p pem root now file = .ok ()) ∧
    (NoElf.cliVerify E p pem root now file = .ok () → cliVerify E p pem root now file = .ok () ∨
      ∃ b', NoElf.getSigningBlock p (Module.new file) file = .ok b' ∧ ∃ v ∈ b'.content, Unreadable v) := by
  have main : ∀ b, (Module.new file).getSigningBlock p file = .ok b →
      cliVerify E p pem root now file = NoElf.cliVerify E p pem root now file := by
    intro b hb
    obtain ⟨b', hb', hs⟩ := (C106_reads_as_much p file b).1 hb
    have hd : ∀ a, (Module.new file).digest E p file a = NoElf.digest E p (Module.new file) file a := by
      intro a
      unfold Module.digest Module.digestT NoElf.digest
      have : (Module.new file).getOffsetsT p file file file = _ := offsets_same hb hb' hs
      rw [this]
    have ha : ∀ a c, cliAddDigest E p (Module.new file) file a c = NoElf.cliAddDigest E p (Module.new file) file a c := by
      intro a c
      unfold cliAddDigest NoElf.cliAddDigest
      rw [hd]
      rfl
    have hv : ∀ roots ctx, verifyV2 E roots now b ctx = verifyV2 E roots now b' ctx ∧
        verifySourceStamp E roots now b ctx = verifySourceStamp E roots now b' ctx := by
      intro roots ctx
      have := C106_same_verdict hs E roots now ctx
      unfold verifyAll at this
      injection this with h1 h2
      exact ⟨h1, h2⟩
    unfold cliVerify NoElf.cliVerify
    dsimp only
    rw [hb, hb']
    simp only [Res.mapErr, Res.ok_bind, ha, (hv _ _).1, (hv _ _).2]
    rfl
  constructor
  · intro h
    obtain ⟨b, hb, _⟩ := Res.bind_eq_ok.mp h
    have hb' : (Module.new file).getSigningBlock p file = .ok b := by
      revert hb
      cases (Module.new file).getSigningBlock p file <;> intro hb <;> cases hb
      rfl
    rw [← main b hb']
    exact h
  · intro h
    obtain ⟨b', hb, _⟩ := Res.bind_eq_ok.mp h
    have hb' : NoElf.getSigningBlock p (Module.new file) file = .ok b' := by
      revert hb
      cases NoElf.getSigningBlock p (Module.new file) file <;> intro hb <;> cases hb
      rfl
    rcases C106_reads_more_only p file b' hb' with ⟨⟨b, hb, _⟩, _⟩ | ⟨_, hu⟩
    · exact .inl (by rw [main b hb]; exact h)
    · exact .inr ⟨b', hb', hu⟩

/-- C106. Signing a module starts from the same bytes in both builds; the full build refuses in addition what it cannot read. -/
theorem C106_same_source (p : Profile) (file : Bytes) :
    (Module.new file).signSource p file = NoElf.signSource p (Module.new file) file ∨
    ((Module.new file).signSource p file = .err .refuseCorrupted ∧
      ∃ b', NoElf.getSigningBlock p (Module.new file) file = .ok b' ∧ ∃ v ∈ b'.content, Unreadable v) := by
  have hs := getSigningBlock_sides p file
  unfold Module.signSource NoElf.signSource
  cases hx : (Module.new file).getSigningBlock p file with
  | ok b =>
    rw [hx] at hs
    cases hy : NoElf.getSigningBlock p (Module.new file) file with
    | ok b' =>
      rw [hy] at hs
      cases hs with
      | both _ _ h =>
        obtain ⟨c', rfl, _⟩ := h
        left
        unfold Module.getRawModule NoElf.getRawModule
        rw [hx, hy]
        rfl
    | err e => rw [hy] at hs; cases hs
    | panic => rw [hy] at hs; cases hs
  | err e =>
    rw [hx] at hs
    cases hy : NoElf.getSigningBlock p (Module.new file) file with
    | ok b' =>
      rw [hy] at hs
      cases hs with
      | more _ _ hm hb => exact .inr ⟨by simp [hm], b', rfl, hb⟩
    | err e' =>
      left
      rw [hy] at hs
      have hee : e = e' ∨ e.isMissing = false ∧ e'.isMissing = false := by
        cases hs with
        | same => exact .inl rfl
        | errs _ _ h h' => exact .inr ⟨h, h'⟩
      rcases hee with rfl | ⟨h, h'⟩
      · rfl
      · simp [h, h']
    | panic => rw [hy] at hs; cases hs
  | panic =>
    rw [hx] at hs
    cases hy : NoElf.getSigningBlock p (Module.new file) file with
    | ok b' => rw [hy] at hs; cases hs
    | err e => rw [hy] at hs; cases hs
    | panic => exact .inl rfl

/-- C106. Which files are taken for modules: the same in both builds, except for files that start with the ELF magic. -/
theorem C106_same_format (file : Bytes) :
    (∀ rest, file ≠ [0x7f, 0x45, 0x4c, 0x46] ++ rest) → detectFileFormat file = NoElf.detectFileFormat file := by
  intro h
  unfold detectFileFormat NoElf.detectFileFormat
  cases hm : readExactAt file 0 4 with
  | err e => rfl
  | panic => rfl
  | ok magic =>
    simp only [Res.ok_bind]
    have hne : magic ≠ [0x7f, 0x45, 0x4c, 0x46] := by
      rintro rfl
      unfold readExactAt at hm
      cases hs : slice? file 0 (0 + 4) with
      | none => rw [hs] at hm; cases hm
      | some x =>
        rw [hs] at hm
        cases hm
        obtain ⟨_, _, hx, _⟩ := slice?_eq_some hs
        refine h (file.drop 4) ?_
        rw [hx]
        simp
    rw [if_neg hne]
    rfl

/-- The archive of the examples with a V2 signature of its content and an empty pair with the id of a section list. -/
def emptyListFile : Bytes :=
  match (Module.new plainArchive.unsigned).digest toyEnv .dev plainArchive.unsigned .p256 with
  | .ok d =>
    match SigningBlock.newWithPadding .dev [Value.newV2 (SignersV2.new [toySigner d]), .raw (RawData.new elfInfoBlockId [])] with
    | .ok b => plainArchive.signed b.toU8
    | _ => []
  | _ => []

/-- C106. The difference shows: a file the build without ELF support accepts and the full one rejects. -/
theorem C106_accepts_more :
    NoElf.cliVerify toyEnv .dev [7] none 0 emptyListFile = .ok () ∧ cliVerify toyEnv .dev [7] none 0 emptyListFile ≠ .ok () := by
  have h : ((NoElf.cliVerify toyEnv .dev [7] none 0 emptyListFile).isOk && !(cliVerify toyEnv .dev [7] none 0 emptyListFile).isOk) = true := by
    decide +kernel
  revert h
  cases NoElf.cliVerify toyEnv .dev [7] none 0 emptyListFile with
  | ok u =>
    intro h
    refine ⟨rfl, fun hc => ?_⟩
    rw [hc] at h
    cases h
  | err e => intro h; cases h
  | panic => intro h; cases h

/-- C106. So does a file with the ELF magic in front of an archive: an ELF file for one build, a module for the other. -/
theorem C106_format_differs : ∃ file, detectFileFormat file = .ok .elf ∧ NoElf.detectFileFormat file = .ok .module :=
  ⟨[0x7f, 0x45, 0x4c, 0x46] ++ plainArchive.unsigned, by decide +kernel, by decide +kernel⟩

/-- The hypotheses are met: a file both builds read, with a section list. -/
example : ∃ b b', SigningBlock.fromU8 .dev (match SigningBlock.new [.elf (ElfSectionInfo.fromTuples [([46, 97], 3, 4)])] with
      | .ok b => b.toU8
      | _ => []) = .ok b ∧ NoElf.fromU8 .dev (match SigningBlock.new [.elf (ElfSectionInfo.fromTuples [([46, 97], 3, 4)])] with
      | .ok b => b.toU8
      | _ => []) = .ok b' ∧ b ≠ b' := by
  refine ⟨_, _, rfl, rfl, ?_⟩
  decide +kernel

end Ksusig.Props
