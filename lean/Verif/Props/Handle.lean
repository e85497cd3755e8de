import Verif.SpecHandle
import Verif.Props.SignAgain
import Verif.Props.ElfReadBack
import Verif.Props.ElfKept
import Verif.Props.CliDigest

/-!
# C111: one handle for both formats; public keys and unknown algorithms (C31, C40)
-/

namespace Ksusig.Props

open Ksusig Spec

/-- C111: the format of an opened file is the one that is detected, whatever sections are selected. -/
theorem C111_format {acc : Bytes → Bool} {sections : List (List Char)} {file : Bytes} {s : SignableFile}
    (h : cliOpen acc sections file = .ok s) : detectFileFormat file = .ok s.format := by
  rcases cliOpen_cases h with ⟨rfl, _, h⟩ | ⟨f, rfl, _, _, h⟩ <;> exact h

/-- C111: an opened file has no block exactly if there is none in force for its format. -/
theorem C111_unsigned {p : Profile} {acc : Bytes → Bool} {sections : List (List Char)} {file : Bytes} {s : SignableFile}
    (h : cliOpen acc sections file = .ok s) : s.signingBlock p acc = .ok none ↔ NoBlock acc file s.format := by
  rcases cliOpen_cases h with ⟨rfl, _, _⟩ | ⟨f, rfl, _, rfl, _⟩
  · refine Iff.trans ?_ (C89_missing p file)
    show (Module.new file).signingBlock? p file = .ok none ↔ _
    unfold Module.signingBlock?
    constructor
    · intro h
      cases hg : (Module.new file).getSigningBlock p file with
      | ok b => rw [hg] at h; cases h
      | panic => rw [hg] at h; cases h
      | err e =>
        rw [hg] at h
        refine ⟨e, rfl, ?_⟩
        cases hm : e.isMissing with
        | true => rfl
        | false => simp [hm] at h
    · rintro ⟨e, he, hm⟩
      rw [he]
      simp [hm]
  · exact C97_unsigned p acc f

/-- C111: an opened file has the block `b` exactly if that is the one in force for its format. -/
theorem C111_block {p : Profile} {acc : Bytes → Bool} {sections : List (List Char)} {file : Bytes} {s : SignableFile}
    (hlen : file.length < 2 ^ 63) (h : cliOpen acc sections file = .ok s) (b : SigningBlock) :
    s.signingBlock p acc = .ok (some b) ↔ HasBlock acc file b s.format := by
  rcases cliOpen_cases h with ⟨rfl, _, _⟩ | ⟨f, rfl, _, rfl, _⟩
  · refine Iff.trans ?_ (C89_block p file b)
    show (Module.new file).signingBlock? p file = .ok (some b) ↔ _
    unfold Module.signingBlock?
    constructor
    · intro h
      cases hg : (Module.new file).getSigningBlock p file with
      | ok b => rw [hg] at h; cases h; rfl
      | panic => rw [hg] at h; cases h
      | err e =>
        rw [hg] at h
        dsimp only at h
        split at h <;> cases h
    · intro h; rw [h]
  · exact C97_block p acc f b hlen

theorem cliOpen_of_module {acc : Bytes → Bool} {file : Bytes} (h : detectFileFormat file = .ok .module) :
    cliOpen acc [] file = .ok (.module (Module.new file) file) := by
  unfold cliOpen SignableFile.open
  rw [h]
  rfl

/-- Where the block goes when a module is written, and what the first bytes are. -/
theorem written_module {p p' : Profile} {file out : Bytes} {b : SigningBlock} {pos : Nat} {t : Tail} {off s e : Nat}
    (hr : EndRecord file pos t off) (hl : Located file off s e) (hplain : Plain t) (hsize : off + 16392 < 2 ^ 32) (hb : Built p' b)
    (h : (Module.new file).signableWrite p file b = (out, .ok ())) :
    ∃ a : Archive, out = a.signed b.toU8 ∧ a.Ok ∧ a.tail = t ∧ a.body.length = off - (e - s) ∧
      (e = off → a.body = file.take s) := by
  have hbl := built_length hb
  obtain ⟨raw, hsrc, hins⟩ := (C92_sign p file b out (by omega)).mp h
  have hraw : ∃ pos2, EndRecord raw pos2 t (off - (e - s)) ∧ (e = off → raw.take (off - (e - s)) = file.take s) := by
    cases hsrc with
    | unsigned pos2 t2 off2 hr2 hu =>
      obtain ⟨rfl, rfl, rfl⟩ := hr.unique hr2
      obtain ⟨rfl, rfl⟩ := (C89_unique file).2 _ _ _ _ _ hl (.unsigned hu)
      exact ⟨pos, by simpa using hr, fun _ => by simp⟩
    | signed _ hs =>
      obtain ⟨pos2, t2, off2, pre, pairs, vs, hr2, hbb, hc⟩ := hs
      obtain ⟨rfl, rfl, rfl⟩ := hr.unique hr2
      obtain ⟨rfl, rfl⟩ := (C89_unique file).2 _ _ _ _ _ hl (.signed pre pairs vs hbb)
      have : pre.length + pairs.length + 32 - pre.length = pairs.length + 32 := by omega
      rw [this]
      refine ⟨_, endRecord_of_plain hplain hr.comment _ (by omega), fun he => ?_⟩
      obtain ⟨post, hf⟩ := hbb.bytes
      have h1 : off - (pairs.length + 32) = pre.length := by omega
      rw [h1, hf]
      simp [stripped]
  obtain ⟨pos2, hraw, htake⟩ := hraw
  obtain ⟨pos3, t3, off3, hr3, hle⟩ := hins
  obtain ⟨rfl, rfl, rfl⟩ := hraw.unique hr3
  have hfit := endRecord_slice hraw
  refine ⟨⟨raw.take (off - (e - s)), (raw.drop (off - (e - s))).take (pos2 - (off - (e - s))), t⟩, ?_, hr.comment, rfl, ?_, htake⟩
  · simp only [Archive.signed, List.length_take]
    rw [Nat.min_eq_left (by omega)]
  · simp only [List.length_take]; omega

/-- C111: a module written through the handle is opened as a module again exactly if it does not begin like an ELF file, and then the
block is read back. The end record must hide no other one, and the file must stay below 4 GiB. -/
theorem C111_module_again {p p' : Profile} {acc : Bytes → Bool} {sections : List (List Char)} {file out : Bytes} {s : SignableFile}
    {b : SigningBlock} {pos : Nat} {t : Tail} {off i j : Nat} (ho : cliOpen acc sections file = .ok s) (hm : s.format = .module)
    (hr : EndRecord file pos t off) (hl : Located file off i j) (hplain : Plain t) (hsize : off + 16392 < 2 ^ 32) (hb : Built p' b)
    (h : s.writeWithSignature p acc b = (out, .ok ())) :
    ((∃ s', cliOpen acc [] out = .ok s' ∧ s'.format = .module) ↔ ¬ elfMagic <+: out) ∧
    (¬ elfMagic <+: out → ∃ s' b', cliOpen acc [] out = .ok s' ∧ s'.signingBlock p acc = .ok (some b') ∧ SameBlock b' b) := by
  rcases cliOpen_cases ho with ⟨rfl, _, _⟩ | ⟨f, rfl, _, rfl, _⟩
  rotate_left
  · cases hm
  obtain ⟨a, rfl, hok, hat, hab, _⟩ := written_module (p := p) hr hl hplain hsize hb h
  have hbl := built_length hb
  have hclean : a.CleanAt (a.body.length + b.toU8.length) := by
    intro k hk'; rw [hat]; exact hplain _ k hk'
  have hsz : a.body.length + b.toU8.length < 2 ^ 32 := by omega
  have hdet : ¬ elfMagic <+: a.signed b.toU8 → detectFileFormat (a.signed b.toU8) = .ok .module := by
    intro hn
    rcases (C51_format_detection (a.signed b.toU8)).2.2 with h | h | ⟨e, h⟩
    · exact absurd ((C51_format_detection _).1.mp h) hn
    · exact h
    · exfalso
      have h4 : 4 ≤ (a.signed b.toU8).length := by
        have := a.signed_length b.toU8
        omega
      unfold detectFileFormat readExactAt at h
      rw [slice?_of_le (by omega) (by omega), findEocd_signed hok hclean] at h
      rw [show ∀ x : Bytes, Res.ofOption Err.unexpectedEof (some x) = .ok x from fun _ => rfl, Res.ok_bind] at h
      split at h
      · cases h
      · split at h <;> cases h
  refine ⟨⟨?_, fun hn => ⟨_, cliOpen_of_module (hdet hn), rfl⟩⟩, fun hn => ?_⟩
  · rintro ⟨s', h1, h2⟩
    have := C111_format h1
    rw [h2] at this
    exact ((C51_format_detection _).2.1.mp this).2.1
  · have hget := getSigningBlock_signed p hb.wf hok hclean hsz
    refine ⟨_, { b with fileStart := a.body.length, fileEnd := a.body.length + b.toU8.length }, cliOpen_of_module (hdet hn), ?_,
      rfl, rfl, rfl, rfl, rfl⟩
    show (Module.new _).signingBlock? p _ = _
    unfold Module.signingBlock?
    rw [hget]

/-- C111: it does not begin like an ELF file if the old block (if any) stood directly before the directory and at least four bytes
precede it. -/
theorem C111_stays_module {p p' : Profile} {acc : Bytes → Bool} {sections : List (List Char)} {file out : Bytes} {s : SignableFile}
    {b : SigningBlock} {pos : Nat} {t : Tail} {off i j : Nat} (ho : cliOpen acc sections file = .ok s) (hm : s.format = .module)
    (hr : EndRecord file pos t off) (hl : Located file off i j) (hplain : Plain t) (hsize : off + 16392 < 2 ^ 32) (hb : Built p' b)
    (hdir : j = off) (h4 : 4 ≤ i) (h : s.writeWithSignature p acc b = (out, .ok ())) : ¬ elfMagic <+: out := by
  have hf := C111_format ho
  rw [hm] at hf
  have hn := ((C51_format_detection _).2.1.mp hf).2.1
  rcases cliOpen_cases ho with ⟨rfl, _, _⟩ | ⟨f, rfl, _, rfl, _⟩
  rotate_left
  · cases hm
  obtain ⟨a, rfl, hok, hat, hab, htake⟩ := written_module (p := p) hr hl hplain hsize hb h
  have htake := htake hdir
  intro hp
  apply hn
  have hil : 4 ≤ (file.take i).length := by
    rw [← htake, hab]
    have : i ≤ j := by cases hl <;> omega
    omega
  have h1 : elfMagic <+: file.take i := by
    rw [← htake] at hil ⊢
    refine List.prefix_of_prefix_length_le hp ?_ hil
    unfold Archive.signed
    rw [List.append_assoc, List.append_assoc]
    exact List.prefix_append _ _
  exact h1.trans (List.take_prefix _ _)

/-- C111: an ELF file written through the handle is opened as an ELF file again and the block is read back, for the files and blocks of
C99, with every selection that is accepted. -/
theorem C111_elf_again {p : Profile} {acc : Bytes → Bool} {sections sections' : List (List Char)} {file out : Bytes} {s : SignableFile}
    {b : SigningBlock} {e : Elf} (ho : cliOpen acc sections file = .ok s) (he : s.format = .elf) (hlen : file.length < 2 ^ 63)
    (hv : ElfView file e) (hs : SignableElf file e) (h32 : e.is64 = false → out.length < 2 ^ 32)
    (hb : SigningBlock.fromU8 p b.toU8 = .ok b) (hacc : acc out = true) (h : s.writeWithSignature p acc b = (out, .ok ())) :
    (∃ s', cliOpen acc [] out = .ok s') ∧
    ∀ s', cliOpen acc sections' out = .ok s' → s'.format = .elf ∧ s'.signingBlock p acc = .ok (some b) := by
  rcases cliOpen_cases ho with ⟨rfl, _, _⟩ | ⟨f, rfl, _, rfl, _⟩
  · cases he
  have hw : f.writeWithSignature acc b = .ok out := by
    unfold SignableFile.writeWithSignature at h
    dsimp only at h
    cases hf : f.writeWithSignature acc b with
    | ok o => rw [hf] at h; cases h; rfl
    | err e => rw [hf] at h; cases h
    | panic => rw [hf] at h; cases h
  have hread := fun secs => C99_reads_back (p := p) hlen hw hv hs h32 hb hacc secs
  obtain ⟨e', hv', _⟩ := (hread []).2
  have hopen := open_elf (decodeElf_iff.mpr hv') hacc
  refine ⟨⟨.elf ⟨out, defaultSections⟩, ?_⟩, fun s' hs' => ?_⟩
  · unfold cliOpen
    rw [hopen]
    rfl
  · obtain ⟨g, hg, rfl⟩ := (cliOpen_elf hopen).mp hs'
    refine ⟨rfl, ?_⟩
    have hgd : g.data = out := by
      rcases cliOpen_cases hs' with ⟨h, _⟩ | ⟨g', h, _, hd, _⟩
      · cases h
      · cases h; exact hd
    have := (hread g.sections).1
    rw [← hgd] at this
    exact this

/-- Three bytes before the directory. -/
def threeArchive : Archive := ⟨[0x7f, 0x45, 0x4c], [], ⟨0, 0, 0, 0, 0, []⟩⟩

/-- The same with an empty block. -/
def threeSigned : Bytes := threeArchive.signed emptyBlock.toU8

/-- A block of 0x46 bytes and 8 more. -/
def lowBlock : SigningBlock := ⟨0, 78, 70, 46, [.raw ⟨38, 5, List.replicate 34 1⟩], 70, magic⟩

set_option maxRecDepth 100000 in
/-- C111: the condition is needed: a signed module with only three bytes before its block can begin like an ELF file once it is written
with another block, and cannot be opened any more, although the block is there. -/
theorem C111_taken_for_elf : SigningBlock.new [.raw ⟨38, 5, List.replicate 34 1⟩] = .ok lowBlock ∧
    cliOpen anyElf [] threeSigned = .ok (.module (Module.new threeSigned) threeSigned) ∧
    ∃ out, (SignableFile.module (Module.new threeSigned) threeSigned).writeWithSignature .dev anyElf lowBlock = (out, .ok ()) ∧
      (∃ b, (Module.new out).getSigningBlock .dev out = .ok b ∧ b.content = lowBlock.content) ∧
      detectFileFormat out = .ok .elf ∧ ∃ err, cliOpen anyElf [] out = .err err := by
  refine ⟨by decide +kernel, by decide +kernel, threeArchive.signed lowBlock.toU8, by decide +kernel, ?_, by decide +kernel, ?_⟩
  · have : ((Module.new (threeArchive.signed lowBlock.toU8)).getSigningBlock .dev (threeArchive.signed lowBlock.toU8)) =
      .ok { lowBlock with fileStart := 3, fileEnd := 81 } := by decide +kernel
    exact ⟨_, this, rfl⟩
  · have : (match cliOpen anyElf [] (threeArchive.signed lowBlock.toU8) with | .err _ => true | _ => false) = true := by decide +kernel
    split at this
    · rename_i e h; exact ⟨e, h⟩
    · cases this

set_option maxRecDepth 100000 in
/-- The hypotheses are met by a small archive and by the sample ELF file. -/
example : cliOpen anyElf [] plainArchive.unsigned = .ok (.module (Module.new plainArchive.unsigned) plainArchive.unsigned) ∧
    EndRecord plainArchive.unsigned 34 plainArchive.tail 30 ∧ Located plainArchive.unsigned 30 30 30 ∧ Plain plainArchive.tail ∧
    ((SignableFile.module (Module.new plainArchive.unsigned) plainArchive.unsigned).writeWithSignature .dev anyElf sampleBlock).2 = .ok () ∧
    cliOpen anyElf [] elf64 = .ok (.elf ⟨elf64, defaultSections⟩) ∧
    (SignableFile.elf ⟨elf64, defaultSections⟩).writeWithSignature .dev anyElf tinyBlock = (signTiny elf64, .ok ()) :=
  ⟨by decide +kernel, plainArchive_unsigned_record.1, plainArchive_unsigned_record.2, plain_no_comment rfl, by decide +kernel,
    by decide +kernel, by decide +kernel⟩

/-! ### C31: no digest for unknown algorithms -/

/-- C31: the digest of a file under an unknown algorithm, if it is computed at all, is empty. -/
theorem C31_no_digest {E : Env} {p : Profile} {acc : Bytes → Bool} {sections : List (List Char)} {file d : Bytes} {s : SignableFile}
    {u : UInt32} (hlen : file.length < 2 ^ 64) (ho : cliOpen acc sections file = .ok s) (h : s.digest E p acc (.unknown u) = .ok d) :
    d = [] := by
  rcases cliOpen_cases ho with ⟨rfl, _, _⟩ | ⟨f, rfl, _, rfl, _⟩
  · obtain ⟨pos, t, off, i, j, _, _, _, rfl⟩ := (C89_digest E p file hlen _ d).mp h
    rfl
  · obtain ⟨_, e, l, _, _, rfl⟩ := (C97_digest E acc f _ d).mp h
    rfl

set_option maxRecDepth 100000 in
example : (SignableFile.elf ⟨elf64, defaultSections⟩).digest toyEnv .dev anyElf (.unknown 7) = .ok [] := by decide +kernel

/-! ### C40: the key that is recorded -/

theorem publicKeyDer_iff {E : Env} {k : PrivateKey} {pk : Bytes} : k.publicKeyDer E = .ok pk ↔ PublicOf E k pk := by
  cases k with
  | p256 k =>
    show Res.ofOption _ (E.p256Pub k) = _ ↔ E.p256Pub k = _
    cases E.p256Pub k <;> simp [Res.ofOption]
  | p384 k =>
    show Res.ofOption _ (E.p384Pub k) = _ ↔ E.p384Pub k = _
    cases E.p384Pub k <;> simp [Res.ofOption]

/-- C40: the public key stored by a V2 signer is that of its private key, of the same curve. -/
theorem C40_key_recorded {E : Env} {c : SignerConfig} {ds : Digests} {v : SchemeV2} (h : v2Sign E c ds = .ok v) :
    ∃ g, v.signers.data = [g] ∧ PublicOf E c.key g.pubKey.data := by
  obtain ⟨g, h1, h2, _⟩ := v2Sign_made h
  exact ⟨g, h1, publicKeyDer_iff.mp h2.key⟩

/-- C40: the same for stamps, made by either stamp signer. -/
theorem C40_key_recorded_stamp {E : Env} {clock : Option UInt64} {ds : Digests} {v : SourceStamp} :
    (∀ c timestamp, stampSign E c timestamp clock ds = .ok v → PublicOf E c.key v.block.pubKey.data) ∧
    (∀ c, stampSign' E c clock ds = .ok v → PublicOf E c.key v.block.pubKey.data) := by
  constructor
  · intro c ts h
    exact publicKeyDer_iff.mp (stampSign_made h).1.key
  · intro c h
    have h' := (C39_stamp_signers_agree (E := E) ⟨c.key, c.cert, c.algo, []⟩ c.timestamp clock ds []).1
    rw [show (⟨c.key, c.cert, c.algo, c.timestamp⟩ : StampConfig) = c from rfl, h] at h'
    exact publicKeyDer_iff.mp (stampSign_made h'.symm).1.key

example : ∃ v, v2Sign toyEnv toyConfig ⟨0, []⟩ = .ok v :=
  Res.exists_of_isOk (by decide +kernel)

end Ksusig.Props
