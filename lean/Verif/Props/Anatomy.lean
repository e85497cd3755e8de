import Verif.Proofs.Anatomy
import Verif.Props.Robust
import Verif.Props.Cli
import Verif.Props.SignVerify

/-!
# C89 to C92: which bytes of a file are its end record, its block and its hashed regions, what the verify command accepts, and
what stripping and signing write

The statements mention the bytes of the file only; see `Verif/SpecAnatomy.lean` and `Verif/SpecGrammar.lean`.
-/

namespace Ksusig.Props

open Ksusig Spec

/-! ### C89 -/

/-- C89. The end record is found exactly if there is one in force, and it is that one. -/
theorem C89_end_record (file : Bytes) (e : Eocd) : findEocd file file.length = .ok e ↔
    ∃ pos t off, EndRecord file pos t off ∧
      e = ⟨pos, [0x50, 0x4b, 0x05, 0x06], t.disk, t.diskCd, t.entries, t.total, t.cdSize, UInt32.ofNat off,
        UInt16.ofNat t.comment.length, t.comment⟩ := findEocd_iff

/-- C89. The signing block of a module is returned exactly if there is an end record and a block in force before the offset it
gives (or before the end of the file, if that is earlier); the content returned is what the grammar assigns to its bytes, and the
position returned is the block's. -/
theorem C89_block (p : Profile) (file : Bytes) (b : SigningBlock) :
    (Module.new file).getSigningBlock p file = .ok b ↔
    ∃ pos t off pre pairs, EndRecord file pos t off ∧ BlockBefore file (min file.length off) pre pairs b.content ∧
      b = ⟨pre.length, pre.length + pairs.length + 32, pairs.length + 24, pairs.length, b.content, pairs.length + 24,
        Ksusig.magic⟩ := by
  rw [getSigningBlock_new, Res.bind_eq_ok]
  constructor
  · rintro ⟨e, he, hb⟩
    obtain ⟨pos, t, off, h, rfl⟩ := findEocd_iff.mp he
    simp only [Spec.Tail.eocd, u32_ofNat_toNat h.offset] at hb
    obtain ⟨pre, pairs, h1, h2⟩ := fromReader_before.mp hb
    exact ⟨pos, t, off, pre, pairs, h, h1, h2⟩
  · rintro ⟨pos, t, off, pre, pairs, h, h1, h2⟩
    refine ⟨_, findEocd_iff.mpr ⟨pos, t, off, h, rfl⟩, ?_⟩
    simp only [Spec.Tail.eocd, u32_ofNat_toNat h.offset]
    exact fromReader_before.mpr ⟨pre, pairs, h1, h2⟩

/-- C89. A module is reported as not signed exactly if there is an end record and nothing before its offset looks like a
block. -/
theorem C89_missing (p : Profile) (file : Bytes) :
    (∃ e, (Module.new file).getSigningBlock p file = .err e ∧ e.isMissing = true) ↔
    ∃ pos t off, EndRecord file pos t off ∧ Unsigned file (min file.length off) := by
  rw [getSigningBlock_new]
  constructor
  · rintro ⟨e, h, he⟩
    rcases findEocd_total file file.length with ⟨c, hc⟩ | ⟨c, hc, hk⟩
    · obtain ⟨pos, t, off, hr, rfl⟩ := findEocd_iff.mp hc
      rw [hc] at h
      simp only [Res.ok_bind, Spec.Tail.eocd, u32_ofNat_toNat hr.offset] at h
      exact ⟨pos, t, off, hr, fromReader_missing.mp ⟨e, h, he⟩⟩
    · rw [hc] at h
      cases h
      rcases hk with rfl | rfl | rfl <;> cases he
  · rintro ⟨pos, t, off, hr, hu⟩
    obtain ⟨e, h, he⟩ := (fromReader_missing (p := p)).mpr hu
    refine ⟨e, ?_, he⟩
    rw [findEocd_iff.mpr ⟨pos, t, off, hr, rfl⟩]
    simpa only [Res.ok_bind, Spec.Tail.eocd, u32_ofNat_toNat hr.offset] using h

/-- C89. A file has at most one end record, and at most one place for its block. -/
theorem C89_unique (file : Bytes) :
    (∀ pos pos' t t' off off', EndRecord file pos t off → EndRecord file pos' t' off' → pos = pos' ∧ t = t' ∧ off = off') ∧
    (∀ off s e s' e', Located file off s e → Located file off s' e' → s = s' ∧ e = e') := by
  refine ⟨fun _ _ _ _ _ _ h h' => h.unique h', ?_⟩
  have key : ∀ off pre pairs vs, BlockBefore file (min file.length off) pre pairs vs →
      SigningBlock.fromReader .dev file file.length (file.length - off) = .ok ⟨pre.length, pre.length + pairs.length + 32,
        pairs.length + 24, pairs.length, vs, pairs.length + 24, Ksusig.magic⟩ := fun off pre pairs vs h =>
    fromReader_before.mpr ⟨pre, pairs, h, rfl⟩
  intro off s e s' e' h h'
  cases h with
  | signed pre pairs vs hb =>
    have := key _ _ _ _ hb
    cases h' with
    | signed pre' pairs' vs' hb' =>
      rw [key _ _ _ _ hb'] at this
      simp only [Res.ok.injEq, SigningBlock.mk.injEq] at this
      exact ⟨this.1.symm, this.2.1.symm⟩
    | unsigned hu =>
      obtain ⟨err, he, _⟩ := (fromReader_missing (p := .dev)).mpr hu
      rw [he] at this; cases this
  | unsigned hu =>
    cases h' with
    | signed pre' pairs' vs' hb' =>
      obtain ⟨err, he, _⟩ := (fromReader_missing (p := .dev)).mpr hu
      rw [key _ _ _ _ hb'] at he; cases he
    | unsigned hu' => exact ⟨rfl, rfl⟩

theorem getOffsets_iff (p : Profile) (file : Bytes) (o : FileOffsets) :
    (Module.new file).getOffsets p file = .ok o ↔
    ∃ pos t off s e, EndRecord file pos t off ∧ Located file off s e ∧ o = FileOffsets.new s e pos file.length := by
  have hgo : (Module.new file).getOffsets p file = (findEocd file file.length >>= fun eocd =>
      match (Module.new file).getSigningBlock p file with
      | .ok sig => .ok (FileOffsets.new sig.fileStart sig.fileEnd eocd.fileOffset file.length)
      | .err e => if e.isMissing then .ok (FileOffsets.withoutSignature eocd.cdOffset.toNat eocd.fileOffset file.length)
          else .err .corrupted
      | .panic => .panic) := rfl
  rw [hgo, Res.bind_eq_ok]
  constructor
  · rintro ⟨c, hc, h⟩
    obtain ⟨pos, t, off, hr, rfl⟩ := findEocd_iff.mp hc
    refine ⟨pos, t, off, ?_⟩
    cases hg : (Module.new file).getSigningBlock p file with
    | panic => rw [hg] at h; cases h
    | ok b =>
      rw [hg] at h
      cases h
      obtain ⟨pos', t', off', pre, pairs, hr', hb, he⟩ := (C89_block p file b).mp hg
      obtain ⟨rfl, rfl, rfl⟩ := hr.unique hr'
      exact ⟨pre.length, pre.length + pairs.length + 32, hr, .signed pre pairs _ hb, by rw [he]; rfl⟩
    | err e =>
      rw [hg] at h
      cases hm : e.isMissing with
      | false => simp [hm] at h
      | true =>
        simp only [hm, if_true] at h
        cases h
        obtain ⟨pos', t', off', hr', hu⟩ := (C89_missing p file).mp ⟨e, hg, hm⟩
        obtain ⟨rfl, rfl, rfl⟩ := hr.unique hr'
        refine ⟨off, off, hr, .unsigned hu, ?_⟩
        simp only [FileOffsets.withoutSignature, Spec.Tail.eocd, u32_ofNat_toNat hr.offset]
  · rintro ⟨pos, t, off, s, e, hr, hl, rfl⟩
    refine ⟨_, findEocd_iff.mpr ⟨pos, t, off, hr, rfl⟩, ?_⟩
    cases hl with
    | signed pre pairs vs hb =>
      rw [(C89_block p file (⟨pre.length, pre.length + pairs.length + 32, pairs.length + 24,
        pairs.length, vs, pairs.length + 24, Ksusig.magic⟩ : SigningBlock)).mpr ⟨pos, t, off, pre, pairs, hr, hb, rfl⟩]
      rfl
    | unsigned hu =>
      obtain ⟨err, he, hm⟩ := (C89_missing p file).mpr ⟨pos, t, off, hr, hu⟩
      rw [he]
      simp only [hm, if_true, FileOffsets.withoutSignature, Spec.Tail.eocd, u32_ofNat_toNat hr.offset]

theorem endRecord_room {file : Bytes} {pos : Nat} {t : Tail} {off : Nat} (h : EndRecord file pos t off) :
    pos + 22 ≤ file.length := (endRecord_recordAt h).2.1

/-- C89. A digest of a module is computed exactly if the file has an end record in force, its block is located or absent, and the
directory starts before the end record; a release build does not insist on the latter. It is then the two-level digest of the
three regions. (The bound on the length is that of any file.) -/
theorem C89_digest (E : Env) (p : Profile) (file : Bytes) (hlen : file.length < 2 ^ 64) (algo : Algo) (d : Bytes) :
    (Module.new file).digest E p file algo = .ok d ↔
    ∃ pos t off s e, EndRecord file pos t off ∧ Located file off s e ∧ (e ≤ pos ∨ p = .release) ∧
      d = treeDigest (algo.hash E) (regions file s e pos) := by
  have hd : (Module.new file).digest E p file algo = ((Module.new file).getOffsets p file >>= fun o =>
    digestModule E p fullReads fullReads file o algo) := rfl
  rw [hd, Res.bind_eq_ok]
  constructor
  · rintro ⟨o, ho, h⟩
    obtain ⟨pos, t, off, s, e, hr, hl, rfl⟩ := (getOffsets_iff p file o).mp ho
    have hroom := endRecord_room hr
    have hp : e ≤ pos ∨ p = .release := by
      by_cases hle : e ≤ pos
      · exact .inl hle
      · cases p with
        | release => exact .inr rfl
        | dev =>
          rw [(digestModule_panic (by omega)).mpr ⟨rfl, by omega⟩] at h
          cases h
    rw [digestModule_regions E p file hlen s e pos algo (by omega) hp] at h
    cases h
    exact ⟨pos, t, off, s, e, hr, hl, hp, rfl⟩
  · rintro ⟨pos, t, off, s, e, hr, hl, hp, rfl⟩
    have hroom := endRecord_room hr
    exact ⟨_, (getOffsets_iff p file _).mpr ⟨pos, t, off, s, e, hr, hl, rfl⟩,
      digestModule_regions E p file hlen s e pos algo (by omega) hp⟩

/-- C89. The division of a file used in the statements on digests (`Split`) in terms of the bytes of the file. -/
theorem C89_split (p : Profile) (file body block cd tail : Bytes) : Split p file body block cd tail ↔
    file = body ++ block ++ cd ++ tail ∧ ∃ t off, EndRecord file (body.length + block.length + cd.length) t off ∧
      ((∃ pairs vs, block = wireFrame pairs ∧ BlockBefore file (min file.length off) body pairs vs) ∨
        (block = [] ∧ off = body.length ∧ Unsigned file (min file.length off))) := by
  constructor
  · rintro ⟨hf, c, hc, hfo, h⟩
    refine ⟨hf, ?_⟩
    obtain ⟨pos, t, off, hr, rfl⟩ := findEocd_iff.mp hc
    have hpos : pos = body.length + block.length + cd.length := hfo
    subst hpos
    refine ⟨t, off, hr, ?_⟩
    rcases h with ⟨b, hb, h1, h2⟩ | ⟨err, he, hm, h1, h2⟩
    · obtain ⟨pos', t', off', pre, pairs, hr', hbb, he⟩ := (C89_block p file b).mp hb
      obtain ⟨_, rfl, rfl⟩ := hr.unique hr'
      rw [he] at h1 h2
      simp only at h1 h2
      obtain ⟨post, hp⟩ := hbb.bytes
      have hwl := wireFrame_length' pairs
      have hbl : block.length = (wireFrame pairs).length := by omega
      rw [hf, List.append_assoc, List.append_assoc, List.append_assoc] at hp
      obtain ⟨e1, e2⟩ := List.append_inj hp h1.symm
      obtain ⟨e3, _⟩ := List.append_inj e2 hbl
      exact .inl ⟨pairs, _, e3, e1 ▸ hbb⟩
    · obtain ⟨pos', t', off', hr', hu⟩ := (C89_missing p file).mp ⟨err, he, hm⟩
      obtain ⟨_, rfl, rfl⟩ := hr.unique hr'
      refine .inr ⟨h1, ?_, hu⟩
      simpa only [Spec.Tail.eocd, u32_ofNat_toNat hr.offset] using h2
  · rintro ⟨hf, t, off, hr, h⟩
    refine ⟨hf, _, findEocd_iff.mpr ⟨_, t, off, hr, rfl⟩, rfl, ?_⟩
    rcases h with ⟨pairs, vs, hb, hbb⟩ | ⟨hb, ho, hu⟩
    · have hwl := wireFrame_length' pairs
      refine .inl ⟨_, (C89_block p file (⟨body.length, body.length + pairs.length + 32, pairs.length + 24,
        pairs.length, vs, pairs.length + 24, Ksusig.magic⟩ : SigningBlock)).mpr ⟨_, t, off, body, pairs, hr, hbb, rfl⟩, rfl, ?_⟩
      rw [hb]
      simp only
      omega
    · obtain ⟨err, he, hm⟩ := (C89_missing p file).mpr ⟨_, t, off, hr, hu⟩
      refine .inr ⟨err, he, hm, hb, ?_⟩
      simp only [Spec.Tail.eocd, u32_ofNat_toNat hr.offset]
      exact ho

/-- A signed archive and an unsigned one have these parts. -/
example : (∃ pos t off pre pairs vs, EndRecord (sampleArchive.signed sampleBlock.toU8) pos t off ∧
      BlockBefore (sampleArchive.signed sampleBlock.toU8) (min (sampleArchive.signed sampleBlock.toU8).length off) pre pairs vs ∧
      vs ≠ []) ∧
    (∃ pos t off, EndRecord sampleArchive.unsigned pos t off ∧ Unsigned sampleArchive.unsigned
      (min sampleArchive.unsigned.length off)) := by
  constructor
  · have h : ((Module.new (sampleArchive.signed sampleBlock.toU8)).getSigningBlock .dev
        (sampleArchive.signed sampleBlock.toU8) >>= fun b => Res.ok (decide (b.content ≠ []))) = .ok true := by decide +kernel
    obtain ⟨b, hb, h⟩ := Res.bind_eq_ok.mp h
    obtain ⟨pos, t, off, pre, pairs, h1, h2, _⟩ := (C89_block ..).mp hb
    exact ⟨pos, t, off, pre, pairs, b.content, h1, h2, by simpa using h⟩
  · refine (C89_missing .dev _).mp ⟨.magicNotFound, ?_, rfl⟩
    decide +kernel

/-! ### C90 -/

/-- C90. The verify command succeeds exactly if: the file has an end record and, before the offset it gives, a block in force; that
block ends before the end record (a release build does not insist on this); the root certificate loads; the block holds a V2
signer; every V2 signer is good for the digests of the three regions of the file under that root; and so is the first source
stamp, if there is one. -/
theorem C90_verify_command (E : Env) (p : Profile) (builtinPem : Bytes) (root : Option Bytes) (now : Nat) (file : Bytes)
    (hlen : file.length < 2 ^ 64) :
    cliVerify E p builtinPem root now file = .ok () ↔
    ∃ pos t off pre pairs vs cert, EndRecord file pos t off ∧ BlockBefore file (min file.length off) pre pairs vs ∧
      (pre.length + pairs.length + 32 ≤ pos ∨ p = .release) ∧
      E.pemParse (root.getD builtinPem) = some ("CERTIFICATE", cert) ∧
      signersIn vs ≠ [] ∧
      (∀ s ∈ signersIn vs, GoodV2 E [cert] now
        (table (treeDigest E.sha256 (regions file pre.length (pre.length + pairs.length + 32) pos))
          (treeDigest E.sha512 (regions file pre.length (pre.length + pairs.length + 32) pos))) s) ∧
      ∀ s rest, stampsIn vs = s :: rest → GoodStamp E [cert] now
        (table (treeDigest E.sha256 (regions file pre.length (pre.length + pairs.length + 32) pos))
          (treeDigest E.sha512 (regions file pre.length (pre.length + pairs.length + 32) pos))) s := by
  rw [C35_verify_command]
  constructor
  · rintro ⟨b, cert, d256, d384, hb, hp, h1, h2, hne, hv, hs⟩
    obtain ⟨pos, t, off, pre, pairs, hr, hbb, _⟩ := (C89_block p file b).mp hb
    have hloc := Located.signed pre pairs _ hbb
    obtain ⟨pos1, t1, off1, s1, e1, hr1, hl1, hp1, rfl⟩ := (C89_digest E p file hlen _ _).mp h1
    obtain ⟨pos2, t2, off2, s2, e2, hr2, hl2, _, rfl⟩ := (C89_digest E p file hlen _ _).mp h2
    obtain ⟨rfl, rfl, rfl⟩ := hr.unique hr1
    obtain ⟨rfl, rfl, rfl⟩ := hr.unique hr2
    obtain ⟨rfl, rfl⟩ := (C89_unique file).2 _ _ _ _ _ hloc hl1
    obtain ⟨rfl, rfl⟩ := (C89_unique file).2 _ _ _ _ _ hloc hl2
    exact ⟨pos, t, off, pre, pairs, b.content, cert, hr, hbb, hp1, hp, hne, hv, hs⟩
  · rintro ⟨pos, t, off, pre, pairs, vs, cert, hr, hbb, hp1, hp, hne, hv, hs⟩
    have hloc := Located.signed pre pairs _ hbb
    exact ⟨_, cert, _, _, (C89_block p file (⟨pre.length, pre.length + pairs.length + 32, pairs.length + 24,
        pairs.length, vs, pairs.length + 24, Ksusig.magic⟩ : SigningBlock)).mpr ⟨pos, t, off, pre, pairs, hr, hbb, rfl⟩, hp,
      (C89_digest E p file hlen .p256 _).mpr ⟨pos, t, off, _, _, hr, hloc, hp1, rfl⟩,
      (C89_digest E p file hlen .p384 _).mpr ⟨pos, t, off, _, _, hr, hloc, hp1, rfl⟩, hne, hv, hs⟩

set_option maxRecDepth 100000 in
/-- The output of signing a small archive is accepted, so all these conditions are met at once. -/
example : ∃ file pos t off pre pairs vs, file.length < 2 ^ 64 ∧ cliVerify toyEnv .dev [7] none 0 file = .ok () ∧
    EndRecord file pos t off ∧ BlockBefore file (min file.length off) pre pairs vs ∧ pre.length + pairs.length + 32 ≤ pos ∧
    signersIn vs ≠ [] := by
  have h : ((ModuleSigner.v2Only toyConfig).sign toyEnv .dev (some 1700000000)
    (Digests.new ((ModuleSigner.v2Only toyConfig).requiredAlgorithms.map fun al =>
      Digest.new al (contentDigest toyEnv plainArchive al))) >>= fun b =>
        Res.ok (decide ((plainArchive.signed b.toU8).length < 2 ^ 64) &&
          (cliVerify toyEnv .dev [7] none 0 (plainArchive.signed b.toU8)).isOk)) = .ok true := by decide +kernel
  obtain ⟨b, _, h⟩ := Res.bind_eq_ok.mp h
  simp only [Res.ok.injEq, Bool.and_eq_true, decide_eq_true_eq] at h
  obtain ⟨hl, hv⟩ := h
  obtain ⟨⟨⟩, hv⟩ := Res.exists_of_isOk hv
  obtain ⟨pos, t, off, pre, pairs, vs, cert, hr, hbb, hp1, _, hne, _⟩ := (C90_verify_command _ _ _ _ _ _ hl).mp hv
  refine ⟨_, pos, t, off, pre, pairs, vs, hl, hv, hr, hbb, ?_, hne⟩
  rcases hp1 with h | h
  · exact h
  · cases h

/-- C90. The same for the library call with a trust store: verification reports a valid V2 signature, without an invalid stamp,
under exactly these conditions. -/
theorem C90_verify_with_roots (E : Env) (p : Profile) (added : List Bytes) (now : Nat) (file : Bytes)
    (hlen : file.length < 2 ^ 64) :
    (∃ v, (Module.new file).verifyWithRoots E p file (storeOf E added) now = .ok v ∧ v.isValid = true ∧ ∃ r, v.v2 = .ok r) ↔
    ∃ pos t off pre pairs vs, EndRecord file pos t off ∧ BlockBefore file (min file.length off) pre pairs vs ∧
      (pre.length + pairs.length + 32 ≤ pos ∨ p = .release) ∧
      signersIn vs ≠ [] ∧
      (∀ s ∈ signersIn vs, GoodV2 E added now
        (table (treeDigest E.sha256 (regions file pre.length (pre.length + pairs.length + 32) pos))
          (treeDigest E.sha512 (regions file pre.length (pre.length + pairs.length + 32) pos))) s) ∧
      ∀ s rest, stampsIn vs = s :: rest → GoodStamp E added now
        (table (treeDigest E.sha256 (regions file pre.length (pre.length + pairs.length + 32) pos))
          (treeDigest E.sha512 (regions file pre.length (pre.length + pairs.length + 32) pos))) s := by
  rw [verifyWithRoots_valid]
  constructor
  · rintro ⟨b, ps, hb, hd, hne, hv, hs⟩
    obtain ⟨pos, t, off, pre, pairs, hr, hbb, _⟩ := (C89_block p file b).mp hb
    have hloc := Located.signed pre pairs _ hbb
    obtain ⟨pos1, t1, off1, s1, e1, hr1, hl1, hp1, h1⟩ := (C89_digest E p file hlen _ _).mp (hd E .p256)
    obtain ⟨pos2, t2, off2, s2, e2, hr2, hl2, _, h2⟩ := (C89_digest E p file hlen _ _).mp (hd E .p384)
    obtain ⟨rfl, rfl, rfl⟩ := hr.unique hr1
    obtain ⟨rfl, rfl, rfl⟩ := hr.unique hr2
    obtain ⟨rfl, rfl⟩ := (C89_unique file).2 _ _ _ _ _ hloc hl1
    obtain ⟨rfl, rfl⟩ := (C89_unique file).2 _ _ _ _ _ hloc hl2
    rw [h1, h2] at hv hs
    exact ⟨pos, t, off, pre, pairs, b.content, hr, hbb, hp1, hne, hv, hs⟩
  · rintro ⟨pos, t, off, pre, pairs, vs, hr, hbb, hp1, hne, hv, hs⟩
    have hloc := Located.signed pre pairs _ hbb
    exact ⟨(⟨pre.length, pre.length + pairs.length + 32, pairs.length + 24,
        pairs.length, vs, pairs.length + 24, Ksusig.magic⟩ : SigningBlock), _,
      (C89_block p file _).mpr ⟨pos, t, off, pre, pairs, hr, hbb, rfl⟩,
      fun E a => (C89_digest E p file hlen a _).mpr ⟨pos, t, off, _, _, hr, hloc, hp1, rfl⟩, hne, hv, hs⟩

/-- C90. A file accepted by a development build is accepted by a release build, and conversely when its block ends before its end
record. -/
theorem C90_profiles (E : Env) (builtinPem : Bytes) (root : Option Bytes) (now : Nat) (file : Bytes)
    (hlen : file.length < 2 ^ 64) :
    cliVerify E .dev builtinPem root now file = .ok () ↔ cliVerify E .release builtinPem root now file = .ok () ∧
      ∃ pos t off s e, EndRecord file pos t off ∧ Located file off s e ∧ e ≤ pos := by
  rw [C90_verify_command E .dev _ _ _ _ hlen, C90_verify_command E .release _ _ _ _ hlen]
  constructor
  · rintro ⟨pos, t, off, pre, pairs, vs, cert, hr, hbb, hp1, rest⟩
    refine ⟨⟨pos, t, off, pre, pairs, vs, cert, hr, hbb, .inr rfl, rest⟩, pos, t, off, _, _, hr, .signed pre pairs vs hbb, ?_⟩
    rcases hp1 with h | h
    · exact h
    · cases h
  · rintro ⟨⟨pos, t, off, pre, pairs, vs, cert, hr, hbb, _, rest⟩, pos', t', off', s, e, hr', hl, hle⟩
    obtain ⟨rfl, rfl, rfl⟩ := hr.unique hr'
    obtain ⟨rfl, rfl⟩ := (C89_unique file).2 _ _ _ _ _ (.signed pre pairs vs hbb) hl
    exact ⟨pos, t, off, pre, pairs, vs, cert, hr, hbb, .inl hle, rest⟩

/-! ### C91 -/

theorem endRecord_slice {file : Bytes} {pos : Nat} {t : Tail} {off : Nat} (h : EndRecord file pos t off) :
    pos + 22 + t.comment.length ≤ file.length := by
  obtain ⟨⟨before, after, hf, hl⟩, _⟩ := h
  have := wireEocd_length t off
  rw [hf]
  simp only [List.length_append]
  omega

/-- C91. Stripping a module opened from a file succeeds exactly if the file has an end record and a block in force that do not
overlap, counted from the end of the file; the result is the file without the block, with the directory offset reduced by its
size. -/
theorem C91_strip (p : Profile) (file raw : Bytes) :
    (Module.new file).getRawModule p file = .ok raw ↔ Strips file raw := by
  have hraw : (Module.new file).getRawModule p file = ((Module.new file).getSigningBlock p file >>= fun sig =>
      usub p sig.fileEnd sig.fileStart >>= fun sizeSig =>
      Res.ofOption .invalidData (slice? file 0 sig.fileStart) >>= fun start =>
      findEocd file file.length >>= fun eocd =>
      Res.ofOption .invalidData (checkedSub32 eocd.cdOffset sizeSig) >>= fun cd =>
      usub p file.length { eocd with cdOffset := cd }.toU8.length >>= fun stop =>
      Res.ofOption .invalidData (slice? file sig.fileEnd stop) >>= fun rest =>
      .ok (start ++ rest ++ { eocd with cdOffset := cd }.toU8)) := rfl
  have key : ∀ pos t off pre pairs vs, EndRecord file pos t off → BlockBefore file (min file.length off) pre pairs vs →
      (Module.new file).getRawModule p file =
        if pre.length + pairs.length + 32 + (22 + t.comment.length) ≤ file.length then .ok (stripped file pre pairs t off)
        else .err .invalidData := by
    intro pos t off pre pairs vs hr hb
    have hfit := endRecord_slice hr
    have hin := hb.inside
    have hsm := hb.small
    obtain ⟨post, hpost⟩ := hb.bytes
    have hoff := hr.offset
    rw [hraw, (C89_block p file ⟨pre.length, pre.length + pairs.length + 32, pairs.length + 24, pairs.length, vs,
      pairs.length + 24, Ksusig.magic⟩).mpr ⟨pos, t, off, pre, pairs, hr, hb, rfl⟩]
    simp only [Res.ok_bind]
    rw [usub_of_le (by omega), slice?_of_le (by omega) (by omega), findEocd_iff.mpr ⟨pos, t, off, hr, rfl⟩]
    simp only [Res.ok_bind, Res.ofOption_some, Spec.Tail.eocd]
    have hn : pre.length + pairs.length + 32 - pre.length = pairs.length + 32 := by omega
    have hcs : checkedSub32 (UInt32.ofNat off) (pairs.length + 32) = some (UInt32.ofNat (off - (pairs.length + 32))) := by
      unfold checkedSub32
      rw [u32_ofNat_toNat hoff, Nat.mod_eq_of_lt (by omega), if_pos (by omega)]
    rw [hn, hcs]
    simp only [Res.ok_bind, Res.ofOption_some]
    have hser : (⟨pos, eocdSig, t.disk, t.diskCd, t.entries, t.total, t.cdSize, UInt32.ofNat (off - (pairs.length + 32)),
        UInt16.ofNat t.comment.length, t.comment⟩ : Eocd).toU8 = wireEocd t (off - (pairs.length + 32)) :=
      t.eocd_toU8' (fo := pos) hr.comment
    rw [hser, wireEocd_length, usub_of_le (by omega)]
    simp only [Res.ok_bind]
    by_cases hc : pre.length + pairs.length + 32 + (22 + t.comment.length) ≤ file.length
    · rw [if_pos hc, slice?_of_le (by omega) (by omega)]
      simp only [Res.ofOption_some, Res.ok_bind, stripped, List.drop_zero, Nat.sub_zero]
      have : file.take pre.length = pre := by rw [hpost, List.append_assoc]; exact List.take_left
      rw [this]
    · rw [if_neg hc]
      have : slice? file (pre.length + pairs.length + 32) (file.length - (22 + t.comment.length)) = none := by
        unfold slice?; rw [if_neg (by omega)]
      rw [this]
      rfl
  constructor
  · intro h
    rw [hraw] at h
    obtain ⟨b, hb, _⟩ := Res.bind_eq_ok.mp h
    obtain ⟨pos, t, off, pre, pairs, hr, hbb, _⟩ := (C89_block p file b).mp hb
    rw [← hraw, key _ _ _ _ _ _ hr hbb] at h
    split at h
    · cases h
      exact .intro pos t off pre pairs _ hr hbb (by assumption)
    · cases h
  · rintro ⟨pos, t, off, pre, pairs, vs, hr, hb, hc⟩
    rw [key _ _ _ _ _ _ hr hb, if_pos hc]

/-- Stripping the signed sample archive gives the unsigned one. -/
example : Strips (sampleArchive.signed sampleBlock.toU8) sampleArchive.unsigned := by
  have h : ((Module.new (sampleArchive.signed sampleBlock.toU8)).getRawModule .dev (sampleArchive.signed sampleBlock.toU8) >>=
      fun raw => Res.ok (decide (raw = sampleArchive.unsigned))) = .ok true := by decide +kernel
  obtain ⟨raw, hraw, h⟩ := Res.bind_eq_ok.mp h
  simp only [Res.ok.injEq, decide_eq_true_eq] at h
  rw [← h]
  exact (C91_strip .dev _ _).mp hraw

/-! ### C92 -/

theorem signSource_iff (p : Profile) (file : Bytes) (r : Bytes × Eocd) :
    (Module.new file).signSource p file = .ok r ↔ Source file r.1 ∧ findEocd r.1 r.1.length = .ok r.2 := by
  obtain ⟨raw, c⟩ := r
  have hss : (Module.new file).signSource p file = (match (Module.new file).getSigningBlock p file with
    | .ok _ => (Module.new file).getRawModule p file >>= fun bytes => findEocd bytes bytes.length >>= fun eocd => .ok (bytes, eocd)
    | .err e => if e.isMissing then findEocd file file.length >>= fun eocd => .ok (file, eocd) else .err .refuseCorrupted
    | .panic => .panic) := rfl
  rw [hss]
  constructor
  · intro h
    cases hg : (Module.new file).getSigningBlock p file with
    | panic => rw [hg] at h; cases h
    | ok b =>
      rw [hg] at h
      obtain ⟨bytes, h1, h2⟩ := Res.bind_eq_ok.mp h
      obtain ⟨e, h3, h4⟩ := Res.bind_eq_ok.mp h2
      cases h4
      exact ⟨.signed _ ((C91_strip p file _).mp h1), h3⟩
    | err e =>
      rw [hg] at h
      cases hm : e.isMissing with
      | false => simp [hm] at h
      | true =>
        simp only [hm, if_true] at h
        obtain ⟨e', h3, h4⟩ := Res.bind_eq_ok.mp h
        cases h4
        obtain ⟨pos, t, off, hr, hu⟩ := (C89_missing p file).mp ⟨e, hg, hm⟩
        exact ⟨.unsigned pos t off hr hu, h3⟩
  · rintro ⟨hsrc, hf⟩
    cases hsrc with
    | unsigned pos t off hr hu =>
      obtain ⟨e, he, hm⟩ := (C89_missing p _).mpr ⟨pos, t, off, hr, hu⟩
      rw [he]
      simp only [hm, if_true]
      exact Res.bind_eq_ok.mpr ⟨c, hf, rfl⟩
    | signed _ hs =>
      have h1 := (C91_strip p file _).mpr hs
      obtain ⟨pos, t, off, pre, pairs, vs, hr, hb, hc⟩ := hs
      rw [(C89_block p file ⟨pre.length, pre.length + pairs.length + 32, pairs.length + 24, pairs.length, vs,
        pairs.length + 24, Ksusig.magic⟩).mpr ⟨pos, t, off, pre, pairs, hr, hb, rfl⟩]
      exact Res.bind_eq_ok.mpr ⟨_, h1, Res.bind_eq_ok.mpr ⟨c, hf, rfl⟩⟩

/-- C92. Writing a module with a block succeeds exactly if the file is unsigned or can be stripped, what is left has an end record
behind its directory offset, and it writes these bytes with the block inserted at that offset. This holds for every block and in
both build profiles. (The bound on the length is that of any file.) -/
theorem C92_sign (p : Profile) (file : Bytes) (b : SigningBlock) (out : Bytes) (hlen : b.toU8.length < 2 ^ 63) :
    (Module.new file).signableWrite p file b = (out, .ok ()) ↔ ∃ raw, Source file raw ∧ Inserted raw b.toU8 out := by
  have key : ∀ raw pos t off, (Module.new file).signSource p file = .ok (raw, t.eocd off pos) → EndRecord raw pos t off →
      (Module.new file).signableWrite p file b = if off ≤ pos then
        (raw.take off ++ b.toU8 ++ (raw.drop off).take (pos - off) ++ wireEocd t (off + b.toU8.length), .ok ())
        else ([], .err .invalidData) := by
    intro raw pos t off hs hr
    have hfit := endRecord_slice hr
    have hoff := hr.offset
    unfold Module.signableWrite
    simp only [hs, Spec.Tail.eocd, u32_ofNat_toNat hoff]
    by_cases hc : off ≤ pos
    · have hda : debugAssert p (pos - off + (raw.length - pos) + off == raw.length) = .ok () := by
        have : (pos - off + (raw.length - pos) + off == raw.length) = true := by simp; omega
        rw [this]
        cases p <;> rfl
      rw [if_neg (by omega), if_pos hc, usub_of_le (by omega)]
      simp only
      rw [slice?_of_le (by omega) (by omega), slice?_of_le (by omega) (by omega)]
      simp only
      rw [if_neg (by omega), hda]
      simp only [List.drop_zero, Nat.sub_zero]
      have hser : (⟨pos + b.toU8.length, eocdSig, t.disk, t.diskCd, t.entries, t.total, t.cdSize,
          UInt32.ofNat (off + b.toU8.length), UInt16.ofNat t.comment.length, t.comment⟩ : Eocd).toU8 =
          wireEocd t (off + b.toU8.length) := t.eocd_toU8' (fo := pos + b.toU8.length) hr.comment
      rw [hser]
    · rw [if_neg hc, if_pos (by omega)]
  constructor
  · intro h
    cases hs : (Module.new file).signSource p file with
    | err e => unfold Module.signableWrite at h; simp only [hs] at h; cases h
    | panic => unfold Module.signableWrite at h; simp only [hs] at h; cases h
    | ok r =>
      obtain ⟨raw, c⟩ := r
      obtain ⟨hsrc, hf⟩ := (signSource_iff p file _).mp hs
      obtain ⟨pos, t, off, hr, rfl⟩ := findEocd_iff.mp hf
      rw [key _ _ _ _ hs hr] at h
      split at h
      · cases h
        exact ⟨raw, hsrc, .intro pos t off hr (by assumption)⟩
      · cases h
  · rintro ⟨raw, hsrc, pos, t, off, hr, hc⟩
    have hs := (signSource_iff p file (raw, t.eocd off pos)).mpr ⟨hsrc, findEocd_iff.mpr ⟨pos, t, off, hr, rfl⟩⟩
    rw [key _ _ _ _ hs hr, if_pos hc]

theorem sign_built_required {E : Env} {p : Profile} {clock : Option UInt64} {m : ModuleSigner} {D : Algo → Bytes}
    {b : SigningBlock} (hk : ∀ c, m.v2 = some c ∨ m.stamp = some c → Known c.algo)
    (h : m.sign E p clock (Digests.new (m.requiredAlgorithms.map fun al => Digest.new al (D al))) = .ok b) : Built p b := by
  have hmap : ((m.requiredAlgorithms.map fun al => (al, D al)).map fun x => Digest.new x.1 x.2) =
      m.requiredAlgorithms.map fun al => Digest.new al (D al) := by
    rw [List.map_map]; rfl
  refine sign_built (E := E) (clock := clock) (m := m) (pairs := m.requiredAlgorithms.map fun al => (al, D al)) ?_ ?_
  · intro x hx
    obtain ⟨al, hal, rfl⟩ := List.mem_map.mp hx
    rcases ((C37_required_algorithms m).2 al).mp hal with ⟨c, hc, rfl⟩ | ⟨c, hc, rfl⟩
    · rcases hk c (.inl hc) with h | h <;> simp [AlgoOk, h]
    · rcases hk c (.inr hc) with h | h <;> simp [AlgoOk, h]
  · unfold pairDigests; rw [hmap]; exact h

/-- C92. The sign command on a module succeeds exactly if the file has an end record and its regions (so also its digests) are
determined, the signer signs these digests, and the file can be written with the resulting block; the output then is the file with
that block inserted. -/
theorem C92_sign_command (E : Env) (p : Profile) (clock : Option UInt64) (m : ModuleSigner) (file out : Bytes)
    (hlen : file.length < 2 ^ 64) (hk : ∀ c, m.v2 = some c ∨ m.stamp = some c → Known c.algo) :
    cliSignModule E p clock m false file = (some out, .ok ()) ↔
    ∃ pos t off s e b raw, EndRecord file pos t off ∧ Located file off s e ∧ (e ≤ pos ∨ p = .release) ∧
      m.sign E p clock (Digests.new (m.requiredAlgorithms.map fun al =>
        Digest.new al (treeDigest (al.hash E) (regions file s e pos)))) = .ok b ∧
      Source file raw ∧ Inserted raw b.toU8 out := by
  have hb : ∀ (D : Algo → Bytes) b, m.sign E p clock (Digests.new (m.requiredAlgorithms.map fun al => Digest.new al (D al))) =
      .ok b → b.toU8.length < 2 ^ 63 := fun D b h => by
    have := built_length (sign_built_required hk h)
    omega
  have hdig : ∀ pos t off s e, EndRecord file pos t off → Located file off s e → (e ≤ pos ∨ p = .release) → ∀ as : List Algo,
      cliDigests E p (Module.new file) file as =
        .ok (as.map fun al => (al, treeDigest (al.hash E) (regions file s e pos))) := by
    intro pos t off s e hr hl hp as
    induction as with
    | nil => rfl
    | cons al as ih =>
      unfold cliDigests
      rw [(C89_digest E p file hlen al _).mpr ⟨pos, t, off, s, e, hr, hl, hp, rfl⟩, ih]
      rfl
  have hreg : ∀ rs, (Module.new file).digestRegions p file = .ok rs →
      ∃ pos t off s e, EndRecord file pos t off ∧ Located file off s e ∧ (e ≤ pos ∨ p = .release) := by
    intro rs h
    obtain ⟨o, ho, h⟩ := Res.bind_eq_ok.mp h
    obtain ⟨pos, t, off, s, e, hr, hl, rfl⟩ := (getOffsets_iff p file o).mp ho
    refine ⟨pos, t, off, s, e, hr, hl, ?_⟩
    obtain ⟨n1, _, h⟩ := Res.bind_eq_ok.mp h
    obtain ⟨n2, h2, _⟩ := Res.bind_eq_ok.mp h
    by_cases hle : e ≤ pos
    · exact .inl hle
    · cases p with
      | release => exact .inr rfl
      | dev =>
        have h2 : usub .dev pos e = .ok n2 := h2
        unfold usub at h2
        rw [if_neg hle] at h2
        cases h2
  have hreg' : ∀ pos t off s e, EndRecord file pos t off → Located file off s e → (e ≤ pos ∨ p = .release) →
      ∃ rs, (Module.new file).digestRegions p file = .ok rs := by
    intro pos t off s e hr hl hp
    have hroom := endRecord_room hr
    have h2 : ∃ n, usub p pos e = .ok n := by
      rcases hp with h | rfl
      · exact ⟨_, usub_of_le h⟩
      · exact usub_release _ _
    obtain ⟨n2, h2⟩ := h2
    have ho := (getOffsets_iff p file _).mpr ⟨pos, t, off, s, e, hr, hl, rfl⟩
    unfold Module.digestRegions
    rw [ho]
    simp only [FileOffsets.new, Res.ok_bind]
    rw [usub_of_le (Nat.zero_le _), h2, usub_of_le (by omega)]
    exact ⟨_, rfl⟩
  unfold cliSignModule
  dsimp only
  constructor
  · intro h
    split at h
    · cases h
    · cases h
    · rename_i b hsb
      obtain ⟨rs, h1, hsb⟩ := Res.bind_eq_ok.mp hsb
      obtain ⟨ps, h2, hsb⟩ := Res.bind_eq_ok.mp hsb
      obtain ⟨pos, t, off, s, e, hr, hl, hp⟩ := hreg rs h1
      rw [hdig _ _ _ _ _ hr hl hp] at h2
      cases h2
      rw [List.map_map] at hsb
      have hw : (Module.new file).signableWrite p file b = (out, .ok ()) := by
        have h := Prod.mk.inj h
        exact Prod.ext (Option.some.inj h.1) h.2
      obtain ⟨raw, h3, h4⟩ := (C92_sign p file b out (hb (fun al => treeDigest (al.hash E) (regions file s e pos)) _ hsb)).mp hw
      exact ⟨pos, t, off, s, e, b, raw, hr, hl, hp, hsb, h3, h4⟩
  · rintro ⟨pos, t, off, s, e, b, raw, hr, hl, hp, hsb, h3, h4⟩
    obtain ⟨rs, h1⟩ := hreg' _ _ _ _ _ hr hl hp
    rw [h1, hdig _ _ _ _ _ hr hl hp]
    simp only [Res.ok_bind, List.map_map]
    have hsb' : m.sign E p clock (Digests.new (m.requiredAlgorithms.map ((fun x : Algo × Bytes => Digest.new x.1 x.2) ∘ fun al =>
        (al, treeDigest (al.hash E) (regions file s e pos))))) = .ok b := hsb
    rw [hsb']
    have hw := (C92_sign p file b out (hb (fun al => treeDigest (al.hash E) (regions file s e pos)) _ hsb)).mpr ⟨raw, h3, h4⟩
    simp only [Bool.false_eq_true, if_false]
    rw [hw]

/-- The command succeeds on a small unsigned archive: an end record, a source and an insertion as in the statement exist. -/
example : ∃ out pos t off s e b, EndRecord plainArchive.unsigned pos t off ∧ Located plainArchive.unsigned off s e ∧ e ≤ pos ∧
    Source plainArchive.unsigned plainArchive.unsigned ∧ Inserted plainArchive.unsigned (SigningBlock.toU8 b) out := by
  have h : (match cliSignModule toyEnv .dev (some 1700000000) (.v2Only toyConfig) false plainArchive.unsigned with
    | (some _, .ok ()) => true | _ => false) = true := by decide +kernel
  split at h
  · rename_i out heq
    obtain ⟨pos, t, off, s, e, b, raw, hr, hl, hp, _, hsrc, hins⟩ := (C92_sign_command toyEnv .dev (some 1700000000)
      (.v2Only toyConfig) _ out (by decide +kernel) (by rintro c (h | h) <;> cases h; exact .inl rfl)).mp heq
    have hraw : raw = plainArchive.unsigned := by
      cases hsrc with
      | unsigned _ _ _ _ _ => rfl
      | signed _ hs =>
        have := (C91_strip .dev _ _).mpr hs
        have hx : ((Module.new plainArchive.unsigned).getRawModule .dev plainArchive.unsigned).isOk = false := by decide +kernel
        rw [this] at hx
        cases hx
    subst hraw
    exact ⟨out, pos, t, off, s, e, b, hr, hl, hp.resolve_right (by decide), hsrc, hins⟩
  · cases h

end Ksusig.Props
