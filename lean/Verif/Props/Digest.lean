import Verif.Proofs.Digest
import Verif.Props.Sign

/-! Property theorems C16–C20 and C26: the content digest of modules. -/

namespace Ksusig.Props

open Ksusig Ksusig.Spec

/-- A toy checksum of fixed length, used only in examples and counterexamples. -/
def toyHash (n : Nat) (x : Bytes) : Bytes :=
  (List.range n).map fun i => UInt8.ofNat (x.foldl (fun a b => (a * 31 + b.toNat + i) % 65521) 7)

theorem toyHash_fixed {n : Nat} (h : 0 < n) : FixedLength (toyHash n) :=
  ⟨n, h, fun x => by simp [toyHash]⟩

/-- A toy environment, used only in examples and counterexamples. The public key equals the private key, a signature
is the key followed by the message, a certificate is a public key. -/
def toyEnv : Env where
  sha256 := toyHash 4
  sha512 := toyHash 8
  p256Verify k m s := s == k ++ m
  p384Verify k m s := s == k ++ m
  p256Sign k m := k ++ m
  p384Sign k m := k ++ m
  p256Pub k := some k
  p384Pub k := some k
  certSpki c := if c = [] then none else some c
  certNames c := if c = [] then none else some (c, c)
  anchorOk _ := true
  eeOk c := c != []
  pemParse c := if c = [] then none else some ("CERTIFICATE", c)
  pki roots leaf _ _ := if leaf ∈ roots then .ok else .unknownIssuer

/-! ### C16 -/

/-- C16, development builds: if the digests of two files under a known algorithm are equal, the files divide into
entries, signing block, directory and end record such that everything but the signing block agrees (the end record
with its directory offset replaced by the start of the signing block), or two different hashed inputs with equal
hash values can be read off from the two files. -/
theorem C16_tamper_evident_dev {E : Env} {algo : Algo} (_ : Known algo) (hE : FixedLength (algo.hash E))
    {file file' d : Bytes} (h : (Module.new file).digest E .dev file algo = .ok d)
    (h' : (Module.new file').digest E .dev file' algo = .ok d) :
    ∃ body block cd tail body' block' cd' tail',
      Split .dev file body block cd tail ∧ Split .dev file' body' block' cd' tail' ∧
      ((body = body' ∧ cd = cd' ∧ patchOffset tail body.length = patchOffset tail' body'.length) ∨
        ∃ x ∈ hashInputs (algo.hash E) [body, cd, patchOffset tail body.length],
          ∃ y ∈ hashInputs (algo.hash E) [body', cd', patchOffset tail' body'.length],
          x ≠ y ∧ algo.hash E x = algo.hash E y) := by
  obtain ⟨body, block, cd, tail, hs⟩ := split_of_digest_dev h
  obtain ⟨body', block', cd', tail', hs'⟩ := split_of_digest_dev h'
  exact ⟨body, block, cd, tail, body', block', cd', tail', hs, hs', tamper_evident hE hs hs' h h'⟩

/-- C16 in any build, for files whose directory does not start beyond the end record (missing: release builds
digest such files too, see `C16_release_collision`). -/
theorem C16_tamper_evident_partial {E : Env} {p p' : Profile} {algo : Algo} (_ : Known algo)
    (hE : FixedLength (algo.hash E)) {file body block cd tail file' body' block' cd' tail' d : Bytes}
    (hs : Split p file body block cd tail) (hs' : Split p' file' body' block' cd' tail')
    (h : (Module.new file).digest E p file algo = .ok d)
    (h' : (Module.new file').digest E p' file' algo = .ok d) :
    (body = body' ∧ cd = cd' ∧ patchOffset tail body.length = patchOffset tail' body'.length) ∨
      ∃ x ∈ hashInputs (algo.hash E) [body, cd, patchOffset tail body.length],
        ∃ y ∈ hashInputs (algo.hash E) [body', cd', patchOffset tail' body'.length],
        x ≠ y ∧ algo.hash E x = algo.hash E y :=
  tamper_evident hE hs hs' h h'

example : ∃ d, (Module.new sampleArchive.unsigned).digest toyEnv .dev sampleArchive.unsigned .p256 = .ok d ∧
    (Module.new (sampleArchive.signed sampleBlock.toU8)).digest toyEnv .dev (sampleArchive.signed sampleBlock.toU8) .p256 =
      .ok d :=
  ⟨_, (split_unsigned .dev sampleArchive_signable.comment sampleArchive_signable.cleanOld
      sampleArchive_signable.sizeOld sampleArchive_noMagic).digest toyEnv .p256, by
    rw [(split_signed .dev (sampleBlock_built .dev).wf sampleArchive_signable.comment
      sampleArchive_signable.cleanNew sampleArchive_signable.size).digest toyEnv .p256, patchOffset_wireEocd,
      patchOffset_wireEocd]⟩

/-- 30 entry bytes and an end record whose directory offset points into the end record. -/
def badOffsetFile : Bytes := (List.range 30).map UInt8.ofNat ++ wireEocd ⟨0, 0, 1, 1, 4, []⟩ 35

/-- The same with the end record repeated. -/
def doubledRecordFile : Bytes := badOffsetFile ++ wireEocd ⟨0, 0, 1, 1, 4, []⟩ 35

/-- C16 fails in release builds: for every hash function, two files of different length, both without a signing
block, have the same digest. -/
theorem C16_release_collision (E : Env) (algo : Algo) :
    badOffsetFile ≠ doubledRecordFile ∧ badOffsetFile.length ≠ doubledRecordFile.length ∧
    (∃ d, (Module.new badOffsetFile).digest E .release badOffsetFile algo = .ok d ∧
      (Module.new doubledRecordFile).digest E .release doubledRecordFile algo = .ok d) ∧
    (Module.new badOffsetFile).getSigningBlock .release badOffsetFile = .err .magicNotFound ∧
    (Module.new doubledRecordFile).getSigningBlock .release doubledRecordFile = .err .magicNotFound := by
  have o1 : (Module.new badOffsetFile).getOffsets .release badOffsetFile = .ok (FileOffsets.new 35 35 30 52) := by
    decide +kernel
  have o2 : (Module.new doubledRecordFile).getOffsets .release doubledRecordFile = .ok (FileOffsets.new 35 35 52 74) := by
    decide +kernel
  refine ⟨by decide +kernel, by decide +kernel, ?_, by decide +kernel, by decide +kernel⟩
  refine ⟨digestFinal E (([badOffsetFile.take 35, badOffsetFile.drop 35, badOffsetFile.drop 30]).map (digestChunk E algo)) algo,
    ?_, ?_⟩
  · unfold Module.getOffsets at o1
    simp only [Module.digest, Module.digestT, o1, Res.ok_bind, digestModule, FileOffsets.new]
    have u1 : usub .release 35 0 = .ok 35 := by decide +kernel
    have u2 : usub .release 30 35 = .ok (2 ^ 64 - 5) := by decide +kernel
    have e3 : eocdForDigest badOffsetFile 30 35 = .ok (badOffsetFile.drop 30) := by decide +kernel
    have c1 : chunksBy fullReads ((badOffsetFile.drop 0).take 35).length 0 ((badOffsetFile.drop 0).take 35) =
      [badOffsetFile.take 35] := by decide +kernel
    have hn : (badOffsetFile.drop 35).take (2 ^ 64 - 5) = badOffsetFile.drop 35 :=
      List.take_of_length_le (by decide +kernel)
    have c2 : chunksBy fullReads (badOffsetFile.drop 35).length 0 (badOffsetFile.drop 35) =
      [badOffsetFile.drop 35] := by decide +kernel
    have c3 : chunksBy fullReads (badOffsetFile.drop 30).length 0 (badOffsetFile.drop 30) =
      [badOffsetFile.drop 30] := by decide +kernel
    simp only [u1, u2, Res.ok_bind, digestRegion, digestEocd, e3, c1, hn, c2, c3]
    rfl
  · unfold Module.getOffsets at o2
    simp only [Module.digest, Module.digestT, o2, Res.ok_bind, digestModule, FileOffsets.new]
    have u1 : usub .release 35 0 = .ok 35 := by decide +kernel
    have u2 : usub .release 52 35 = .ok 17 := by decide +kernel
    have e3 : eocdForDigest doubledRecordFile 52 35 = .ok (badOffsetFile.drop 30) := by decide +kernel
    have c1 : chunksBy fullReads ((doubledRecordFile.drop 0).take 35).length 0 ((doubledRecordFile.drop 0).take 35) =
      [badOffsetFile.take 35] := by decide +kernel
    have c2 : chunksBy fullReads ((doubledRecordFile.drop 35).take 17).length 0 ((doubledRecordFile.drop 35).take 17) =
      [badOffsetFile.drop 35] := by decide +kernel
    have c3 : chunksBy fullReads (badOffsetFile.drop 30).length 0 (badOffsetFile.drop 30) =
      [badOffsetFile.drop 30] := by decide +kernel
    simp only [u1, u2, Res.ok_bind, digestRegion, digestEocd, e3, c1, c2, c3]
    rfl

/-! ### C17 -/

/-- C17, for entries without the magic: signing does not change the digest, which is the two-level hash of entries,
directory and original end record. -/
theorem C17_digest_unchanged_by_signing_partial {E : Env} {p p' : Profile} {a : Archive} {b : SigningBlock} (hb : Built p' b)
    (hs : Signable a b.toU8.length) (hno : a.NoMagic) (algo : Algo) :
    (Module.new (a.signed b.toU8)).digest E p (a.signed b.toU8) algo =
        .ok (treeDigest (algo.hash E) [a.body, a.cd, wireEocd a.tail a.body.length]) ∧
    (Module.new a.unsigned).digest E p a.unsigned algo =
        .ok (treeDigest (algo.hash E) [a.body, a.cd, wireEocd a.tail a.body.length]) := by
  rw [(split_signed p hb.wf hs.comment hs.cleanNew hs.size).digest,
    (split_unsigned p hs.comment hs.cleanOld hs.sizeOld hno).digest, patchOffset_wireEocd, patchOffset_wireEocd]
  exact ⟨rfl, rfl⟩

/-- C17: two signed versions of the same module have the same digest, whatever the entries contain. -/
theorem C17_signed_versions_agree {E : Env} {p p' p'' : Profile} {a : Archive} {b b' : SigningBlock} (hb : Built p' b)
    (hb' : Built p'' b') (hs : Signable a b.toU8.length) (hs' : Signable a b'.toU8.length) (algo : Algo) :
    ∃ d, (Module.new (a.signed b.toU8)).digest E p (a.signed b.toU8) algo = .ok d ∧
      (Module.new (a.signed b'.toU8)).digest E p (a.signed b'.toU8) algo = .ok d := by
  rw [(split_signed p hb.wf hs.comment hs.cleanNew hs.size).digest,
    (split_signed p hb'.wf hs'.comment hs'.cleanNew hs'.size).digest, patchOffset_wireEocd, patchOffset_wireEocd]
  exact ⟨_, rfl, rfl⟩

example : ∃ d, (Module.new (sampleArchive.signed sampleBlock.toU8)).digest toyEnv .dev
    (sampleArchive.signed sampleBlock.toU8) .p384 = .ok d :=
  ⟨_, (C17_digest_unchanged_by_signing_partial (sampleBlock_built .dev) sampleArchive_signable sampleArchive_noMagic .p384).1⟩

/-- C17 fails for entries containing a signing block: the digest of the unsigned module skips the nested block, the
digest of the signed one covers it; if they agreed, two different inputs with the same hash value could be read off. -/
theorem C17_nested_block_differs {E : Env} {p p' p'' : Profile} {b0 b : SigningBlock} (hb0 : Built p' b0)
    (hb : Built p'' b) (pre mid : Bytes) (a : Archive) (hbody : a.body = pre ++ b0.toU8 ++ mid)
    (hs : Signable a b.toU8.length)
    (hwin : b0.toU8.length + mid.length ≤ 2 ^ 24)
    (hlast : ∀ u, pre.length + b0.toU8.length - 16 < u → ¬ MagicAtPos a.body u) (algo : Algo)
    (hE : FixedLength (algo.hash E)) :
    ∃ d d', (Module.new a.unsigned).digest E p a.unsigned algo = .ok d ∧
      (Module.new (a.signed b.toU8)).digest E p (a.signed b.toU8) algo = .ok d' ∧
      (d = d' → Collision (algo.hash E) [pre, mid ++ a.cd, wireEocd a.tail pre.length]
        [a.body, a.cd, wireEocd a.tail a.body.length]) := by
  have hbl : a.body.length = pre.length + b0.toU8.length + mid.length := by rw [hbody]; simp only [List.length_append]
  have hb0l : 0 < b0.toU8.length := by simp [SigningBlock.toU8]; omega
  have hsp : Split p a.unsigned pre b0.toU8 (mid ++ a.cd) (wireEocd a.tail a.body.length) :=
    ⟨by simp [Archive.unsigned, hbody], _, findEocd_unsigned hs.comment hs.cleanOld,
      by simp only [Spec.Tail.eocd, List.length_append]; omega,
      .inl ⟨_, getSigningBlock_nested (p := p) hb0.wf pre mid a hbody hs.comment hs.cleanOld hs.sizeOld hwin hlast, rfl, rfl⟩⟩
  have hsp' := split_signed p hb.wf hs.comment hs.cleanNew hs.size
  refine ⟨_, _, hsp.digest E algo, hsp'.digest E algo, fun h => ?_⟩
  rcases tamper_evident hE hsp hsp' (hsp.digest E algo) (h ▸ hsp'.digest E algo) with ⟨h1, _⟩ | h1
  · have := congrArg List.length h1
    omega
  · rw [patchOffset_wireEocd, patchOffset_wireEocd] at h1
    exact h1

set_option maxRecDepth 100000 in
example : ∃ d d', (Module.new nestedArchive.unsigned).digest toyEnv .dev nestedArchive.unsigned .p256 = .ok d ∧
    (Module.new (nestedArchive.signed emptyBlock.toU8)).digest toyEnv .dev (nestedArchive.signed emptyBlock.toU8) .p256 =
      .ok d' := by
  obtain ⟨d, d', h1, h2, _⟩ := C17_nested_block_differs (E := toyEnv) (p := .dev) (sampleBlock_built .dev) (emptyBlock_built .dev)
    [1, 2, 3] [4, 5, 6] nestedArchive rfl
    ⟨by decide +kernel, cleanAt_of_bounded (by decide +kernel), cleanAt_of_bounded (by decide +kernel), by decide +kernel⟩
    (by decide +kernel) nestedArchive_last .p256 (toyHash_fixed (by decide))
  exact ⟨d, d', h1, h2⟩

/-! ### C18 -/

/-- The region contains position `i`. -/
def inRegion (i : Nat) (r : DigestRegion) : Bool := r.offset ≤ i && i < r.offset + r.size

/-- C18: if the regions can be determined and the directory region does not end before it starts, they are the
entries, the directory and the end record with what follows it; every byte of the file lies in exactly one of the
three regions and the signing block. -/
theorem C18_regions_partition {p : Profile} {file : Bytes} {o : FileOffsets} {rs : List DigestRegion}
    (ho : (Module.new file).getOffsets p file = .ok o) (hle : o.startCd ≤ o.stopCd)
    (h : (Module.new file).digestRegions p file = .ok rs) :
    ∃ body block cd tail, Split p file body block cd tail ∧
      rs = [⟨"zip_entries", 0, body.length⟩, ⟨"central_directory", body.length + block.length, cd.length⟩,
        ⟨"eocd", body.length + block.length + cd.length, tail.length⟩] ∧
      ∀ i, i < file.length → rs.countP (inRegion i) +
        (if body.length ≤ i ∧ i < body.length + block.length then 1 else 0) = 1 := by
  obtain ⟨body, block, cd, tail, hs⟩ := split_of_offsets ho hle
  have hl : file.length = body.length + block.length + cd.length + tail.length := by
    rw [hs.file_eq]; simp only [List.length_append]
  refine ⟨body, block, cd, tail, hs, ?_⟩
  have hrs : rs = [⟨"zip_entries", 0, body.length⟩, ⟨"central_directory", body.length + block.length, cd.length⟩,
      ⟨"eocd", body.length + block.length + cd.length, tail.length⟩] := by
    unfold Module.digestRegions at h
    simp only [hs.offsets, Res.ok_bind, FileOffsets.new] at h
    rw [usub_of_le (by omega), usub_of_le (by omega), usub_of_le (by omega)] at h
    simp only [Res.ok_bind] at h
    cases h
    simp only [List.cons.injEq, DigestRegion.mk.injEq, and_true, true_and]
    omega
  refine ⟨hrs, fun i hi => ?_⟩
  rw [hrs]
  simp only [List.countP_cons, List.countP_nil, inRegion, Bool.and_eq_true, decide_eq_true_eq]
  have h3 : (if 0 ≤ i ∧ i < 0 + body.length then 1 else 0) = if i < body.length then 1 else 0 := by
    congr 1; simp
  repeat' split
  all_goals omega

/-- C18, development builds: no further condition. -/
theorem C18_regions_partition_dev {file : Bytes} {rs : List DigestRegion}
    (h : (Module.new file).digestRegions .dev file = .ok rs) :
    ∃ body block cd tail, Split .dev file body block cd tail ∧
      rs = [⟨"zip_entries", 0, body.length⟩, ⟨"central_directory", body.length + block.length, cd.length⟩,
        ⟨"eocd", body.length + block.length + cd.length, tail.length⟩] ∧
      ∀ i, i < file.length → rs.countP (inRegion i) +
        (if body.length ≤ i ∧ i < body.length + block.length then 1 else 0) = 1 := by
  have h0 := h
  unfold Module.digestRegions at h0
  obtain ⟨o, ho, h2⟩ := Res.bind_eq_ok.mp h0
  obtain ⟨n1, _, h3⟩ := Res.bind_eq_ok.mp h2
  obtain ⟨n2, h4, _⟩ := Res.bind_eq_ok.mp h3
  exact C18_regions_partition ho (usub_dev_le h4) h

/-- What the digest covers is exactly the concatenation of the regions, with the directory offset patched. -/
theorem C18_digest_covers_regions {E : Env} {p : Profile} {file body block cd tail : Bytes} (algo : Algo)
    (hs : Split p file body block cd tail) :
    (Module.new file).digest E p file algo =
      .ok (treeDigest (algo.hash E) [body, cd, patchOffset tail body.length]) := hs.digest E algo

example : (Module.new (sampleArchive.signed emptyBlock.toU8)).digestRegions .dev (sampleArchive.signed emptyBlock.toU8) =
    .ok [⟨"zip_entries", 0, 30⟩, ⟨"central_directory", 62, 4⟩, ⟨"eocd", 66, 24⟩] := by decide +kernel

/-! ### C19 -/

/-- C19, for readers that always fill the buffer (as regular files do): the digest does not depend on the reader
(missing: readers that deliver less, see `C19_short_reads_change_digest`). -/
theorem C19_full_reads_agree_partial {E : Env} {p : Profile} {s1 s2 : Sched} (h1 : ∀ k, 2 ^ 20 ≤ s1 k)
    (h2 : ∀ k, 2 ^ 20 ≤ s2 k) (file : Bytes) (o : FileOffsets) (algo : Algo) :
    digestModule E p s1 s2 file o algo = digestModule E p fullReads fullReads file o algo := by
  unfold digestModule
  have e1 : ∀ n, digestRegion E s1 file o.startContent n algo = digestRegion E fullReads file o.startContent n algo :=
    fun n => by rw [digestRegion_eq E h1, digestRegion_eq E fullReads_ge]
  have e2 : ∀ n, digestRegion E s2 file o.startCd n algo = digestRegion E fullReads file o.startCd n algo :=
    fun n => by rw [digestRegion_eq E h2, digestRegion_eq E fullReads_ge]
  simp only [e1, e2]

example : ∀ k, 2 ^ 20 ≤ (fun k => 2 ^ 20 + k : Sched) k := fun _ => Nat.le_add_right _ _

/-- C19 fails: a reader that delivers the same bytes in smaller portions gives a different digest. -/
theorem C19_short_reads_change_digest :
    ∃ (file : Bytes) (o : FileOffsets) (s : Sched),
      (Module.new file).getOffsets .dev file = .ok o ∧
      digestModule toyEnv .dev s s file o .p256 ≠ digestModule toyEnv .dev fullReads fullReads file o .p256 :=
  ⟨sampleArchive.unsigned, FileOffsets.new 30 30 34 58, fun _ => 7, by decide +kernel, by decide +kernel⟩

/-! ### C20 -/

/-- C20 fails: in a signed module the directory offset can be replaced by any larger one up to the end record, as long
as no magic lies in the skipped bytes: the same signing block is found at the same place and the digest is the same,
so verification cannot tell. -/
theorem C20_offset_not_authenticated {E : Env} {p p' : Profile} {a : Archive} {b : SigningBlock} (hb : Built p' b)
    (hs : Signable a b.toU8.length) (off : Nat) (hlo : a.body.length + b.toU8.length ≤ off)
    (hhi : off ≤ a.body.length + b.toU8.length + a.cd.length) (hsz : off < 2 ^ 32)
    (hwin : b.toU8.length + a.cd.length ≤ 2 ^ 24) (hclean : a.CleanAt off)
    (hno : ∀ u, a.body.length + b.toU8.length - 16 < u → ¬ MagicAtPos (a.body ++ b.toU8 ++ a.cd) u) (algo : Algo) :
    ∃ b' d, (Module.new (a.signed b.toU8)).getSigningBlock p (a.signed b.toU8) = .ok b' ∧
      (Module.new (a.body ++ b.toU8 ++ a.cd ++ wireEocd a.tail off)).getSigningBlock p
        (a.body ++ b.toU8 ++ a.cd ++ wireEocd a.tail off) = .ok b' ∧
      (Module.new (a.signed b.toU8)).digest E p (a.signed b.toU8) algo = .ok d ∧
      (Module.new (a.body ++ b.toU8 ++ a.cd ++ wireEocd a.tail off)).digest E p
        (a.body ++ b.toU8 ++ a.cd ++ wireEocd a.tail off) algo = .ok d := by
  have hok : a.tail.comment.length ≤ 65535 := hs.comment
  have hfind : findEocd (a.body ++ b.toU8 ++ a.cd ++ wireEocd a.tail off)
      (a.body ++ b.toU8 ++ a.cd ++ wireEocd a.tail off).length =
      .ok (a.tail.eocd off (a.body.length + b.toU8.length + a.cd.length)) := by
    have := findEocd_wire (a.body ++ b.toU8 ++ a.cd) [] a.tail off hok
      (by simp only [List.length_nil]; omega) (by rw [List.append_nil]; exact hclean)
    rw [List.append_nil] at this
    rw [this]
    simp only [List.length_append]
  have hlen : (a.body ++ b.toU8 ++ a.cd ++ wireEocd a.tail off).length =
      a.body.length + b.toU8.length + a.cd.length + (22 + a.tail.comment.length) := by
    simp only [List.length_append, wireEocd_length]
  have hblk : (Module.new (a.body ++ b.toU8 ++ a.cd ++ wireEocd a.tail off)).getSigningBlock p
      (a.body ++ b.toU8 ++ a.cd ++ wireEocd a.tail off) =
      .ok { b with fileStart := a.body.length, fileEnd := a.body.length + b.toU8.length } := by
    rw [getSigningBlock_new, hfind]
    simp only [Res.ok_bind, Spec.Tail.eocd, u32_ofNat_toNat hsz]
    have hcd : a.cd = a.cd.take (off - (a.body.length + b.toU8.length)) ++
        a.cd.drop (off - (a.body.length + b.toU8.length)) := (List.take_append_drop _ _).symm
    have hfl : a.body ++ b.toU8 ++ a.cd ++ wireEocd a.tail off =
        a.body ++ b.toU8 ++ a.cd.take (off - (a.body.length + b.toU8.length)) ++
          (a.cd.drop (off - (a.body.length + b.toU8.length)) ++ wireEocd a.tail off) := by
      conv => lhs; rw [hcd]
      simp only [List.append_assoc]
    have htl : (a.cd.take (off - (a.body.length + b.toU8.length))).length = off - (a.body.length + b.toU8.length) := by
      rw [List.length_take]; omega
    have hmid := fromReader_block_mid p a.body (a.cd.take (off - (a.body.length + b.toU8.length)))
      (a.cd.drop (off - (a.body.length + b.toU8.length)) ++ wireEocd a.tail off) hb.wf
      (fl := (a.body ++ b.toU8 ++ a.cd ++ wireEocd a.tail off).length)
      (eo := (a.body ++ b.toU8 ++ a.cd ++ wireEocd a.tail off).length - off) (by rw [hlen, htl]; omega)
      (by rw [htl]; simp only [maxWindow]; omega)
      (by
        intro u h1 h2 hm
        rw [← hfl] at hm
        apply hno u h1
        rw [htl] at h2
        exact (magicAt_append (by simp only [List.length_append]; omega)).mp hm)
    rw [← hfl] at hmid
    exact hmid
  have hsp : Split p (a.body ++ b.toU8 ++ a.cd ++ wireEocd a.tail off) a.body b.toU8 a.cd (wireEocd a.tail off) :=
    ⟨rfl, _, hfind, rfl, .inl ⟨_, hblk, rfl, rfl⟩⟩
  refine ⟨_, _, getSigningBlock_signed p hb.wf hs.comment hs.cleanNew hs.size, hblk,
    (split_signed p hb.wf hs.comment hs.cleanNew hs.size).digest E algo, ?_⟩
  rw [hsp.digest, patchOffset_wireEocd, patchOffset_wireEocd]

set_option maxRecDepth 100000 in
example : ∃ b' d, (Module.new (sampleArchive.body ++ emptyBlock.toU8 ++ sampleArchive.cd ++
    wireEocd sampleArchive.tail 65)).getSigningBlock .release (sampleArchive.body ++ emptyBlock.toU8 ++
      sampleArchive.cd ++ wireEocd sampleArchive.tail 65) = .ok b' ∧
    (Module.new (sampleArchive.signed emptyBlock.toU8)).digest toyEnv .release (sampleArchive.signed emptyBlock.toU8)
      .p256 = .ok d := by
  have hs : Signable sampleArchive emptyBlock.toU8.length :=
    ⟨by decide +kernel, sampleArchive_clean _ (by decide +kernel), sampleArchive_clean _ (by decide +kernel), by decide +kernel⟩
  obtain ⟨b', d, _, h2, h3, _⟩ := C20_offset_not_authenticated (E := toyEnv) (p := .release) (emptyBlock_built .dev) hs 65 (by decide +kernel)
    (by decide +kernel) (by decide) (by decide +kernel) (sampleArchive_clean _ (by decide)) (by
      intro u hu hm
      have hm' : slice? _ u (u + 16) = some _ := hm
      obtain ⟨_, h1, _⟩ := slice?_eq_some hm'
      have hb : ∀ x, x < 80 → sampleArchive.body.length + emptyBlock.toU8.length - 16 < x →
        ¬ MagicAtPos (sampleArchive.body ++ emptyBlock.toU8 ++ sampleArchive.cd) x := by decide +kernel
      have hl : (sampleArchive.body ++ emptyBlock.toU8 ++ sampleArchive.cd).length = 66 := by decide +kernel
      exact hb u (by omega) hu hm) .p256
  exact ⟨b', d, h2, h3⟩

/-- C20, what does hold: whenever a block is found, it ends at or before the directory offset of the end record, and
no further magic lies between them (missing: the offset itself is not bound to the end of the block). -/
theorem C20_block_before_offset_partial {p : Profile} {file : Bytes} {b : SigningBlock}
    (h : (Module.new file).getSigningBlock p file = .ok b) :
    ∃ e, findEocd file file.length = .ok e ∧ b.fileEnd ≤ e.cdOffset.toNat ∧
      ∀ u, b.fileEnd ≤ u → u + 16 ≤ min file.length e.cdOffset.toNat → ¬ MagicAtPos file u := by
  obtain ⟨e, pre, pairs, post, h1, _, _, _, h2, h3⟩ := C15_last_magic_partial h
  refine ⟨e, h1, h2, fun u hu hl hm => ?_⟩
  have := h3 u hl hm
  omega

/-! ### C26 -/

/-- C26 fails for every module followed by extra bytes: signing succeeds but drops the extra bytes, so the signed
digest (computed before writing) equals the digest of the written file only if two different inputs with the same
hash value can be read off. -/
theorem C26_trailing_bytes_lost {E : Env} {p p' : Profile} {a : Archive} {b : SigningBlock} (hb : Built p' b)
    (hs : Signable a b.toU8.length) (hno : a.NoMagic) (junk : Bytes) (hj : junk ≠ [])
    (hreach : 22 + a.tail.comment.length + junk.length ≤ 65557)
    (hclean : ∀ k, 1 ≤ k → ¬ RecordAt (wireEocd a.tail a.body.length ++ junk) k) (algo : Algo)
    (hE : FixedLength (algo.hash E)) :
    ∃ out d, (Module.new (a.unsigned ++ junk)).signableWrite p (a.unsigned ++ junk) b = (out, .ok ()) ∧
      (Module.new (a.unsigned ++ junk)).digest E p (a.unsigned ++ junk) algo = .ok d ∧
      ((Module.new out).digest E p out algo = .ok d → Collision (algo.hash E)
        [a.body, a.cd, wireEocd a.tail a.body.length ++ junk] [a.body, a.cd, wireEocd a.tail a.body.length]) := by
  have hsz := hs.sizeOld
  have hul := a.unsigned_length
  have hok : a.tail.comment.length ≤ 65535 := hs.comment
  have hfind : findEocd (a.unsigned ++ junk) (a.unsigned ++ junk).length =
      .ok (a.tail.eocd a.body.length (a.body.length + a.cd.length)) := by
    have := findEocd_wire (a.body ++ a.cd) junk a.tail a.body.length hok hreach hclean
    rw [← List.append_assoc] at this
    rw [Archive.unsigned, this, List.length_append]
  have hblk : (Module.new (a.unsigned ++ junk)).getSigningBlock p (a.unsigned ++ junk) = .err .magicNotFound := by
    rw [getSigningBlock_new, hfind]
    simp only [Res.ok_bind, Spec.Tail.eocd, u32_ofNat_toNat hsz]
    have hle : (a.unsigned ++ junk).length - ((a.unsigned ++ junk).length - a.body.length) = a.body.length := by
      rw [List.length_append]; omega
    apply fromReader_none
    · rw [hle]; exact hno.1
    · omega
    · intro u hu hm
      rw [hle] at hu
      have hfl : a.unsigned ++ junk = a.body ++ (a.cd ++ wireEocd a.tail a.body.length ++ junk) := by
        simp [Archive.unsigned]
      rw [hfl] at hm
      exact hno.2 u ((magicAt_append hu).mp hm)
  have hsp : Split p (a.unsigned ++ junk) a.body [] a.cd (wireEocd a.tail a.body.length ++ junk) :=
    ⟨by simp [Archive.unsigned], _, hfind, rfl, .inr ⟨_, hblk, rfl, rfl, u32_ofNat_toNat hsz⟩⟩
  refine ⟨a.signed b.toU8, _, ?_, hsp.digest E algo, fun h => ?_⟩
  · apply signableWrite_of_source_junk p (junk := junk) hs.comment hsz hs.sizeBlock
    unfold Module.signSource
    rw [hblk]
    simp only [Err.isMissing, if_true, hfind, Res.ok_bind]
  · rcases tamper_evident hE hsp (split_signed p hb.wf hs.comment hs.cleanNew hs.size) (hsp.digest E algo) h with
      ⟨_, _, h1⟩ | h1
    · rw [patchOffset_wireEocd, patchOffset_wireEocd_append] at h1
      have := congrArg List.length h1
      rw [List.length_append] at this
      have := List.length_pos_iff.mpr hj
      omega
    · rw [patchOffset_wireEocd, patchOffset_wireEocd_append] at h1
      exact h1

example : ∃ out, (Module.new (sampleArchive.unsigned ++ [1])).signableWrite .dev (sampleArchive.unsigned ++ [1])
    sampleBlock = (out, .ok ()) := by
  obtain ⟨out, _, h, _⟩ := C26_trailing_bytes_lost (E := toyEnv) (p := .dev) (sampleBlock_built .dev)
    sampleArchive_signable sampleArchive_noMagic [1] (by decide) (by decide +kernel) (by
      intro k hk hr
      have h1 := hr.2.1
      have hb : ∀ x, x < 26 → 1 ≤ x →
        ¬ RecordAt (wireEocd sampleArchive.tail sampleArchive.body.length ++ [1]) x := by decide +kernel
      have hl : (wireEocd sampleArchive.tail sampleArchive.body.length ++ [1]).length = 25 := by decide +kernel
      exact hb k (by omega) hk hr) .p256 (toyHash_fixed (by decide))
  exact ⟨out, h⟩

/-- The failure of C26 on a concrete file. -/
theorem C26_trailing_bytes_witness :
    ∃ out d d', (Module.new (sampleArchive.unsigned ++ [1])).signableWrite .dev (sampleArchive.unsigned ++ [1]) emptyBlock =
      (out, .ok ()) ∧
      (Module.new (sampleArchive.unsigned ++ [1])).digest toyEnv .dev (sampleArchive.unsigned ++ [1]) .p256 = .ok d ∧
      (Module.new out).digest toyEnv .dev out .p256 = .ok d' ∧ d ≠ d' :=
  ⟨sampleArchive.signed emptyBlock.toU8, _, _, by decide +kernel, rfl, rfl, by decide +kernel⟩

/-- C26 without trailing bytes (missing: modules with trailing bytes, for which it fails): the digest computed before
signing is the digest of the written file. -/
theorem C26_no_trailing_bytes_partial {E : Env} {p p' : Profile} {a : Archive} {b : SigningBlock} (hb : Built p' b)
    (hs : Signable a b.toU8.length) (hno : a.NoMagic) (algo : Algo) :
    ∃ out d, (Module.new a.unsigned).signableWrite p a.unsigned b = (out, .ok ()) ∧
      (Module.new a.unsigned).digest E p a.unsigned algo = .ok d ∧ (Module.new out).digest E p out algo = .ok d :=
  let h := C17_digest_unchanged_by_signing_partial (E := E) (p := p) hb hs hno algo
  ⟨_, _, C24_sign_unsigned_partial hs hno, h.2, h.1⟩

end Ksusig.Props
