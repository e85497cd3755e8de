import Verif.Props.SignVerify

/-! # C42, C43: modules opened with `new_raw`, and `Module::write_with_signature` -/

namespace Ksusig.Props

open Ksusig Spec

/-! ### Lemmas -/

theorem drop_append_left' {x y : Bytes} {n : Nat} (h : x.length = n) : (x ++ y).drop n = y := by
  subst h; simp

/-- The digest of a raw module. -/
theorem digest_raw (E : Env) (p : Profile) {a : Archive} (hok : a.Ok) (hclean : a.CleanAt a.body.length)
    (hsz : a.body.length < 2 ^ 32) (algo : Algo) :
    (Module.newRaw a.unsigned).digest E p a.unsigned algo = .ok (contentDigest E a algo) := by
  have hl := a.unsigned_length
  have ho : (Module.newRaw a.unsigned).getOffsetsT p a.unsigned a.unsigned a.unsigned =
      .ok (FileOffsets.new a.body.length a.body.length (a.body.length + a.cd.length) a.unsigned.length) := by
    have hf : (Module.newRaw a.unsigned).findEocd a.unsigned = _ := findEocd_unsigned hok hclean
    have hg : (Module.newRaw a.unsigned).getSigningBlockT p a.unsigned a.unsigned = .err .moduleIsRaw := rfl
    unfold Module.getOffsetsT
    rw [hf, Res.ok_bind, hg]
    simp only [Err.isMissing, if_true, FileOffsets.withoutSignature, Spec.Tail.eocd, u32_ofNat_toNat hsz]
    rfl
  have hd : a.unsigned.drop (a.body.length + a.cd.length) = wireEocd a.tail a.body.length :=
    drop_append_left' (by simp only [List.length_append])
  unfold Module.digest Module.digestT
  rw [ho, Res.ok_bind, digestModule_eq E p fullReads_ge fullReads_ge _ _ algo (by simp [FileOffsets.new])
    (by simp [FileOffsets.new]) (by simp only [FileOffsets.new]; omega)
    (by simp only [FileOffsets.new, hd, wireEocd_length]; omega)]
  simp only [FileOffsets.new, hd, patchOffset_wireEocd, contentDigest, List.drop_zero, Nat.sub_zero]
  congr 3
  · simp only [Archive.unsigned, List.append_assoc]
    exact take_append_left rfl
  · congr 1
    exact take_mid (pre := a.body) (post := wireEocd a.tail a.body.length) rfl rfl (by omega)

/-- `sign_v2` in terms of the signer used by the sign command. -/
theorem signV2_ok {E : Env} {p : Profile} {m m' : Module} {file : Bytes} {algo : Algo} {cert : Bytes} {key : PrivateKey}
    (h : m.signV2 E p file algo cert key = .ok m') :
    ∃ d b e, m.digest E p file algo = .ok d ∧
      (ModuleSigner.v2Only ⟨key, cert, algo, []⟩).sign E p none (Digests.new [Digest.new algo d]) = .ok b ∧
      m.findEocd file = .ok e ∧ m' = { m with sig := some (b.offsetBy e.cdOffset.toNat) } := by
  unfold Module.signV2 at h
  obtain ⟨pk, hpk, h⟩ := Res.bind_eq_ok.mp h
  obtain ⟨d, hd, h⟩ := Res.bind_eq_ok.mp h
  dsimp only at h
  obtain ⟨ts, hts, h⟩ := Res.bind_eq_ok.mp h
  obtain ⟨sig, hsig, h⟩ := Res.bind_eq_ok.mp h
  obtain ⟨b, hb, h⟩ := Res.bind_eq_ok.mp h
  obtain ⟨e, he, h⟩ := Res.bind_eq_ok.mp h
  cases h
  refine ⟨d, b, e, hd, ?_, he, rfl⟩
  unfold ModuleSigner.sign ModuleSigner.signV2Part ModuleSigner.signStampPart ModuleSigner.v2Only
  dsimp only
  unfold v2Sign
  dsimp only
  simp only [List.map_nil, List.append_nil, hts, Res.ok_bind, hsig, hpk]
  exact hb

theorem checkedAdd32_of_lt {x n : Nat} (h : x + n < 2 ^ 32) :
    checkedAdd32 (UInt32.ofNat x) n = some (UInt32.ofNat (x + n)) := by
  unfold checkedAdd32
  have h1 : n % 2 ^ 32 = n := Nat.mod_eq_of_lt (by omega)
  rw [u32_ofNat_toNat (show x < 2 ^ 32 by omega), h1, if_pos h]

theorem checkedAdd32_of_ge {x n : Nat} (hx : x < 2 ^ 32) (hn : n < 2 ^ 32) (h : 2 ^ 32 ≤ x + n) :
    checkedAdd32 (UInt32.ofNat x) n = none := by
  unfold checkedAdd32
  have h1 : n % 2 ^ 32 = n := Nat.mod_eq_of_lt hn
  rw [u32_ofNat_toNat hx, h1, if_neg (by omega)]

theorem write_of {p : Profile} {m : Module} {file : Bytes} {sig : SigningBlock} {o : FileOffsets} {e : Eocd} {cd : UInt32}
    (hg : m.getSigningBlock p file = .ok sig) (ho : m.getOffsets p file = .ok o) (hf : m.findEocd file = .ok e)
    (hc : checkedAdd32 e.cdOffset sig.fullSize = some cd) {ser : Bytes} (hser : { e with cdOffset := cd }.toU8 = ser)
    (k1 : sig.fullSize ≤ o.startCd) (k2 : o.startCd ≤ o.stopEocd) (k3 : ser.length ≤ o.stopEocd - o.startCd)
    (k4 : o.startCd - sig.fullSize < 2 ^ 63) :
    m.writeWithSignature p file = (file.take o.stopContent ++ sig.toU8 ++
      (file.drop (o.startCd - sig.fullSize)).take (o.stopEocd - o.startCd - ser.length) ++ ser, .ok ()) := by
  unfold Module.writeWithSignature
  rw [hg, Res.ok_bind, ho, Res.ok_bind, hf, Res.ok_bind, hc]
  simp only [Res.ofOption_some, Res.ok_bind, hser, usub_of_le k1, usub_of_le k2, usub_of_le k3, if_pos k4]

theorem write_overflow {p : Profile} {m : Module} {file : Bytes} {sig : SigningBlock} {o : FileOffsets} {e : Eocd}
    (hg : m.getSigningBlock p file = .ok sig) (ho : m.getOffsets p file = .ok o) (hf : m.findEocd file = .ok e)
    (hc : checkedAdd32 e.cdOffset sig.fullSize = none) : m.writeWithSignature p file = ([], .err .invalidData) := by
  unfold Module.writeWithSignature
  rw [hg, Res.ok_bind, ho, Res.ok_bind, hf, Res.ok_bind, hc]
  rfl

/-- A raw module that has been signed. -/
structure RawSigned (a : Archive) (b : SigningBlock) (m : Module) : Prop where
  raw : m.raw = true
  len : m.fileLen = a.unsigned.length
  sig : m.sig = some (b.offsetBy a.body.length)

theorem RawSigned.findEocd {a : Archive} {b : SigningBlock} {m : Module} (h : RawSigned a b m) (hok : a.Ok)
    (hclean : a.CleanAt a.body.length) :
    m.findEocd a.unsigned = .ok (a.tail.eocd a.body.length (a.body.length + a.cd.length)) := by
  unfold Module.findEocd; rw [h.len]; exact findEocd_unsigned hok hclean

theorem RawSigned.getSigningBlock {a : Archive} {b : SigningBlock} {m : Module} (h : RawSigned a b m) (p : Profile)
    (f1 f2 : Bytes) : m.getSigningBlockT p f1 f2 = .ok (b.offsetBy a.body.length) := by
  unfold Module.getSigningBlockT; rw [h.sig]

theorem RawSigned.getOffsets {a : Archive} {b : SigningBlock} {m : Module} (h : RawSigned a b m) (p : Profile) (hb : b.WF)
    (h0 : b.fileStart = 0) (h1 : b.fileEnd = b.toU8.length) (hok : a.Ok) (hclean : a.CleanAt a.body.length) :
    m.getOffsets p a.unsigned = .ok (FileOffsets.new a.body.length (a.body.length + b.toU8.length)
      (a.body.length + a.cd.length + b.toU8.length) (a.unsigned.length + b.toU8.length)) := by
  have hfs : (b.offsetBy a.body.length).fullSize = b.toU8.length := hb.toU8_length.symm
  unfold Module.getOffsets Module.getOffsetsT
  rw [h.findEocd hok hclean, Res.ok_bind, h.getSigningBlock]
  dsimp only
  rw [h.raw, h.len]
  have e1 : (b.offsetBy a.body.length).fileStart = a.body.length := by simp [SigningBlock.offsetBy, h0]
  have e2 : (b.offsetBy a.body.length).fileEnd = a.body.length + b.toU8.length := by
    simp [SigningBlock.offsetBy, h1, Nat.add_comm]
  simp only [if_true, hfs, e1, e2, Spec.Tail.eocd]

/-- Writing a raw module with a block. -/
theorem RawSigned.write {a : Archive} {b : SigningBlock} {m : Module} (h : RawSigned a b m) (p : Profile) (hb : b.WF)
    (h0 : b.fileStart = 0) (h1 : b.fileEnd = b.toU8.length) (hok : a.Ok) (hclean : a.CleanAt a.body.length)
    (hsz : a.body.length < 2 ^ 32) (hn : b.toU8.length < 2 ^ 32) :
    m.writeWithSignature p a.unsigned =
      if a.body.length + b.toU8.length < 2 ^ 32 then (a.signed b.toU8, .ok ()) else ([], .err .invalidData) := by
  have hl := a.unsigned_length
  have hfs : (b.offsetBy a.body.length).fullSize = b.toU8.length := hb.toU8_length.symm
  by_cases hlt : a.body.length + b.toU8.length < 2 ^ 32
  · rw [if_pos hlt]
    rw [write_of (h.getSigningBlock p _ _) (h.getOffsets p hb h0 h1 hok hclean) (h.findEocd hok hclean)
      (by rw [hfs]; exact checkedAdd32_of_lt hlt) (a.tail.eocd_toU8 (fo := a.body.length + a.cd.length) hlt hok)
      (by rw [hfs]; simp only [FileOffsets.new]; omega) (by simp only [FileOffsets.new]; omega)
      (by simp only [FileOffsets.new, wireEocd_length]; omega) (by simp only [FileOffsets.new]; omega)]
    rw [hfs]
    simp only [FileOffsets.new, wireEocd_length]
    congr 1
    rw [Archive.signed]
    congr 2
    · show _ ++ b.toU8 = _
      congr 1
      simp only [Archive.unsigned, List.append_assoc]
      exact take_append_left rfl
    · rw [show a.body.length + b.toU8.length - b.toU8.length = a.body.length by omega]
      exact take_mid (pre := a.body) (post := wireEocd a.tail a.body.length) rfl rfl (by omega)
  · rw [if_neg hlt]
    exact write_overflow (h.getSigningBlock p _ _) (h.getOffsets p hb h0 h1 hok hclean) (h.findEocd hok hclean)
      (by rw [hfs]; exact checkedAdd32_of_ge hsz hn (by omega))

theorem built_span {p : Profile} {b : SigningBlock} (h : Built p b) : b.fileStart = 0 ∧ b.fileEnd = b.toU8.length := by
  have hl := h.wf.toU8_length
  obtain ⟨cs, hok, h | h⟩ := h
  · obtain ⟨_, rfl⟩ := SigningBlock.new_eq_ok.mp h
    exact ⟨rfl, by rw [hl]⟩
  · obtain ⟨cs', hok', _, h'⟩ := padded_spec hok h
    obtain ⟨_, rfl⟩ := SigningBlock.new_eq_ok.mp h'
    exact ⟨rfl, by rw [hl]⟩

theorem wireEocd_inj {t : Tail} {x y : Nat} (hx : x < 2 ^ 32) (hy : y < 2 ^ 32) (h : wireEocd t x = wireEocd t y) : x = y := by
  have h4 : leBytes 4 x = leBytes 4 y := by simpa [wireEocd] using h
  have := congrArg leNat h4
  rwa [leNat_leBytes, leNat_leBytes, Nat.mod_eq_of_lt hx, Nat.mod_eq_of_lt hy] at this

/-! ### C42 -/

/-- C42: for every well-formed unsigned module opened with `new_raw` (whatever its entries contain), after a successful
`sign_v2` the module holds a block with one V2 signer for the digest of its contents and no stamp. `write_with_signature` then
writes entries, block, directory and the shifted end record, which is a module with that digest (or fails without writing
anything when the directory offset does not fit 32 bits). When the entries do not contain the magic, it is the file that the
`Signable` interface writes for this block and that the sign command writes with this key. -/
theorem C42_raw_workflow {E : Env} {p : Profile} {a : Archive} {algo : Algo} {cert : Bytes} {key : PrivateKey} {m : Module}
    (hok : a.Ok) (hclean : a.CleanAt a.body.length) (hsz : a.body.length < 2 ^ 32)
    (h : (Module.newRaw a.unsigned).signV2 E p a.unsigned algo cert key = .ok m) :
    ∃ b s, Built p b ∧ b.toU8.length % 4096 = 0 ∧ RawSigned a b m ∧ v2Signers b = [s] ∧ stamps b = [] ∧
      MadeV2 E ⟨key, cert, algo, []⟩ (Digests.new [Digest.new algo (contentDigest E a algo)]) s ∧
      (a.body.length + b.toU8.length < 2 ^ 32 →
        m.writeWithSignature p a.unsigned = (a.signed b.toU8, .ok ()) ∧
        (a.CleanAt (a.body.length + b.toU8.length) →
          (Module.new (a.signed b.toU8)).digest E p (a.signed b.toU8) algo = .ok (contentDigest E a algo))) ∧
      (2 ^ 32 ≤ a.body.length + b.toU8.length → m.writeWithSignature p a.unsigned = ([], .err .invalidData)) ∧
      (a.NoMagic → (Module.new a.unsigned).signableWrite p a.unsigned b = (a.signed b.toU8, .ok ()) ∧
        ((∀ n, n ≤ 16392 → Signable a n) →
          cliSignModule E p none (.v2Only ⟨key, cert, algo, []⟩) false a.unsigned = (some (a.signed b.toU8), .ok ()))) := by
  obtain ⟨d, b, e, hd, hb, he, rfl⟩ := signV2_ok h
  rw [digest_raw E p hok hclean hsz] at hd
  injection hd with hd
  subst hd
  have hf : (Module.newRaw a.unsigned).findEocd a.unsigned = _ := findEocd_unsigned hok hclean
  rw [hf] at he
  cases he
  have hcd : (a.tail.eocd a.body.length (a.body.length + a.cd.length)).cdOffset.toNat = a.body.length :=
    u32_ofNat_toNat hsz
  have hpair : Digests.new [Digest.new algo (contentDigest E a algo)] = pairDigests [(algo, contentDigest E a algo)] := rfl
  obtain ⟨hv2, hst⟩ := signers_of_shape hb
  rcases hv2 with ⟨h0, _⟩ | ⟨c, g, hc, hg, hmade⟩
  · cases h0
  cases hc
  have hst : stamps b = [] := by
    rcases hst with ⟨_, hst⟩ | ⟨c, _, hc, _⟩
    · exact hst
    · cases hc
  have hkn : Known algo := by
    obtain ⟨x, _, _, hx⟩ := hmade.sig
    have hm := Algo.sign_ok hx
    revert hm
    cases algo <;> cases key <;> simp [Known]
  have hbuilt : Built p b := by
    refine sign_built (pairs := [(algo, contentDigest E a algo)]) ?_ hb
    intro x hx
    have : x = (algo, contentDigest E a algo) := by simpa using hx
    subst this
    rcases hkn with h | h <;> simp [AlgoOk, h]
  obtain ⟨s0, s1⟩ := built_span hbuilt
  have hn := built_length hbuilt
  have hraw : RawSigned a b { Module.newRaw a.unsigned with
      sig := some (b.offsetBy (a.tail.eocd a.body.length (a.body.length + a.cd.length)).cdOffset.toNat) } :=
    ⟨rfl, rfl, by rw [hcd]⟩
  have hw := hraw.write p hbuilt.wf s0 s1 hok hclean hsz (by omega)
  have hpad : b.toU8.length % 4096 = 0 := by
    rw [hbuilt.wf.toU8_length]
    obtain ⟨b1, b2, _, _, _, h3⟩ := sign_ok hb
    obtain ⟨_, pad, _, hmod, _, rfl⟩ := SigningBlock.newWithPadding_ok h3
    exact hmod
  refine ⟨b, g, hbuilt, hpad, hraw, hg, hst, hmade, fun hlt => ⟨by rw [hw, if_pos hlt], fun hcl => ?_⟩, fun hge => ?_, fun hno => ?_⟩
  · have hsp := split_signed p hbuilt.wf hok hcl hlt
    rw [hsp.digest E algo, patchOffset_wireEocd]; rfl
  · rw [hw, if_neg (by omega)]
  · refine ⟨signableWrite_unsigned p hok hclean hsz (by omega) hno, fun hs => ?_⟩
    obtain ⟨r, hr, hc⟩ := C25_sign_command (E := E) (p := p) (clock := none) (m := .v2Only ⟨key, cert, algo, []⟩)
      (.inl ⟨rfl, hno⟩) hs (by rintro c (hc | hc) <;> cases hc; exact hkn)
    have : r = .ok b := by rw [← hr]; exact hb
    rw [this] at hc
    exact hc

example : ∃ m, (Module.newRaw plainArchive.unsigned).signV2 toyEnv .dev plainArchive.unsigned .p256 [7] (.p256 [7]) = .ok m :=
  Res.exists_of_isOk (by decide +kernel)

/-! ### C43 -/

/-- C43, for a raw module: the file written after `sign_v2`, opened again, has the same entries and directory and the same
block at the same place. (Missing: modules opened with `Module::new`, `C43_rewrite_corrupts`, and a second `sign_v2`,
`C43_second_sign_fails`.) -/
theorem C43_raw_write_partial {E : Env} {p : Profile} {a : Archive} {algo : Algo} {cert : Bytes} {key : PrivateKey} {m : Module}
    (hs : ∀ n, n ≤ 16392 → Signable a n) (h : (Module.newRaw a.unsigned).signV2 E p a.unsigned algo cert key = .ok m) :
    ∃ out b, m.writeWithSignature p a.unsigned = (out, .ok ()) ∧ m.sig = some b ∧
      (Module.new out).getSigningBlock p out = .ok b ∧ (Module.new out).getRawModule p out = .ok a.unsigned := by
  have h0 := hs 0 (by omega)
  obtain ⟨b, s, hb, _, hraw, _, _, _, hw, _⟩ := C42_raw_workflow h0.comment h0.cleanOld h0.sizeOld h
  have hs1 := hs _ (built_length hb)
  obtain ⟨s0, s1⟩ := built_span hb
  refine ⟨_, _, (hw hs1.size).1, hraw.sig, ?_, getRawModule_signed p hb.wf hs1.comment hs1.cleanNew hs1.size⟩
  rw [getSigningBlock_signed p hb.wf hs1.comment hs1.cleanNew hs1.size]
  simp only [SigningBlock.offsetBy, s0, s1, Nat.add_zero, Nat.add_comm a.body.length, Nat.zero_add]

/-- C43 fails for `Module::new`: `write_with_signature` on any signed module replaces the directory by the first bytes of
the block and moves the recorded directory offset once more. -/
theorem C43_rewrite_corrupts {p p' : Profile} {a : Archive} {b : SigningBlock} (hb : Built p' b)
    (hs : Signable a b.toU8.length) (h2 : a.body.length + 2 * b.toU8.length < 2 ^ 32) :
    ∃ out, (Module.new (a.signed b.toU8)).writeWithSignature p (a.signed b.toU8) = (out, .ok ()) ∧
      out = a.body ++ b.toU8 ++ (b.toU8 ++ a.cd).take a.cd.length ++ wireEocd a.tail (a.body.length + 2 * b.toU8.length) ∧
      out ≠ a.signed b.toU8 := by
  have hl := a.signed_length b.toU8
  have hg := getSigningBlock_signed p hb.wf hs.comment hs.cleanNew hs.size
  have ho := getOffsets_signed p hb.wf hs.comment hs.cleanNew hs.size
  have hf : (Module.new (a.signed b.toU8)).findEocd (a.signed b.toU8) = _ := findEocd_signed hs.comment hs.cleanNew
  have hfs : ({ b with fileStart := a.body.length, fileEnd := a.body.length + b.toU8.length } : SigningBlock).fullSize =
    b.toU8.length := hb.wf.toU8_length.symm
  have hc : checkedAdd32 (a.tail.eocd (a.body.length + b.toU8.length) (a.body.length + b.toU8.length + a.cd.length)).cdOffset
      ({ b with fileStart := a.body.length, fileEnd := a.body.length + b.toU8.length } : SigningBlock).fullSize =
      some (UInt32.ofNat (a.body.length + 2 * b.toU8.length)) := by
    rw [hfs, show a.body.length + 2 * b.toU8.length = a.body.length + b.toU8.length + b.toU8.length by omega]
    exact checkedAdd32_of_lt (by omega)
  refine ⟨_, ?_, rfl, ?_⟩
  · rw [write_of hg ho hf hc (a.tail.eocd_toU8 (fo := a.body.length + b.toU8.length + a.cd.length) h2 hs.comment)
      (by rw [hfs]; simp only [FileOffsets.new]; omega) (by simp only [FileOffsets.new]; omega)
      (by simp only [FileOffsets.new, wireEocd_length]; omega) (by simp only [FileOffsets.new]; omega)]
    rw [hfs]
    simp only [FileOffsets.new, wireEocd_length]
    congr 3
    · show _ ++ b.toU8 = _
      congr 1
      simp only [Archive.signed, List.append_assoc]
      exact take_append_left rfl
    · rw [show a.body.length + b.toU8.length - b.toU8.length = a.body.length by omega,
        show (a.signed b.toU8).length - (a.body.length + b.toU8.length) - (22 + a.tail.comment.length) = a.cd.length by omega]
      simp only [Archive.signed, List.append_assoc]
      rw [drop_append_left' rfl, ← List.append_assoc, List.take_append_of_le_length (by simp only [List.length_append]; omega)]
  · intro h
    rw [Archive.signed] at h
    have h' := (List.append_inj' h (by simp only [wireEocd_length])).2
    have := wireEocd_inj h2 hs.size h'
    have hpos : 0 < b.toU8.length := by rw [hb.wf.toU8_length]; omega
    omega

example : Signable sampleArchive sampleBlock.toU8.length ∧
    sampleArchive.body.length + 2 * sampleBlock.toU8.length < 2 ^ 32 := ⟨sampleArchive_signable, by decide +kernel⟩

theorem RawSigned.digest {a : Archive} {b : SigningBlock} {m : Module} (h : RawSigned a b m) {E : Env} {p : Profile}
    (hb : b.WF) (h0 : b.fileStart = 0) (h1 : b.fileEnd = b.toU8.length) (hok : a.Ok) (hclean : a.CleanAt a.body.length)
    {algo : Algo} {d : Bytes} (hd : m.digest E p a.unsigned algo = .ok d) :
    b.toU8.length ≤ a.tail.comment.length + 2 ∧
    d = treeDigest (algo.hash E) [a.body, (a.unsigned.drop (a.body.length + b.toU8.length)).take a.cd.length,
      patchOffset (a.unsigned.drop (a.body.length + a.cd.length + b.toU8.length)) a.body.length] := by
  have hl := a.unsigned_length
  have ho := h.getOffsets p hb h0 h1 hok hclean
  unfold Module.getOffsets at ho
  unfold Module.digest Module.digestT at hd
  rw [ho, Res.ok_bind] at hd
  have hlen : (a.unsigned.drop (a.body.length + a.cd.length + b.toU8.length)).length =
      22 + a.tail.comment.length - b.toU8.length := by
    rw [List.length_drop]; omega
  have h20 : 20 ≤ (a.unsigned.drop (a.body.length + a.cd.length + b.toU8.length)).length := by
    unfold digestModule at hd
    obtain ⟨_, _, hd⟩ := Res.bind_eq_ok.mp hd
    obtain ⟨_, _, hd⟩ := Res.bind_eq_ok.mp hd
    obtain ⟨_, _, hd⟩ := Res.bind_eq_ok.mp hd
    obtain ⟨_, hd, _⟩ := Res.bind_eq_ok.mp hd
    unfold digestEocd at hd
    obtain ⟨_, hd, _⟩ := Res.bind_eq_ok.mp hd
    unfold eocdForDigest at hd
    dsimp only at hd
    obtain ⟨_, _, hd⟩ := Res.bind_eq_ok.mp hd
    obtain ⟨x, hd, _⟩ := Res.bind_eq_ok.mp hd
    simp only [FileOffsets.new] at hd
    cases hs : sliceFrom? (a.unsigned.drop (a.body.length + a.cd.length + b.toU8.length)) 20 with
    | none => rw [hs] at hd; cases hd
    | some y =>
      unfold sliceFrom? at hs
      split at hs
      · assumption
      · cases hs
  refine ⟨by omega, ?_⟩
  rw [digestModule_eq E p fullReads_ge fullReads_ge _ _ algo (by simp [FileOffsets.new])
    (by simp only [FileOffsets.new]; omega) (by simp only [FileOffsets.new]; omega) (by simpa only [FileOffsets.new] using h20)] at hd
  injection hd with hd
  rw [← hd]
  simp only [FileOffsets.new, List.drop_zero, Nat.sub_zero]
  congr 2
  · simp only [Archive.unsigned, List.append_assoc]
    exact take_append_left rfl
  · congr 2
    omega

theorem RawSigned.digest_exists {a : Archive} {b : SigningBlock} {m : Module} (h : RawSigned a b m) (E : Env) (p : Profile)
    (hb : b.WF) (h0 : b.fileStart = 0) (h1 : b.fileEnd = b.toU8.length) (hok : a.Ok) (hclean : a.CleanAt a.body.length)
    (algo : Algo) (hle : b.toU8.length ≤ a.tail.comment.length + 2) : ∃ d, m.digest E p a.unsigned algo = .ok d := by
  have hl := a.unsigned_length
  have ho := h.getOffsets p hb h0 h1 hok hclean
  unfold Module.getOffsets at ho
  unfold Module.digest Module.digestT
  rw [ho, Res.ok_bind, digestModule_eq E p fullReads_ge fullReads_ge _ _ algo (by simp [FileOffsets.new])
    (by simp only [FileOffsets.new]; omega) (by simp only [FileOffsets.new]; omega)
    (by simp only [FileOffsets.new, List.length_drop]; omega)]
  exact ⟨_, rfl⟩

/-- C43 fails for a second `sign_v2` on a raw module: with a comment of fewer than 4094 bytes it always fails, because the
positions of the first, not yet written, block are added to those of the unsigned file. -/
theorem C43_second_sign_fails {E E' : Env} {p p' : Profile} {a : Archive} {algo algo' : Algo} {cert cert' : Bytes}
    {key key' : PrivateKey} {m : Module} (hok : a.Ok) (hclean : a.CleanAt a.body.length) (hsz : a.body.length < 2 ^ 32)
    (hcom : a.tail.comment.length < 4094) (h : (Module.newRaw a.unsigned).signV2 E p a.unsigned algo cert key = .ok m) :
    ∀ m', m.signV2 E' p' a.unsigned algo' cert' key' ≠ .ok m' := by
  intro m' h'
  obtain ⟨b, s, hb, hmod, hraw, _⟩ := C42_raw_workflow hok hclean hsz h
  obtain ⟨s0, s1⟩ := built_span hb
  obtain ⟨d, _, _, hd, _⟩ := signV2_ok h'
  have := (hraw.digest hb.wf s0 s1 hok hclean hd).1
  have hpos : 0 < b.toU8.length := by rw [hb.wf.toU8_length]; omega
  omega

/-- C43, whatever the comment: if the second `sign_v2` succeeds, it signs another digest than the first, unless two different
inputs with the same hash value can be read off. -/
theorem C43_second_digest_differs {E : Env} {p p' : Profile} {a : Archive} {algo : Algo} {cert : Bytes}
    {key : PrivateKey} {m : Module} {d : Bytes} (hok : a.Ok) (hclean : a.CleanAt a.body.length) (hsz : a.body.length < 2 ^ 32)
    (h : (Module.newRaw a.unsigned).signV2 E p a.unsigned algo cert key = .ok m) (hE : FixedLength (algo.hash E))
    (hd : m.digest E p' a.unsigned algo = .ok d) (heq : d = contentDigest E a algo) :
    ∃ n, 0 < n ∧ Collision (algo.hash E)
      [a.body, (a.unsigned.drop (a.body.length + n)).take a.cd.length,
        patchOffset (a.unsigned.drop (a.body.length + a.cd.length + n)) a.body.length]
      [a.body, a.cd, wireEocd a.tail a.body.length] := by
  obtain ⟨b, s, hb, hmod, hraw, _⟩ := C42_raw_workflow hok hclean hsz h
  obtain ⟨s0, s1⟩ := built_span hb
  obtain ⟨hle, hd⟩ := hraw.digest hb.wf s0 s1 hok hclean hd
  have hok' : a.tail.comment.length ≤ 65535 := hok
  have hl := a.unsigned_length
  have hpos : 0 < b.toU8.length := by rw [hb.wf.toU8_length]; omega
  rw [hd] at heq
  have hlen : (a.unsigned.drop (a.body.length + a.cd.length + b.toU8.length)).length =
      22 + a.tail.comment.length - b.toU8.length := by
    rw [List.length_drop]; omega
  have hpl : (patchOffset (a.unsigned.drop (a.body.length + a.cd.length + b.toU8.length)) a.body.length).length =
      22 + a.tail.comment.length - b.toU8.length := by
    simp only [patchOffset, List.length_append, List.length_take, List.length_drop, leBytes_length]
    omega
  have hwl := wireEocd_length a.tail a.body.length
  rcases treeDigest_eq hE heq with h1 | h1
  · exfalso
    have h3 := (regions_of_pieces (by intro h; rw [h] at hpl; simp at hpl; omega) (by intro h; rw [h] at hwl; simp at hwl; omega)
      (by rw [hpl]; omega) (by rw [hwl]; omega) (fun _ => rfl) h1).2.2
    have := congrArg List.length h3
    omega
  · exact ⟨_, hpos, h1⟩

/-- The other hypothesis of `C43_second_digest_differs` is met by every raw signed module with a comment that is long enough. -/
theorem C43_second_digest_exists {E : Env} {p p' : Profile} {a : Archive} {algo : Algo} {cert : Bytes}
    {key : PrivateKey} {m : Module} (hok : a.Ok) (hclean : a.CleanAt a.body.length) (hsz : a.body.length < 2 ^ 32)
    (h : (Module.newRaw a.unsigned).signV2 E p a.unsigned algo cert key = .ok m) (hc : 16392 ≤ a.tail.comment.length) :
    ∃ d, m.digest E p' a.unsigned algo = .ok d := by
  obtain ⟨b, s, hb, hmod, hraw, _⟩ := C42_raw_workflow hok hclean hsz h
  obtain ⟨s0, s1⟩ := built_span hb
  have := built_length hb
  exact hraw.digest_exists E p' hb.wf s0 s1 hok hclean algo (by omega)

end Ksusig.Props
