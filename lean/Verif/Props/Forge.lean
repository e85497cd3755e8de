import Verif.Proofs.Post
import Verif.SpecForge
import Verif.Props.SignVerify

/-! # What acceptance proves: C77 -/

namespace Ksusig.Props

open Ksusig Spec

theorem algo_of_id {a b : Algo} (ha : Known a) (hb : AlgoOk b) (h : leBytes 4 a.toU32.toNat = leBytes 4 b.toU32.toNat) : a = b := by
  have h1 := leBytes4_inj a.toU32.toNat_lt b.toU32.toNat_lt h
  have h2 : a.toU32 = b.toU32 := UInt32.toNat_inj.mp h1
  have h3 := congrArg Algo.ofU32 h2
  have ca : Algo.ofU32 a.toU32 = a := by rcases ha with rfl | rfl <;> decide
  have cb : Algo.ofU32 b.toU32 = b := hb.canon
  rw [ca, cb] at h3
  exact h3

/-- Entry by entry, a parsed digest list that serialises to an honest one consists of honest entries. -/
theorem digests_lockstep : ∀ (data : List Digest) (ds : List (Algo × Bytes)) (r1 r2 : Bytes),
    (data.map Digest.weight).sum ≤ (ds.flatMap wireTagged).length → (ds.flatMap wireTagged).length < 2 ^ 32 →
    (∀ d ∈ data, d.size < 2 ^ 32) → data.flatMap Digest.toU8 ++ r1 = ds.flatMap wireTagged ++ r2 →
    ∀ d ∈ data, ∃ x ∈ ds, leBytes 4 d.algo.toU32.toNat = leBytes 4 x.1.toU32.toNat ∧ d.digest = x.2
  | [], _, _, _, _, _, _, _ => by intro d hd; cases hd
  | d :: data, [], _, _, hw, _, _, _ => by
    simp only [List.map_cons, List.sum_cons, Digest.weight, List.flatMap_nil, List.length_nil] at hw
    omega
  | d :: data, x :: ds, r1, r2, hw, hl, hs, h => by
    have hxl : (wireTagged x).length = 12 + x.2.length := by
      simp only [wireTagged, lp4, List.length_append, leBytes_length]; omega
    simp only [List.flatMap_cons, List.length_append, hxl] at hw hl
    simp only [List.map_cons, List.sum_cons, Digest.weight] at hw
    simp only [List.flatMap_cons, Digest.toU8, Digest.content, wireTagged, lp4, List.append_assoc] at h
    obtain ⟨h1, h⟩ := List.append_inj h (by simp)
    obtain ⟨h2, h⟩ := List.append_inj h (by simp)
    obtain ⟨h3, h⟩ := List.append_inj h (by simp)
    have hlen : d.digest.length = x.2.length := leBytes4_inj (by omega) (by omega) h3
    obtain ⟨h4, h⟩ := List.append_inj h hlen
    have hsz : d.size = 8 + x.2.length := by
      refine (leBytes4_inj (hs d (by simp)) ?_ h1).trans ?_
      · simp only [List.length_append, leBytes_length]; omega
      · simp only [List.length_append, leBytes_length]; omega
    rw [zeroPad_nil (by simp only [List.length_append, leBytes_length]; omega), List.nil_append] at h
    intro e he
    rcases List.mem_cons.mp he with rfl | he
    · exact ⟨x, by simp, h2, h4⟩
    · have hdw : 12 + d.digest.length = 12 + x.2.length := by rw [hlen]
      obtain ⟨y, hy, h5⟩ := digests_lockstep data ds r1 r2 (by omega) (by omega) (fun e he => hs e (by simp [he])) h e he
      exact ⟨y, by simp [hy], h5⟩

/-- A parsed digest list at the start of an honestly signed message holds only digests of the signed regions. -/
theorem honest_digests {E : Env} {u : KeyUse} (hu : u.Honest E) {D : Digests} (hD : D.Fits) {rest : Bytes}
    (hm : D.toU8 ++ rest = u.msg) {d : Digest} (hd : d ∈ D.data) (hk : Known d.algo) :
    d.digest = treeDigest (d.algo.hash E) u.parts := by
  obtain ⟨ds, rest', he, hlt, hds⟩ := hu
  rw [he] at hm
  simp only [Digests.toU8, lp4, Digests.content, List.append_assoc] at hm
  obtain ⟨h1, h2⟩ := List.append_inj hm (by simp)
  have hsz := leBytes4_inj hD.2.1 hlt h1
  obtain ⟨x, hx, h3, h4⟩ := digests_lockstep D.data ds _ _ (by rw [← hsz]; exact hD.1) hlt hD.2.2 h2 d hd
  obtain ⟨h5, h6⟩ := hds x hx
  have := algo_of_id hk h5 h3
  rw [h4, this]
  exact h6

theorem known_of_crypto {E : Env} {a : Algo} {pk msg sig : Bytes} (h : CryptoOk E a pk msg sig) : Known a := by
  rcases h with ⟨h, _⟩ | ⟨h, _⟩
  · exact .inl h
  · exact .inr h

/-- A message whose signatures verify and whose first digest for some signature is the digest of `parts` is accounted for. -/
theorem accounted {E : Env} {uses : KeyUse → Prop} (hu : ∀ u, uses u → u.Honest E) (h2 : FixedLength E.sha256)
    (h5 : FixedLength E.sha512) {D : Digests} (hD : D.Fits) {rest pk msg : Bytes} (hm : D.toU8 ++ rest = msg) {sigs : List Sig}
    {g : Sig} (hg : g ∈ sigs) (hc : CryptoOk E g.algo pk msg g.signature) {d : Digest} (hd : FirstFor g.algo D.data d)
    {parts : List Bytes} (hdig : d.digest = treeDigest (g.algo.hash E) parts) : Accounted E uses parts pk msg sigs := by
  by_cases hf : ∃ u, uses u ∧ u.pk = pk ∧ u.msg = msg
  · obtain ⟨u, hu1, hu2, hu3⟩ := hf
    obtain ⟨pre, post, hdd, _, hda⟩ := hd
    have hk := known_of_crypto hc
    have e := honest_digests (hu u hu1) hD (hm.trans hu3.symm) (d := d) (by rw [hdd]; simp) (by rw [hda]; exact hk)
    rw [hda, hdig] at e
    have hfix : FixedLength (g.algo.hash E) := by
      rcases hk with h | h <;> rw [h] <;> assumption
    rcases treeDigest_eq hfix e.symm with h | h
    · exact .inl ⟨u, hu1, hu2, h⟩
    · exact .inr (.inr ⟨u, hu1, hu2, _, hk, h⟩)
  · exact .inr (.inl ⟨g, hg, hc, fun u hu1 hu2 => hf ⟨u, hu1, hu2⟩⟩)

theorem table_known_inv {d256 d384 x : Bytes} {a : Algo} (hk : Known a) (h : table d256 d384 a.toU32 = some x) :
    (a = .p256 ∧ x = d256) ∨ (a = .p384 ∧ x = d384) := by
  rcases hk with rfl | rfl
  · simp [table, Algo.toU32] at h; exact .inl ⟨rfl, h.symm⟩
  · simp [table, Algo.toU32] at h; exact .inr ⟨rfl, h.symm⟩

theorem v2Signers_fits {b : SigningBlock} (h : ∀ v ∈ b.content, v.Fits) {s : SignerV2} (hs : s ∈ v2Signers b) :
    s.signedData.digests.Fits := by
  obtain ⟨v, hv, hs⟩ := List.mem_flatMap.mp hs
  have := h v hv
  cases v with
  | v2 x => exact this s hs
  | _ => cases hs

theorem stamps_fits {b : SigningBlock} (h : ∀ v ∈ b.content, v.Fits) {s : StampBlock} (hs : s ∈ stamps b) :
    s.signedData.digests.Fits := by
  obtain ⟨v, hv, hs⟩ := List.mem_filterMap.mp hs
  have := h v hv
  cases v with
  | stamp x => cases hs; exact this
  | _ => cases hs

theorem signedV2_drop (s : SignedDataV2) : ∃ rest, s.digests.toU8 ++ rest = s.toU8.drop 4 := by
  refine ⟨s.certs.toU8 ++ s.attrs.toU8 ++ zeroPad s.size s.content, ?_⟩
  simp only [SignedDataV2.toU8, SignedDataV2.content, List.append_assoc]
  rw [List.drop_left' (by simp)]

theorem signedStamp_drop (s : SignedDataStamp) : ∃ rest, s.digests.toU8 ++ rest = s.toU8.drop 4 := by
  refine ⟨s.certs.toU8 ++ s.attrs.toU8, ?_⟩
  simp only [SignedDataStamp.toU8, SignedDataStamp.content, List.append_assoc]
  rw [List.drop_left' (by simp)]

/-- The regions the digest covers do not depend on the algorithm. In a release build the directory region of a file whose
signing block lies behind the end record reaches to the end of the file. -/
theorem digest_covers {E : Env} {p : Profile} {file d : Bytes} {al : Algo} (h : (Module.new file).digest E p file al = .ok d) :
    ∃ s e n k, s ≤ e ∧ ∀ E al, (Module.new file).digest E p file al =
      .ok (treeDigest (al.hash E) [file.take s, (file.drop e).take n, patchOffset (file.drop k) s]) := by
  unfold Module.digest Module.digestT at h
  obtain ⟨o, ho, h2⟩ := Res.bind_eq_ok.mp h
  have ho' : (Module.new file).getOffsets p file = .ok o := ho
  have hse : o.startContent = 0 ∧ o.stopContent ≤ o.startCd := by
    unfold Module.getOffsets Module.getOffsetsT at ho'
    obtain ⟨e, he, h3⟩ := Res.bind_eq_ok.mp ho'
    split at h3
    · rename_i b hb
      cases h3
      obtain ⟨e', pre, pairs, post, _, hf, hs, hen, _⟩ :=
        C15_last_magic_partial (show (Module.new file).getSigningBlock p file = .ok b from hb)
      have hraw : (Module.new file).raw = false := rfl
      rw [hraw]
      simp only [FileOffsets.new, Bool.false_eq_true, if_false]
      exact ⟨trivial, by omega⟩
    · split at h3
      · cases h3; simp [FileOffsets.withoutSignature, FileOffsets.new]
      · cases h3
    · cases h3
  unfold digestModule at h2
  obtain ⟨n1, e1, h3⟩ := Res.bind_eq_ok.mp h2
  obtain ⟨n2, e2, h4⟩ := Res.bind_eq_ok.mp h3
  obtain ⟨n3, e3, h5⟩ := Res.bind_eq_ok.mp h4
  obtain ⟨c3, e4, _⟩ := Res.bind_eq_ok.mp h5
  have hn1 : n1 = o.stopContent := by
    rw [hse.1, usub_of_le (Nat.zero_le _)] at e1
    exact (Res.ok.inj e1).symm
  subst hn1
  have h20 : 20 ≤ (file.drop o.startEocd).length := by
    unfold digestEocd eocdForDigest at e4
    obtain ⟨x, e5, _⟩ := Res.bind_eq_ok.mp e4
    obtain ⟨_, _, e6⟩ := Res.bind_eq_ok.mp e5
    obtain ⟨_, e7, _⟩ := Res.bind_eq_ok.mp e6
    unfold sliceFrom? at e7
    split at e7
    · assumption
    · cases e7
  refine ⟨o.stopContent, o.startCd, n2, o.startEocd, hse.2, fun E al => ?_⟩
  unfold Module.digest Module.digestT
  rw [ho, Res.ok_bind]
  unfold digestModule
  rw [e1, Res.ok_bind, e2, Res.ok_bind, e3, Res.ok_bind]
  simp only [Res.ok_bind, digestRegion_eq E fullReads_ge, digestEocd, eocdForDigest_eq h20,
    chunksBy_full fullReads_ge _ _ _ (Nat.le_refl _), hse.1, List.drop_zero]
  congr 1
  simp only [digestFinal, treeDigest, topInput, List.flatMap_cons, List.flatMap_nil, List.append_nil, List.map_append,
    List.length_append, List.length_map, List.flatten_append, List.append_assoc]
  rfl

theorem accepted_accounted {E : Env} {p : Profile} {builtin : Bytes} {root : Option Bytes} {now : Nat} {file : Bytes}
    {uses : KeyUse → Prop} (hu : ∀ u, uses u → u.Honest E) (h2 : FixedLength E.sha256) (h5 : FixedLength E.sha512)
    {parts : List Bytes} (hparts : ∀ al, (Module.new file).digest E p file al = .ok (treeDigest (al.hash E) parts))
    (h : cliVerify E p builtin root now file = .ok ()) :
    ∃ b cert, (Module.new file).getSigningBlock p file = .ok b ∧ E.pemParse (root.getD builtin) = some ("CERTIFICATE", cert) ∧
      v2Signers b ≠ [] ∧
      (∀ s ∈ v2Signers b, (∃ leaf rest, Trusted E [cert] now leaf rest ∧ E.certSpki leaf = some s.pubKey.data) ∧
        Accounted E uses parts s.pubKey.data (s.signedData.toU8.drop 4) s.sigs.data) ∧
      (∀ s rest, stamps b = s :: rest → (∃ leaf, Trusted E [cert] now leaf [] ∧ E.certSpki leaf = some s.pubKey.data) ∧
        Accounted E uses parts s.pubKey.data (s.signedData.toU8.drop 4) s.sigs.data) := by
  obtain ⟨b, cert, d256, d384, hb, hr, hd2, hd5, hne, hgood, hst⟩ := C35_verify_command.mp h
  have hfits : ∀ v ∈ b.content, v.Fits := by
    have hb' := hb
    rw [getSigningBlock_new] at hb'
    obtain ⟨e, _, h1⟩ := Res.bind_eq_ok.mp hb'
    exact fromReader_fits h1
  rw [hparts] at hd2 hd5
  have hdig : ∀ {a x}, Known a → table d256 d384 a.toU32 = some x → x = treeDigest (a.hash E) parts := by
    intro a x hk hx
    rcases table_known_inv hk hx with ⟨rfl, rfl⟩ | ⟨rfl, rfl⟩
    · exact (Res.ok.inj hd2).symm
    · exact (Res.ok.inj hd5).symm
  refine ⟨b, cert, hb, hr, hne, fun s hs => ?_, fun s rest hs => ?_⟩
  · obtain ⟨k1, k2, k3, leaf, rest, _, k4, k5⟩ := hgood s hs
    refine ⟨⟨leaf, rest, k5, k4⟩, ?_⟩
    obtain ⟨g, hg⟩ := List.exists_mem_of_ne_nil _ k1
    obtain ⟨d, hd, ht⟩ := k3 g hg
    obtain ⟨tl, htl⟩ := signedV2_drop s.signedData
    exact accounted hu h2 h5 (v2Signers_fits hfits hs) htl hg (k2 g hg) hd (hdig (known_of_crypto (k2 g hg)) ht)
  · obtain ⟨⟨g, hg, d, hd⟩, k2, k3, leaf, rest', _, k4, k5⟩ := hst s rest hs
    refine ⟨⟨leaf, k5, k4⟩, ?_⟩
    obtain ⟨tl, htl⟩ := signedStamp_drop s.signedData
    exact accounted hu h2 h5 (stamps_fits hfits (by rw [hs]; simp)) htl hg (k2 g hg) hd
      (hdig (known_of_crypto (k2 g hg)) (k3 g hg d hd))

/-- C77, in every build: a file the verify command accepts has a V2 signer, and every V2 signer and the first source stamp is
accounted for: a trusted leaf certificate carries its key, and that key was used by its holder for exactly the regions the
digest of this file covers, or one of its signatures is a forgery, or two inputs with the same hash value can be read off. -/
theorem C77_accepted_is_accounted {E : Env} {p : Profile} {builtin : Bytes} {root : Option Bytes} {now : Nat} {file : Bytes}
    {uses : KeyUse → Prop} (hu : ∀ u, uses u → u.Honest E) (h2 : FixedLength E.sha256) (h5 : FixedLength E.sha512)
    (h : cliVerify E p builtin root now file = .ok ()) :
    ∃ b cert start cd n eocd, (Module.new file).getSigningBlock p file = .ok b ∧ start ≤ cd ∧
      (∀ al, (Module.new file).digest E p file al = .ok (treeDigest (al.hash E)
        [file.take start, (file.drop cd).take n, patchOffset (file.drop eocd) start])) ∧
      E.pemParse (root.getD builtin) = some ("CERTIFICATE", cert) ∧ v2Signers b ≠ [] ∧
      (∀ s ∈ v2Signers b, (∃ leaf rest, Trusted E [cert] now leaf rest ∧ E.certSpki leaf = some s.pubKey.data) ∧
        Accounted E uses [file.take start, (file.drop cd).take n, patchOffset (file.drop eocd) start]
          s.pubKey.data (s.signedData.toU8.drop 4) s.sigs.data) ∧
      (∀ s rest, stamps b = s :: rest → (∃ leaf, Trusted E [cert] now leaf [] ∧ E.certSpki leaf = some s.pubKey.data) ∧
        Accounted E uses [file.take start, (file.drop cd).take n, patchOffset (file.drop eocd) start]
          s.pubKey.data (s.signedData.toU8.drop 4) s.sigs.data) := by
  obtain ⟨_, _, _, _, _, _, hd2, _⟩ := C35_verify_command.mp h
  obtain ⟨s, e, n, k, hle, hparts⟩ := digest_covers hd2
  obtain ⟨b, cert, h1, h3, h4⟩ := accepted_accounted hu h2 h5 (hparts E) h
  exact ⟨b, cert, s, e, n, k, h1, hle, hparts E, h3, h4⟩

theorem patchOffset_twice {t : Bytes} {a b : Nat} (ht : 22 ≤ t.length) :
    patchOffset (patchOffset t a) b = patchOffset t b := by
  have h1 : (t.take 16).length = 16 := by rw [List.length_take]; omega
  unfold patchOffset
  rw [List.append_assoc (t.take 16), List.take_left' h1, ← List.append_assoc (t.take 16), List.drop_left' (by simp; omega)]

/-! ### Keys that are only used by the sign command -/

/-- One successful run of the sign command on a module: `a` is what the input holds, `out` what was written. -/
def SignRun (E : Env) (p : Profile) (a : Archive) (out : Bytes) : Prop :=
  ∃ clock m file, SignInput a file ∧ (∀ n, n ≤ 16392 → Signable a n) ∧
    (∀ c, m.v2 = some c ∨ m.stamp = some c → Known c.algo) ∧ cliSignModule E p clock m false file = (some out, .ok ())

theorem signRun_block {E : Env} {p : Profile} {a : Archive} {out : Bytes} (h : SignRun E p a out) :
    ∃ (b b' : SigningBlock) (pairs : List (Algo × Bytes)), out = a.signed b.toU8 ∧ (Module.new out).getSigningBlock p out = .ok b' ∧
      Split p out a.body b.toU8 a.cd (wireEocd a.tail (a.body.length + b.toU8.length)) ∧
      (∀ x ∈ pairs, AlgoOk x.1 ∧ x.2 = contentDigest E a x.1) ∧
      (∀ s ∈ v2Signers b', s.signedData.digests = pairDigests pairs) ∧
      (∀ s ∈ stamps b', s.signedData.digests = pairDigests pairs) := by
  obtain ⟨clock, m, file, hin, hs, hk, h⟩ := h
  obtain ⟨r, hr, hc⟩ := C25_sign_command (E := E) (p := p) (clock := clock) hin hs hk
  rw [h] at hc
  cases r with
  | err e => cases hc
  | panic => cases hc
  | ok b =>
  dsimp only at hc
  injection hc with hc _
  injection hc with hc
  subst hc
  have hmap : ((m.requiredAlgorithms.map fun al => (al, contentDigest E a al)).map fun x => Digest.new x.1 x.2) =
      m.requiredAlgorithms.map fun al => Digest.new al (contentDigest E a al) := by
    rw [List.map_map]; rfl
  have hsign : m.sign E p clock (pairDigests (m.requiredAlgorithms.map fun al => (al, contentDigest E a al))) = .ok b := by
    unfold pairDigests; rw [hmap]; exact hr
  have hpairs : ∀ x ∈ m.requiredAlgorithms.map fun al => (al, contentDigest E a al), AlgoOk x.1 ∧ x.2 = contentDigest E a x.1 := by
    intro x hx
    obtain ⟨al, hal, rfl⟩ := List.mem_map.mp hx
    refine ⟨?_, rfl⟩
    rcases ((C37_required_algorithms m).2 al).mp hal with ⟨c, hc, rfl⟩ | ⟨c, hc, rfl⟩
    · rcases hk c (.inl hc) with h | h <;> simp [AlgoOk, h]
    · rcases hk c (.inr hc) with h | h <;> simp [AlgoOk, h]
  have hb : Built p b := sign_built (fun x hx => (hpairs x hx).1) hsign
  have hsb := hs _ (built_length hb)
  have hget := getSigningBlock_signed p hb.wf hsb.comment hsb.cleanNew hsb.size
  obtain ⟨hv2, hst⟩ := signers_of_shape hsign
  refine ⟨b, _, _, rfl, hget, split_signed p hb.wf hsb.comment hsb.cleanNew hsb.size, hpairs, fun s hs => ?_, fun s hs => ?_⟩
  · have hs : s ∈ v2Signers b := hs
    rcases hv2 with ⟨_, h0⟩ | ⟨_, g, _, hg, hmade⟩
    · rw [h0] at hs; cases hs
    · rw [hg] at hs
      have : s = g := by simpa using hs
      rw [this]; exact hmade.digests
  · have hs : s ∈ stamps b := hs
    rcases hst with ⟨_, h0⟩ | ⟨_, g, _, hg, hmade⟩
    · rw [h0] at hs; cases hs
    · rw [hg] at hs
      have : s = g := by simpa using hs
      rw [this]; exact hmade.digests

theorem pairDigests_honest {E : Env} {parts : List Bytes} {pairs : List (Algo × Bytes)} {pk rest msg : Bytes}
    (h : ∀ x ∈ pairs, AlgoOk x.1 ∧ x.2 = treeDigest (x.1.hash E) parts) (hf : (pairDigests pairs).Fits)
    (hm : (pairDigests pairs).toU8 ++ rest = msg) : KeyUse.Honest E ⟨pk, msg, parts⟩ := by
  have hok : (⟨pairs, [], [], [], []⟩ : SignerSpec).Ok := by
    refine ⟨fun d hd => (h d hd).1, ?_⟩
    intro d hd; cases hd
  have hw : (pairDigests pairs).toU8 = lp4 (pairs.flatMap wireTagged) := digests_wire hok
  refine ⟨pairs, rest, by rw [← hw]; exact hm.symm, ?_, h⟩
  have h1 : (pairDigests pairs).size = (pairs.flatMap wireTagged).length := by
    refine (buildDigests_wf hok).1.trans ?_
    simp only [SignerSpec.buildDigests, Digests.new, List.length_flatMap, List.map_map]
    congr 1
    refine List.map_congr_left fun x _ => ?_
    simp only [Function.comp, Digest.new, wireTagged, lp4, List.length_append, leBytes_length]
    omega
  rw [← h1]
  exact hf.2.1

/-- C77 for keys that are only used by the sign command: whatever file the verify command accepts, each of its V2 signers (and
its first stamp) has a key the command was run with on a module with the same entries, the same directory and the same
end-of-directory record up to its directory offset; or it shows a forged signature; or it shows two inputs with the same
hash value. The runs are any set of runs of the command. (Missing: release builds, for files whose signing block lies behind the
end record, where only `C77_accepted_is_accounted` holds.) -/
theorem C77_accepted_was_signed_partial {E : Env} {p p' : Profile} {builtin : Bytes} {root : Option Bytes} {now : Nat} {file : Bytes}
    {runs : Archive → Bytes → Prop} (hruns : ∀ a out, runs a out → SignRun E p' a out)
    (h2 : FixedLength E.sha256) (h5 : FixedLength E.sha512)
    {body block cd tail : Bytes} (hsp : Split p file body block cd tail) (h : cliVerify E p builtin root now file = .ok ()) :
    ∃ b, (Module.new file).getSigningBlock p file = .ok b ∧ v2Signers b ≠ [] ∧
      ∀ pk msg sigs, ((∃ s ∈ v2Signers b, pk = s.pubKey.data ∧ msg = s.signedData.toU8.drop 4 ∧ sigs = s.sigs.data) ∨
          (∃ s rest, stamps b = s :: rest ∧ pk = s.pubKey.data ∧ msg = s.signedData.toU8.drop 4 ∧ sigs = s.sigs.data)) →
        (∃ a out msg', runs a out ∧ SignedIn p' out pk msg' ∧ a.body = body ∧ a.cd = cd ∧
          ∀ off, patchOffset tail off = wireEocd a.tail off) ∨
        (∃ g ∈ sigs, CryptoOk E g.algo pk msg g.signature ∧ ∀ a out, runs a out → ¬ SignedIn p' out pk msg) ∨
        (∃ a out msg', runs a out ∧ SignedIn p' out pk msg' ∧ ∃ al, Known al ∧
          Collision (al.hash E) [a.body, a.cd, wireEocd a.tail a.body.length] [body, cd, patchOffset tail body.length]) := by
  let uses : KeyUse → Prop := fun u => ∃ a out, runs a out ∧ SignedIn p' out u.pk u.msg ∧
    u.parts = [a.body, a.cd, wireEocd a.tail a.body.length]
  have hu : ∀ u, uses u → u.Honest E := by
    rintro ⟨pk, msg, parts⟩ ⟨a, out, hr, ⟨b, hb, hm⟩, hparts⟩
    cases hparts
    obtain ⟨b1, b', pairs, _, hb', _, hpairs, hv, hst⟩ := signRun_block (hruns a out hr)
    cases hb.symm.trans hb'
    have hfits : ∀ v ∈ b.content, v.Fits := by
      rw [getSigningBlock_new] at hb
      obtain ⟨e, _, h1⟩ := Res.bind_eq_ok.mp hb
      exact fromReader_fits h1
    rcases hm with ⟨s, hs, _, hmsg⟩ | ⟨s, hs, _, hmsg⟩
    · obtain ⟨rest, hrest⟩ := signedV2_drop s.signedData
      have hf := v2Signers_fits hfits hs
      rw [hv s hs] at hrest hf
      exact pairDigests_honest hpairs hf (hrest.trans hmsg.symm)
    · obtain ⟨rest, hrest⟩ := signedStamp_drop s.signedData
      have hf := stamps_fits hfits hs
      rw [hst s hs] at hrest hf
      exact pairDigests_honest hpairs hf (hrest.trans hmsg.symm)
  have conv : ∀ pk msg sigs, Accounted E uses [body, cd, patchOffset tail body.length] pk msg sigs →
      (∃ a out msg', runs a out ∧ SignedIn p' out pk msg' ∧ a.body = body ∧ a.cd = cd ∧
          ∀ off, patchOffset tail off = wireEocd a.tail off) ∨
        (∃ g ∈ sigs, CryptoOk E g.algo pk msg g.signature ∧ ∀ a out, runs a out → ¬ SignedIn p' out pk msg) ∨
        (∃ a out msg', runs a out ∧ SignedIn p' out pk msg' ∧ ∃ al, Known al ∧
          Collision (al.hash E) [a.body, a.cd, wireEocd a.tail a.body.length] [body, cd, patchOffset tail body.length]) := by
    intro pk msg sigs hacc
    rcases hacc with ⟨u, ⟨a, out, hr, hin, hparts⟩, rfl, heq⟩ | ⟨g, hg, hc, hno⟩ | ⟨u, ⟨a, out, hr, hin, hparts⟩, rfl, al, hal, hcol⟩
    · left
      obtain ⟨b1, b', _, _, _, hsp', _⟩ := signRun_block (hruns a out hr)
      rw [hparts, ← patchOffset_wireEocd a.tail (a.body.length + b1.toU8.length)] at heq
      obtain ⟨t1, t2, t3⟩ := hsp.tail_bounds
      obtain ⟨t1', t2', t3'⟩ := hsp'.tail_bounds
      have hl := patchOffset_length (a := body.length) t1
      have hl' := patchOffset_length (a := a.body.length) t1'
      obtain ⟨e1, e2, e3⟩ := regions_of_pieces
        (by intro h; rw [h] at hl'; simp at hl'; omega) (by intro h; rw [h] at hl; simp at hl; omega)
        (by omega) (by omega) (fun h => patchOffset_inj_off t3' t3 t1' t1 h) heq
      refine ⟨a, out, _, hr, hin, e1, e2, fun off => ?_⟩
      rw [← patchOffset_twice (a := body.length) (b := off) t1, ← e3, patchOffset_wireEocd, patchOffset_wireEocd]
    · exact .inr (.inl ⟨g, hg, hc, fun a out hr hin => hno ⟨pk, msg, _⟩ ⟨a, out, hr, hin, rfl⟩ ⟨rfl, rfl⟩⟩)
    · exact .inr (.inr ⟨a, out, _, hr, hin, al, hal, by rw [← hparts]; exact hcol⟩)
  obtain ⟨b, cert, hb, _, hne, hv, hst⟩ := accepted_accounted hu h2 h5 (hsp.digest E) h
  refine ⟨b, hb, hne, fun pk msg sigs hpm => conv pk msg sigs ?_⟩
  rcases hpm with ⟨s, hs, rfl, rfl, rfl⟩ | ⟨s, rest, hs, rfl, rfl, rfl⟩
  · exact (hv s hs).2
  · exact (hst s rest hs).2

/-- The same in development builds, for every accepted file. -/
theorem C77_accepted_was_signed_dev {E : Env} {p' : Profile} {builtin : Bytes} {root : Option Bytes} {now : Nat} {file : Bytes}
    {runs : Archive → Bytes → Prop} (hruns : ∀ a out, runs a out → SignRun E p' a out)
    (h2 : FixedLength E.sha256) (h5 : FixedLength E.sha512) (h : cliVerify E .dev builtin root now file = .ok ()) :
    ∃ body block cd tail b, file = body ++ block ++ cd ++ tail ∧ Split .dev file body block cd tail ∧
      (Module.new file).getSigningBlock .dev file = .ok b ∧ v2Signers b ≠ [] ∧
      ∀ pk msg sigs, ((∃ s ∈ v2Signers b, pk = s.pubKey.data ∧ msg = s.signedData.toU8.drop 4 ∧ sigs = s.sigs.data) ∨
          (∃ s rest, stamps b = s :: rest ∧ pk = s.pubKey.data ∧ msg = s.signedData.toU8.drop 4 ∧ sigs = s.sigs.data)) →
        (∃ a out msg', runs a out ∧ SignedIn p' out pk msg' ∧ a.body = body ∧ a.cd = cd ∧
          ∀ off, patchOffset tail off = wireEocd a.tail off) ∨
        (∃ g ∈ sigs, CryptoOk E g.algo pk msg g.signature ∧ ∀ a out, runs a out → ¬ SignedIn p' out pk msg) ∨
        (∃ a out msg', runs a out ∧ SignedIn p' out pk msg' ∧ ∃ al, Known al ∧
          Collision (al.hash E) [a.body, a.cd, wireEocd a.tail a.body.length] [body, cd, patchOffset tail body.length]) := by
  obtain ⟨_, _, _, _, _, _, hd2, _⟩ := C35_verify_command.mp h
  obtain ⟨body, block, cd, tail, hsp⟩ := split_of_digest_dev hd2
  obtain ⟨b, hb⟩ := C77_accepted_was_signed_partial hruns h2 h5 hsp h
  exact ⟨body, block, cd, tail, b, hsp.file_eq, hsp, hb⟩

/-- A run of the sign command whose output the verify command accepts, with hashes of fixed length. -/
example : ∃ out, SignRun toyEnv .dev plainArchive out ∧ cliVerify toyEnv .dev [7] none 0 out = .ok () ∧
    FixedLength toyEnv.sha256 ∧ FixedLength toyEnv.sha512 := by
  have hsound : ∀ c, (ModuleSigner.v2Only toyConfig).v2 = some c ∨ (ModuleSigner.v2Only toyConfig).stamp = some c →
      Sound toyEnv c := by
    rintro c (h | h) <;> cases h
    exact toyConfig_sound
  have hk := fun c hc => known_of_matching (hsound c hc).matching
  obtain ⟨r, hr, hc⟩ := C25_sign_command (E := toyEnv) (p := .dev) (clock := some 1700000000)
    (m := .v2Only toyConfig) plainArchive_input plainArchive_signable hk
  have hok : ∃ b, (ModuleSigner.v2Only toyConfig).sign toyEnv .dev (some 1700000000)
    (Digests.new ((ModuleSigner.v2Only toyConfig).requiredAlgorithms.map fun al =>
      Digest.new al (contentDigest toyEnv plainArchive al))) = .ok b := Res.exists_of_isOk (by decide +kernel)
  obtain ⟨b, hb⟩ := hok
  rw [hb] at hr
  subst hr
  refine ⟨_, ⟨_, _, _, plainArchive_input, plainArchive_signable, hk, hc⟩,
    (C25_sign_then_verify_partial plainArchive_input plainArchive_signable hsound hc).2.2 [7] none [7] 0 rfl (by simp [ModuleSigner.v2Only])
      ?_ ?_, toyHash_fixed (by omega), toyHash_fixed (by omega)⟩
  · intro c h; cases h; exact ⟨by simp, .inl (by simp [toyConfig])⟩
  · intro c h; cases h

end Ksusig.Props
