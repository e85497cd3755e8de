import Verif.Model.Signer
import Verif.Proofs.Verify
import Verif.Proofs.Block

/-! What the signers return. -/

namespace Ksusig

open Spec

/-- The certificates a V2 signer stores. -/
theorem certs_new_data (c : SignerConfig) :
    (Certs.new ([Cert.new c.cert] ++ c.chain.map Cert.new)).data.map (·.cert) = c.cert :: c.chain := by
  simp only [Certs.new, Cert.new, List.map_append, List.map_map, List.singleton_append, List.map_cons]
  congr 1
  rw [List.map_congr_left (g := id) (by intro a _; rfl), List.map_id]

/-- The signed data of a V2 signer. -/
def v2SignedData (c : SignerConfig) (ds : Digests) : SignedDataV2 :=
  SignedDataV2.new ds (Certs.new ([Cert.new c.cert] ++ c.chain.map Cert.new)) (Attrs.new [])

theorem v2Sign_ok {E : Env} {c : SignerConfig} {ds : Digests} {s : SchemeV2} :
    v2Sign E c ds = .ok s ↔ ∃ sig pk, c.algo.sign E c.key ((v2SignedData c ds).toU8.drop 4) = .ok sig ∧
      c.key.publicKeyDer E = .ok pk ∧
      s = SchemeV2.new (SignersV2.new [SignerV2.new (v2SignedData c ds) (Sigs.new [Sig.new c.algo sig]) (PubKey.new pk)]) := by
  unfold v2Sign
  dsimp only
  rw [show SignedDataV2.new ds (Certs.new ([Cert.new c.cert] ++ c.chain.map Cert.new)) (Attrs.new []) =
    v2SignedData c ds from rfl, sliceFrom?_4_signed]
  simp only [Res.ofOption_some, Res.ok_bind, Res.bind_eq_ok]
  constructor
  · rintro ⟨sig, h1, pk, h2, h3⟩
    cases h3
    exact ⟨sig, pk, h1, h2, rfl⟩
  · rintro ⟨sig, pk, h1, h2, rfl⟩
    exact ⟨sig, h1, pk, h2, rfl⟩

/-- The signed data of a stamp. -/
def stampSignedData (c : SignerConfig) (attrs : Attrs) (ds : Digests) : SignedDataStamp :=
  SignedDataStamp.new ds (Certs.new [Cert.new c.cert]) attrs

theorem stampSign_ok {E : Env} {c : SignerConfig} {ts : Bool} {clock : Option UInt64} {ds : Digests} {s : SourceStamp} :
    stampSign E c ts clock ds = .ok s ↔ ∃ attrs sig pk, stampAttrs ts clock = .ok attrs ∧
      c.algo.sign E c.key ((stampSignedData c attrs ds).toU8.drop 4) = .ok sig ∧ c.key.publicKeyDer E = .ok pk ∧
      s = SourceStamp.new (StampBlock.new (stampSignedData c attrs ds) (Sigs.new [Sig.new c.algo sig]) (PubKey.new pk)) := by
  unfold stampSign
  dsimp only
  rw [Res.bind_eq_ok]
  constructor
  · rintro ⟨attrs, h0, h⟩
    rw [show SignedDataStamp.new ds (Certs.new [Cert.new c.cert]) attrs = stampSignedData c attrs ds from rfl,
      sliceFrom?_4_stamp] at h
    simp only [Res.ofOption_some, Res.ok_bind, Res.bind_eq_ok] at h
    obtain ⟨sig, h1, pk, h2, h3⟩ := h
    cases h3
    exact ⟨attrs, sig, pk, h0, h1, h2, rfl⟩
  · rintro ⟨attrs, sig, pk, h0, h1, h2, rfl⟩
    refine ⟨attrs, h0, ?_⟩
    rw [show SignedDataStamp.new ds (Certs.new [Cert.new c.cert]) attrs = stampSignedData c attrs ds from rfl,
      sliceFrom?_4_stamp]
    simp only [Res.ofOption_some, Res.ok_bind, Res.bind_eq_ok]
    exact ⟨sig, h1, pk, h2, rfl⟩

/-- The attribute list of a stamp: nothing, or the time. -/
theorem stampAttrs_ok {ts : Bool} {clock : Option UInt64} {attrs : Attrs} (h : stampAttrs ts clock = .ok attrs) :
    (ts = false ∧ attrs = Attrs.new []) ∨
      ∃ t, ts = true ∧ clock = some t ∧ attrs = Attrs.new [⟨12, 0xe43c5946, leBytes 8 t.toNat⟩] := by
  unfold stampAttrs at h
  cases ts with
  | false => left; cases h; exact ⟨rfl, rfl⟩
  | true =>
    right
    simp only [if_true] at h
    obtain ⟨t, h1, h2⟩ := Res.bind_eq_ok.mp h
    cases clock with
    | none => cases h1
    | some t' =>
      cases h1
      cases h2
      exact ⟨t, rfl, rfl, by rw [leBytes_length]; rfl⟩

theorem Algo.sign_ok {E : Env} {a : Algo} {key : PrivateKey} {d sig : Bytes} (h : a.sign E key d = .ok sig) :
    (∃ k, a = .p256 ∧ key = .p256 k ∧ sig = E.p256Sign k (E.sha256 d)) ∨
      (∃ k, a = .p384 ∧ key = .p384 k ∧ sig = E.p384Sign k (E.sha512 d)) := by
  unfold Algo.sign at h
  cases a <;> cases key <;> cases h
  · exact .inl ⟨_, rfl, rfl, rfl⟩
  · exact .inr ⟨_, rfl, rfl, rfl⟩

/-- What `finish` appends. -/
theorem finish_ok {p : Profile} {m : ModuleSigner} {blocks : List Value} {b : SigningBlock}
    (h : m.finish p blocks = .ok b) :
    ∃ pad, b.content = blocks ++ pad ∧ (pad = [] ∨ (m.padding = true ∧ ∃ n, pad = [padBlock n])) := by
  unfold ModuleSigner.finish at h
  split at h
  · rename_i hp
    obtain ⟨_, pad, h1, _, _, rfl⟩ := SigningBlock.newWithPadding_ok h
    exact ⟨pad, rfl, h1.imp id fun h => ⟨hp, h⟩⟩
  · obtain ⟨_, rfl⟩ := SigningBlock.new_eq_ok.mp h
    exact ⟨[], by simp, .inl rfl⟩

/-- The parts `sign` puts together. -/
theorem sign_ok {E : Env} {p : Profile} {clock : Option UInt64} {m : ModuleSigner} {ds : Digests} {b : SigningBlock}
    (h : m.sign E p clock ds = .ok b) :
    ∃ b1 b2, m.signV2Part E ds = .ok b1 ∧ m.signStampPart E clock ds = .ok b2 ∧ b1 ++ b2 ≠ [] ∧
      m.finish p (b1 ++ b2) = .ok b := by
  unfold ModuleSigner.sign at h
  obtain ⟨b1, h1, h⟩ := Res.bind_eq_ok.mp h
  obtain ⟨b2, h2, h⟩ := Res.bind_eq_ok.mp h
  dsimp only at h
  split at h
  · cases h
  · rename_i hne
    exact ⟨b1, b2, h1, h2, by simpa using hne, h⟩

theorem signV2Part_ok {E : Env} {m : ModuleSigner} {ds : Digests} {b1 : List Value} (h : m.signV2Part E ds = .ok b1) :
    (m.v2 = none ∧ b1 = []) ∨ ∃ c s, m.v2 = some c ∧ v2Sign E c ds = .ok s ∧ b1 = [.v2 s] := by
  unfold ModuleSigner.signV2Part at h
  cases hv : m.v2 with
  | none => rw [hv] at h; cases h; exact .inl ⟨rfl, rfl⟩
  | some c =>
    rw [hv] at h
    obtain ⟨s, h1, h2⟩ := Res.bind_eq_ok.mp h
    cases h2
    exact .inr ⟨c, s, rfl, h1, rfl⟩

theorem signStampPart_ok {E : Env} {clock : Option UInt64} {m : ModuleSigner} {ds : Digests} {b2 : List Value}
    (h : m.signStampPart E clock ds = .ok b2) :
    (m.stamp = none ∧ b2 = []) ∨
      ∃ c s, m.stamp = some c ∧ stampSign E c m.timestamp clock ds = .ok s ∧ b2 = [.stamp s] := by
  unfold ModuleSigner.signStampPart at h
  cases hv : m.stamp with
  | none => rw [hv] at h; cases h; exact .inl ⟨rfl, rfl⟩
  | some c =>
    rw [hv] at h
    obtain ⟨s, h1, h2⟩ := Res.bind_eq_ok.mp h
    cases h2
    exact .inr ⟨c, s, rfl, h1, rfl⟩

/-! ### The output of a signer is built with the public constructors -/

/-- The digests given as pairs. -/
def pairDigests (pairs : List (Algo × Bytes)) : Digests := Digests.new (pairs.map fun x => Digest.new x.1 x.2)

theorem v2Sign_build {E : Env} {c : SignerConfig} {pairs : List (Algo × Bytes)} {s : SchemeV2}
    (hp : ∀ x ∈ pairs, AlgoOk x.1) (h : v2Sign E c (pairDigests pairs) = .ok s) :
    ∃ spec : ContentSpec, spec.Ok ∧ Value.v2 s = spec.build := by
  obtain ⟨sig, pk, h1, h2, rfl⟩ := v2Sign_ok.mp h
  have hk : AlgoOk c.algo := by
    rcases Algo.sign_ok h1 with ⟨_, h, _⟩ | ⟨_, h, _⟩ <;> rw [h] <;> exact ⟨by decide, by decide⟩
  refine ⟨.v2 [⟨pairs, c.cert :: c.chain, [], [(c.algo, sig)], pk⟩], ?_, ?_⟩
  · intro s hs
    rw [List.mem_singleton] at hs
    subst hs
    exact ⟨hp, by simpa using hk⟩
  · rfl

theorem stampSign_build {E : Env} {c : SignerConfig} {ts : Bool} {clock : Option UInt64}
    {pairs : List (Algo × Bytes)} {s : SourceStamp} (hp : ∀ x ∈ pairs, AlgoOk x.1)
    (h : stampSign E c ts clock (pairDigests pairs) = .ok s) :
    ∃ spec : ContentSpec, spec.Ok ∧ Value.stamp s = spec.build := by
  obtain ⟨attrs, sig, pk, h0, h1, h2, rfl⟩ := stampSign_ok.mp h
  have hk : AlgoOk c.algo := by
    rcases Algo.sign_ok h1 with ⟨_, h, _⟩ | ⟨_, h, _⟩ <;> rw [h] <;> exact ⟨by decide, by decide⟩
  rcases stampAttrs_ok h0 with ⟨_, rfl⟩ | ⟨t, _, _, rfl⟩
  · exact ⟨.stamp ⟨pairs, [c.cert], [], [(c.algo, sig)], pk⟩, ⟨hp, by simpa using hk⟩, rfl⟩
  · refine ⟨.stamp ⟨pairs, [c.cert], [(0xe43c5946, leBytes 8 t.toNat)], [(c.algo, sig)], pk⟩, ⟨hp, by simpa using hk⟩, ?_⟩
    simp only [ContentSpec.build, SignerSpec.buildStamp, SignerSpec.buildAttrs, List.map_cons, List.map_nil, leBytes_length]
    rfl

theorem finish_built {p : Profile} {m : ModuleSigner} {cs : List ContentSpec} {b : SigningBlock}
    (hok : ∀ c ∈ cs, c.Ok) (h : m.finish p (cs.map ContentSpec.build) = .ok b) : Built p b := by
  unfold ModuleSigner.finish at h
  split at h
  · exact ⟨cs, hok, .inr h⟩
  · exact ⟨cs, hok, .inl h⟩

/-- Every block returned by `sign` is built with the public constructors. -/
theorem sign_built {E : Env} {p : Profile} {clock : Option UInt64} {m : ModuleSigner} {pairs : List (Algo × Bytes)}
    {b : SigningBlock} (hp : ∀ x ∈ pairs, AlgoOk x.1) (h : m.sign E p clock (pairDigests pairs) = .ok b) : Built p b := by
  obtain ⟨b1, b2, h1, h2, _, h3⟩ := sign_ok h
  have e1 : ∃ cs : List ContentSpec, (∀ c ∈ cs, c.Ok) ∧ b1 = cs.map ContentSpec.build := by
    rcases signV2Part_ok h1 with ⟨_, rfl⟩ | ⟨c, s, _, hs, rfl⟩
    · exact ⟨[], by simp, rfl⟩
    · obtain ⟨spec, hok, he⟩ := v2Sign_build hp hs
      exact ⟨[spec], by simpa using hok, by simp [he]⟩
  have e2 : ∃ cs : List ContentSpec, (∀ c ∈ cs, c.Ok) ∧ b2 = cs.map ContentSpec.build := by
    rcases signStampPart_ok h2 with ⟨_, rfl⟩ | ⟨c, s, _, hs, rfl⟩
    · exact ⟨[], by simp, rfl⟩
    · obtain ⟨spec, hok, he⟩ := stampSign_build hp hs
      exact ⟨[spec], by simpa using hok, by simp [he]⟩
  obtain ⟨cs1, ho1, rfl⟩ := e1
  obtain ⟨cs2, ho2, rfl⟩ := e2
  rw [← List.map_append] at h3
  refine finish_built (fun c hc => ?_) h3
  rcases List.mem_append.mp hc with hc | hc
  · exact ho1 c hc
  · exact ho2 c hc

/-! ### Verifying what a signer produced -/

/-- The parts of the result that do not depend on trust. -/
theorem verifySigner_flags {E : Env} {roots : Roots} {now idx : Nat} {c : DigestCtx} {s : SignerV2} {leaf : Bytes}
    {rest : List Bytes} (h1 : s.sigs.data ≠ [])
    (h2 : ∀ g ∈ s.sigs.data, V2SigOk E c.get s.pubKey.data (s.signedData.toU8.drop 4) s.signedData.digests.data g)
    (h3 : s.signedData.certs.data.map (·.cert) = leaf :: rest) (h4 : E.certSpki leaf = some s.pubKey.data) :
    (verifySigner E roots now (some c) idx s).sigValid = true ∧ (verifySigner E roots now (some c) idx s).digestValid = true ∧
      (verifySigner E roots now (some c) idx s).error = none := by
  unfold verifySigner
  rw [sliceFrom?_4_signed]
  dsimp only
  have h := (v2SigLoop_ok s.sigs.data SigState.init).mpr ⟨rfl, rfl, h2⟩
  have hd := v2SigLoop_digest s.sigs.data SigState.init h2
  have hd' : (v2SigLoop E (some c) s.pubKey.data (s.signedData.toU8.drop 4) s.signedData.digests.data s.sigs.data
      SigState.init).digestValid = true := by
    rw [hd]
    cases hs : s.sigs.data with
    | nil => exact absurd hs h1
    | cons => simp
  have hb := verifyPubkeyBinding_iff.mpr h4
  rw [h3]
  unfold finishSigner
  simp only [hb, Bool.not_true, Bool.false_eq_true, if_false]
  exact ⟨by simp [h.1, h.2], hd', h.2⟩

theorem verifyStamp_flags {E : Env} {roots : Roots} {now : Nat} {c : DigestCtx} {s : StampBlock} {leaf : Bytes}
    {rest : List Bytes} (h1 : ∃ g ∈ s.sigs.data, ∃ d, FirstFor g.algo s.signedData.digests.data d)
    (h2 : ∀ g ∈ s.sigs.data, StampSigOk E c.get s.pubKey.data (s.signedData.toU8.drop 4) s.signedData.digests.data g)
    (h3 : s.signedData.certs.data.map (·.cert) = leaf :: rest) (h4 : E.certSpki leaf = some s.pubKey.data) :
    (verifyStamp E roots now (some c) s).1.sigValid = true ∧ (verifyStamp E roots now (some c) s).1.digestValid = true ∧
      (verifyStamp E roots now (some c) s).1.error = none := by
  unfold verifyStamp
  rw [sliceFrom?_4_stamp]
  dsimp only
  have h := (stampSigLoop_ok s.sigs.data SigState.init).mpr ⟨rfl, rfl, h2⟩
  have hd := stampSigLoop_digest s.sigs.data SigState.init h2
  have hdv := hd.1.mpr (Or.inr h1)
  have hdw := hd.2.mpr (Or.inr h1)
  have hb := verifyPubkeyBinding_iff.mpr h4
  rw [h3]
  unfold stampAdjust finishSigner
  simp only [Option.isNone_some, Bool.false_eq_true, if_false, hdw, Bool.not_true, Bool.false_and, hb]
  exact ⟨by simp [h.1, h.2], hdv, h.2⟩

end Ksusig
