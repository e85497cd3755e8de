import Verif.Proofs.Verify
import Verif.Props.Digest

/-!
# C27–C34, C53, C55–C57: verification of a signing block
-/

namespace Ksusig.Props

open Ksusig Spec

/-! ### A sample block for the environment `toyEnv` (key, public key and certificate are the same bytes) -/

/-- Signed data with digest `d` and certificate `[7]`. -/
def toySigned (d : Bytes) : SignedDataV2 :=
  SignedDataV2.new (Digests.new [Digest.new .p256 d]) (Certs.new [Cert.new [7]]) (Attrs.new [])

/-- A signer that signed its signed data with key `[7]`. -/
def toySigner (d : Bytes) : SignerV2 :=
  SignerV2.new (toySigned d) (Sigs.new [Sig.new .p256 ([7] ++ toyHash 4 ((toySigned d).toU8.drop 4))]) (PubKey.new [7])

/-- The same for a stamp. -/
def toyStampSigned (d : Bytes) : SignedDataStamp :=
  SignedDataStamp.new (Digests.new [Digest.new .p256 d]) (Certs.new [Cert.new [7]]) (Attrs.new [])

/-- A stamp that signed its signed data with key `[7]`. -/
def toyStamp (d : Bytes) : StampBlock :=
  StampBlock.new (toyStampSigned d) (Sigs.new [Sig.new .p256 ([7] ++ toyHash 4 ((toyStampSigned d).toU8.drop 4))])
    (PubKey.new [7])

/-- A block with the given content (the other fields are irrelevant to verification). -/
def blockOf (content : List Value) : SigningBlock := ⟨0, 0, 0, 0, content, 0, Ksusig.magic⟩

/-- Two signers in two V2 blocks, an unknown block and a stamp. -/
def toyBlock (d : Bytes) : SigningBlock :=
  blockOf [Value.newV2 (SignersV2.new [toySigner d]), .raw (RawData.new 5 [1]), Value.newSourceStamp (toyStamp d),
    Value.newV2 (SignersV2.new [toySigner d])]

/-- Computed digest `d`. -/
def toyCtx (d : Bytes) : DigestCtx := DigestCtx.new.add 0x0201 d

theorem toyBlock_v2_valid : FullyValid (verifyV2 toyEnv (storeOf toyEnv [[7]]) 0 (toyBlock [1, 2]) (some (toyCtx [1, 2]))) := by
  rw [← allFlags_iff]; decide +kernel

theorem toyBlock_stamp_valid :
    FullyValid (verifySourceStamp toyEnv (storeOf toyEnv [[7]]) 0 (toyBlock [1, 2]) (some (toyCtx [1, 2]))) := by
  rw [← allFlags_iff]; decide +kernel

/-- Reading a decided fact about a successful verdict (for the examples). -/
theorem exists_verdict {v : Verdict} {P : VResult → Bool}
    (h : (match v with | .ok r => P r | .err _ => false) = true) : ∃ r, v = .ok r ∧ P r = true := by
  cases v with
  | ok r => exact ⟨r, rfl, h⟩
  | err e => cases h

/-! ### C27 -/

/-- C27: V2 verification reports all four flags exactly when there is a V2 signer and every signer of every V2 block
has a signature, all its signatures are correct signatures of its signed data under its public key, the first digest of
each signature's algorithm is the computed content digest, and its leaf certificate carries its public key and is
trusted. -/
theorem C27_valid_v2_verdict {E : Env} {added : List Bytes} {now : Nat} {b : SigningBlock} {c : DigestCtx} :
    FullyValid (verifyV2 E (storeOf E added) now b (some c)) ↔
      v2Signers b ≠ [] ∧ ∀ s ∈ v2Signers b, GoodV2 E added now c.get s :=
  verifyV2_valid

example : ∀ s ∈ v2Signers (toyBlock [1, 2]), GoodV2 toyEnv [[7]] 0 (toyCtx [1, 2]).get s :=
  (C27_valid_v2_verdict.mp toyBlock_v2_valid).2

/-! ### C28 -/

/-- C28 fails: a V2 signer, or a first source stamp, that carries no signature at all but whose certificate carries its
public key is reported `signature_valid`, with any roots and digests. -/
theorem C28_no_signature_is_signature_valid {E : Env} {roots : Roots} {now : Nat} {b : SigningBlock}
    {ctx : Option DigestCtx} {leaf : Bytes} {rest : List Bytes} :
    (∀ s, v2Signers b = [s] → s.sigs.data = [] → s.signedData.certs.data.map (·.cert) = leaf :: rest →
      E.certSpki leaf = some s.pubKey.data → ∃ r, verifyV2 E roots now b ctx = .ok r ∧ r.sigValid = true) ∧
    (∀ s more, stamps b = s :: more → s.sigs.data = [] → s.signedData.certs.data.map (·.cert) = leaf :: rest →
      E.certSpki leaf = some s.pubKey.data → ∃ r, verifySourceStamp E roots now b ctx = .ok r ∧ r.sigValid = true) := by
  constructor
  · intro s hs hn hc hk
    obtain ⟨idx, hlen, hz⟩ := v2Results_zip E roots now b ctx
    rw [hs] at hlen hz
    match idx, hlen with
    | [i], _ =>
      have hr : (verifySigner E roots now ctx i s).sigValid = true ∧ (verifySigner E roots now ctx i s).error = none := by
        unfold verifySigner finishSigner
        rw [sliceFrom?_4_signed]
        simp [hc, hn, v2SigLoop, SigState.init, verifyPubkeyBinding_iff.mpr hk]
      have hz' : v2Results E roots now b ctx = [verifySigner E roots now ctx i s] := hz
      rw [verifyV2_eq, hz']
      rcases concludeVerify_cases [verifySigner E roots now ctx i s] with ⟨h, _⟩ | ⟨_, ⟨r, hm, he⟩, _⟩ | ⟨_, _, he⟩
      · cases h
      · rw [List.mem_singleton.mp hm] at he; exact absurd hr.2 he
      · exact ⟨_, he, by simp [VResult.fromSigners, hr.1]⟩
  · intro s more hs hn hc hk
    have hr : (verifyStamp E roots now ctx s).1.sigValid = true ∧ (verifyStamp E roots now ctx s).1.error = none := by
      unfold verifyStamp finishSigner stampAdjust
      rw [sliceFrom?_4_stamp]
      cases ctx <;> simp [hc, hn, stampSigLoop, SigState.init, verifyPubkeyBinding_iff.mpr hk]
    rw [verifySourceStamp, stampLoop_eq, hs]
    dsimp only
    rcases concludeVerify_cases [(verifyStamp E roots now ctx s).1] with ⟨h, _⟩ | ⟨_, ⟨r, hm, he⟩, _⟩ | ⟨_, _, he⟩
    · cases h
    · rw [List.mem_singleton.mp hm] at he; exact absurd hr.2 he
    · exact ⟨_, he, by simp [VResult.fromSigners, hr.1]⟩

/-- A signer without signatures. -/
def unsignedSigner : SignerV2 := SignerV2.new (toySigned [1, 2]) (Sigs.new []) (PubKey.new [7])

example : ∃ r, verifyV2 toyEnv (storeOf toyEnv [[7]]) 0 (blockOf [Value.newV2 (SignersV2.new [unsignedSigner])])
    (some (toyCtx [1, 2])) = .ok r ∧ r.sigValid = true :=
  C28_no_signature_is_signature_valid.1 unsignedSigner rfl rfl rfl rfl

/-- C28, missing: signers without signatures. For signers with a signature, `signature_valid` means every signature of
that signer is correct; and with a digest context, `digest_valid` together with `signature_valid` implies that there is
one. -/
theorem C28_signature_valid_partial {E : Env} {roots : Roots} {now : Nat} {b : SigningBlock} {ctx : Option DigestCtx}
    {r : VResult} (h : verifyV2 E roots now b ctx = .ok r) :
    r.signers.length = (v2Signers b).length ∧
    ∀ i (h1 : i < r.signers.length) (h2 : i < (v2Signers b).length), r.signers[i].sigValid = true →
      (∀ g ∈ (v2Signers b)[i].sigs.data, CryptoOk E g.algo (v2Signers b)[i].pubKey.data
        ((v2Signers b)[i].signedData.toU8.drop 4) g.signature) ∧
      (r.signers[i].digestValid = true → (v2Signers b)[i].sigs.data ≠ []) := by
  obtain ⟨hs, -, -⟩ := verifyV2_signers h
  obtain ⟨idx, hlen, hz⟩ := v2Results_zip E roots now b ctx
  rw [hz] at hs
  have hl : r.signers.length = (v2Signers b).length := by rw [hs]; simp [hlen]
  refine ⟨hl, fun i h1 h2 hv => ?_⟩
  have hi : r.signers[i] = verifySigner E roots now ctx (idx[i]'(by omega)) (v2Signers b)[i] := by
    simp [hs]
  rw [hi] at hv ⊢
  revert hv
  generalize (v2Signers b)[i] = s
  intro hv
  unfold verifySigner at hv ⊢
  rw [sliceFrom?_4_signed] at hv ⊢
  dsimp only at hv ⊢
  obtain ⟨hv1, hv2⟩ := finishSigner_sigValid hv
  refine ⟨(v2SigLoop_crypto _ _ hv1).2, fun hd hn => ?_⟩
  rw [finishSigner_digestValid, hn] at hd
  cases hd

example : ∃ r, verifyV2 toyEnv (storeOf toyEnv []) 0 (toyBlock [1, 2]) none = .ok r ∧ r.sigValid = true :=
  exists_verdict (P := fun r => r.sigValid) (by decide +kernel)

/-! ### C29 -/

/-- C29: whatever else the block contains and wherever the signer is, a signature that is not correct, an algorithm
without a digest, a digest that is not the computed one, or a first certificate with another key prevents a valid
verdict, both of the V2 verification and overall. -/
theorem C29_one_bad_signer {E : Env} {added : List Bytes} {now : Nat} {b : SigningBlock} {c : DigestCtx} {s : SignerV2}
    (hs : s ∈ v2Signers b)
    (hbad : (∃ g ∈ s.sigs.data, ¬ CryptoOk E g.algo s.pubKey.data (s.signedData.toU8.drop 4) g.signature) ∨
      (∃ g ∈ s.sigs.data, ∀ d ∈ s.signedData.digests.data, d.algo ≠ g.algo) ∨
      (∃ g ∈ s.sigs.data, ∃ d, FirstFor g.algo s.signedData.digests.data d ∧ c.get g.algo.toU32 ≠ some d.digest) ∨
      (∃ leaf rest, s.signedData.certs.data = leaf :: rest ∧ E.certSpki leaf.cert ≠ some s.pubKey.data)) :
    ¬ FullyValid (verifyV2 E (storeOf E added) now b (some c)) ∧
    (verifyAll E (storeOf E added) now b (some c)).isValid = false := by
  have hng : ¬ GoodV2 E added now c.get s := by
    rintro ⟨_, h2, h3, leaf, rest, h4, h5, _⟩
    rcases hbad with ⟨g, hg, hb⟩ | ⟨g, hg, hb⟩ | ⟨g, hg, d, hd, hb⟩ | ⟨l, r, hl, hb⟩
    · exact hb (h2 g hg)
    · obtain ⟨d, ⟨pre, post, he, _, ha⟩, _⟩ := h3 g hg
      exact hb d (by rw [he]; simp) ha
    · obtain ⟨d', hd', hb'⟩ := h3 g hg
      rw [← find?_firstFor] at hd hd'
      rw [hd] at hd'
      cases hd'
      exact hb hb'
    · rw [hl] at h4
      cases h4
      exact hb h5
  constructor
  · rw [verifyV2_valid]
    exact fun h => hng (h.2 s hs)
  · rw [Bool.eq_false_iff, ne_eq, isValid_iff]
    exact fun h => hng (h.1 s hs)

example : (verifyAll toyEnv (storeOf toyEnv [[7]]) 0
    (blockOf [Value.newV2 (SignersV2.new [toySigner [1, 2], toySigner [1, 3]])]) (some (toyCtx [1, 2]))).isValid = false :=
  (C29_one_bad_signer (s := toySigner [1, 3]) (by decide +kernel)
    (.inr (.inr (.inl ⟨_, List.mem_singleton.mpr rfl, _, ⟨[], [], rfl, by simp, rfl⟩, by decide +kernel⟩)))).2

/-! ### C30 -/

/-- C30: without a digest context no signer is reported `digest_valid`, and the combined verdict is valid only when
there is neither a V2 signer nor a stamp. -/
theorem C30_no_context {E : Env} {roots : Roots} {now : Nat} {b : SigningBlock} :
    (∀ r, verifyV2 E roots now b none = .ok r → r.digestValid = false ∧ ∀ s ∈ r.signers, s.digestValid = false) ∧
    (∀ r, verifySourceStamp E roots now b none = .ok r → r.digestValid = false ∧ ∀ s ∈ r.signers, s.digestValid = false) ∧
    ((verifyAll E roots now b none).isValid = true ↔ v2Signers b = [] ∧ stamps b = []) := by
  have h1 : ∀ r, verifyV2 E roots now b none = .ok r → r.digestValid = false ∧ ∀ s ∈ r.signers, s.digestValid = false := by
    intro r h
    obtain ⟨hs, hn, hr⟩ := verifyV2_signers h
    have hall : ∀ s ∈ r.signers, s.digestValid = false := by
      intro s hm
      rw [hs] at hm
      obtain ⟨s', _, i, rfl⟩ := mem_v2Results hm
      exact verifySigner_digest_none
    refine ⟨?_, hall⟩
    rw [hr, (fromSigners_flags hn).2.1, List.all_eq_false]
    obtain ⟨x, xs, hx⟩ := List.exists_cons_of_ne_nil hn
    exact ⟨x, by rw [hx]; simp, by simp [hall x (by rw [hx]; simp)]⟩
  have h2 : ∀ r, verifySourceStamp E roots now b none = .ok r → r.digestValid = false ∧
      ∀ s ∈ r.signers, s.digestValid = false := by
    intro r h
    obtain ⟨s, rest, _, rfl⟩ := verifySourceStamp_signers h
    have := verifyStamp_digest_none (E := E) (roots := roots) (now := now) (s := s)
    simp [VResult.fromSigners, this]
  refine ⟨h1, h2, ?_⟩
  have n1 : ¬ FullyValid (verifyV2 E roots now b none) := by
    intro h
    obtain ⟨r, hr, hd⟩ := fullyValid_digest h
    rw [(h1 r hr).1] at hd; cases hd
  have n2 : ¬ FullyValid (verifySourceStamp E roots now b none) := by
    intro h
    obtain ⟨r, hr, hd⟩ := fullyValid_digest h
    rw [(h2 r hr).1] at hd; cases hd
  simp only [VAll.isValid, verifyAll, Bool.and_eq_true, Bool.or_eq_true, allFlags_iff, isNoSignature_iff, n1, n2, false_or,
    verifyV2_noSignature, verifySourceStamp_noSignature]

example : ∃ r, verifyV2 toyEnv (storeOf toyEnv [[7]]) 0 (toyBlock [1, 2]) none = .ok r ∧
    (r.signers.length == 2 && r.sigValid && r.trusted) = true :=
  exists_verdict (P := fun r => r.signers.length == 2 && r.sigValid && r.trusted) (by decide +kernel)

/-! ### C31 -/

/-- C31: with any identifier other than the two supported ones nothing verifies and nothing can be signed, and a signer
or first stamp carrying such a signature prevents a valid verdict for every digest context, also an absent one. -/
theorem C31_unknown_algorithms {E : Env} (id : UInt32) :
    (∀ pk m sig, (Algo.unknown id).verify E pk m sig = false) ∧
    (∀ k m, ∃ e, (Algo.unknown id).sign E k m = .err e) ∧
    (∀ added now (b : SigningBlock) ctx, (∃ s ∈ v2Signers b, ∃ g ∈ s.sigs.data, g.algo = .unknown id) →
      ¬ FullyValid (verifyV2 E (storeOf E added) now b ctx) ∧ (verifyAll E (storeOf E added) now b ctx).isValid = false) ∧
    (∀ added now (b : SigningBlock) ctx, (∃ s rest, stamps b = s :: rest ∧ ∃ g ∈ s.sigs.data, g.algo = .unknown id) →
      ¬ FullyValid (verifySourceStamp E (storeOf E added) now b ctx) ∧
      (verifyAll E (storeOf E added) now b ctx).isValid = false) := by
  have hcr : ∀ {pk m sig}, ¬ CryptoOk E (Algo.unknown id) pk m sig := by
    intro pk m sig h
    rcases h with ⟨h, _⟩ | ⟨h, _⟩ <;> cases h
  refine ⟨fun _ _ _ => rfl, fun k m => ⟨.keyMismatch, by cases k <;> rfl⟩, ?_, ?_⟩
  · rintro added now b ctx ⟨s, hs, g, hg, ha⟩
    have hne : v2Signers b ≠ [] := by intro h; rw [h] at hs; cases hs
    cases ctx with
    | none =>
      constructor
      · intro h
        obtain ⟨r, hr, hd⟩ := fullyValid_digest h
        rw [(C30_no_context.1 r hr).1] at hd; cases hd
      · rw [Bool.eq_false_iff, ne_eq, C30_no_context.2.2]
        exact fun h => hne h.1
    | some c => exact C29_one_bad_signer hs (.inl ⟨g, hg, by rw [ha]; exact hcr⟩)
  · rintro added now b ctx ⟨s, rest, hs, g, hg, ha⟩
    cases ctx with
    | none =>
      constructor
      · intro h
        obtain ⟨r, hr, hd⟩ := fullyValid_digest h
        rw [(C30_no_context.2.1 r hr).1] at hd; cases hd
      · rw [Bool.eq_false_iff, ne_eq, C30_no_context.2.2, hs]
        exact fun h => by cases h.2
    | some c =>
      have hng : ¬ GoodStamp E added now c.get s := fun h => by
        have := h.crypto g hg
        rw [ha] at this
        exact hcr this
      constructor
      · rw [verifySourceStamp_valid, hs]
        rintro ⟨s', r', h, hgd⟩
        cases h; exact hng hgd
      · rw [Bool.eq_false_iff, ne_eq, isValid_iff]
        exact fun h => hng (h.2 s rest hs)

example : ∃ s ∈ v2Signers (blockOf [Value.newV2 (SignersV2.new
    [toySigner [1], SignerV2.new (toySigned []) (Sigs.new [Sig.new (.unknown 3) []]) (PubKey.new [7])])]),
    ∃ g ∈ s.sigs.data, g.algo = .unknown 3 := by decide +kernel

/-! ### C32 -/

/-- C32: if the first certificate of some V2 signer (or of the first stamp) does not parse or carries another key than
the signer's, verification returns an error naming the key binding, for every context and every root store, and the
combined verdict is not valid. -/
theorem C32_borrowed_certificate {E : Env} {roots : Roots} {now : Nat} {b : SigningBlock} {ctx : Option DigestCtx} :
    (∀ s leaf rest, s ∈ v2Signers b → s.signedData.certs.data = leaf :: rest →
      E.certSpki leaf.cert ≠ some s.pubKey.data →
      (∃ es, verifyV2 E roots now b ctx = .err (.multiSigner es) ∧ .keyBinding ∈ es) ∧
      (verifyAll E roots now b ctx).isValid = false) ∧
    (∀ s more leaf rest, stamps b = s :: more → s.signedData.certs.data = leaf :: rest →
      E.certSpki leaf.cert ≠ some s.pubKey.data →
      (∃ es, verifySourceStamp E roots now b ctx = .err (.multiSigner es) ∧ .keyBinding ∈ es) ∧
      (verifyAll E roots now b ctx).isValid = false) := by
  constructor
  · intro s leaf rest hs hc hk
    have he : ∃ es, verifyV2 E roots now b ctx = .err (.multiSigner es) ∧ SignerErr.keyBinding ∈ es := by
      obtain ⟨i, hi⟩ := v2Results_of_mem (E := E) (roots := roots) (now := now) (ctx := ctx) hs
      have herr : (verifySigner E roots now ctx i s).error = some .keyBinding := by
        unfold verifySigner
        rw [sliceFrom?_4_signed, hc]
        exact finishSigner_unbound (rest := rest.map (·.cert)) hk
      rw [verifyV2_eq]
      rcases concludeVerify_cases (v2Results E roots now b ctx) with ⟨h, _⟩ | ⟨_, _, h⟩ | ⟨_, hall, _⟩
      · rw [h] at hi; cases hi
      · exact ⟨_, h, List.mem_filterMap.mpr ⟨_, hi, herr⟩⟩
      · rw [hall _ hi] at herr; cases herr
    refine ⟨he, ?_⟩
    obtain ⟨es, he, _⟩ := he
    simp [VAll.isValid, verifyAll, he, Verdict.allFlags, Verdict.isNoSignature]
  · intro s more leaf rest hs hc hk
    have he : ∃ es, verifySourceStamp E roots now b ctx = .err (.multiSigner es) ∧ SignerErr.keyBinding ∈ es := by
      have herr : (verifyStamp E roots now ctx s).1.error = some .keyBinding := by
        unfold verifyStamp
        rw [sliceFrom?_4_stamp, hc]
        exact finishSigner_unbound (rest := rest.map (·.cert)) hk
      rw [verifySourceStamp, stampLoop_eq, hs]
      dsimp only
      rcases concludeVerify_cases [(verifyStamp E roots now ctx s).1] with ⟨h, _⟩ | ⟨_, _, h⟩ | ⟨_, hall, _⟩
      · cases h
      · exact ⟨_, h, List.mem_filterMap.mpr ⟨_, List.mem_singleton.mpr rfl, herr⟩⟩
      · rw [hall _ (List.mem_singleton.mpr rfl)] at herr; cases herr
    refine ⟨he, ?_⟩
    obtain ⟨es, he, _⟩ := he
    simp [VAll.isValid, verifyAll, he, Verdict.allFlags, Verdict.isNoSignature]

/-- A signer with key `[8]` that includes the certificate `[7]`. -/
def borrowingSigner : SignerV2 :=
  SignerV2.new (toySigned [1, 2]) (Sigs.new [Sig.new .p256 ([8] ++ toyHash 4 ((toySigned [1, 2]).toU8.drop 4))])
    (PubKey.new [8])

example : (verifyAll toyEnv (storeOf toyEnv [[7]]) 0
    (blockOf [Value.newV2 (SignersV2.new [toySigner [1, 2], borrowingSigner])]) (some (toyCtx [1, 2]))).isValid = false :=
  (C32_borrowed_certificate.1 borrowingSigner (Cert.new [7]) [] (by decide +kernel) rfl (by decide)).2

/-! ### C33 -/

/-- A trust store and the certificates that were added to it, for any sequence of additions. -/
inductive StoreHistory (E : Env) : Roots → List Bytes → Prop where
  | new : StoreHistory E Roots.new []
  /-- The built-in certificate could be decoded. -/
  | builtin (pem c : Bytes) : E.pemParse pem = some ("CERTIFICATE", c) → StoreHistory E (Roots.withBuiltin E pem) [c]
  /-- The built-in certificate could not be decoded: the store is empty. -/
  | builtinFailed (pem : Bytes) : (∀ c, E.pemParse pem ≠ some ("CERTIFICATE", c)) →
      StoreHistory E (Roots.withBuiltin E pem) []
  | add (r : Roots) (l : List Bytes) (c : Bytes) : StoreHistory E r l → StoreHistory E (r.add E c) (l ++ [c])
  | addPem (r r' : Roots) (l : List Bytes) (pem c : Bytes) : StoreHistory E r l →
      E.pemParse pem = some ("CERTIFICATE", c) → r.addPem E pem = .ok r' → StoreHistory E r' (l ++ [c])

theorem storeOf_append (E : Env) (l : List Bytes) (c : Bytes) : storeOf E (l ++ [c]) = (storeOf E l).add E c := by
  simp [storeOf, List.foldl_append]

theorem StoreHistory.eq_storeOf {E : Env} {r : Roots} {l : List Bytes} (h : StoreHistory E r l) : r = storeOf E l := by
  induction h with
  | new => rfl
  | builtin pem c hp =>
    simp only [Roots.withBuiltin, Roots.addPem, hp, ne_eq, not_true_eq_false, if_false]
    rfl
  | builtinFailed pem hp =>
    unfold Roots.withBuiltin Roots.addPem
    cases h : E.pemParse pem with
    | none => rfl
    | some x =>
      obtain ⟨tag, c⟩ := x
      have : tag ≠ "CERTIFICATE" := by
        rintro rfl
        exact hp c h
      simp only [ne_eq, this, not_false_eq_true, if_true]
      rfl
  | add r l c _ ih => rw [storeOf_append, ih]
  | addPem r r' l pem c _ hp hr ih =>
    rw [storeOf_append, ← ih]
    simp only [Roots.addPem, hp, ne_eq, not_true_eq_false, if_false] at hr
    cases hr
    rfl

/-- C33: whatever sequence of additions produced the store, a chain is reported trusted exactly when a root was added and
the leaf is byte for byte one of the added roots or the PKI library accepted it against the added roots usable as
anchors; trusted implies chain valid; an empty store trusts nothing; adding a root keeps directly trusted leaves
trusted; a PEM block that is not a certificate is rejected. -/
theorem C33_trust_from_roots {E : Env} {r : Roots} {added : List Bytes} (h : StoreHistory E r added) :
    (∀ now leaf inters, (verifyChain E r now leaf inters).2.1 = true ↔ Trusted E added now leaf inters) ∧
    (∀ now leaf inters, (verifyChain E r now leaf inters).2.1 = true → (verifyChain E r now leaf inters).1 = true) ∧
    (added = [] → ∀ now leaf inters, (verifyChain E r now leaf inters).2.1 = false) ∧
    (∀ leaf ∈ added, ∀ c now inters, (verifyChain E (r.add E c) now leaf inters).2.1 = true) ∧
    (∀ pem, (∀ c, E.pemParse pem ≠ some ("CERTIFICATE", c)) → ∃ e, r.addPem E pem = .err e) := by
  have hr := h.eq_storeOf
  subst hr
  refine ⟨fun _ _ _ => verifyChain_trusted, fun _ _ _ ht => ?_, ?_, ?_, ?_⟩
  · rw [verifyChain_valid_of_trusted ht]
  · rintro rfl now leaf inters
    rw [Bool.eq_false_iff, ne_eq, verifyChain_trusted]
    exact fun h => h.1 rfl
  · intro leaf hl c now inters
    rw [← storeOf_append, verifyChain_trusted]
    exact ⟨by simp, .inl (by simp [hl])⟩
  · intro pem hp
    unfold Roots.addPem
    cases hpp : E.pemParse pem with
    | none => exact ⟨_, rfl⟩
    | some x =>
      obtain ⟨tag, c⟩ := x
      have : tag ≠ "CERTIFICATE" := by
        rintro rfl
        exact hp c hpp
      exact ⟨.keystore, by simp [this]⟩

example : StoreHistory toyEnv ((Roots.withBuiltin toyEnv [9]).add toyEnv [7]) [[9], [7]] :=
  .add _ [[9]] [7] (.builtin [9] [9] rfl)

/-! ### C34 -/

/-- C34 fails: a block with neither a V2 signer nor a stamp gets a valid verdict, with any roots and digests. -/
theorem C34_nothing_signed_is_valid {E : Env} {roots : Roots} {now : Nat} {b : SigningBlock} {ctx : Option DigestCtx}
    (h1 : v2Signers b = []) (h2 : stamps b = []) : (verifyAll E roots now b ctx).isValid = true := by
  have n1 := verifyV2_noSignature (E := E) (roots := roots) (now := now) (ctx := ctx) |>.mpr h1
  have n2 := verifySourceStamp_noSignature (E := E) (roots := roots) (now := now) (ctx := ctx) |>.mpr h2
  simp [VAll.isValid, verifyAll, n1, n2, Verdict.allFlags, Verdict.isNoSignature]

example : (verifyAll toyEnv Roots.new 0 (blockOf [.raw (RawData.new 5 [1]), Value.newV2 (SignersV2.new [])]) none).isValid =
    true := C34_nothing_signed_is_valid rfl rfl

/-- C34 fails for modules: inserting an empty signing block into any unsigned archive, without any key, gives a module
that `verify_with_roots` and `verify_full` report as valid for every environment and every root store. -/
theorem C34_empty_block_module_is_valid {E : Env} {p : Profile} {a : Archive} (hs : Signable a emptyBlock.toU8.length)
    (roots : Roots) (now : Nat) :
    ∃ v, (Module.new (a.signed emptyBlock.toU8)).verifyWithRoots E p (a.signed emptyBlock.toU8) roots now = .ok v ∧
      v.isValid = true ∧ v.v2 = .err .noSignature ∧ v.stamp = .err .noSignature := by
  have hg : (Module.new (a.signed emptyBlock.toU8)).getSigningBlockT p (a.signed emptyBlock.toU8) (a.signed emptyBlock.toU8) =
      .ok _ := getSigningBlock_signed p (emptyBlock_built p).wf hs.comment hs.cleanNew hs.size
  refine ⟨verifyAll E roots now
    { emptyBlock with fileStart := a.body.length, fileEnd := a.body.length + emptyBlock.toU8.length }
    (some DigestCtx.new), ?_, ?_, ?_, ?_⟩
  · unfold Module.verifyWithRoots Module.verifyWithRootsT
    rw [hg]
    rfl
  · exact C34_nothing_signed_is_valid rfl rfl
  · rfl
  · rfl

example : ∃ v, (Module.new (sampleArchive.signed emptyBlock.toU8)).verifyWithRoots toyEnv .release
    (sampleArchive.signed emptyBlock.toU8) (storeOf toyEnv [[7]]) 0 = .ok v ∧ v.isValid = true :=
  (C34_empty_block_module_is_valid ⟨by decide +kernel, sampleArchive_clean _ (by decide +kernel),
    sampleArchive_clean _ (by decide +kernel), by decide +kernel⟩ _ _).imp fun _ h => ⟨h.1, h.2.1⟩

/-- C34, missing: blocks without any signer. If there is a V2 signer or a stamp, a valid verdict means that all V2
signers and the first stamp are good, and it is exactly this. -/
theorem C34_valid_means_verified_partial {E : Env} {added : List Bytes} {now : Nat} {b : SigningBlock} {c : DigestCtx} :
    (verifyAll E (storeOf E added) now b (some c)).isValid = true ↔
      (∀ s ∈ v2Signers b, GoodV2 E added now c.get s) ∧
      (∀ s rest, stamps b = s :: rest → GoodStamp E added now c.get s) :=
  isValid_iff

example : (verifyAll toyEnv (storeOf toyEnv [[7]]) 0 (toyBlock [1, 2]) (some (toyCtx [1, 2]))).isValid = true := by
  decide +kernel

/-! ### C53 -/

/-- C53: after any sequence of `add_digest` calls, `get_digest` is the last value added for the id, and `verify_digest`
is true exactly when there is one and it equals the stored digest. -/
theorem C53_context_is_a_map (history : List (UInt32 × Bytes)) (id : UInt32) (stored : Bytes) :
    let c := history.foldl (fun c e => c.add e.1 e.2) DigestCtx.new
    c.get id = (history.reverse.find? fun e => e.1 == id).map (·.2) ∧
    (c.verify id stored = true ↔ ∃ pre post, history = pre ++ (id, stored) :: post ∧ ∀ e ∈ post, e.1 ≠ id) := by
  have key : (history.foldl (fun c e => c.add e.1 e.2) DigestCtx.new).get id =
      (history.reverse.find? fun e => e.1 == id).map (·.2) := by
    rw [← List.foldr_reverse]
    generalize history.reverse = l
    induction l with
    | nil => rfl
    | cons e l ih =>
      rw [List.foldr_cons, DigestCtx.get_add, List.find?_cons, ih]
      by_cases h : e.1 = id
      · simp [h]
      · have h' : (e.1 == id) = false := by simpa using h
        simp [h, h']
  refine ⟨key, ?_⟩
  rw [DigestCtx.verify_iff, key, Option.map_eq_some_iff]
  constructor
  · rintro ⟨⟨i, d⟩, hf, rfl⟩
    rw [List.find?_eq_some_iff_append] at hf
    obtain ⟨hi, as, bs, he, hn⟩ := hf
    have hi' : i = id := by simpa using hi
    subst hi'
    refine ⟨bs.reverse, as.reverse, ?_, fun e he' => by simpa using hn e (List.mem_reverse.mp he')⟩
    have := congrArg List.reverse he
    simpa using this
  · rintro ⟨pre, post, he, hn⟩
    refine ⟨(id, stored), ?_, rfl⟩
    rw [List.find?_eq_some_iff_append]
    refine ⟨by simp, post.reverse, pre.reverse, by rw [he]; simp, fun e he' => by simpa using hn e (List.mem_reverse.mp he')⟩

example : ((DigestCtx.new.add 1 [1]).add 2 [2]).add 1 [3] |>.verify 1 [3] := by decide

/-! ### C55 -/

/-- C55: stamp verification reports all four flags exactly when there is a stamp and for the first one all signatures
are correct signatures of its signed data under its public key, at least one of them has a digest, every digest that is
compared equals the computed one, and its leaf certificate carries its public key and is trusted. -/
theorem C55_valid_stamp_verdict {E : Env} {added : List Bytes} {now : Nat} {b : SigningBlock} {c : DigestCtx} :
    FullyValid (verifySourceStamp E (storeOf E added) now b (some c)) ↔
      ∃ s rest, stamps b = s :: rest ∧ GoodStamp E added now c.get s :=
  verifySourceStamp_valid

example : ∃ s rest, stamps (toyBlock [1, 2]) = s :: rest ∧ GoodStamp toyEnv [[7]] 0 (toyCtx [1, 2]).get s :=
  C55_valid_stamp_verdict.mp toyBlock_stamp_valid

/-- Only the first stamp counts: replacing all further stamps by anything does not change the result. -/
theorem C55_only_first_stamp {E : Env} {roots : Roots} {now : Nat} {b b' : SigningBlock} {ctx : Option DigestCtx}
    (h : (stamps b).head? = (stamps b').head?) :
    verifySourceStamp E roots now b ctx = verifySourceStamp E roots now b' ctx := by
  unfold verifySourceStamp
  rw [stampLoop_eq, stampLoop_eq]
  cases h1 : stamps b <;> cases h2 : stamps b' <;> simp_all

example : (verifyAll toyEnv (storeOf toyEnv [[7]]) 0
    (blockOf [Value.newSourceStamp (toyStamp [1, 2]), Value.newSourceStamp (toyStamp [6, 6, 6])])
    (some (toyCtx [1, 2]))).isValid = true := by decide +kernel

/-! ### C56 -/

/-- C56: the V2 result is determined by the V2 blocks in their order, the stamp result by the stamps in their order; in
particular padding, unknown and section-info blocks can be added, removed or moved anywhere without effect. -/
theorem C56_unrelated_blocks {E : Env} {roots : Roots} {now : Nat} {b b' : SigningBlock} {ctx : Option DigestCtx} :
    ((b.content.filterMap fun v => match v with | .v2 s => some s | _ => none) =
      (b'.content.filterMap fun v => match v with | .v2 s => some s | _ => none) →
      verifyV2 E roots now b ctx = verifyV2 E roots now b' ctx) ∧
    ((b.content.filterMap fun v => match v with | .stamp s => some s | _ => none) =
      (b'.content.filterMap fun v => match v with | .stamp s => some s | _ => none) →
      verifySourceStamp E roots now b ctx = verifySourceStamp E roots now b' ctx) := by
  constructor
  · intro h
    have key : ∀ x : SigningBlock, verifyV2 E roots now x ctx = concludeVerify
        ((x.content.filterMap fun v => match v with | .v2 s => some s | _ => none).flatMap fun s =>
          s.signers.data.zipIdx.map fun x => verifySigner E roots now ctx x.2 x.1) := by
      intro x
      unfold verifyV2
      congr 1
      generalize x.content = vs
      induction vs with
      | nil => rfl
      | cons v vs ih => cases v <;> simp [List.flatMap_cons, ih]
    rw [key, key, h]
  · intro h
    have key : ∀ x : SigningBlock, stamps x =
        (x.content.filterMap fun v => match v with | .stamp s => some s | _ => none).map (·.block) := by
      intro x
      unfold stamps
      rw [List.map_filterMap]
      congr 1
      funext v
      cases v <;> rfl
    apply C55_only_first_stamp
    rw [key, key, h]

example : verifyV2 toyEnv (storeOf toyEnv [[7]]) 0 (toyBlock [1, 2]) (some (toyCtx [1, 2])) =
    verifyV2 toyEnv (storeOf toyEnv [[7]]) 0 (blockOf [Value.newV2 (SignersV2.new [toySigner [1, 2]]),
      Value.newV2 (SignersV2.new [toySigner [1, 2]]), .raw (RawData.new paddingBlockId [0, 0])]) (some (toyCtx [1, 2])) :=
  C56_unrelated_blocks.1 rfl

/-! ### C57 -/

/-- C57: the structural check (what `verify_chain` reports as chain validity when no roots are configured) accepts
exactly when, along the list leaf, intermediates, both certificates of every adjacent pair parse and the issuer of the
first is the subject of the second; without intermediates there is no pair. -/
theorem C57_chain_structure {E : Env} {now : Nat} {leaf : Bytes} {inters : List Bytes} :
    (verifyChain E Roots.new now leaf inters).1 = true ↔
      ∀ i (h : i + 1 < (leaf :: inters).length), ∃ n n', E.certNames ((leaf :: inters)[i]'(by omega)) = some n ∧
        E.certNames ((leaf :: inters)[i + 1]) = some n' ∧ n.1 = n'.2 :=
  chainStructure_iff

example : (verifyChain toyEnv Roots.new 0 [7] [[7], [7]]).1 = true ∧ (verifyChain toyEnv Roots.new 0 [7] [[7], [8]]).1 = false := by
  decide

end Ksusig.Props
