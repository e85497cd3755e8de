import Verif.SpecVerify

/-! What the callers of the quick verification functions hand over, and what can be said of a signer that is not refuted (C122). -/

namespace Ksusig.Spec

open Ksusig

/-- A digest context made by calls of `add_digest`, one after the other. -/
def contextOf (adds : List (UInt32 × Bytes)) : DigestCtx := adds.foldl (fun c a => c.add a.1 a.2) DigestCtx.new

/-- `d` is what the last call of `add_digest` for `id` added. -/
def LastAdded (adds : List (UInt32 × Bytes)) (id : UInt32) (d : Bytes) : Prop :=
  ∃ pre post, adds = pre ++ (id, d) :: post ∧ ∀ x ∈ post, x.1 ≠ id

/-- Among the signatures in front of the first one for which no digest is stored, all are correct and go with the digest handed over; and
the first certificate, if there is one, has the key of the signer. -/
structure NotRefuted (E : Env) (adds : List (UInt32 × Bytes)) (s : SignerV2) : Prop where
  checked : ∀ pre g post, s.sigs.data = pre ++ g :: post →
    (∀ x ∈ pre ++ [g], ∃ d ∈ s.signedData.digests.data, d.algo = x.algo) →
    CryptoOk E g.algo s.pubKey.data (s.signedData.toU8.drop 4) g.signature ∧
    ∀ d, FirstFor g.algo s.signedData.digests.data d → LastAdded adds g.algo.toU32 d.digest
  binding : ∀ leaf rest, s.signedData.certs.data.map (·.cert) = leaf :: rest → E.certSpki leaf = some s.pubKey.data

/-- A signer that is accepted: as in C27, with the digests handed over. -/
structure Accepted (E : Env) (added : List Bytes) (now : Nat) (adds : List (UInt32 × Bytes)) (s : SignerV2) : Prop where
  signed : s.sigs.data ≠ []
  crypto : ∀ g ∈ s.sigs.data, CryptoOk E g.algo s.pubKey.data (s.signedData.toU8.drop 4) g.signature
  content : ∀ g ∈ s.sigs.data, ∃ d, FirstFor g.algo s.signedData.digests.data d ∧ LastAdded adds g.algo.toU32 d.digest
  cert : ∃ leaf rest, s.signedData.certs.data.map (·.cert) = leaf :: rest ∧ E.certSpki leaf = some s.pubKey.data ∧
    Trusted E added now leaf rest

end Ksusig.Spec
