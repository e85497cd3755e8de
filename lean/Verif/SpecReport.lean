import Verif.SpecVerify

/-!
# Specification vocabulary for the output of the verify command
-/

namespace Ksusig.Spec

open Ksusig

/-- Nothing about the signer contradicts the content: every signature it carries, if any, is a correct signature of its signed
data, the digest that goes with it is the computed one, and its leaf certificate, if any, carries its key. Unlike `GoodV2` this
does not ask for a signature, a certificate or trust. -/
structure Consistent (E : Env) (computed : UInt32 → Option Bytes) (s : SignerV2) : Prop where
  crypto : ∀ g ∈ s.sigs.data, CryptoOk E g.algo s.pubKey.data (s.signedData.toU8.drop 4) g.signature
  content : ∀ g ∈ s.sigs.data, ∃ d, FirstFor g.algo s.signedData.digests.data d ∧ computed g.algo.toU32 = some d.digest
  binding : ∀ leaf rest, s.signedData.certs.data.map (·.cert) = leaf :: rest → E.certSpki leaf = some s.pubKey.data

end Ksusig.Spec
