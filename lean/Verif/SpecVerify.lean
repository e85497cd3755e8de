import Verif.Spec
import Verif.Model.Verifier

/-!
# Specification vocabulary for verification
-/

namespace Ksusig.Spec

open Ksusig

/-- A correct signature of `msg` under `pk` with one of the two supported algorithms. -/
def CryptoOk (E : Env) (a : Algo) (pk msg sig : Bytes) : Prop :=
  (a = .p256 ∧ E.p256Verify pk (E.sha256 msg) sig = true) ∨ (a = .p384 ∧ E.p384Verify pk (E.sha512 msg) sig = true)

/-- `d` is the first entry of `ds` for algorithm `a`. -/
def FirstFor (a : Algo) (ds : List Digest) (d : Digest) : Prop :=
  ∃ pre post, ds = pre ++ d :: post ∧ (∀ x ∈ pre, x.algo ≠ a) ∧ d.algo = a

/-- With the certificates `added` as roots, the certificate `leaf` is trusted: it is one of them, or the PKI library
accepts it with the given intermediates, using as anchors those of the roots it can use as anchors. -/
def Trusted (E : Env) (added : List Bytes) (now : Nat) (leaf : Bytes) (inters : List Bytes) : Prop :=
  added ≠ [] ∧ (leaf ∈ added ∨ (E.eeOk leaf = true ∧ E.pki (added.filter E.anchorOk) leaf inters now = .ok))

/-- The trust store after adding certificates one after the other. -/
def storeOf (E : Env) (added : List Bytes) : Roots := added.foldl (fun r c => r.add E c) Roots.new

/-- All V2 signers of a block. -/
def v2Signers (b : SigningBlock) : List SignerV2 :=
  b.content.flatMap fun v => match v with | .v2 s => s.signers.data | _ => []

/-- All source stamps of a block. -/
def stamps (b : SigningBlock) : List StampBlock :=
  b.content.filterMap fun v => match v with | .stamp s => some s.block | _ => none

/-- The signer signed its signed data with every signature it carries, the digests it signed are the computed ones, and
its leaf certificate carries its key and is trusted. -/
structure GoodV2 (E : Env) (added : List Bytes) (now : Nat) (computed : UInt32 → Option Bytes) (s : SignerV2) : Prop where
  signed : s.sigs.data ≠ []
  crypto : ∀ g ∈ s.sigs.data, CryptoOk E g.algo s.pubKey.data (s.signedData.toU8.drop 4) g.signature
  content : ∀ g ∈ s.sigs.data, ∃ d, FirstFor g.algo s.signedData.digests.data d ∧ computed g.algo.toU32 = some d.digest
  cert : ∃ leaf rest, s.signedData.certs.data.map (·.cert) = leaf :: rest ∧ E.certSpki leaf = some s.pubKey.data ∧
    Trusted E added now leaf rest

/-- The same for a source stamp; signatures whose algorithm has no digest are tolerated as long as one digest is
compared, and the leaf must be trusted without intermediates. -/
structure GoodStamp (E : Env) (added : List Bytes) (now : Nat) (computed : UInt32 → Option Bytes) (s : StampBlock) :
    Prop where
  signed : ∃ g ∈ s.sigs.data, ∃ d, FirstFor g.algo s.signedData.digests.data d
  crypto : ∀ g ∈ s.sigs.data, CryptoOk E g.algo s.pubKey.data (s.signedData.toU8.drop 4) g.signature
  content : ∀ g ∈ s.sigs.data, ∀ d, FirstFor g.algo s.signedData.digests.data d → computed g.algo.toU32 = some d.digest
  cert : ∃ leaf rest, s.signedData.certs.data.map (·.cert) = leaf :: rest ∧ E.certSpki leaf = some s.pubKey.data ∧
    Trusted E added now leaf []

/-- A returned result with all four flags set. -/
def FullyValid (v : Verdict) : Prop :=
  ∃ r, v = .ok r ∧ r.sigValid = true ∧ r.digestValid = true ∧ r.chainValid = true ∧ r.trusted = true

end Ksusig.Spec
