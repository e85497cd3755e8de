import Verif.SpecVerify
import Verif.Model.Cli

/-!
# Specification vocabulary for signing and the command line
-/

namespace Ksusig.Spec

open Ksusig

/-- Key and algorithm belong together. -/
def Matching (a : Algo) (key : PrivateKey) : Prop :=
  match a, key with
  | .p256, .p256 _ => True
  | .p384, .p384 _ => True
  | _, _ => False

instance (a : Algo) (key : PrivateKey) : Decidable (Matching a key) := by
  unfold Matching; split <;> infer_instance

/-- A usable signer: key and algorithm belong together, the certificate carries the public key of the key, and what the key
signs verifies under that public key (correctness of the signature scheme). -/
structure Sound (E : Env) (c : SignerConfig) : Prop where
  matching : Matching c.algo c.key
  cert : ∃ pk, c.key.publicKeyDer E = .ok pk ∧ E.certSpki c.cert = some pk ∧
    ∀ msg sig, c.algo.sign E c.key msg = .ok sig → CryptoOk E c.algo pk msg sig

/-- The two digests of a file as a table indexed by algorithm id. -/
def table (d256 d384 : Bytes) (id : UInt32) : Option Bytes :=
  if id = 0x0201 then some d256 else if id = 0x0202 then some d384 else none

end Ksusig.Spec
