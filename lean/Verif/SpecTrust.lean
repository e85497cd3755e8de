import Verif.SpecVerify

/-!
# Specification vocabulary for what the trust store and the clock may influence
-/

namespace Ksusig.Spec

open Ksusig

/-- The warning is not about the certificate chain. -/
def notChain : Warn → Bool
  | .chain _ => false
  | _ => true

/-- What a result says about one signer apart from its certificate chain. -/
def apart (r : SignerResult) : SignerResult :=
  { r with chainValid := false, trusted := false, warnings := r.warnings.filter notChain }

/-- What a verdict says apart from the certificate chains. -/
def Verdict.apart : Verdict → Verdict
  | .ok r => .ok { r with
      signers := r.signers.map Spec.apart
      chainValid := false
      trusted := false
      warnings := r.warnings.filter fun w => notChain w.2 }
  | .err e => .err e

/-- The PKI library accepts no fewer chains when it is given more trust anchors. -/
def PkiMonotone (E : Env) : Prop :=
  ∀ A B leaf inters now, A ⊆ B → E.pki A leaf inters now = .ok → E.pki B leaf inters now = .ok

/-- The order and the number of times anchors are given to the PKI library do not matter. -/
def PkiSet (E : Env) : Prop :=
  ∀ A B leaf inters now, A ⊆ B → B ⊆ A → E.pki A leaf inters now = E.pki B leaf inters now

end Ksusig.Spec
