import Verif.SpecVerify
import Verif.Model.CliVerify

/-!
# What each line printed by the verify command means

For a module with a block, a root certificate that loads and digests that can be computed; `v` and `s` are the results of verifying
the V2 signature and the source stamp of the block against the digests.
-/

namespace Ksusig.Spec

open Ksusig

/-- The V2 part does not end the command. -/
def GoesOn (v : Verdict) : Prop := v = .err .noSignature ∨ FullyValid v

/-- The numbers of the flags that are not set. -/
def missing (flags : List Bool) : List Nat := (List.range flags.length).filter fun i => flags[i]? == some false

/-- A line is printed exactly if what it says is the case. -/
inductive Reported (verbose custom : Bool) (v s : Verdict) : Printed → Prop where
  | start : Reported verbose custom v s (.out .start)
  | blockFound : Reported verbose custom v s (.out .blockFound)
  | customRoot : custom = true → Reported verbose custom v s (.out .customRoot)
  | computed (a : Algo) : verbose = true → Known a → Reported verbose custom v s (.out (.computed a))
  | digestsComputed : Reported verbose custom v s (.out .digestsComputed)
  -- V2
  | v2NotFound : v = .err .noSignature → Reported verbose custom v s (.out .v2NotFound)
  | v2Failed (e : VErr) : v = .err e → e ≠ .noSignature → Reported verbose custom v s (.err .v2Failed)
  | v2Failure (es : List SignerErr) (i : Nat) (e : SignerErr) : v = .err (.multiSigner es) → es[i]? = some e →
      Reported verbose custom v s (.err (.v2Failure (i + 1) e))
  | v2Passed (r : VResult) : v = .ok r → r.sigValid = true → Reported verbose custom v s (.out .v2Passed)
  | v2Count (r : VResult) : v = .ok r → r.sigValid = true → Reported verbose custom v s (.out (.v2Count r.signers.length))
  | signer (r : VResult) (g : SignerResult) : v = .ok r → r.sigValid = true → g ∈ r.signers →
      Reported verbose custom v s (.out (.signer (g.index + 1) g.sigValid g.digestValid g.chainValid g.trusted))
  | signerCert (r : VResult) (g : SignerResult) (c : Bytes) : v = .ok r → r.sigValid = true → g ∈ r.signers → g.cert = some c →
      Reported verbose custom v s (.out (.signerCert c))
  | chainLength (r : VResult) (g : SignerResult) : v = .ok r → r.sigValid = true → g ∈ r.signers → g.chain ≠ [] →
      Reported verbose custom v s (.out (.chainLength g.chain.length))
  | chainCert (r : VResult) (g : SignerResult) (i : Nat) (c : Bytes) : verbose = true → v = .ok r → r.sigValid = true → g ∈ r.signers →
      g.chain[i]? = some c → Reported verbose custom v s (.out (.chainCert i c))
  | signerWarning (r : VResult) (g : SignerResult) (w : Warn) : verbose = true → v = .ok r → r.sigValid = true → g ∈ r.signers →
      w ∈ g.warnings → Reported verbose custom v s (.out (.signerWarning w))
  | overall (r : VResult) : v = .ok r → r.sigValid = true →
      Reported verbose custom v s (.out (.overall r.digestValid r.chainValid r.trusted))
  | warning (r : VResult) (n : Nat) (w : Warn) : v = .ok r → r.sigValid = true → (n, w) ∈ r.warnings →
      Reported verbose custom v s (.out (.warning n w))
  | digestMismatch (r : VResult) : v = .ok r → r.sigValid = true → r.digestValid = false →
      Reported verbose custom v s (.err .digestMismatch)
  | chainInvalid (r : VResult) : v = .ok r → r.sigValid = true → r.digestValid = true → r.chainValid = false →
      Reported verbose custom v s (.err .chainInvalid)
  | untrusted (r : VResult) : v = .ok r → r.sigValid = true → r.digestValid = true → r.chainValid = true → r.trusted = false →
      Reported verbose custom v s (.err .untrusted)
  | v2Invalid (r : VResult) : v = .ok r → r.sigValid = false → Reported verbose custom v s (.err .v2Invalid)
  | errWarning (r : VResult) (n : Nat) (w : Warn) : v = .ok r → r.sigValid = false → (n, w) ∈ r.warnings →
      Reported verbose custom v s (.err (.warning n w))
  -- source stamp
  | stampPassed : GoesOn v → FullyValid s → Reported verbose custom v s (.out (.stampPassed true true true true))
  | stampCert (r : VResult) (c : Bytes) : GoesOn v → FullyValid s → s = .ok r → r.cert = some c →
      Reported verbose custom v s (.out (.stampCert c))
  | stampFailed (r : VResult) : GoesOn v → s = .ok r → ¬ FullyValid s →
      Reported verbose custom v s (.err (.stampFailed (missing [r.sigValid, r.digestValid, r.chainValid, r.trusted])
        r.sigValid r.digestValid r.chainValid r.trusted))
  | stampTampered (r : VResult) : GoesOn v → s = .ok r → r.digestValid = false → Reported verbose custom v s (.err .stampTampered)
  | stampUntrusted (r : VResult) : GoesOn v → s = .ok r → r.trusted = false → Reported verbose custom v s (.err .stampUntrusted)
  | stampWarning (r : VResult) (n : Nat) (w : Warn) : GoesOn v → s = .ok r → ¬ FullyValid s → (n, w) ∈ r.warnings →
      Reported verbose custom v s (.err (.stampWarning n w))
  | stampNotFound : GoesOn v → s = .err .noSignature → Reported verbose custom v s (.out .stampNotFound)
  | stampError (e : VErr) : GoesOn v → s = .err e → e ≠ .noSignature → Reported verbose custom v s (.err .stampError)
  | stampFailure (es : List SignerErr) (e : SignerErr) : GoesOn v → s = .err (.multiSigner es) → e ∈ es →
      Reported verbose custom v s (.err (.stampFailure e))
  | stampPresent (e : VErr) : GoesOn v → s = .err e → e ≠ .noSignature → Reported verbose custom v s (.err .stampPresent)
  -- conclusion
  | onlyV2 : FullyValid v → s ≠ .err .noSignature → ¬ FullyValid s → Reported verbose custom v s (.out .onlyV2)
  | success : FullyValid v → s = .err .noSignature ∨ FullyValid s → Reported verbose custom v s (.out .success)

end Ksusig.Spec
