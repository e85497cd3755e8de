import Verif.Model.Cli

/-!
# What the verify command prints (`/repo/src/cli/verify.rs`)

A printed line is a value of `VLine`; the wording is left out, everything the line depends on is kept. The descriptions of
certificates (`cli/cert.rs`) are left out: such a line carries the certificate it describes. The error message that `main`
prints for an unsuccessful command is not part of the lines.
-/

namespace Ksusig

/-- A line, or a fixed group of lines, of the report (`cli/verify.rs:28-332`). -/
inductive VLine where
  /-- the name of the file (28-30) -/
  | start
  /-- "Signing block found" (40) -/
  | blockFound
  /-- "Using custom root certificate" (52) -/
  | customRoot
  /-- "Computed … digest" (68, 83) -/
  | computed (a : Algo)
  /-- "Could not compute … digest" (73, 88) -/
  | notComputed (a : Algo)
  /-- "Could not compute any digests" (94) -/
  | noDigests
  /-- "File digests computed" (98) -/
  | digestsComputed
  /-- "V2 signature not found" (104, 204) -/
  | v2NotFound
  /-- "V2 signature verification failed" (108, 115) -/
  | v2Failed
  /-- "Signer #n: …" for a failed signer (110) -/
  | v2Failure (n : Nat) (e : SignerErr)
  /-- "V2 signature verification passed" (129) -/
  | v2Passed
  /-- "Signers verified: n" (130) -/
  | v2Count (n : Nat)
  /-- number and four flags of a signer (134-139) -/
  | signer (n : Nat) (sig digest chain trusted : Bool)
  /-- the certificate of a signer (141-147) -/
  | signerCert (c : Bytes)
  /-- length of the chain of a signer (150) -/
  | chainLength (n : Nat)
  /-- a certificate of the chain of a signer (152-154) -/
  | chainCert (i : Nat) (c : Bytes)
  /-- a warning of a signer (161) -/
  | signerWarning (w : Warn)
  /-- digest, chain and trust of all signers (167-170) -/
  | overall (digest chain trusted : Bool)
  /-- a warning of the V2 result (175, 197) -/
  | warning (n : Nat) (w : Warn)
  /-- "Digest mismatch" (181) -/
  | digestMismatch
  /-- "Certificate chain invalid" (185) -/
  | chainInvalid
  /-- "Untrusted certificate" (189) -/
  | untrusted
  /-- "V2 signature invalid" (193) -/
  | v2Invalid
  /-- "Source Stamp verification passed" with the flags (221-225) -/
  | stampPassed (sig digest chain trusted : Bool)
  /-- the certificate of the stamp (226-232) -/
  | stampCert (c : Bytes)
  /-- "Source Stamp verification FAILED: …" with the listed reasons and the flags (249-256); a reason is named by its place in
  the list signature, digest, chain, trust -/
  | stampFailed (reasons : List Nat) (sig digest chain trusted : Bool)
  /-- "Module content may have been tampered with!" (259) -/
  | stampTampered
  /-- "Certificate is not signed by a trusted root!" (262) -/
  | stampUntrusted
  /-- a warning of the stamp result (267) -/
  | stampWarning (n : Nat) (w : Warn)
  /-- "Source Stamp not found" (274) -/
  | stampNotFound
  /-- "Source Stamp verification failed" or "error" (277, 285) -/
  | stampError
  /-- a failure of a stamp (279) -/
  | stampFailure (e : SignerErr)
  /-- "Source Stamp present but verification failed!" (281, 286) -/
  | stampPresent
  /-- "Module V2 signature verified, but Source Stamp verification FAILED!" (302-304) -/
  | onlyV2
  /-- "Module signature verification successful!" (308-309) -/
  | success
  deriving DecidableEq, Repr

/-- A line on standard output or on standard error. -/
inductive Printed where
  | out (l : VLine)
  | err (l : VLine)
  deriving DecidableEq, Repr

/-- The lines about one signer (`cli/verify.rs:133-164`). -/
def signerLines (verbose : Bool) (s : SignerResult) : List Printed :=
  [.out (.signer (s.index + 1) s.sigValid s.digestValid s.chainValid s.trusted)] ++
  (match s.cert with | some c => [.out (.signerCert c)] | none => []) ++
  (if s.chain.isEmpty then [] else [.out (.chainLength s.chain.length)] ++
    if verbose then s.chain.zipIdx.map fun x => .out (.chainCert x.2 x.1) else []) ++
  (if verbose then s.warnings.map fun w => .out (.signerWarning w) else [])

/-- The lines about the V2 result up to the checks (`cli/verify.rs:128-177`). -/
def v2Lines (verbose : Bool) (r : VResult) : List Printed :=
  [.out .v2Passed, .out (.v2Count r.signers.length)] ++ r.signers.flatMap (signerLines verbose) ++
  [.out (.overall r.digestValid r.chainValid r.trusted)] ++ r.warnings.map fun x => .out (.warning x.1 x.2)

/-- The V2 part (`cli/verify.rs:101-118,126-206`): the lines printed, and whether the command goes on. The source stamp is
verified in between, which prints nothing. -/
def v2Report (verbose : Bool) : Verdict → List Printed × Res (Option VResult)
  | .err .noSignature => ([.out .v2NotFound, .out .v2NotFound], .ok none)
  | .err (.multiSigner es) =>
    (.err .v2Failed :: (cliFailureLines es).map fun x => .err (.v2Failure x.1 x.2), .err .verifyFailed)
  | .err .invalidSignature => ([.err .v2Failed], .err .verifyFailed)
  | .ok r =>
    if r.sigValid then
      if !r.digestValid then (v2Lines verbose r ++ [.err .digestMismatch], .err .verifyFailed)
      else if !r.chainValid then (v2Lines verbose r ++ [.err .chainInvalid], .err .verifyFailed)
      else if !r.trusted then (v2Lines verbose r ++ [.err .untrusted], .err .verifyFailed)
      else (v2Lines verbose r, .ok (some r))
    else ([.err .v2Invalid] ++ r.warnings.map fun x => .err (.warning x.1 x.2), .err .verifyFailed)

/-- `failure_reasons` (`cli/verify.rs:235-247`). -/
def stampReasons (r : VResult) : List Nat :=
  (if r.sigValid then [] else [0]) ++ (if r.digestValid then [] else [1]) ++ (if r.chainValid then [] else [2]) ++
  (if r.trusted then [] else [3])

/-- The source stamp part (`cli/verify.rs:210-289`): the lines printed, and `stamp_verification_failed`. -/
def stampReport : Verdict → List Printed × Bool
  | .ok r =>
    if r.sigValid && r.digestValid && r.chainValid && r.trusted then
      ([.out (.stampPassed r.sigValid r.digestValid r.chainValid r.trusted)] ++
        (match r.cert with | some c => [.out (.stampCert c)] | none => []), false)
    else
      ([.err (.stampFailed (stampReasons r) r.sigValid r.digestValid r.chainValid r.trusted)] ++
        (if r.digestValid then [] else [.err .stampTampered]) ++ (if r.trusted then [] else [.err .stampUntrusted]) ++
        r.warnings.map (fun x => .err (.stampWarning x.1 x.2)), true)
  | .err .noSignature => ([.out .stampNotFound], false)
  | .err (.multiSigner es) => (.err .stampError :: es.map (fun e => .err (.stampFailure e)) ++ [.err .stampPresent], true)
  | .err .invalidSignature => ([.err .stampError, .err .stampPresent], true)

/-- The conclusion (`cli/verify.rs:294-331`). -/
def conclude (v2 : Option VResult) (stampFailed : Bool) : List Printed × Res Unit :=
  let fully := match v2 with
    | some r => r.sigValid && r.digestValid && r.chainValid && r.trusted
    | none => false
  if fully then
    if stampFailed then ([.out .onlyV2], .err .verifyFailed) else ([.out .success], .ok ())
  else ([], .err .verifyFailed)

/-- The line about one digest (`cli/verify.rs:64-76,79-91`). -/
def digestLine (E : Env) (p : Profile) (m : Module) (file : Bytes) (verbose : Bool) (a : Algo) : List Printed :=
  if verbose then
    match m.digest E p file a with
    | .ok _ => [.out (.computed a)]
    | .err _ => [.out (.notComputed a)]
    | .panic => []
  else []

/-- `execute` of the verify command (`cli/verify.rs:27-332`): everything it prints, and its result. -/
def cliVerifyRun (E : Env) (p : Profile) (builtinPem : Bytes) (root : Option Bytes) (now : Nat) (verbose : Bool) (file : Bytes) :
    List Printed × Res Unit :=
  let m := Module.new file
  match m.getSigningBlock p file with
  | .err _ => ([.out .start], .err .verifyFailed)
  | .panic => ([.out .start], .panic)
  | .ok b =>
    let l1 : List Printed := [.out .start, .out .blockFound]
    match cliRoots E builtinPem root with
    | .err e => (l1, .err e)
    | .panic => (l1, .panic)
    | .ok roots =>
      let l2 : List Printed := l1 ++ if root.isSome then [.out .customRoot] else []
      match cliAddDigest E p m file .p256 DigestCtx.new with
      | .err e => (l2, .err e)
      | .panic => (l2, .panic)
      | .ok c1 =>
        let l3 := l2 ++ digestLine E p m file verbose .p256
        match cliAddDigest E p m file .p384 c1 with
        | .err e => (l3, .err e)
        | .panic => (l3, .panic)
        | .ok c2 =>
          let l4 := l3 ++ digestLine E p m file verbose .p384
          if c2.entries.isEmpty then (l4 ++ [.err .noDigests], .err .verifyFailed)
          else
            let l5 := l4 ++ [.out .digestsComputed]
            let v := v2Report verbose (verifyV2 E roots now b (some c2))
            match v.2 with
            | .err e => (l5 ++ v.1, .err e)
            | .panic => (l5 ++ v.1, .panic)
            | .ok v2 =>
              let s := stampReport (verifySourceStamp E roots now b (some c2))
              let r := conclude v2 s.2
              (l5 ++ v.1 ++ s.1 ++ r.1, r.2)

end Ksusig
