import Verif.Model.CliVerify
import Verif.Model.CliInfo
import Verif.Model.CliOut

/-!
# The text of the reports of verify and info (`/repo/src/cli/{verify,info,cert}.rs`, `/repo/src/main.rs`)

`Model/CliVerify.lean` and `Model/CliInfo.lean` say which lines are printed; here is the wording. A text is a list of characters. Text that
comes from elsewhere is a parameter (`Words`): the names of files, the fields of a certificate as the derived `Debug` writes them, and the
messages of libraries. What the libraries may say is a predicate, so that the same error may be worded differently each time; hence a report
and its text are related by a predicate (`Says`) and not by a function.
-/

namespace Ksusig

/-- Text that does not come from this program. -/
structure Words where
  /-- `args.module.display()` -/
  file : List Char
  /-- `root_path.display()` -/
  root : List Char
  /-- subject, issuer, not_before and not_after of a certificate that can be decoded, as `{:?}` -/
  fields : Bytes → Option (List Char × List Char × List Char × List Char)
  /-- messages of the operating system and of the libraries for keys, certificates and paths -/
  library : List Char → Prop

/-- `{}` for an unsigned number. -/
def decimal (n : Nat) : List Char := Nat.toDigits 10 n

/-- `{}` for a `bool`. -/
def boolText (b : Bool) : List Char := if b then "true".toList else "false".toList

/-- `describe_certificate` (`cli/cert.rs:6-24`). -/
def describeCertificate (W : Words) (c : Bytes) : List Char :=
  match W.fields c with
  | some (subject, issuer, notBefore, notAfter) =>
    "subject=".toList ++ subject ++ " | issuer=".toList ++ issuer ++ " | not_before=".toList ++ notBefore ++
      " | not_after=".toList ++ notAfter
  | none => "certificate: ".toList ++ decimal c.length ++ " bytes (failed to parse DER)".toList

/-- One element of `describe_chain` (`cli/cert.rs:27-40`). -/
def describeLink (W : Words) (i : Nat) (c : Bytes) : List Char :=
  "Chain[".toList ++ decimal i ++ "]: ".toList ++ decimal c.length ++ " bytes; ".toList ++ describeCertificate W c

/-- The messages of failed signers (`verifier.rs:692,726,735,758`) and, with `stamp`, of failed stamps (`845,860,878,918`). -/
def SignerErr.Says (W : Words) (stamp : Bool) : SignerErr → List Char → Prop
  | .invalidSignedData, t => t = "Invalid signed data".toList
  | .signatureFailed, t => ∃ m, W.library m ∧ t = "Signature verification failed: ".toList ++ m
  | .digestMismatch, t => t = if stamp then "Source Stamp digest mismatch: stored digest doesn't match computed file content".toList
      else "Digest mismatch: stored digest doesn't match computed file content".toList
  | .keyBinding, t =>
    t = "Public key binding failed: Public key in signing block does not match certificate's public key".toList ∨
    ∃ m, W.library m ∧ (t = "Public key binding failed: Failed to parse certificate: ".toList ++ m ∨
      t = "Public key binding failed: Failed to encode SPKI: ".toList ++ m)

/-- The messages of `verify_chain` (`verifier.rs:435-509`). -/
def ChainMsg.Says (W : Words) : ChainMsg → List Char → Prop
  | .noRoots, t => t = "No trusted roots configured".toList
  | .leafUnparsable, t => ∃ m, W.library m ∧ t = "Failed to parse end-entity certificate: ".toList ++ m
  | .expired, t => t = "Certificate has expired".toList
  | .notYetValid, t => t = "Certificate is not yet valid".toList
  | .unknownIssuer, t => t = "Unknown issuer - certificate not signed by trusted root".toList
  | .noCodeSigning, t => t = "Certificate does not have codeSigning EKU".toList
  | .other, t => ∃ m, W.library m ∧ t = "Chain verification failed: ".toList ++ m

/-- The warnings of signers (`verifier.rs:717,744,785`) and, with `stamp`, of stamps (`891,897,933`). -/
def Warn.Says (W : Words) (stamp : Bool) : Warn → List Char → Prop
  | .noDigest a, t => t = "No digest found for algorithm ".toList ++ a.display
  | .notVerified, t => t = if stamp then "Source Stamp content integrity NOT verified: no computed digest provided.".toList
      else "Content integrity NOT verified: no computed digest provided. Use verify_v2_with_digest for full verification.".toList
  | .noMatchingDigest, t => t = "No matching digest found in Source Stamp for verification.".toList
  | .chain m, t => m.Says W t

/-- The name of a digest (`cli/verify.rs:68,73,83,88`). -/
def digestName : Algo → List Char
  | .p256 => "SHA2-256".toList
  | _ => "SHA2-512".toList

/-- The reasons for a failed stamp (`cli/verify.rs:235-247`). -/
def reasonText : Nat → List Char
  | 0 => "signature invalid".toList
  | 1 => "digest mismatch (content integrity)".toList
  | 2 => "certificate chain invalid".toList
  | _ => "certificate not trusted".toList

/-- `join(", ")` (`cli/verify.rs:251`). -/
def joinComma : List (List Char) → List Char
  | [] => []
  | [a] => a
  | a :: as => a ++ ", ".toList ++ joinComma as

/-- The text of a line, or of a fixed group of lines, of the verify command (`cli/verify.rs:28-309`, the places given at `VLine`). The texts
have no line breaks of their own except those in the parameters. -/
def VLine.Says (W : Words) : VLine → List (List Char) → Prop
  | .start, t => t = ["Verifying module signature...".toList, "File: ".toList ++ W.file, []]
  | .blockFound, t => t = ["✓ Signing block found".toList]
  | .customRoot, t => t = ["✓ Using custom root certificate: ".toList ++ W.root]
  | .computed a, t => t = ["✓ Computed ".toList ++ digestName a ++ " digest".toList]
  | .notComputed a, t => ∃ m, W.library m ∧ t = ["⚠ Could not compute ".toList ++ digestName a ++ " digest: ".toList ++ m]
  | .noDigests, t => t = ["✗ Could not compute any digests for verification".toList]
  | .digestsComputed, t => t = ["✓ File digests computed".toList]
  | .v2NotFound, t => t = ["ℹ V2 signature not found".toList]
  | .v2Failed, t => t = ["✗ V2 signature verification failed:".toList] ∨
      ∃ m, W.library m ∧ t = ["✗ V2 signature verification failed: ".toList ++ m]
  | .v2Failure n e, t => ∃ m, e.Says W false m ∧ t = ["  Signer #".toList ++ decimal n ++ ": ".toList ++ m]
  | .v2Passed, t => t = ["✓ V2 signature verification passed".toList]
  | .v2Count n, t => t = ["  Signers verified: ".toList ++ decimal n]
  | .signer n sig digest chain trusted, t => t = ["  ─── Signer #".toList ++ decimal n ++ " ───".toList,
      "    Signature valid: ".toList ++ boolText sig, "    Digest valid: ".toList ++ boolText digest,
      "    Certificate chain valid: ".toList ++ boolText chain, "    Trusted: ".toList ++ boolText trusted]
  | .signerCert c, t => t = ["    Certificate: ".toList ++ decimal c.length ++ " bytes; ".toList ++ describeCertificate W c]
  | .chainLength n, t => t = ["    Chain: ".toList ++ decimal n ++ " certificate(s)".toList]
  | .chainCert i c, t => t = ["      ".toList ++ describeLink W i c]
  | .signerWarning w, t => ∃ m, w.Says W false m ∧ t = ["      ⚠ ".toList ++ m]
  | .overall digest chain trusted, t => t = ["  ─── Overall ───".toList, "  Digest valid: ".toList ++ boolText digest,
      "  Certificate chain valid: ".toList ++ boolText chain, "  Trusted: ".toList ++ boolText trusted]
  | .warning n w, t => ∃ m mark, w.Says W false m ∧ (mark = "    ⚠ ".toList ∨ mark = "    • ".toList) ∧
      t = [mark ++ "Signer #".toList ++ decimal n ++ ": ".toList ++ m]
  | .digestMismatch, t => t = ["✗ Digest mismatch: file content may have been tampered".toList]
  | .chainInvalid, t => t = ["✗ Certificate chain invalid".toList]
  | .untrusted, t => t = ["✗ Untrusted certificate: not signed by trusted root".toList]
  | .v2Invalid, t => t = ["✗ V2 signature invalid".toList]
  | .stampPassed sig digest chain trusted, t => t = ["✓ Source Stamp verification passed".toList,
      "  Signature valid: ".toList ++ boolText sig, "  Digest valid: ".toList ++ boolText digest,
      "  Certificate chain valid: ".toList ++ boolText chain, "  Trusted: ".toList ++ boolText trusted]
  | .stampCert c, t => t = ["  Stamp certificate: ".toList ++ decimal c.length ++ " bytes; ".toList ++ describeCertificate W c]
  | .stampFailed reasons sig digest chain trusted, t =>
    t = ["⚠ Source Stamp verification FAILED: ".toList ++ joinComma (reasons.map reasonText),
      "  Signature valid: ".toList ++ boolText sig, "  Digest valid: ".toList ++ boolText digest,
      "  Certificate chain valid: ".toList ++ boolText chain, "  Trusted: ".toList ++ boolText trusted]
  | .stampTampered, t => t = ["  ⚠ WARNING: Module content may have been tampered with!".toList]
  | .stampUntrusted, t => t = ["  ⚠ WARNING: Certificate is not signed by a trusted root!".toList]
  | .stampWarning n w, t => ∃ m, w.Says W true m ∧ t = ["  ⚠ Signer #".toList ++ decimal n ++ ": ".toList ++ m]
  | .stampNotFound, t => t = ["ℹ Source Stamp not found".toList]
  | .stampError, t => t = ["✗ Source Stamp verification failed:".toList] ∨
      ∃ m, W.library m ∧ t = ["✗ Source Stamp verification error: ".toList ++ m]
  | .stampFailure e, t => ∃ m, e.Says W true m ∧ t = ["  ✗ ".toList ++ m]
  | .stampPresent, t => t = ["⚠ WARNING: Source Stamp present but verification failed!".toList]
  | .onlyV2, t => t = [[], "⚠ Module V2 signature verified, but Source Stamp verification FAILED!".toList,
      "  V2 checks passed: signature, digest, chain, trust".toList, "  Source Stamp: VERIFICATION FAILED - may indicate tampering".toList]
  | .success, t => t = [[], "✓ Module signature verification successful!".toList,
      "  All checks passed: signature, digest, chain, trust".toList]

/-- The heading in front of the first of several warnings (`cli/verify.rs:159,173,195`). -/
def heading (prev : Option VLine) : VLine → List (List Char)
  | .signerWarning _ => match prev with
    | some (.signerWarning _) => []
    | _ => ["    Warnings:".toList]
  | .warning _ _ => match prev with
    | some (.warning _ _) => []
    | some .v2Invalid => ["  Errors:".toList]
    | _ => ["  Warnings:".toList]
  | _ => []

/-- The lines of one stream: those of the typed lines, with the headings. -/
def StreamSays (W : Words) : Option VLine → List VLine → List (List Char) → Prop
  | _, [], t => t = []
  | prev, l :: ls, t => ∃ a r, l.Says W a ∧ StreamSays W (some l) ls r ∧ t = heading prev l ++ a ++ r

/-- `println!` and `eprintln!`: every line is followed by a line break. -/
def unlines (ls : List (List Char)) : List Char := ls.flatMap (· ++ ['\n'])

/-- What of a report goes to standard output. -/
def outLines (r : List Printed) : List VLine := r.filterMap fun
  | .out l => some l
  | .err _ => none

/-- What of a report goes to standard error. -/
def errLines (r : List Printed) : List VLine := r.filterMap fun
  | .out _ => none
  | .err l => some l

/-- What `main` adds on standard error for a command that does not succeed (`main.rs:8-11`): `Error: ` and the message of the error; and
what the runtime says when a command panics, which is not empty. -/
def MainSays : Res Unit → List Char → Prop
  | .ok (), t => t = []
  | .err _, t => ∃ m, t = "Error: ".toList ++ m ++ ['\n']
  | .panic, t => t ≠ []

/-- What `TrustedRoots::with_builtin` prints if the certificate in the program cannot be read (`verifier.rs:321-326`). -/
def BuiltinSays (E : Env) (builtinPem : Bytes) (t : List Char) : Prop :=
  if (Roots.new.addPem E builtinPem).isOk then t = []
  else ∃ m, t = "Warning: Failed to load built-in KernelSU Root CA P-384: ".toList ++ m ++ ['\n']

/-- Whether the verify command comes to the point where the verifier is made (`cli/verify.rs:35-58`), with the built-in roots. -/
def usesBuiltin (p : Profile) (root : Option Bytes) (file : Bytes) : Bool :=
  root.isNone && ((Module.new file).getSigningBlock p file).isOk

/-- The text the verify command writes to standard output and to standard error (`cli/verify.rs:27-332`, `main.rs:5-12`). Without a V2
signature the last line is empty (`299`). -/
def VerifySays (E : Env) (p : Profile) (builtinPem : Bytes) (root : Option Bytes) (now : Nat) (verbose : Bool) (file : Bytes) (W : Words)
    (out err : List Char) : Prop :=
  let r := cliVerifyRun E p builtinPem root now verbose file
  ∃ lo le first last, StreamSays W none (outLines r.1) lo ∧ StreamSays W none (errLines r.1) le ∧
    (if usesBuiltin p root file then BuiltinSays E builtinPem first else first = []) ∧ MainSays r.2 last ∧
    out = unlines (lo ++ if .out .v2NotFound ∈ r.1 then [[]] else []) ∧ err = first ++ unlines le ++ last

/-! ## info -/

/-- `Display for VerifyError` (`verifier.rs:41-74`). -/
def VErr.Says (W : Words) (stamp : Bool) : VErr → List Char → Prop
  | .noSignature, t => t = "No signature found".toList
  | .invalidSignature, t => ∃ m, W.library m ∧ t = "Invalid signature: ".toList ++ m
  | .multiSigner es, t => ∃ ms, ms.length = es.length ∧ (∀ x ∈ es.zip ms, x.1.Says W stamp x.2) ∧
      t = "Multiple signer verification failed: ".toList ++ List.intercalate "; ".toList ms

/-- The text of a line, or of a fixed group of lines, of the info command on standard output (`cli/info.rs:26-119`). The description of
the error on standard error is left out. -/
def ILine.Says (W : Words) : ILine → List (List Char) → Prop
  | .fileSize n, t => t = ["File: ".toList ++ W.file, "File size: ".toList ++ decimal n ++ " bytes".toList, []]
  | .found, t => t = ["✓ KSU signing block found".toList]
  | .location a b, t => t = ["  Location: ".toList ++ decimal a ++ " - ".toList ++ decimal b]
  | .size n, t => t = ["  Size: ".toList ++ decimal n ++ " bytes".toList, []]
  | .contents, t => t = ["Signing block contents:".toList]
  | .v2Entry, t => t = ["  ✓ V2 Signature Scheme".toList]
  | .stampEntry, t => t = ["  ✓ Source Stamp".toList]
  | .elfEntry n, t => t = ["  ✓ ELF Section Info (".toList ++ decimal n ++ " section(s))".toList]
  | .unknownEntry id, t => t = ["  • Unknown Block (ID: 0x".toList ++ hexNat id.toNat ++ ")".toList]
  | .v2Flags sig digest chain trusted, t => t = [[], "V2 Certificate details:".toList, "  Signature valid: ".toList ++ boolText sig,
      "  Content integrity verified: ".toList ++ boolText digest, "  Certificate chain valid: ".toList ++ boolText chain,
      "  Trusted: ".toList ++ boolText trusted]
  | .leaf c, t => t = ["  Leaf certificate: ".toList ++ decimal c.length ++ " bytes; ".toList ++ describeCertificate W c]
  | .chainLength n, t => t = ["  Certificate chain: ".toList ++ decimal n ++ " certificate(s)".toList]
  | .chainCert i c, t => t = ["    ".toList ++ describeLink W i c]
  | .noChain, t => t = ["  Certificate chain: none (self-signed or single cert)".toList]
  | .warning n w, t => ∃ m, w.Says W false m ∧ t = ["    ⚠ Signer #".toList ++ decimal n ++ ": ".toList ++ m]
  | .v2Unavailable e, t => ∃ m, e.Says W false m ∧ t = [[], "ℹ V2 certificate info unavailable: ".toList ++ m]
  | .stampFlags sig chain trusted, t => t = [[], "Source Stamp certificate details:".toList, "  Signature valid: ".toList ++ boolText sig,
      "  Certificate chain valid: ".toList ++ boolText chain, "  Trusted: ".toList ++ boolText trusted]
  | .stampLeaf c, t => t = ["  Stamp certificate: ".toList ++ decimal c.length ++ " bytes; ".toList ++ describeCertificate W c]
  | .notFound, t => t = []

/-- The heading in front of the first warning (`cli/info.rs:95`). -/
def infoHeading (prev : Option ILine) : ILine → List (List Char)
  | .warning _ _ => match prev with
    | some (.warning _ _) => []
    | _ => ["  Warnings:".toList]
  | _ => []

/-- The lines on standard output. -/
def InfoLinesSay (W : Words) : Option ILine → List ILine → List (List Char) → Prop
  | _, [], t => t = []
  | prev, l :: ls, t => ∃ a r, l.Says W a ∧ InfoLinesSay W (some l) ls r ∧ t = infoHeading prev l ++ a ++ r

/-- The text the info command writes to standard output (`cli/info.rs:20-133`). -/
def InfoSays (E : Env) (p : Profile) (builtinPem : Bytes) (now : Nat) (file : Bytes) (W : Words) (out : List Char) : Prop :=
  ∃ ls, InfoLinesSay W none (cliInfoRun E p builtinPem now file).1 ls ∧ out = unlines ls

end Ksusig
