import Verif.Model.Cli

/-!
# What the info command prints (`/repo/src/cli/info.rs`)

As for the verify command (`Model/CliVerify.lean`): the wording is left out, everything a line depends on is kept.
-/

namespace Ksusig

/-- A line, or a fixed group of lines, of the info command (`cli/info.rs:26-131`). -/
inductive ILine where
  /-- name of the file, and its size (26-27) -/
  | fileSize (n : Nat)
  /-- "KSU signing block found" (32) -/
  | found
  /-- "Location: a - b" (33-36) -/
  | location (a b : Nat)
  /-- "Size: n bytes" (37) -/
  | size (n : Nat)
  /-- "Signing block contents:" (42) -/
  | contents
  /-- "V2 Signature Scheme" (46) -/
  | v2Entry
  /-- "Source Stamp" (49) -/
  | stampEntry
  /-- "ELF Section Info (n section(s))" (53) -/
  | elfEntry (n : Nat)
  /-- "Unknown Block (ID: …)" (56) -/
  | unknownEntry (id : UInt32)
  /-- "V2 Certificate details:" with the four flags (71-75) -/
  | v2Flags (sig digest chain trusted : Bool)
  /-- the leaf certificate (77-81) -/
  | leaf (c : Bytes)
  /-- "Certificate chain: n certificate(s)" (84-87) -/
  | chainLength (n : Nat)
  /-- a certificate of the chain (89) -/
  | chainCert (i : Nat) (c : Bytes)
  /-- "Certificate chain: none" (92) -/
  | noChain
  /-- a warning (97) -/
  | warning (n : Nat) (w : Warn)
  /-- "V2 certificate info unavailable" (103) -/
  | v2Unavailable (e : VErr)
  /-- "Source Stamp certificate details:" with the three flags (110-113) -/
  | stampFlags (sig chain trusted : Bool)
  /-- the certificate of the stamp (115-119) -/
  | stampLeaf (c : Bytes)
  /-- "Cannot parse KSU signing block" on standard error (128-129) -/
  | notFound
  deriving DecidableEq, Repr

/-- The line for one value of the block (`cli/info.rs:43-58`). -/
def infoEntry : Value → ILine
  | .v2 _ => .v2Entry
  | .stamp _ => .stampEntry
  | .elf e => .elfEntry e.count.toNat
  | .raw r => .unknownEntry r.id

/-- The lines about place and contents of the block (`cli/info.rs:32-60`). -/
def infoBlockLines (b : SigningBlock) : List ILine :=
  [.found, .location b.fileStart b.fileEnd, .size (b.sizeStart + 8)] ++
  if b.content.isEmpty then [] else .contents :: b.content.map infoEntry

/-- The V2 details (`cli/info.rs:68-105`). -/
def infoV2Lines : Verdict → List ILine
  | .ok r =>
    [.v2Flags r.sigValid r.digestValid r.chainValid r.trusted] ++
    (match r.cert with | some c => [.leaf c] | none => []) ++
    (if r.chain.isEmpty then [.noChain]
     else .chainLength r.chain.length :: r.chain.zipIdx.map fun x => .chainCert x.2 x.1) ++
    r.warnings.map fun x => .warning x.1 x.2
  | .err e => [.v2Unavailable e]

/-- The source stamp details (`cli/info.rs:107-122`). -/
def infoStampLines : Verdict → List ILine
  | .ok r =>
    if r.sigValid then
      [.stampFlags r.sigValid r.chainValid r.trusted] ++ (match r.cert with | some c => [.stampLeaf c] | none => [])
    else []
  | .err _ => []

/-- `execute` of the info command (`cli/info.rs:20-133`): everything it prints, and its result. -/
def cliInfoRun (E : Env) (p : Profile) (builtinPem : Bytes) (now : Nat) (file : Bytes) : List ILine × Res Unit :=
  match cliInfoBlock p file with
  | .err e => ([.fileSize file.length, .notFound], .err e)
  | .panic => ([.fileSize file.length], .panic)
  | .ok b =>
    let roots := Roots.withBuiltin E builtinPem
    ([.fileSize file.length] ++ infoBlockLines b ++ infoV2Lines (verifyV2 E roots now b none) ++
      infoStampLines (verifySourceStamp E roots now b none), .ok ())

end Ksusig
