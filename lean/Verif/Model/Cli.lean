import Verif.Model.Signer
import Verif.Model.Verifier

/-!
# `/repo/src/cli`: `verify.rs`, `info.rs`, `sign.rs` for modules, and the helpers of `digest.rs`

Everything printed is left out unless a property speaks about it. Reading a file that cannot be opened is not modelled:
every path given exists and is readable. All failures of the verify command are the one error `verifyFailed`, except those of
loading the root certificate.
-/

namespace Ksusig

/-! ## verify -/

/-- Computing one digest for the context (`cli/verify.rs:64-76,79-91`): a failure is only printed. -/
def cliAddDigest (E : Env) (p : Profile) (m : Module) (file : Bytes) (a : Algo) (c : DigestCtx) : Res DigestCtx :=
  match m.digest E p file a with
  | .ok d => .ok (c.add a.toU32 d)
  | .err _ => .ok c
  | .panic => .panic

/-- The choice of the roots (`cli/verify.rs:43-58`); `root` is the content of the file given with `--root`. -/
def cliRoots (E : Env) (builtinPem : Bytes) (root : Option Bytes) : Res Roots :=
  match root with
  | some pem => Roots.new.addPem E pem
  | none => .ok (Roots.withBuiltin E builtinPem)

/-- The handling of the V2 verdict (`cli/verify.rs:101-118,126-206`): `ok none` is "not found". -/
def cliV2 (v : Verdict) : Res (Option VResult) :=
  match v with
  | .err .noSignature => .ok none
  | .err _ => .err .verifyFailed
  | .ok r =>
    if r.sigValid then
      if !r.digestValid then .err .verifyFailed
      else if !r.chainValid then .err .verifyFailed
      else if !r.trusted then .err .verifyFailed
      else .ok (some r)
    else .err .verifyFailed

/-- The lines printed for failed V2 signers (`cli/verify.rs:107-113`): the failures, numbered from 1. -/
def cliFailureLines (es : List SignerErr) : List (Nat × SignerErr) := es.zipIdx.map fun x => (x.2 + 1, x.1)

/-- `stamp_verification_failed` (`cli/verify.rs:210-292`). -/
def cliStampFailed (v : Verdict) : Bool :=
  match v with
  | .ok r => !(r.sigValid && r.digestValid && r.chainValid && r.trusted)
  | .err .noSignature => false
  | .err _ => true

/-- `execute` of the verify command (`cli/verify.rs:27-332`); `ok ()` is exit status 0. -/
def cliVerify (E : Env) (p : Profile) (builtinPem : Bytes) (root : Option Bytes) (now : Nat) (file : Bytes) : Res Unit := do
  let m := Module.new file
  let b ← (m.getSigningBlock p file).mapErr fun _ => .verifyFailed
  let roots ← cliRoots E builtinPem root
  let c1 ← cliAddDigest E p m file .p256 DigestCtx.new
  let c2 ← cliAddDigest E p m file .p384 c1
  if c2.entries.isEmpty then .err .verifyFailed
  else do
    let v2 ← cliV2 (verifyV2 E roots now b (some c2))
    let stampFailed := cliStampFailed (verifySourceStamp E roots now b (some c2))
    let fully := match v2 with
      | some r => r.sigValid && r.digestValid && r.chainValid && r.trusted
      | none => false
    if fully then
      if stampFailed then .err .verifyFailed else .ok ()
    else .err .verifyFailed

/-! ## info -/

/-- The block the info command looks at (`cli/info.rs:20-30`): the whole end of the file is searched. -/
def cliInfoBlock (p : Profile) (file : Bytes) : Res SigningBlock := SigningBlock.fromReader p file file.length 0

/-- What the info command prints: place and contents of the block, and the certificate details of the V2 signers and of the
source stamp where it prints them. -/
structure InfoReport where
  block : SigningBlock
  v2 : Option VResult
  stamp : Option VResult
  deriving DecidableEq, Repr

/-- The V2 details (`cli/info.rs:68-105`): printed whenever there is a result. -/
def infoV2 : Verdict → Option VResult
  | .ok r => some r
  | .err _ => none

/-- The source stamp details (`cli/info.rs:107-123`): printed only if the signatures are valid. -/
def infoStamp : Verdict → Option VResult
  | .ok r => if r.sigValid then some r else none
  | .err _ => none

/-- `execute` of the info command (`cli/info.rs:20-133`), with the built-in roots and without digests. -/
def cliInfo (E : Env) (p : Profile) (builtinPem : Bytes) (now : Nat) (file : Bytes) : Res InfoReport := do
  let b ← cliInfoBlock p file
  let roots := Roots.withBuiltin E builtinPem
  .ok ⟨b, infoV2 (verifyV2 E roots now b none), infoStamp (verifySourceStamp E roots now b none)⟩

/-! ## sign, for modules -/

/-- The digests the sign command computes (`cli/sign.rs:161-175`). -/
def cliDigests (E : Env) (p : Profile) (m : Module) (file : Bytes) : List Algo → Res (List (Algo × Bytes))
  | [] => .ok []
  | a :: as => do
    let d ← m.digest E p file a
    let rest ← cliDigests E p m file as
    .ok ((a, d) :: rest)

/-- `execute` of the sign command for a module (`cli/sign.rs:132-212`), after the credentials are loaded. The first
component is what happened to the output path: `none` if it was not touched, otherwise its new content (the buffered writer
writes what it holds when it is dropped). With `inPlace` the output path is the input path: creating the output
truncates the input before `write_with_signature` reads it again. -/
def cliSignModule (E : Env) (p : Profile) (clock : Option UInt64) (signer : ModuleSigner) (inPlace : Bool) (file : Bytes) :
    Option Bytes × Res Unit :=
  let m := Module.new file
  match (do
    let _ ← m.digestRegions p file
    let pairs ← cliDigests E p m file signer.requiredAlgorithms
    signer.sign E p clock (Digests.new (pairs.map fun x => Digest.new x.1 x.2)) : Res SigningBlock) with
  | .err e => (none, .err e)
  | .panic => (none, .panic)
  | .ok b =>
    let r := m.signableWrite p (if inPlace then [] else file) b
    (some r.1, r.2)

/-! ## digest -/

/-- The inner loop of `dump_regions` (`cli/digest.rs:142-151`): `read_exact` of at most 64 KiB at a time. Returns what has
been written and whether everything could be read. The first argument is fuel, `remaining` is always enough. -/
def dumpLoop : Nat → Bytes → Nat → Bytes × Bool
  | 0, _, _ => ([], true)
  | fuel + 1, d, remaining =>
    if remaining = 0 then ([], true)
    else
      let n := min remaining 65536
      if d.length < n then ([], false)
      else
        let r := dumpLoop fuel (d.drop n) (remaining - n)
        (d.take n ++ r.1, r.2)

/-- `dump_regions` (`cli/digest.rs:125-164`): the output file and whether the command succeeded. -/
def dumpRegions (file : Bytes) : List DigestRegion → Bytes × Bool
  | [] => ([], true)
  | r :: rs =>
    let x := dumpLoop r.size (file.drop r.offset) r.size
    if x.2 then
      let y := dumpRegions file rs
      (x.1 ++ y.1, y.2)
    else (x.1, false)

/-- One hex digit of `format!("{:02x}")`. -/
def hexDigit (n : Nat) : Char :=
  match n with
  | 0 => '0' | 1 => '1' | 2 => '2' | 3 => '3' | 4 => '4' | 5 => '5' | 6 => '6' | 7 => '7'
  | 8 => '8' | 9 => '9' | 10 => 'a' | 11 => 'b' | 12 => 'c' | 13 => 'd' | 14 => 'e' | _ => 'f'

/-- `hex_encode` (`cli/digest.rs:167-169`), as a list of characters. -/
def hexEncode (d : Bytes) : List Char := d.flatMap fun b => [hexDigit (b.toNat / 16), hexDigit (b.toNat % 16)]

end Ksusig
