import Verif.Model.NarrowSign
import Verif.Model.CliOut
import Verif.Model.CliInfo

/-!
# The digest and the info command on a machine with 32-bit `usize`, for modules

See `Model/Narrow.lean` for what changes. Sizes of regions are `u64` (`signable.rs:34-41`), so their total is one too.
-/

namespace Ksusig.Narrow

open Ksusig

/-- The regions and the printed total of their sizes (`cli/digest.rs:78-88`). -/
def cliRegions (p : Profile) (file : Bytes) : Res (List DigestRegion) := do
  let rs ← digestRegions p file
  let _ ← rs.foldlM (fun t r => Ksusig.uadd p t r.size) 0
  .ok rs

/-- `execute` of the digest command without `--dump` for a module (`cli/digest.rs:53-90,96-122`): the text on standard output. -/
def cliDigest (E : Env) (p : Profile) (sha512 : Bool) (format : OutputFormat) (file : Bytes) : Res (List Char) := do
  let _ ← cliRegions p file
  let d ← digest E p file (if sha512 then .p384 else .p256)
  .ok (format.render d)

/-- `execute` of the digest command with `--dump` for a module (`cli/digest.rs:53-94,125-164`). The sizes are below 2^32 (`usub`), so that
`remaining as usize` on line 143 is `remaining`. -/
def cliDump (p : Profile) (inPlace : Bool) (file : Bytes) : Option Bytes × Res Unit :=
  match cliRegions p file with
  | .err e => (none, .err e)
  | .panic => (none, .panic)
  | .ok rs =>
    let r := dumpRegions (if inPlace then [] else file) rs
    (some r.1, if r.2 then .ok () else .err .unexpectedEof)

/-- `execute` of the info command (`cli/info.rs:20-133`): everything it prints, and its result. The sum on line 37 can overflow; the
signed data is encoded again on the way (lines 68 and 107). -/
def cliInfoRun (E : Env) (p : Profile) (builtinPem : Bytes) (now : Nat) (file : Bytes) : List ILine × Res Unit :=
  match fromReader p file (fileLen file) 0 with
  | .err e => ([.fileSize (fileLen file), .notFound], .err e)
  | .panic => ([.fileSize (fileLen file)], .panic)
  | .ok b =>
    let roots := Roots.withBuiltin E builtinPem
    let l0 : List ILine := [.fileSize (fileLen file), .found, .location b.fileStart b.fileEnd]
    match uadd p b.sizeStart 8 with
    | .err e => (l0, .err e)
    | .panic => (l0, .panic)
    | .ok size =>
      let l1 := l0 ++ [.size size] ++ if b.content.isEmpty then [] else .contents :: b.content.map infoEntry
      match verifyV2 E roots now b none with
      | .err e => (l1, .err e)
      | .panic => (l1, .panic)
      | .ok v =>
        let l2 := l1 ++ infoV2Lines v
        match verifySourceStamp E roots now b none with
        | .err e => (l2, .err e)
        | .panic => (l2, .panic)
        | .ok w => (l2 ++ infoStampLines w, .ok ())

end Ksusig.Narrow
