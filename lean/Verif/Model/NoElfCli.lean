import Verif.Model.NoElf
import Verif.Model.CliDigest
import Verif.Model.CliInfo

/-!
# The commands of the build without the feature `elf`

The sign, digest and info commands (`/repo/src/cli/sign.rs`, `digest.rs`, `info.rs`) on top of `Model/NoElf.lean`: every file is a
module, `--elf-section` is refused, and the info command has no line for section lists. As in the full build, errors are not told
apart by their text.
-/

namespace Ksusig.NoElf

open Ksusig

/-- `<Module as Signable>::digest_regions` (`signable.rs:281-301`). -/
def digestRegions (p : Profile) (m : Module) (file : Bytes) : Res (List DigestRegion) := do
  let o ← getOffsets p m file
  let n1 ← usub p o.stopContent o.startContent
  let n2 ← usub p o.stopCd o.startCd
  let n3 ← usub p o.stopEocd o.startEocd
  .ok [⟨"zip_entries", o.startContent, n1⟩, ⟨"central_directory", o.startCd, n2⟩, ⟨"eocd", o.startEocd, n3⟩]

/-- `<Module as Signable>::write_with_signature` (`signable.rs:322-386`): what has been written and how the call ended. -/
def signableWrite (p : Profile) (m : Module) (file : Bytes) (b : SigningBlock) : Bytes × Res Unit :=
  let blockBytes := b.toU8
  match signSource p m file with
  | .err e => ([], .err e)
  | .panic => ([], .panic)
  | .ok (raw, eocd) =>
    let cdOffset := eocd.cdOffset.toNat
    let eocdOffset := eocd.fileOffset
    if eocdOffset < cdOffset then ([], .err .invalidData)
    else
      let cdSize := eocdOffset - cdOffset
      match usub p raw.length eocdOffset with
      | .err e => ([], .err e)
      | .panic => ([], .panic)
      | .ok eocdSize =>
        match slice? raw 0 cdOffset with
        | none => ([], .err .invalidData)
        | some header =>
          match slice? raw cdOffset eocdOffset with
          | none => (header ++ blockBytes, .err .invalidData)
          | some cd =>
            if cdOffset + blockBytes.length ≥ 2 ^ 64 then (header ++ blockBytes ++ cd, .err .invalidData)
            else
              let eocd' := { eocd with
                fileOffset := eocdOffset + blockBytes.length
                cdOffset := UInt32.ofNat (cdOffset + blockBytes.length) }
              match debugAssert p (cdSize + eocdSize + cdOffset == raw.length) with
              | .panic => (header ++ blockBytes ++ cd, .panic)
              | _ => (header ++ blockBytes ++ cd ++ eocd'.toU8, .ok ())

/-- The digests the sign command computes (`cli/sign.rs:161-175`). -/
def cliDigests (E : Env) (p : Profile) (m : Module) (file : Bytes) : List Algo → Res (List (Algo × Bytes))
  | [] => .ok []
  | a :: as => do
    let d ← digest E p m file a
    let rest ← cliDigests E p m file as
    .ok ((a, d) :: rest)

/-- Opening the file and the sections asked for (`signable.rs:89-103` without lines 98-101; `cli/sign.rs:133,140-143`,
`cli/digest.rs:55,63-66`). -/
def cliOpen (sections : List (List Char)) (file : Bytes) : Res Module := do
  let _ ← detectFileFormat file
  if sections.isEmpty then .ok (Module.new file) else .err .unknownFormat

/-- `execute` of the sign command (`cli/sign.rs:132-212`), after the credentials are loaded; see `cliSignModule` for the result. -/
def cliSign (E : Env) (p : Profile) (clock : Option UInt64) (signer : ModuleSigner) (sections : List (List Char)) (inPlace : Bool)
    (file : Bytes) : Option Bytes × Res Unit :=
  match (do
    let m ← cliOpen sections file
    let _ ← digestRegions p m file
    let pairs ← cliDigests E p m file signer.requiredAlgorithms
    let b ← signer.sign E p clock (Digests.new (pairs.map fun x => Digest.new x.1 x.2))
    .ok (m, b) : Res (Module × SigningBlock)) with
  | .err e => (none, .err e)
  | .panic => (none, .panic)
  | .ok (m, b) =>
    let r := signableWrite p m (if inPlace then [] else file) b
    (some r.1, r.2)

/-- The regions and the printed total of their sizes (`cli/digest.rs:78-88`). -/
def cliRegions (p : Profile) (m : Module) (file : Bytes) : Res (List DigestRegion) := do
  let rs ← digestRegions p m file
  let _ ← rs.foldlM (fun t r => uadd p t r.size) 0
  .ok rs

/-- `execute` of the digest command without `--dump` (`cli/digest.rs:53-90,96-122`): the text on standard output. -/
def cliDigest (E : Env) (p : Profile) (sha512 : Bool) (format : OutputFormat) (sections : List (List Char)) (file : Bytes) :
    Res (List Char) := do
  let m ← cliOpen sections file
  let _ ← cliRegions p m file
  let d ← digest E p m file (if sha512 then .p384 else .p256)
  .ok (format.render d)

/-- `execute` of the digest command with `--dump` (`cli/digest.rs:53-94,125-164`); see the full build for the result. -/
def cliDump (p : Profile) (sections : List (List Char)) (inPlace : Bool) (file : Bytes) : Option Bytes × Res Unit :=
  match (do
    let m ← cliOpen sections file
    cliRegions p m file : Res (List DigestRegion)) with
  | .err e => (none, .err e)
  | .panic => (none, .panic)
  | .ok rs =>
    let r := dumpRegions (if inPlace then [] else file) rs
    (some r.1, if r.2 then .ok () else .err .unexpectedEof)

/-- `execute` of the info command (`cli/info.rs:20-133`): everything it prints, and its result. Without lines 51-54 a pair with the
id of a section list is an unknown block; no value is `Value.elf` here. -/
def cliInfoRun (E : Env) (p : Profile) (builtinPem : Bytes) (now : Nat) (file : Bytes) : List ILine × Res Unit :=
  match fromReader p file file.length 0 with
  | .err e => ([.fileSize file.length, .notFound], .err e)
  | .panic => ([.fileSize file.length], .panic)
  | .ok b =>
    let roots := Roots.withBuiltin E builtinPem
    ([.fileSize file.length] ++ infoBlockLines b ++ infoV2Lines (verifyV2 E roots now b none) ++
      infoStampLines (verifySourceStamp E roots now b none), .ok ())

end Ksusig.NoElf
