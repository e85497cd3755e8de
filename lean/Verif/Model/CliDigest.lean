import Verif.Model.Elf

/-!
# `SignableFile` in full (`/repo/src/signable.rs:89-235`) and the digest command (`/repo/src/cli/digest.rs`)

The lines on standard error (names, offsets and sizes of the regions) are left out here, except that adding up the sizes can
overflow; they are in `Model/CliOut.lean`. The command opens the file again for `--dump`; it is assumed to be unchanged since then.
-/

namespace Ksusig

/-- `SignableFile::format` (`signable.rs:109-115`). -/
def SignableFile.format : SignableFile → FileFormat
  | .module _ _ => .module
  | .elf _ => .elf

/-- `SignableFile::digest_regions` (`signable.rs:137-143`). -/
def SignableFile.digestRegions (p : Profile) (acc : Bytes → Bool) : SignableFile → Res (List DigestRegion)
  | .module m file => m.digestRegions p file
  | .elf f => f.digestRegions acc

/-- `SignableFile::digest` (`signable.rs:149-155`). -/
def SignableFile.digest (E : Env) (p : Profile) (acc : Bytes → Bool) (s : SignableFile) (algo : Algo) : Res Bytes :=
  match s with
  | .module m file => m.digest E p file algo
  | .elf f => f.digest E acc algo

/-- `SignableFile::signing_block` (`signable.rs:161-167`). -/
def SignableFile.signingBlock (p : Profile) (acc : Bytes → Bool) : SignableFile → Res (Option SigningBlock)
  | .module m file => m.signingBlock? p file
  | .elf f => f.getSigningBlock p acc

/-- `SignableFile::write_with_signature` (`signable.rs:173-187`): what has been written and how the call ended. -/
def SignableFile.writeWithSignature (p : Profile) (acc : Bytes → Bool) (s : SignableFile) (b : SigningBlock) : Bytes × Res Unit :=
  match s with
  | .module m file => m.signableWrite p file b
  | .elf f => match f.writeWithSignature acc b with
    | .ok out => (out, .ok ())
    | .err e => ([], .err e)
    | .panic => ([], .panic)

/-- `--format` (`cli/digest.rs:42-50`). -/
inductive OutputFormat where
  | hex
  | base64
  deriving DecidableEq, Repr

/-- The standard alphabet of base64 (RFC 4648, used by `base64::engine::general_purpose::STANDARD`). -/
def base64Alphabet : List Char := "ABCDEFGHIJKLMNOPQRSTUVWXYZabcdefghijklmnopqrstuvwxyz0123456789+/".toList

/-- One base64 digit. -/
def base64Digit (n : Nat) : Char := base64Alphabet.getD n '='

/-- `base64::Engine::encode` with `STANDARD` (`cli/digest.rs:113-115`): RFC 4648 with padding. -/
def base64Encode : Bytes → List Char
  | [] => []
  | [a] => [base64Digit (a.toNat / 4), base64Digit (a.toNat % 4 * 16), '=', '=']
  | [a, b] => [base64Digit (a.toNat / 4), base64Digit (a.toNat % 4 * 16 + b.toNat / 16), base64Digit (b.toNat % 16 * 4), '=']
  | a :: b :: c :: rest =>
    [base64Digit (a.toNat / 4), base64Digit (a.toNat % 4 * 16 + b.toNat / 16), base64Digit (b.toNat % 16 * 4 + c.toNat / 64),
      base64Digit (c.toNat % 64)] ++ base64Encode rest

/-- The printed text (`cli/digest.rs:111-116`). -/
def OutputFormat.render : OutputFormat → Bytes → List Char
  | .hex, d => hexEncode d
  | .base64, d => base64Encode d

/-- Opening the file and choosing the sections (`cli/digest.rs:55-61`, `cli/sign.rs:133-138`). -/
def cliOpen (acc : Bytes → Bool) (sections : List (List Char)) (file : Bytes) : Res SignableFile := do
  let s ← SignableFile.open acc file
  if sections.isEmpty then .ok s
  else match s.setElfSections sections with
    | (s', .ok _) => .ok s'
    | (_, .err e) => .err e
    | (_, .panic) => .panic

/-- The regions and the printed total of their sizes (`cli/digest.rs:78-88`). The total is a `u64` sum, so it is checked in
development builds. -/
def cliRegions (p : Profile) (acc : Bytes → Bool) (s : SignableFile) : Res (List DigestRegion) := do
  let rs ← s.digestRegions p acc
  let _ ← rs.foldlM (fun t r => uadd p t r.size) 0
  .ok rs

/-- `execute` of the digest command without `--dump` (`cli/digest.rs:53-90,96-122`): the text on standard output. -/
def cliDigest (E : Env) (p : Profile) (acc : Bytes → Bool) (sha512 : Bool) (format : OutputFormat) (sections : List (List Char))
    (file : Bytes) : Res (List Char) := do
  let s ← cliOpen acc sections file
  let _ ← cliRegions p acc s
  let d ← s.digest E p acc (if sha512 then .p384 else .p256)
  .ok (format.render d)

/-- `execute` of the digest command with `--dump` (`cli/digest.rs:53-94,125-164`). The first component is what happened to the
output path: `none` if it was not touched, otherwise its new content. With `inPlace` the output path is the input path: creating
the output empties the input, so the first region with any bytes in it cannot be read. -/
def cliDump (p : Profile) (acc : Bytes → Bool) (sections : List (List Char)) (inPlace : Bool) (file : Bytes) :
    Option Bytes × Res Unit :=
  match (do
    let s ← cliOpen acc sections file
    cliRegions p acc s : Res (List DigestRegion)) with
  | .err e => (none, .err e)
  | .panic => (none, .panic)
  | .ok rs =>
    let r := dumpRegions (if inPlace then [] else file) rs
    (some r.1, if r.2 then .ok () else .err .unexpectedEof)

end Ksusig
