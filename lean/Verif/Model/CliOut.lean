import Verif.Model.Program

/-!
# What the sign and the digest command print (`/repo/src/cli/sign.rs`, `/repo/src/cli/digest.rs`)

Lines are constructors that carry what is filled in; empty lines and the names of files are left out. How an algorithm is written in a
line of the sign command is `Algo.display`. The lines of the sign command go to standard output; of the lines of the digest command only
the digest does, the others go to standard error.
-/

namespace Ksusig

/-! ## Text of an algorithm -/

/-- The digits of `{:x}`. -/
def hexNat (n : Nat) : List Char := if n < 16 then [hexDigit n] else hexNat (n / 16) ++ [hexDigit (n % 16)]
termination_by n

/-- `{:04x}`: at least four digits. -/
def hexNat4 (n : Nat) : List Char := List.replicate (4 - (hexNat n).length) '0' ++ hexNat n

/-- `Display for Algorithms` (`algorithms.rs:54-64`). -/
def Algo.display (a : Algo) : List Char :=
  "0x".toList ++ hexNat a.toU32.toNat ++ " - ".toList ++
    match a with
    | .p256 => "ECDSA P-256 with SHA2-256 digest".toList
    | .p384 => "ECDSA P-384 with SHA2-512 digest".toList
    | .unknown u => "Unknown algorithm: 0x".toList ++ hexNat4 u.toNat

/-! ## sign -/

/-- The lines of the sign command. -/
inductive SLine where
  /-- what is to be done, with the two paths (69-72) -/
  | start
  /-- "V2 signing key loaded" (92) -/
  | v2Key
  /-- "Source Stamp key loaded" (119) -/
  | stampKey
  /-- the format that was detected (145-149) -/
  | format (f : FileFormat)
  /-- the heading of the regions (152) -/
  | regions
  /-- a region: name, offset, size (154-157) -/
  | region (r : DigestRegion)
  /-- how many digests are needed (162) -/
  | count (n : Nat)
  /-- "Calculating digests..." (165) -/
  | calculating
  /-- the digest that is calculated next (168) -/
  | hashing (a : Algo)
  /-- "Digest calculation complete" (172) -/
  | digestsDone
  /-- "Signing..." (178) -/
  | signing
  /-- "Signing complete", with the size of the block (197-200) -/
  | complete (n : Nat)
  /-- "Writing signed module..." (203) -/
  | writing
  /-- "Signing successful!", with the output path (208-209) -/
  | success
  deriving DecidableEq

/-- The loop over the algorithms (`cli/sign.rs:166-171`). -/
def hashLines (E : Env) (p : Profile) (acc : Bytes → Bool) (s : SignableFile) : List Algo → List SLine × Res (List (Algo × Bytes))
  | [] => ([], .ok [])
  | a :: as =>
    match s.digest E p acc a with
    | .ok d =>
      let x := hashLines E p acc s as
      (.hashing a :: x.1, x.2.bind fun rest => .ok ((a, d) :: rest))
    | .err e => ([.hashing a], .err e)
    | .panic => ([.hashing a], .panic)

/-- The sections recorded for an ELF file (`cli/sign.rs:181-194`). -/
def SignableFile.record (acc : Bytes → Bool) (b : SigningBlock) : SignableFile → Res SigningBlock
  | .module _ _ => .ok b
  | .elf f => do
    let l ← f.resolvedSections acc
    let info := ElfSectionInfo.fromTuples (l.map fun x => (utf8 x.1, UInt64.ofNat x.2.1, UInt64.ofNat x.2.2))
    .ok (SigningBlock.recalculateSize { b with content := b.content ++ [.elf info] })

/-- The part that makes the block (`cli/sign.rs:145-200`). -/
def blockRun (E : Env) (p : Profile) (acc : Bytes → Bool) (clock : Option UInt64) (signer : ModuleSigner) (s : SignableFile) :
    List SLine × Res SigningBlock :=
  let l1 : List SLine := [.format s.format]
  match s.digestRegions p acc with
  | .err e => (l1, .err e)
  | .panic => (l1, .panic)
  | .ok rs =>
    let l2 := l1 ++ [.regions] ++ rs.map .region ++ [.count signer.requiredAlgorithms.length, .calculating]
    let x := hashLines E p acc s signer.requiredAlgorithms
    match x.2 with
    | .err e => (l2 ++ x.1, .err e)
    | .panic => (l2 ++ x.1, .panic)
    | .ok pairs =>
      let l3 := l2 ++ x.1 ++ [.digestsDone, .signing]
      match (do
        let b ← signer.sign E p clock (Digests.new (pairs.map fun x => Digest.new x.1 x.2))
        s.record acc b : Res SigningBlock) with
      | .err e => (l3, .err e)
      | .panic => (l3, .panic)
      | .ok b => (l3 ++ [.complete b.toU8.length], .ok b)

/-- The file after the output has been created (`cli/sign.rs:204`): if the output is the input, a module is empty now; an ELF file is in
memory. -/
def SignableFile.created (inPlace : Bool) : SignableFile → SignableFile
  | .module m file => .module m (if inPlace then [] else file)
  | .elf f => .elf f

/-- The part that writes (`cli/sign.rs:202-209`). -/
def writeRun (M : Machine) (output : Path) (inPlace : Bool) (s : SignableFile) (b : SigningBlock) : List SLine × Outcome :=
  let w := (s.created inPlace).writeWithSignature M.profile M.acc b
  let o := Outcome.create M output (some w.1, w.2)
  ([.writing] ++ (if o.result.isOk then [.success] else []), o)

/-- The sign command from opening the file on (`cli/sign.rs:132-212`). -/
def targetRun (M : Machine) (clock : Option UInt64) (output : Path) (inPlace : Bool) (sections : List (List Char)) (signer : ModuleSigner)
    (file : Bytes) : List SLine × Outcome :=
  match cliOpen M.acc sections file with
  | .err e => ([], .quiet (.err e))
  | .panic => ([], .quiet .panic)
  | .ok s =>
    let x := blockRun M.env M.profile M.acc clock signer s
    match x.2 with
    | .err e => (x.1, .quiet (.err e))
    | .panic => (x.1, .quiet .panic)
    | .ok b =>
      let y := writeRun M output inPlace s b
      (x.1 ++ y.1, y.2)

/-- The signer (`cli/sign.rs:122-130`). -/
def signerOf (c : Credentials) : Option Credentials → ModuleSigner
  | none => .v2Only (.ofCredentials c)
  | some s => .withSourceStamp (.ofCredentials c) (.ofCredentials s)

/-- `execute` of the sign command (`cli/sign.rs:68-212`): everything it prints, and what it does. -/
def signRun (M : Machine) (clock : Option UInt64) (fs : Fs) (input output : Path) (v2 stamp : CredPaths) (sections : List (List Char)) :
    List SLine × Outcome :=
  match v2.load M.keys fs with
  | .error _ => ([.start], .quiet (.err .keystore))
  | .ok none => ([.start], .quiet (.err .keystore))
  | .ok (some c) =>
    match stamp.load M.keys fs with
    | .error _ => ([.start, .v2Key], .quiet (.err .keystore))
    | .ok st =>
      let l : List SLine := [.start, .v2Key] ++ if st.isSome then [.stampKey] else []
      match fs input with
      | none => (l, .quiet (.err .io))
      | some file =>
        let x := targetRun M clock output (decide (output = input)) sections (signerOf c st) file
        (l ++ x.1, x.2)

/-! ## digest -/

/-- The lines of the digest command. -/
inductive DLine where
  /-- name and format of the file (74-75) -/
  | format (f : FileFormat)
  /-- the heading of the regions (79) -/
  | regions
  /-- a region: name, offset, size (82-85) -/
  | region (r : DigestRegion)
  /-- "Total size" (88) -/
  | total (n : Nat)
  /-- the name of the hash (104-105) -/
  | algorithm (sha512 : Bool)
  /-- the digest, the only line on standard output (119) -/
  | digest (text : List Char)
  /-- "Dumped … bytes" (157-161) -/
  | dumped (n : Nat)
  deriving DecidableEq

/-- The loop over the regions (`cli/digest.rs:80-87`), which adds up the sizes. -/
def regionLines (p : Profile) : Nat → List DigestRegion → List DLine × Res Nat
  | t, [] => ([], .ok t)
  | t, r :: rs =>
    match uadd p t r.size with
    | .ok t' =>
      let x := regionLines p t' rs
      (.region r :: x.1, x.2)
    | .err e => ([.region r], .err e)
    | .panic => ([.region r], .panic)

/-- Both uses of the digest command up to the empty line (`cli/digest.rs:53-89`): what was opened, its regions and their total. -/
def listRun (p : Profile) (acc : Bytes → Bool) (sections : List (List Char)) (file : Bytes) :
    List DLine × Res (SignableFile × List DigestRegion × Nat) :=
  match cliOpen acc sections file with
  | .err e => ([], .err e)
  | .panic => ([], .panic)
  | .ok s =>
    match s.digestRegions p acc with
    | .err e => ([.format s.format], .err e)
    | .panic => ([.format s.format], .panic)
    | .ok rs =>
      let x := regionLines p 0 rs
      let l := [.format s.format, .regions] ++ x.1
      match x.2 with
      | .err e => (l, .err e)
      | .panic => (l, .panic)
      | .ok t => (l ++ [.total t], .ok (s, rs, t))

/-- `execute` of the digest command without `--dump` (`cli/digest.rs:53-90,96-122`). -/
def digestRun (M : Machine) (fs : Fs) (input : Path) (sha512 : Bool) (format : OutputFormat) (sections : List (List Char)) :
    List DLine × Outcome :=
  match fs input with
  | none => ([], .quiet (.err .io))
  | some file =>
    let x := listRun M.profile M.acc sections file
    match x.2 with
    | .err e => (x.1, .quiet (.err e))
    | .panic => (x.1, .quiet .panic)
    | .ok (s, _, _) =>
      let l := x.1 ++ [.algorithm sha512]
      match s.digest M.env M.profile M.acc (if sha512 then .p384 else .p256) with
      | .err e => (l, .quiet (.err e))
      | .panic => (l, .quiet .panic)
      | .ok d => (l ++ [.digest (format.render d)], ⟨none, format.render d, .ok ()⟩)

/-- `execute` of the digest command with `--dump` (`cli/digest.rs:53-94,125-164`). The number of bytes reported is added up like the total,
from the same sizes. -/
def dumpRun (M : Machine) (fs : Fs) (input output : Path) (sections : List (List Char)) : List DLine × Outcome :=
  match fs input with
  | none => ([], .quiet (.err .io))
  | some file =>
    let x := listRun M.profile M.acc sections file
    match x.2 with
    | .err e => (x.1, .quiet (.err e))
    | .panic => (x.1, .quiet .panic)
    | .ok (_, rs, t) =>
      let r := dumpRegions (if output = input then [] else file) rs
      let o := Outcome.create M output (some r.1, if r.2 then .ok () else .err .unexpectedEof)
      (x.1 ++ (if o.result.isOk then [.dumped t] else []), o)

end Ksusig
