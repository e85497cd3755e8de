import Verif.Model.Narrow

/-!
# Signing modules on a machine with 32-bit `usize`

The definitions are those of `Model/Signable.lean` and `Model/Cli.lean` with what changes for 32 bits, see `Model/Narrow.lean`. The signing
block itself is made as on 64 bits: it is assumed that key, certificates and password together take less than 1 GiB, so that no size
computed on the way reaches 2^32. A file of 2^31 bytes or more does not fit into a vector; `std::fs::read` reports that as an error.
-/

namespace Ksusig.Narrow

open Ksusig

/-- `<Module as Signable>::digest_regions` (`signable.rs:281-301`). -/
def digestRegions (p : Profile) (file : Bytes) : Res (List DigestRegion) := do
  let o ← getOffsets p file
  let n1 ← usub p o.stopContent o.startContent
  let n2 ← usub p o.stopCd o.startCd
  let n3 ← usub p o.stopEocd o.startEocd
  .ok [⟨"zip_entries", o.startContent, n1⟩, ⟨"central_directory", o.startCd, n2⟩, ⟨"eocd", o.startEocd, n3⟩]

/-- The source of the bytes in `<Module as Signable>::write_with_signature` (`signable.rs:331-356`). `Module::get_raw_module` and
`std::fs::read` fail on files that do not fit into a vector. -/
def signSource (p : Profile) (file : Bytes) : Res (Bytes × Eocd) :=
  match getSigningBlock p file with
  | .ok _ => do
    let bytes ← getRawModule p file
    let eocd ← findEocd p bytes bytes.length
    .ok (bytes, eocd)
  | .err e =>
    if e.isMissing then
      if 2 ^ 31 ≤ file.length then .err .io
      else do
        let eocd ← findEocd p file file.length
        .ok (file, eocd)
    else .err .refuseCorrupted
  | .panic => .panic

/-- `<Module as Signable>::write_with_signature` (`signable.rs:322-386`): what has been written and how the call ended. The sums on
lines 377 and 380 are of numbers below 2^31 and cannot overflow. -/
def signableWrite (p : Profile) (file : Bytes) (b : SigningBlock) : Bytes × Res Unit :=
  let blockBytes := b.toU8
  match signSource p file with
  | .err e => ([], .err e)
  | .panic => ([], .panic)
  | .ok (raw, eocd) =>
    let cdOffset := eocd.cdOffset.toNat
    let eocdOffset := eocd.fileOffset
    if eocdOffset < cdOffset then ([], .err .invalidData)
    else
      let cdSize := eocdOffset - cdOffset
      match usub p raw.length eocdOffset with
      | .err e => ([], .err e)
      | .panic => ([], .panic)
      | .ok eocdSize =>
        match slice? raw 0 cdOffset with
        | none => ([], .err .invalidData)
        | some header =>
          match slice? raw cdOffset eocdOffset with
          | none => (header ++ blockBytes, .err .invalidData)
          | some cd =>
            if cdOffset + blockBytes.length ≥ 2 ^ 32 then (header ++ blockBytes ++ cd, .err .invalidData)
            else
              let eocd' := { eocd with
                fileOffset := eocdOffset + blockBytes.length
                cdOffset := UInt32.ofNat (cdOffset + blockBytes.length) }
              match debugAssert p (cdSize + eocdSize + cdOffset == raw.length) with
              | .panic => (header ++ blockBytes ++ cd, .panic)
              | _ => (header ++ blockBytes ++ cd ++ eocd'.toU8, .ok ())

/-- The digests the sign command computes (`cli/sign.rs:161-175`). -/
def cliDigests (E : Env) (p : Profile) (file : Bytes) : List Algo → Res (List (Algo × Bytes))
  | [] => .ok []
  | a :: as => do
    let d ← digest E p file a
    let rest ← cliDigests E p file as
    .ok ((a, d) :: rest)

/-- `execute` of the sign command for a module (`cli/sign.rs:132-212`), after the credentials are loaded; see `cliSignModule`. With
`inPlace` the handle still has the old length, here the new one is used: with either, every reading of the emptied file fails and the
result is `refuseCorrupted`. -/
def cliSignModule (E : Env) (p : Profile) (clock : Option UInt64) (signer : ModuleSigner) (inPlace : Bool) (file : Bytes) :
    Option Bytes × Res Unit :=
  match (do
    let _ ← digestRegions p file
    let pairs ← cliDigests E p file signer.requiredAlgorithms
    signer.sign E p clock (Digests.new (pairs.map fun x => Digest.new x.1 x.2)) : Res SigningBlock) with
  | .err e => (none, .err e)
  | .panic => (none, .panic)
  | .ok b =>
    let r := signableWrite p (if inPlace then [] else file) b
    (some r.1, r.2)

end Ksusig.Narrow
