import Verif.Model.Module

/-!
# `/repo/src/signable.rs`, the module half
-/

namespace Ksusig

/-- `DigestRegion` (`signable.rs:30-37`); names are kept as text. -/
structure DigestRegion where
  name : String
  offset : Nat
  size : Nat
  deriving DecidableEq, Repr

/-- `<Module as Signable>::digest_regions` (`signable.rs:281-301`). -/
def Module.digestRegions (p : Profile) (m : Module) (file : Bytes) : Res (List DigestRegion) := do
  let o ← m.getOffsets p file
  let n1 ← usub p o.stopContent o.startContent
  let n2 ← usub p o.stopCd o.startCd
  let n3 ← usub p o.stopEocd o.startEocd
  .ok [⟨"zip_entries", o.startContent, n1⟩, ⟨"central_directory", o.startCd, n2⟩, ⟨"eocd", o.startEocd, n3⟩]

/-- `<Module as Signable>::get_signing_block` (`signable.rs:307-313`). -/
def Module.signingBlock? (p : Profile) (m : Module) (file : Bytes) : Res (Option SigningBlock) :=
  match m.getSigningBlock p file with
  | .ok b => .ok (some b)
  | .err e => if e.isMissing then .ok none else .err e
  | .panic => .panic

/-- `Signable::is_signed` (`signable.rs:230-235`). -/
def Module.isSigned (p : Profile) (m : Module) (file : Bytes) : Res Bool :=
  match m.signingBlock? p file with
  | .ok b => .ok b.isSome
  | .err _ => .ok false
  | .panic => .panic

/-- The source of the bytes in `<Module as Signable>::write_with_signature` (`signable.rs:331-356`): the unsigned
bytes and their end record. -/
def Module.signSource (p : Profile) (m : Module) (file : Bytes) : Res (Bytes × Eocd) :=
  match m.getSigningBlock p file with
  | .ok _ => do
    let bytes ← m.getRawModule p file
    let eocd ← Ksusig.findEocd bytes bytes.length
    .ok (bytes, eocd)
  | .err e =>
    if e.isMissing then do
      let eocd ← Ksusig.findEocd file file.length
      .ok (file, eocd)
    else .err .refuseCorrupted
  | .panic => .panic

/-- `<Module as Signable>::write_with_signature` (`signable.rs:322-386`): what has been written and how the call
ended. -/
def Module.signableWrite (p : Profile) (m : Module) (file : Bytes) (b : SigningBlock) : Bytes × Res Unit :=
  let blockBytes := b.toU8
  match m.signSource p file with
  | .err e => ([], .err e)
  | .panic => ([], .panic)
  | .ok (raw, eocd) =>
    let cdOffset := eocd.cdOffset.toNat
    let eocdOffset := eocd.fileOffset
    if eocdOffset < cdOffset then ([], .err .invalidData)
    else
      let cdSize := eocdOffset - cdOffset
      match usub p raw.length eocdOffset with
      | .err e => ([], .err e)
      | .panic => ([], .panic)
      | .ok eocdSize =>
        match slice? raw 0 cdOffset with
        | none => ([], .err .invalidData)
        | some header =>
          match slice? raw cdOffset eocdOffset with
          | none => (header ++ blockBytes, .err .invalidData)
          | some cd =>
            if cdOffset + blockBytes.length ≥ 2 ^ 64 then (header ++ blockBytes ++ cd, .err .invalidData)
            else
              let eocd' := { eocd with
                fileOffset := eocdOffset + blockBytes.length
                cdOffset := UInt32.ofNat (cdOffset + blockBytes.length) }
              match debugAssert p (cdSize + eocdSize + cdOffset == raw.length) with
              | .panic => (header ++ blockBytes ++ cd, .panic)
              | _ => (header ++ blockBytes ++ cd ++ eocd'.toU8, .ok ())

/-- `FileFormat` (`signable.rs:19-25`). -/
inductive FileFormat where
  | module
  | elf
  deriving DecidableEq, Repr

/-- `detect_file_format` (`signable.rs:242-270`, feature `elf` enabled). -/
def detectFileFormat (file : Bytes) : Res FileFormat := do
  let magic ← readExactAt file 0 4
  if magic = [0x7f, 0x45, 0x4c, 0x46] then .ok .elf
  else if magic.take 2 = [0x50, 0x4b] then .ok .module
  else match findEocd file file.length with
    | .ok _ => .ok .module
    | .err _ => .err .unknownFormat
    | .panic => .panic

end Ksusig
