import Verif.Model.Text

/-! # The text of a signing block (`Display` in `/repo/src/signing_block/mod.rs`) -/

namespace Ksusig

/-- `{:08x}`: at least eight digits. -/
def hexNat8 (n : Nat) : List Char := List.replicate (8 - (hexNat n).length) '0' ++ hexNat n

/-- `Display for ValueSigningBlock` (`signing_block/mod.rs:735-773`). -/
def Value.text : Value → List Char
  | .v2 s => "V2 Signature (id=0x".toList ++ hexNat8 s.id.toNat ++ ", ".toList ++ decimal s.signers.data.length ++ " signers)".toList
  | .stamp s => "Source Stamp (id=0x".toList ++ hexNat8 s.id.toNat ++ ")".toList
  | .elf e => "ELF Section Info (id=0x".toList ++ hexNat8 e.id.toNat ++ ", ".toList ++ decimal e.sections.length ++ " sections)".toList
  | .raw r => (if r.id = paddingBlockId then "Verity Padding".toList else "Unknown".toList) ++ " (id=0x".toList ++
      hexNat8 r.id.toNat ++ ", ".toList ++ decimal r.data.length ++ " bytes)".toList

/-- The line of one value (`signing_block/mod.rs:727-729`); `i` counts from 0. -/
def entryLine (i : Nat) (v : Value) : List Char := "  Block ".toList ++ decimal (i + 1) ++ ": ".toList ++ v.text

/-- The lines of a block: `Display for SigningBlock` (`signing_block/mod.rs:715-733`). -/
def SigningBlock.lines (b : SigningBlock) : List (List Char) :=
  ["KSU Signing Block".toList,
    "  File offset: ".toList ++ decimal b.fileStart ++ " - ".toList ++ decimal b.fileEnd,
    "  Block size: ".toList ++ decimal b.sizeStart ++ " bytes".toList,
    "  Content size: ".toList ++ decimal b.contentSize ++ " bytes".toList,
    "  Blocks: ".toList ++ decimal b.content.length] ++
  b.content.mapIdx entryLine

/-- `SigningBlock::to_string` (`signing_block/mod.rs:715-733`). -/
def SigningBlock.text (b : SigningBlock) : List Char := unlines b.lines

end Ksusig
