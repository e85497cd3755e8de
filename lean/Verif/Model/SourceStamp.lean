import Verif.Model.Common

/-!
# `/repo/src/signing_block/source_stamp.rs` (data types; the signer is in `Model/Signer.lean`)
-/

namespace Ksusig

/-- `SOURCE_STAMP_BLOCK_ID` (`source_stamp.rs:19`). -/
def stampBlockId : UInt32 := 0x6dff800d

/-- `STAMP_TIME_ATTR_ID` (`source_stamp.rs:25`). -/
def stampTimeAttrId : UInt32 := 0xe43c5946

/-- Stamp `SignedData` (`source_stamp.rs:144-153`); it stores no size. -/
structure SignedDataStamp where
  digests : Digests
  certs : Certs
  attrs : Attrs
  deriving DecidableEq, Repr

/-- `SignedData::new` (`source_stamp.rs:157-167`). -/
def SignedDataStamp.new (d : Digests) (c : Certs) (a : Attrs) : SignedDataStamp := ⟨d, c, a⟩

/-- `SignedData::parse` (`source_stamp.rs:172-185`). -/
def SignedDataStamp.parse : P SignedDataStamp := do
  let size ← P.readSize
  let sub ← P.asSlice size
  P.on sub do
    let d ← Digests.parse
    let c ← Certs.parse
    let a ← Attrs.parse
    return ⟨d, c, a⟩

/-- Inner content of `SignedData::to_u8` (`source_stamp.rs:189-194`). -/
def SignedDataStamp.content (s : SignedDataStamp) : Bytes :=
  s.digests.toU8 ++ s.certs.toU8 ++ s.attrs.toU8

/-- `SignedData::to_u8` (`source_stamp.rs:188-196`): the prefix is the actual content length. -/
def SignedDataStamp.toU8 (s : SignedDataStamp) : Bytes := leBytes 4 s.content.length ++ s.content

/-- `SignedData::size` (`source_stamp.rs:199-204`). -/
def SignedDataStamp.size (s : SignedDataStamp) : Nat :=
  s.digests.size + s.certs.size + s.attrs.size + 4 * 3

/-- `StampBlock` (`source_stamp.rs:79-91`). -/
structure StampBlock where
  size : Nat
  signedData : SignedDataStamp
  sigs : Sigs
  pubKey : PubKey
  deriving DecidableEq, Repr

/-- `StampBlock::new` (`source_stamp.rs:95-108`). -/
def StampBlock.new (sd : SignedDataStamp) (ss : Sigs) (k : PubKey) : StampBlock :=
  ⟨4 + sd.size + 4 + ss.size + 4 + k.size, sd, ss, k⟩

/-- `StampBlock::parse` (`source_stamp.rs:113-127`). -/
def StampBlock.parse : P StampBlock := do
  let size ← P.readSize
  let sub ← P.asSlice size
  P.on sub do
    let sd ← SignedDataStamp.parse
    let ss ← Sigs.parse
    let k ← PubKey.parse
    return ⟨size, sd, ss, k⟩

/-- `StampBlock::to_u8` (`source_stamp.rs:130-138`): no padding. -/
def StampBlock.toU8 (s : StampBlock) : Bytes :=
  leBytes 4 s.size ++ s.signedData.toU8 ++ s.sigs.toU8 ++ s.pubKey.toU8

/-- `SourceStamp` (`source_stamp.rs:30-39`). -/
structure SourceStamp where
  size : Nat
  id : UInt32
  block : StampBlock
  deriving DecidableEq, Repr

/-- `SourceStamp::new` (`source_stamp.rs:43-50`). -/
def SourceStamp.new (b : StampBlock) : SourceStamp := ⟨4 + 4 + b.size, stampBlockId, b⟩

/-- `SourceStamp::parse` (`source_stamp.rs:55-62`). -/
def SourceStamp.parse (size : Nat) (id : UInt32) : P SourceStamp := do
  let b ← StampBlock.parse
  return ⟨size, id, b⟩

/-- `SourceStamp::to_u8` (`source_stamp.rs:65-73`): no padding. -/
def SourceStamp.toU8 (s : SourceStamp) : Bytes :=
  leBytes 8 s.size ++ leBytes 4 s.id.toNat ++ s.block.toU8

end Ksusig
