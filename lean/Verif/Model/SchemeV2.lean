import Verif.Model.Common

/-!
# `/repo/src/signing_block/scheme_v2.rs`
-/

namespace Ksusig

/-- `SIGNATURE_SCHEME_V2_BLOCK_ID` (`scheme_v2.rs:17`). -/
def v2BlockId : UInt32 := 0x7109871a

/-- V2 `SignedData` (`scheme_v2.rs:156-180`). -/
structure SignedDataV2 where
  size : Nat
  digests : Digests
  certs : Certs
  attrs : Attrs
  /-- `_private_auto_padding_fix` -/
  autoPad : Bool
  deriving DecidableEq, Repr

/-- `SignedData::new` (`scheme_v2.rs:184-204`): adds 4 to the size. -/
def SignedDataV2.new (d : Digests) (c : Certs) (a : Attrs) : SignedDataV2 :=
  ⟨4 + d.size + 4 + c.size + 4 + a.size + 4, d, c, a, true⟩

/-- `SignedData::parse` (`scheme_v2.rs:209-222`). -/
def SignedDataV2.parse : P SignedDataV2 := do
  let size ← P.readSize
  let sub ← P.asSlice size
  P.on sub do
    let d ← Digests.parse
    let c ← Certs.parse
    let a ← Attrs.parse
    return ⟨size, d, c, a, true⟩

/-- Inner content of `SignedData::to_u8` (`scheme_v2.rs:226-231`). -/
def SignedDataV2.content (s : SignedDataV2) : Bytes := s.digests.toU8 ++ s.certs.toU8 ++ s.attrs.toU8

/-- `SignedData::to_u8` (`scheme_v2.rs:225-239`). -/
def SignedDataV2.toU8 (s : SignedDataV2) : Bytes :=
  leBytes 4 s.size ++ s.content ++ zeroPad s.size s.content

/-- `Signer` (`scheme_v2.rs:90-102`). -/
structure SignerV2 where
  size : Nat
  signedData : SignedDataV2
  sigs : Sigs
  pubKey : PubKey
  deriving DecidableEq, Repr

/-- `Signer::new` (`scheme_v2.rs:106-119`). -/
def SignerV2.new (sd : SignedDataV2) (ss : Sigs) (k : PubKey) : SignerV2 :=
  ⟨4 + sd.size + 4 + ss.size + 4 + k.size, sd, ss, k⟩

/-- `Signer::parse` (`scheme_v2.rs:123-134`): the signer's own size is read but not used. -/
def SignerV2.parse : P SignerV2 := do
  let size ← P.readSize
  let sd ← SignedDataV2.parse
  let ss ← Sigs.parse
  let k ← PubKey.parse
  return ⟨size, sd, ss, k⟩

/-- Inner content of `Signer::to_u8` (`scheme_v2.rs:137-142`). -/
def SignerV2.content (s : SignerV2) : Bytes := s.signedData.toU8 ++ s.sigs.toU8 ++ s.pubKey.toU8

/-- `Signer::to_u8` (`scheme_v2.rs:136-150`). -/
def SignerV2.toU8 (s : SignerV2) : Bytes :=
  leBytes 4 s.size ++ s.content ++ zeroPad s.size s.content

/-- `Signers` (`scheme_v2.rs:37-43`). -/
structure SignersV2 where
  size : Nat
  data : List SignerV2
  deriving DecidableEq, Repr

/-- `Signers::new` (`scheme_v2.rs:47-52`). -/
def SignersV2.new (ss : List SignerV2) : SignersV2 := ⟨ss.foldl (fun acc s => acc + s.size + 4) 0, ss⟩

/-- `Signers::parse` (`scheme_v2.rs:57-69`). -/
def SignersV2.parse : P SignersV2 := do
  let size ← P.readSize
  let sub ← P.asSlice size
  let ss ← P.on sub (P.loopTo SignerV2.parse sub.data.length)
  return ⟨size, ss⟩

/-- Inner content of `Signers::to_u8` (`scheme_v2.rs:72-76`). -/
def SignersV2.content (s : SignersV2) : Bytes := s.data.flatMap SignerV2.toU8

/-- `Signers::to_u8` (`scheme_v2.rs:71-84`). -/
def SignersV2.toU8 (s : SignersV2) : Bytes :=
  leBytes 4 s.size ++ s.content ++ zeroPad s.size s.content

/-- `SignatureSchemeV2` (`scheme_v2.rs:22-32`). -/
structure SchemeV2 where
  size : Nat
  id : UInt32
  signers : SignersV2
  deriving DecidableEq, Repr

/-- `SignatureSchemeV2::new` (`scheme_v2.rs:244-251`). -/
def SchemeV2.new (s : SignersV2) : SchemeV2 := ⟨4 + 4 + s.size, v2BlockId, s⟩

/-- `SignatureSchemeV2::parse` (`scheme_v2.rs:256-262`). -/
def SchemeV2.parse (size : Nat) (id : UInt32) : P SchemeV2 := do
  let s ← SignersV2.parse
  return ⟨size, id, s⟩

/-- Inner content of `SignatureSchemeV2::to_u8` (`scheme_v2.rs:266`). -/
def SchemeV2.content (s : SchemeV2) : Bytes := leBytes 4 s.id.toNat ++ s.signers.toU8

/-- `SignatureSchemeV2::to_u8` (`scheme_v2.rs:265-274`). -/
def SchemeV2.toU8 (s : SchemeV2) : Bytes :=
  leBytes 8 s.size ++ s.content ++ zeroPad s.size s.content

end Ksusig
