import Verif.Model.SigningBlock

/-!
# The `Serialize` and `Deserialize` implementations of the structures of a signing block

All of them are derived (`#[cfg_attr(feature = "serde", derive(Serialize, Deserialize))]`), without attributes, except the one of
`Algorithms`. Modelled is what the derived code does with serde's data model; the text of a format such as JSON, which `serde_json`
(a dependency of the tests only) reads and writes, is not modelled. `toJson` is `serialize`, `ofJson` is `deserialize`, with `none`
for every error.
-/

namespace Ksusig

/-- serde's data model, as far as it is used here, with the names of JSON. Text is given by its UTF-8 bytes. -/
inductive Json where
  | bool (b : Bool)
  | num (n : Nat)
  | str (s : Bytes)
  | arr (l : List Json)
  | obj (l : List (String × Json))
  /-- Anything else: null, negative numbers, fractions. -/
  | other

/-- An unsigned integer type with this many values. `usize` is 64 bits wide. -/
def Json.nat (bound : Nat) : Json → Option Nat
  | .num n => if n < bound then some n else none
  | _ => none

/-- `usize`, `u64`. -/
def Json.usize : Json → Option Nat := Json.nat (2 ^ 64)

/-- `u64`. -/
def Json.u64 (j : Json) : Option UInt64 := (Json.nat (2 ^ 64) j).map UInt64.ofNat

/-- `u32`. -/
def Json.u32 (j : Json) : Option UInt32 := (Json.nat (2 ^ 32) j).map UInt32.ofNat

/-- `u16`. -/
def Json.u16 (j : Json) : Option UInt16 := (Json.nat (2 ^ 16) j).map UInt16.ofNat

/-- `u8`. -/
def Json.u8 (j : Json) : Option UInt8 := (Json.nat (2 ^ 8) j).map UInt8.ofNat

/-- `Vec<T>`. -/
def Json.list (f : Json → Option α) : Json → Option (List α)
  | .arr l => l.mapM f
  | _ => none

/-- `Vec<u8>` is a sequence of numbers. -/
def Json.bytes : Json → Option Bytes := Json.list Json.u8

/-- `Serialize for Vec<u8>`. -/
def Json.ofBytes (b : Bytes) : Json := .arr (b.map fun x => .num x.toNat)

/-- `bool`. -/
def Json.toBool : Json → Option Bool
  | .bool b => some b
  | _ => none

/-- `String`. Text in the input is always valid UTF-8. -/
def Json.text : Json → Option Bytes
  | .str s => if validUtf8 s then some s else none
  | _ => none

/-- The fields of a structure, as the derived visitor takes them: by name, each exactly once, ignoring other names; or by position. -/
def Json.fields (names : List String) : Json → Option (List Json)
  | .obj l => names.mapM fun n => match l.filter fun x => x.1 = n with
    | [x] => some x.2
    | _ => none
  | .arr l => if l.length = names.length then some l else none
  | _ => none

/-- `Serialize for Algorithms` (`algorithms.rs:24-31`). -/
def Algo.toJson (a : Algo) : Json := .num a.serialize.toNat

/-- `Deserialize for Algorithms` (`algorithms.rs:34-42`). -/
def Algo.ofJson (j : Json) : Option Algo := j.u32.map Algo.deserialize

/-- `Digest` (`common.rs:12-22`). -/
def Digest.toJson (d : Digest) : Json :=
  .obj [("size", .num d.size), ("signature_algorithm_id", d.algo.toJson), ("digest", .ofBytes d.digest)]

/-- `Digest` (`common.rs:12-22`). -/
def Digest.ofJson (j : Json) : Option Digest := do
  match ← j.fields ["size", "signature_algorithm_id", "digest"] with
  | [a, b, c] => return ⟨← a.usize, ← Algo.ofJson b, ← c.bytes⟩
  | _ => none

/-- `Digests` (`common.rs:72-79`). -/
def Digests.toJson (d : Digests) : Json := .obj [("size", .num d.size), ("digests_data", .arr (d.data.map Digest.toJson))]

/-- `Digests` (`common.rs:72-79`). -/
def Digests.ofJson (j : Json) : Option Digests := do
  match ← j.fields ["size", "digests_data"] with
  | [a, b] => return ⟨← a.usize, ← b.list Digest.ofJson⟩
  | _ => none

/-- `Certificate` (`common.rs:184-190`). -/
def Cert.toJson (c : Cert) : Json := .obj [("size", .num c.size), ("certificate", .ofBytes c.cert)]

/-- `Certificate` (`common.rs:184-190`). -/
def Cert.ofJson (j : Json) : Option Cert := do
  match ← j.fields ["size", "certificate"] with
  | [a, b] => return ⟨← a.usize, ← b.bytes⟩
  | _ => none

/-- `Certificates` (`common.rs:126-133`). -/
def Certs.toJson (c : Certs) : Json := .obj [("size", .num c.size), ("certificates_data", .arr (c.data.map Cert.toJson))]

/-- `Certificates` (`common.rs:126-133`). -/
def Certs.ofJson (j : Json) : Option Certs := do
  match ← j.fields ["size", "certificates_data"] with
  | [a, b] => return ⟨← a.usize, ← b.list Cert.ofJson⟩
  | _ => none

/-- `Signature` (`common.rs:308-316`). -/
def Sig.toJson (s : Sig) : Json :=
  .obj [("size", .num s.size), ("signature_algorithm_id", s.algo.toJson), ("signature", .ofBytes s.signature)]

/-- `Signature` (`common.rs:308-316`). -/
def Sig.ofJson (j : Json) : Option Sig := do
  match ← j.fields ["size", "signature_algorithm_id", "signature"] with
  | [a, b, c] => return ⟨← a.usize, ← Algo.ofJson b, ← c.bytes⟩
  | _ => none

/-- `Signatures` (`common.rs:249-256`). -/
def Sigs.toJson (s : Sigs) : Json := .obj [("size", .num s.size), ("signatures_data", .arr (s.data.map Sig.toJson))]

/-- `Signatures` (`common.rs:249-256`). -/
def Sigs.ofJson (j : Json) : Option Sigs := do
  match ← j.fields ["size", "signatures_data"] with
  | [a, b] => return ⟨← a.usize, ← b.list Sig.ofJson⟩
  | _ => none

/-- `AdditionalAttribute` (`common.rs:425-433`). -/
def Attr.toJson (a : Attr) : Json := .obj [("size", .num a.size), ("id", .num a.id.toNat), ("data", .ofBytes a.data)]

/-- `AdditionalAttribute` (`common.rs:425-433`). -/
def Attr.ofJson (j : Json) : Option Attr := do
  match ← j.fields ["size", "id", "data"] with
  | [a, b, c] => return ⟨← a.usize, ← b.u32, ← c.bytes⟩
  | _ => none

/-- `AdditionalAttributes` (`common.rs:368-374`). -/
def Attrs.toJson (a : Attrs) : Json := .obj [("size", .num a.size), ("additional_attributes_data", .arr (a.data.map Attr.toJson))]

/-- `AdditionalAttributes` (`common.rs:368-374`). -/
def Attrs.ofJson (j : Json) : Option Attrs := do
  match ← j.fields ["size", "additional_attributes_data"] with
  | [a, b] => return ⟨← a.usize, ← b.list Attr.ofJson⟩
  | _ => none

/-- `PubKey` (`common.rs:464-470`). -/
def PubKey.toJson (k : PubKey) : Json := .obj [("size", .num k.size), ("data", .ofBytes k.data)]

/-- `PubKey` (`common.rs:464-470`). -/
def PubKey.ofJson (j : Json) : Option PubKey := do
  match ← j.fields ["size", "data"] with
  | [a, b] => return ⟨← a.usize, ← b.bytes⟩
  | _ => none

/-- `SignedData` of a V2 signer (`scheme_v2.rs:155-181`). -/
def SignedDataV2.toJson (s : SignedDataV2) : Json :=
  .obj [("size", .num s.size), ("digests", s.digests.toJson), ("certificates", s.certs.toJson),
    ("additional_attributes", s.attrs.toJson), ("_private_auto_padding_fix", .bool s.autoPad)]

/-- `SignedData` of a V2 signer (`scheme_v2.rs:155-181`). -/
def SignedDataV2.ofJson (j : Json) : Option SignedDataV2 := do
  match ← j.fields ["size", "digests", "certificates", "additional_attributes", "_private_auto_padding_fix"] with
  | [a, b, c, d, e] => return ⟨← a.usize, ← Digests.ofJson b, ← Certs.ofJson c, ← Attrs.ofJson d, ← e.toBool⟩
  | _ => none

/-- `Signer` (`scheme_v2.rs:89-102`). -/
def SignerV2.toJson (s : SignerV2) : Json :=
  .obj [("size", .num s.size), ("signed_data", s.signedData.toJson), ("signatures", s.sigs.toJson), ("pub_key", s.pubKey.toJson)]

/-- `Signer` (`scheme_v2.rs:89-102`). -/
def SignerV2.ofJson (j : Json) : Option SignerV2 := do
  match ← j.fields ["size", "signed_data", "signatures", "pub_key"] with
  | [a, b, c, d] => return ⟨← a.usize, ← SignedDataV2.ofJson b, ← Sigs.ofJson c, ← PubKey.ofJson d⟩
  | _ => none

/-- `Signers` (`scheme_v2.rs:36-43`). -/
def SignersV2.toJson (s : SignersV2) : Json := .obj [("size", .num s.size), ("signers_data", .arr (s.data.map SignerV2.toJson))]

/-- `Signers` (`scheme_v2.rs:36-43`). -/
def SignersV2.ofJson (j : Json) : Option SignersV2 := do
  match ← j.fields ["size", "signers_data"] with
  | [a, b] => return ⟨← a.usize, ← b.list SignerV2.ofJson⟩
  | _ => none

/-- `SignatureSchemeV2` (`scheme_v2.rs:21-32`). -/
def SchemeV2.toJson (s : SchemeV2) : Json := .obj [("size", .num s.size), ("id", .num s.id.toNat), ("signers", s.signers.toJson)]

/-- `SignatureSchemeV2` (`scheme_v2.rs:21-32`). -/
def SchemeV2.ofJson (j : Json) : Option SchemeV2 := do
  match ← j.fields ["size", "id", "signers"] with
  | [a, b, c] => return ⟨← a.usize, ← b.u32, ← SignersV2.ofJson c⟩
  | _ => none

/-- `SignedData` of a source stamp (`source_stamp.rs:143-153`). -/
def SignedDataStamp.toJson (s : SignedDataStamp) : Json :=
  .obj [("digests", s.digests.toJson), ("certificates", s.certs.toJson), ("additional_attributes", s.attrs.toJson)]

/-- `SignedData` of a source stamp (`source_stamp.rs:143-153`). -/
def SignedDataStamp.ofJson (j : Json) : Option SignedDataStamp := do
  match ← j.fields ["digests", "certificates", "additional_attributes"] with
  | [a, b, c] => return ⟨← Digests.ofJson a, ← Certs.ofJson b, ← Attrs.ofJson c⟩
  | _ => none

/-- `StampBlock` (`source_stamp.rs:78-91`). -/
def StampBlock.toJson (s : StampBlock) : Json :=
  .obj [("size", .num s.size), ("signed_data", s.signedData.toJson), ("signatures", s.sigs.toJson), ("public_key", s.pubKey.toJson)]

/-- `StampBlock` (`source_stamp.rs:78-91`). -/
def StampBlock.ofJson (j : Json) : Option StampBlock := do
  match ← j.fields ["size", "signed_data", "signatures", "public_key"] with
  | [a, b, c, d] => return ⟨← a.usize, ← SignedDataStamp.ofJson b, ← Sigs.ofJson c, ← PubKey.ofJson d⟩
  | _ => none

/-- `SourceStamp` (`source_stamp.rs:29-39`). -/
def SourceStamp.toJson (s : SourceStamp) : Json :=
  .obj [("size", .num s.size), ("id", .num s.id.toNat), ("stamp_block", s.block.toJson)]

/-- `SourceStamp` (`source_stamp.rs:29-39`). -/
def SourceStamp.ofJson (j : Json) : Option SourceStamp := do
  match ← j.fields ["size", "id", "stamp_block"] with
  | [a, b, c] => return ⟨← a.usize, ← b.u32, ← StampBlock.ofJson c⟩
  | _ => none

/-- `SectionEntry` (`elf_section_info.rs:19-29`). -/
def SectionEntry.toJson (e : SectionEntry) : Json :=
  .obj [("name_len", .num e.nameLen.toNat), ("name", .str e.name), ("file_offset", .num e.offset.toNat), ("size", .num e.size.toNat)]

/-- `SectionEntry` (`elf_section_info.rs:19-29`). -/
def SectionEntry.ofJson (j : Json) : Option SectionEntry := do
  match ← j.fields ["name_len", "name", "file_offset", "size"] with
  | [a, b, c, d] => return ⟨← a.u16, ← b.text, ← c.u64, ← d.u64⟩
  | _ => none

/-- `ElfSectionInfo` (`elf_section_info.rs:83-93`). -/
def ElfSectionInfo.toJson (e : ElfSectionInfo) : Json :=
  .obj [("size", .num e.size), ("id", .num e.id.toNat), ("section_count", .num e.count.toNat),
    ("sections", .arr (e.sections.map SectionEntry.toJson))]

/-- `ElfSectionInfo` (`elf_section_info.rs:83-93`). -/
def ElfSectionInfo.ofJson (j : Json) : Option ElfSectionInfo := do
  match ← j.fields ["size", "id", "section_count", "sections"] with
  | [a, b, c, d] => return ⟨← a.usize, ← b.u32, ← c.u32, ← d.list SectionEntry.ofJson⟩
  | _ => none

/-- `RawData` (`signing_block/mod.rs:47-58`). -/
def RawData.toJson (r : RawData) : Json := .obj [("size", .num r.size), ("id", .num r.id.toNat), ("data", .ofBytes r.data)]

/-- `RawData` (`signing_block/mod.rs:47-58`). -/
def RawData.ofJson (j : Json) : Option RawData := do
  match ← j.fields ["size", "id", "data"] with
  | [a, b, c] => return ⟨← a.usize, ← b.u32, ← c.bytes⟩
  | _ => none

/-- `ValueSigningBlock` (`signing_block/mod.rs:80-94`): the name of the variant and its content. -/
def Value.toJson : Value → Json
  | .raw r => .obj [("BaseSigningBlock", r.toJson)]
  | .v2 s => .obj [("SignatureSchemeV2Block", s.toJson)]
  | .stamp s => .obj [("SourceStampBlock", s.toJson)]
  | .elf e => .obj [("ElfSectionInfoBlock", e.toJson)]

/-- `ValueSigningBlock` (`signing_block/mod.rs:80-94`). -/
def Value.ofJson : Json → Option Value
  | .obj [(n, j)] =>
    if n = "BaseSigningBlock" then (RawData.ofJson j).map .raw
    else if n = "SignatureSchemeV2Block" then (SchemeV2.ofJson j).map .v2
    else if n = "SourceStampBlock" then (SourceStamp.ofJson j).map .stamp
    else if n = "ElfSectionInfoBlock" then (ElfSectionInfo.ofJson j).map .elf
    else none
  | _ => none

/-- `[u8; 16]`: exactly so many numbers. -/
def Json.bytes16 (j : Json) : Option Bytes :=
  match j.bytes with
  | some b => if b.length = 16 then some b else none
  | none => none

/-- `SigningBlock` (`signing_block/mod.rs:198-220`). -/
def SigningBlock.toJson (b : SigningBlock) : Json :=
  .obj [("file_offset_start", .num b.fileStart), ("file_offset_end", .num b.fileEnd), ("size_of_block_start", .num b.sizeStart),
    ("content_size", .num b.contentSize), ("content", .arr (b.content.map Value.toJson)), ("size_of_block_end", .num b.sizeEnd),
    ("magic", .ofBytes b.magic)]

/-- `SigningBlock` (`signing_block/mod.rs:198-220`). -/
def SigningBlock.ofJson (j : Json) : Option SigningBlock := do
  match ← j.fields ["file_offset_start", "file_offset_end", "size_of_block_start", "content_size", "content", "size_of_block_end",
      "magic"] with
  | [a, b, c, d, e, f, g] =>
    return ⟨← a.usize, ← b.usize, ← c.usize, ← d.usize, ← e.list Value.ofJson, ← f.usize, ← g.bytes16⟩
  | _ => none

end Ksusig
