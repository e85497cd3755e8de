import Verif.Model.Serde

/-!
# The documents that stand for a signing block

serde's data model of each structure: the names of the fields and what each of them holds. A structure is a map in which every field
occurs exactly once, whatever else there is, or the sequence of its fields.
-/

namespace Ksusig.Spec

open Ksusig

/-- Related one by one. -/
inductive Each {α β : Type} (R : α → β → Prop) : List α → List β → Prop where
  | nil : Each R [] []
  | cons (a : α) (b : β) (as : List α) (bs : List β) : R a b → Each R as bs → Each R (a :: as) (b :: bs)

/-- The map holds this value under this name, and nothing else under the same name. -/
def Once (l : List (String × Json)) (n : String) (v : Json) : Prop :=
  ∃ before after, l = before ++ (n, v) :: after ∧ ∀ x ∈ before ++ after, x.1 ≠ n

/-- The values of the fields of a structure. -/
def Fields (j : Json) (names : List String) (vs : List Json) : Prop :=
  (∃ l, j = .obj l ∧ Each (Once l) names vs) ∨ (j = .arr vs ∧ vs.length = names.length)

def DocSize (j : Json) (n : Nat) : Prop := j = .num n ∧ n < 2 ^ 64
def DocU64 (j : Json) (n : UInt64) : Prop := j = .num n.toNat
def DocU32 (j : Json) (n : UInt32) : Prop := j = .num n.toNat
def DocU16 (j : Json) (n : UInt16) : Prop := j = .num n.toNat
def DocU8 (j : Json) (n : UInt8) : Prop := j = .num n.toNat
def DocText (j : Json) (s : Bytes) : Prop := j = .str s ∧ validUtf8 s = true
def DocList {α : Type} (R : Json → α → Prop) (j : Json) (l : List α) : Prop := ∃ js, j = .arr js ∧ Each R js l
def DocBytes : Json → Bytes → Prop := DocList DocU8

/-- An algorithm is its number. -/
def DocAlgo (j : Json) : Algo → Prop
  | .p256 => j = .num 0x0201
  | .p384 => j = .num 0x0202
  | .unknown u => j = .num u.toNat ∧ u ≠ 0x0201 ∧ u ≠ 0x0202

def DocDigest (j : Json) (d : Digest) : Prop := ∃ a b c, Fields j ["size", "signature_algorithm_id", "digest"] [a, b, c] ∧
  DocSize a d.size ∧ DocAlgo b d.algo ∧ DocBytes c d.digest

def DocDigests (j : Json) (d : Digests) : Prop := ∃ a b, Fields j ["size", "digests_data"] [a, b] ∧
  DocSize a d.size ∧ DocList DocDigest b d.data

def DocCert (j : Json) (c : Cert) : Prop := ∃ a b, Fields j ["size", "certificate"] [a, b] ∧ DocSize a c.size ∧ DocBytes b c.cert

def DocCerts (j : Json) (c : Certs) : Prop := ∃ a b, Fields j ["size", "certificates_data"] [a, b] ∧
  DocSize a c.size ∧ DocList DocCert b c.data

def DocSig (j : Json) (s : Sig) : Prop := ∃ a b c, Fields j ["size", "signature_algorithm_id", "signature"] [a, b, c] ∧
  DocSize a s.size ∧ DocAlgo b s.algo ∧ DocBytes c s.signature

def DocSigs (j : Json) (s : Sigs) : Prop := ∃ a b, Fields j ["size", "signatures_data"] [a, b] ∧
  DocSize a s.size ∧ DocList DocSig b s.data

def DocAttr (j : Json) (x : Attr) : Prop := ∃ a b c, Fields j ["size", "id", "data"] [a, b, c] ∧
  DocSize a x.size ∧ DocU32 b x.id ∧ DocBytes c x.data

def DocAttrs (j : Json) (x : Attrs) : Prop := ∃ a b, Fields j ["size", "additional_attributes_data"] [a, b] ∧
  DocSize a x.size ∧ DocList DocAttr b x.data

def DocPubKey (j : Json) (k : PubKey) : Prop := ∃ a b, Fields j ["size", "data"] [a, b] ∧ DocSize a k.size ∧ DocBytes b k.data

def DocSignedV2 (j : Json) (s : SignedDataV2) : Prop := ∃ a b c d e,
  Fields j ["size", "digests", "certificates", "additional_attributes", "_private_auto_padding_fix"] [a, b, c, d, e] ∧
  DocSize a s.size ∧ DocDigests b s.digests ∧ DocCerts c s.certs ∧ DocAttrs d s.attrs ∧ e = .bool s.autoPad

def DocSigner (j : Json) (s : SignerV2) : Prop := ∃ a b c d, Fields j ["size", "signed_data", "signatures", "pub_key"] [a, b, c, d] ∧
  DocSize a s.size ∧ DocSignedV2 b s.signedData ∧ DocSigs c s.sigs ∧ DocPubKey d s.pubKey

def DocSigners (j : Json) (s : SignersV2) : Prop := ∃ a b, Fields j ["size", "signers_data"] [a, b] ∧
  DocSize a s.size ∧ DocList DocSigner b s.data

def DocScheme (j : Json) (s : SchemeV2) : Prop := ∃ a b c, Fields j ["size", "id", "signers"] [a, b, c] ∧
  DocSize a s.size ∧ DocU32 b s.id ∧ DocSigners c s.signers

def DocSignedStamp (j : Json) (s : SignedDataStamp) : Prop := ∃ a b c,
  Fields j ["digests", "certificates", "additional_attributes"] [a, b, c] ∧
  DocDigests a s.digests ∧ DocCerts b s.certs ∧ DocAttrs c s.attrs

def DocStampBlock (j : Json) (s : StampBlock) : Prop := ∃ a b c d,
  Fields j ["size", "signed_data", "signatures", "public_key"] [a, b, c, d] ∧
  DocSize a s.size ∧ DocSignedStamp b s.signedData ∧ DocSigs c s.sigs ∧ DocPubKey d s.pubKey

def DocStamp (j : Json) (s : SourceStamp) : Prop := ∃ a b c, Fields j ["size", "id", "stamp_block"] [a, b, c] ∧
  DocSize a s.size ∧ DocU32 b s.id ∧ DocStampBlock c s.block

def DocSection (j : Json) (s : SectionEntry) : Prop := ∃ a b c d, Fields j ["name_len", "name", "file_offset", "size"] [a, b, c, d] ∧
  DocU16 a s.nameLen ∧ DocText b s.name ∧ DocU64 c s.offset ∧ DocU64 d s.size

def DocElf (j : Json) (e : ElfSectionInfo) : Prop := ∃ a b c d, Fields j ["size", "id", "section_count", "sections"] [a, b, c, d] ∧
  DocSize a e.size ∧ DocU32 b e.id ∧ DocU32 c e.count ∧ DocList DocSection d e.sections

def DocRaw (j : Json) (r : RawData) : Prop := ∃ a b c, Fields j ["size", "id", "data"] [a, b, c] ∧
  DocSize a r.size ∧ DocU32 b r.id ∧ DocBytes c r.data

/-- A value is a map with one entry, named after its kind. -/
def DocValue (j : Json) : Value → Prop
  | .raw r => ∃ x, j = .obj [("BaseSigningBlock", x)] ∧ DocRaw x r
  | .v2 s => ∃ x, j = .obj [("SignatureSchemeV2Block", x)] ∧ DocScheme x s
  | .stamp s => ∃ x, j = .obj [("SourceStampBlock", x)] ∧ DocStamp x s
  | .elf e => ∃ x, j = .obj [("ElfSectionInfoBlock", x)] ∧ DocElf x e

def DocBlock (j : Json) (s : SigningBlock) : Prop := ∃ a b c d e f g,
  Fields j ["file_offset_start", "file_offset_end", "size_of_block_start", "content_size", "content", "size_of_block_end", "magic"]
    [a, b, c, d, e, f, g] ∧
  DocSize a s.fileStart ∧ DocSize b s.fileEnd ∧ DocSize c s.sizeStart ∧ DocSize d s.contentSize ∧ DocList DocValue e s.content ∧
  DocSize f s.sizeEnd ∧ DocBytes g s.magic ∧ s.magic.length = 16

end Ksusig.Spec
