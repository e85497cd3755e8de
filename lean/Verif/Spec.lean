import Verif.Model.Signable

/-!
# Specification vocabulary

Small definitions the property theorems are stated with. They describe the wire format and the archive
layout independently of the functions of the model that compute or consume them.
-/

namespace Ksusig.Spec

open Ksusig

/-! ## What a caller puts into a signing block -/

/-- What a caller supplies for one V2 signer or one source stamp. -/
structure SignerSpec where
  digests : List (Algo × Bytes)
  certs : List Bytes
  attrs : List (UInt32 × Bytes)
  sigs : List (Algo × Bytes)
  key : Bytes
  deriving Repr

/-- What a caller supplies for one content block. -/
inductive ContentSpec where
  | raw (id : UInt32) (data : Bytes)
  | v2 (signers : List SignerSpec)
  | stamp (s : SignerSpec)
  | elf (sections : List (Bytes × UInt64 × UInt64))
  deriving Repr

/-- The algorithm value is the one its own identifier denotes (excludes only `Unknown(0x0201)` and
`Unknown(0x0202)`, which alias the known algorithms on the wire). -/
def AlgoOk (a : Algo) : Prop := a ≠ .unknown 0x0201 ∧ a ≠ .unknown 0x0202

/-- All algorithm values of a signer are proper. -/
def SignerSpec.Ok (s : SignerSpec) : Prop :=
  (∀ d ∈ s.digests, AlgoOk d.1) ∧ (∀ d ∈ s.sigs, AlgoOk d.1)

/-- Raw blocks do not use one of the structured ids; names are Rust strings (UTF-8). -/
def ContentSpec.Ok : ContentSpec → Prop
  | .raw id _ => id ≠ v2BlockId ∧ id ≠ stampBlockId ∧ id ≠ elfInfoBlockId
  | .v2 ss => ∀ s ∈ ss, s.Ok
  | .stamp s => s.Ok
  | .elf es => ∀ e ∈ es, validUtf8 e.1 = true

instance : Decidable (AlgoOk a) := inferInstanceAs (Decidable (_ ∧ _))
instance (s : SignerSpec) : Decidable s.Ok := inferInstanceAs (Decidable (_ ∧ _))
instance : (c : ContentSpec) → Decidable c.Ok
  | .raw id _ => inferInstanceAs (Decidable (id ≠ v2BlockId ∧ id ≠ stampBlockId ∧ id ≠ elfInfoBlockId))
  | .v2 ss => inferInstanceAs (Decidable (∀ s ∈ ss, s.Ok))
  | .stamp s => inferInstanceAs (Decidable s.Ok)
  | .elf es => inferInstanceAs (Decidable (∀ e ∈ es, validUtf8 e.1 = true))

/-! ### Building with the public constructors -/

def SignerSpec.buildDigests (s : SignerSpec) : Digests := Digests.new (s.digests.map fun d => Digest.new d.1 d.2)
def SignerSpec.buildCerts (s : SignerSpec) : Certs := Certs.new (s.certs.map Cert.new)
/-- There is no constructor for one attribute; the code builds it as a literal with this size
(`source_stamp.rs:281-285`, `signer.rs`). -/
def SignerSpec.buildAttrs (s : SignerSpec) : Attrs := Attrs.new (s.attrs.map fun a => ⟨4 + a.2.length, a.1, a.2⟩)
def SignerSpec.buildSigs (s : SignerSpec) : Sigs := Sigs.new (s.sigs.map fun d => Sig.new d.1 d.2)

def SignerSpec.buildV2 (s : SignerSpec) : SignerV2 :=
  SignerV2.new (SignedDataV2.new s.buildDigests s.buildCerts s.buildAttrs) s.buildSigs (PubKey.new s.key)

def SignerSpec.buildStamp (s : SignerSpec) : StampBlock :=
  StampBlock.new (SignedDataStamp.new s.buildDigests s.buildCerts s.buildAttrs) s.buildSigs (PubKey.new s.key)

/-- The content block obtained with the public constructors. -/
def ContentSpec.build : ContentSpec → Value
  | .raw id d => .raw (RawData.new id d)
  | .v2 ss => Value.newV2 (SignersV2.new (ss.map SignerSpec.buildV2))
  | .stamp s => Value.newSourceStamp s.buildStamp
  | .elf es => .elf (ElfSectionInfo.fromTuples es)

/-! ### The wire format -/

/-- A byte string preceded by its length as a 4-byte little-endian number. -/
def lp4 (b : Bytes) : Bytes := leBytes 4 b.length ++ b

/-- `(algorithm id, length-prefixed bytes)`, itself length-prefixed. -/
def wireTagged (x : Algo × Bytes) : Bytes := lp4 (leBytes 4 x.1.toU32.toNat ++ lp4 x.2)

/-- An attribute: length-prefixed `id ‖ data`. -/
def wireAttr (x : UInt32 × Bytes) : Bytes := lp4 (leBytes 4 x.1.toNat ++ x.2)

/-- The three length-prefixed lists of the signed data. -/
def SignerSpec.wireSigned (s : SignerSpec) : Bytes :=
  lp4 (s.digests.flatMap wireTagged) ++ lp4 (s.certs.flatMap lp4) ++ lp4 (s.attrs.flatMap wireAttr)

/-- One V2 signer: signed data (with four zero bytes at its end), signatures, public key. -/
def SignerSpec.wireV2 (s : SignerSpec) : Bytes :=
  lp4 (lp4 (s.wireSigned ++ [0, 0, 0, 0]) ++ lp4 (s.sigs.flatMap wireTagged) ++ lp4 s.key)

/-- A stamp block: signed data, signatures, public key. -/
def SignerSpec.wireStamp (s : SignerSpec) : Bytes :=
  lp4 (lp4 s.wireSigned ++ lp4 (s.sigs.flatMap wireTagged) ++ lp4 s.key)

/-- One section entry: 2-byte name length, name, offset, size. -/
def wireSection (e : Bytes × UInt64 × UInt64) : Bytes :=
  leBytes 2 e.1.length ++ e.1 ++ leBytes 8 e.2.1.toNat ++ leBytes 8 e.2.2.toNat

/-- The id of a content block. -/
def ContentSpec.id : ContentSpec → UInt32
  | .raw id _ => id
  | .v2 _ => 0x7109871a
  | .stamp _ => 0x6dff800d
  | .elf _ => 0x4c45534b

/-- The value bytes of a content block. -/
def ContentSpec.wireValue : ContentSpec → Bytes
  | .raw _ d => d
  | .v2 ss => lp4 (ss.flatMap SignerSpec.wireV2)
  | .stamp s => s.wireStamp
  | .elf es => leBytes 4 es.length ++ es.flatMap wireSection

/-- A pair: 8-byte length of (id and value), id, value. -/
def wirePair (id : UInt32) (value : Bytes) : Bytes :=
  leBytes 8 (4 + value.length) ++ leBytes 4 id.toNat ++ value

/-- A framed block: size, pairs, size, magic; the size counts everything after the first size field. -/
def wireFrame (pairs : Bytes) : Bytes :=
  leBytes 8 (pairs.length + 24) ++ pairs ++ leBytes 8 (pairs.length + 24) ++
    [0x4B, 0x53, 0x55, 0x20, 0x53, 0x69, 0x67, 0x20, 0x42, 0x6C, 0x6F, 0x63, 0x6B, 0x20, 0x34, 0x32]

/-- The bytes of a block with the given content. -/
def wireBlock (cs : List ContentSpec) : Bytes :=
  wireFrame (cs.flatMap fun c => wirePair c.id c.wireValue)

end Ksusig.Spec

namespace Ksusig.Spec

open Ksusig

/-! ## What the decoder may accept -/

/-- `v` is an admissible decoding of a pair with this id and value: raw blocks carry exactly the value and
have an unstructured id; structured ones have their own id and announce the value's length. -/
def PairOk (id : UInt32) (value : Bytes) : Value → Prop
  | .raw r => r = ⟨4 + value.length, id, value⟩ ∧ id ≠ 0x7109871a ∧ id ≠ 0x6dff800d ∧ id ≠ 0x4c45534b
  | .v2 s => id = 0x7109871a ∧ s.id = id ∧ s.size = 4 + value.length
  | .stamp s => id = 0x6dff800d ∧ s.id = id ∧ s.size = 4 + value.length
  | .elf e => id = 0x4c45534b ∧ e.id = id ∧ e.size = 4 + value.length ∧ e.count.toNat = e.sections.length

/-- The bytes are exactly a sequence of pairs, decoded one by one to the given values. -/
inductive Tiled : Bytes → List Value → Prop where
  | nil : Tiled [] []
  | cons (id : UInt32) (value : Bytes) (v : Value) (rest : Bytes) (vs : List Value) :
      PairOk id value v → Tiled rest vs → Tiled (wirePair id value ++ rest) (v :: vs)

end Ksusig.Spec

namespace Ksusig

/-! ## How many bytes a decoded value stands for

The number of encoded bytes that the parts *held in memory* by a decoded value correspond to: every stored byte
counts once, every element of every list counts its fixed header. Announced sizes do not count. -/

/-- 12 bytes of header (entry length, algorithm, digest length) and the digest. -/
def Digest.weight (d : Digest) : Nat := 12 + d.digest.length
/-- Length prefix and entries. -/
def Digests.weight (d : Digests) : Nat := 4 + (d.data.map Digest.weight).sum
/-- Length prefix and certificate. -/
def Cert.weight (c : Cert) : Nat := 4 + c.cert.length
/-- Length prefix and entries. -/
def Certs.weight (c : Certs) : Nat := 4 + (c.data.map Cert.weight).sum
/-- Length prefix, id and data. -/
def Attr.weight (a : Attr) : Nat := 8 + a.data.length
/-- Length prefix and entries. -/
def Attrs.weight (a : Attrs) : Nat := 4 + (a.data.map Attr.weight).sum
/-- 12 bytes of header and the signature. -/
def Sig.weight (s : Sig) : Nat := 12 + s.signature.length
/-- Length prefix and entries. -/
def Sigs.weight (s : Sigs) : Nat := 4 + (s.data.map Sig.weight).sum
/-- Length prefix and key. -/
def PubKey.weight (k : PubKey) : Nat := 4 + k.data.length
/-- Two length prefixes and the parts. -/
def SignerV2.weight (s : SignerV2) : Nat :=
  8 + (s.signedData.digests.weight + s.signedData.certs.weight + s.signedData.attrs.weight) + s.sigs.weight +
    s.pubKey.weight
/-- Two length prefixes and the parts. -/
def StampBlock.weight (s : StampBlock) : Nat :=
  8 + (s.signedData.digests.weight + s.signedData.certs.weight + s.signedData.attrs.weight) + s.sigs.weight +
    s.pubKey.weight
/-- Name length, offset, size and the name. -/
def SectionEntry.weight (e : SectionEntry) : Nat := 18 + e.name.length
/-- Pair header (length and id) and the decoded parts. -/
def Value.weight : Value → Nat
  | .raw r => 12 + r.data.length
  | .v2 s => 12 + 4 + (s.signers.data.map SignerV2.weight).sum
  | .stamp s => 12 + s.block.weight
  | .elf e => 12 + 4 + (e.sections.map SectionEntry.weight).sum

end Ksusig

namespace Ksusig.Spec

open Ksusig

/-! ## ZIP archives -/

/-- The fields of an end-of-central-directory record apart from the directory offset. -/
structure Tail where
  disk : UInt16
  diskCd : UInt16
  entries : UInt16
  total : UInt16
  cdSize : UInt32
  comment : Bytes
  deriving DecidableEq, Repr

/-- An end record: signature `PK\5\6`, fields, directory offset, comment. -/
def wireEocd (t : Tail) (off : Nat) : Bytes :=
  [0x50, 0x4b, 0x05, 0x06] ++ leBytes 2 t.disk.toNat ++ leBytes 2 t.diskCd.toNat ++ leBytes 2 t.entries.toNat ++
    leBytes 2 t.total.toNat ++ leBytes 4 t.cdSize.toNat ++ leBytes 4 off ++ leBytes 2 t.comment.length ++ t.comment

/-- A complete end record starts at position `k` of `d` and ends within `d`. -/
def RecordAt (d : Bytes) (k : Nat) : Prop :=
  slice? d k (k + 4) = some [0x50, 0x4b, 0x05, 0x06] ∧ k + 22 ≤ d.length ∧
    k + 22 + leNat ((d.drop (k + 20)).take 2) ≤ d.length

instance (d : Bytes) (k : Nat) : Decidable (RecordAt d k) := by unfold RecordAt; exact inferInstance

/-- The 16-byte magic is at position `u` of `d`. -/
def MagicAtPos (d : Bytes) (u : Nat) : Prop :=
  slice? d u (u + 16) =
    some [0x4B, 0x53, 0x55, 0x20, 0x53, 0x69, 0x67, 0x20, 0x42, 0x6C, 0x6F, 0x63, 0x6B, 0x20, 0x34, 0x32]

instance (d : Bytes) (u : Nat) : Decidable (MagicAtPos d u) := by unfold MagicAtPos; exact inferInstance

/-- An archive: entry bytes, central directory bytes, end record fields. -/
structure Archive where
  body : Bytes
  cd : Bytes
  tail : Tail
  deriving DecidableEq, Repr

/-- The unsigned file: entries, directory, end record pointing at the directory. -/
def Archive.unsigned (a : Archive) : Bytes := a.body ++ a.cd ++ wireEocd a.tail a.body.length

/-- The file with `block` inserted between entries and directory and the directory offset adjusted. -/
def Archive.signed (a : Archive) (block : Bytes) : Bytes :=
  a.body ++ block ++ a.cd ++ wireEocd a.tail (a.body.length + block.length)

/-- The comment fits its length field. -/
def Archive.Ok (a : Archive) : Prop := a.tail.comment.length ≤ 65535

instance (a : Archive) : Decidable a.Ok := inferInstanceAs (Decidable (_ ≤ _))

/-- With directory offset `off`, the end record is the only complete end record at or after its own start. -/
def Archive.CleanAt (a : Archive) (off : Nat) : Prop := ∀ k, 1 ≤ k → ¬ RecordAt (wireEocd a.tail off) k

/-- No signing block magic among the entry bytes, and room for a block before the directory (smaller files are
treated as corrupted by the reader). -/
def Archive.NoMagic (a : Archive) : Prop := 24 ≤ a.body.length ∧ ∀ u, ¬ MagicAtPos a.body u

end Ksusig.Spec

namespace Ksusig.Spec

open Ksusig

/-- The block was made by `SigningBlock::new` or `new_with_padding` from content made with the public
constructors. -/
def Built (p : Profile) (b : SigningBlock) : Prop :=
  ∃ cs : List ContentSpec, (∀ c ∈ cs, c.Ok) ∧
    (SigningBlock.new (cs.map ContentSpec.build) = .ok b ∨ SigningBlock.newWithPadding p (cs.map ContentSpec.build) = .ok b)

/-- The block's content and size fields, ignoring where it is located in a file. -/
def SameBlock (b b' : SigningBlock) : Prop :=
  b.sizeStart = b'.sizeStart ∧ b.contentSize = b'.contentSize ∧ b.content = b'.content ∧ b.sizeEnd = b'.sizeEnd ∧
    b.magic = b'.magic

end Ksusig.Spec

namespace Ksusig.Spec

open Ksusig

/-! ## The content digest -/

/-- Consecutive pieces of 1 MiB, the last one possibly shorter. -/
def pieces (d : Bytes) : List Bytes :=
  (List.range ((d.length + (2 ^ 20 - 1)) / 2 ^ 20)).map fun i => (d.drop (i * 2 ^ 20)).take (2 ^ 20)

/-- What is hashed for one piece. -/
def pieceInput (c : Bytes) : Bytes := 0xa5 :: (leBytes 4 c.length ++ c)

/-- What is hashed last: the number of pieces and their hashes. -/
def topInput (h : Bytes → Bytes) (parts : List Bytes) : Bytes :=
  0x5a :: (leBytes 4 (parts.flatMap pieces).length ++ ((parts.flatMap pieces).map fun c => h (pieceInput c)).flatten)

/-- Two-level digest of a list of regions. -/
def treeDigest (h : Bytes → Bytes) (parts : List Bytes) : Bytes := h (topInput h parts)

/-- Everything hashed on the way to the digest. -/
def hashInputs (h : Bytes → Bytes) (parts : List Bytes) : List Bytes :=
  topInput h parts :: (parts.flatMap pieces).map pieceInput

/-- Two different inputs with the same hash value, one hashed on the way to the digest of `ps` and one on the way to that of
`ps'`. -/
def Collision (h : Bytes → Bytes) (ps ps' : List Bytes) : Prop :=
  ∃ x ∈ hashInputs h ps, ∃ y ∈ hashInputs h ps', x ≠ y ∧ h x = h y

/-- An end record (and what follows it) with the directory offset replaced. -/
def patchOffset (tail : Bytes) (off : Nat) : Bytes := tail.take 16 ++ leBytes 4 off ++ tail.drop 20

/-- How the library divides a module file: entries, signing block (empty if unsigned), directory, end record and
what follows it. -/
structure Split (p : Profile) (file body block cd tail : Bytes) : Prop where
  file_eq : file = body ++ block ++ cd ++ tail
  parts : ∃ e, findEocd file file.length = .ok e ∧ e.fileOffset = body.length + block.length + cd.length ∧
    ((∃ b, (Module.new file).getSigningBlock p file = .ok b ∧ b.fileStart = body.length ∧
        b.fileEnd = body.length + block.length) ∨
      (∃ err, (Module.new file).getSigningBlock p file = .err err ∧ err.isMissing = true ∧ block = [] ∧
        e.cdOffset.toNat = body.length))

/-- The algorithm is one of the two supported ones. -/
def Known (a : Algo) : Prop := a = .p256 ∨ a = .p384

/-- Hash values have a fixed positive length. -/
def FixedLength (h : Bytes → Bytes) : Prop := ∃ n, 0 < n ∧ ∀ x, (h x).length = n

end Ksusig.Spec
