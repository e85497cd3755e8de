import Verif.Spec

/-!
# The format the decoder accepts, as a grammar

Each definition relates a byte string to the value it stands for. Nothing here mentions readers, positions or loops. Where the
decoder tolerates something the encoder never writes (a size that is not checked, bytes that are skipped, a list whose last
entry reaches beyond the announced end) the grammar says so explicitly.
-/

namespace Ksusig.Spec

open Ksusig

/-- A list of entries with an announced length `n`: entries are read as long as fewer than `n` bytes have been used. So the
entries together are at least `n` bytes, and only the last one may reach beyond them. -/
inductive Entries (item : Bytes → α → Prop) : Nat → Bytes → List α → Prop where
  | done : Entries item 0 [] []
  | more (n : Nat) (w ws : Bytes) (a : α) (as : List α) :
      0 < n → item w a → Entries item (n - w.length) ws as → Entries item n (w ++ ws) (a :: as)

/-- A digest: announced size (any number), algorithm, length-prefixed value. -/
def IsDigest (w : Bytes) (d : Digest) : Prop :=
  w = leBytes 4 d.size ++ leBytes 4 d.algo.toU32.toNat ++ lp4 d.digest ∧ d.size < 2 ^ 32 ∧ d.digest.length < 2 ^ 32 ∧
    AlgoOk d.algo

/-- A signature: announced size (any number), algorithm, length-prefixed value. -/
def IsSig (w : Bytes) (s : Sig) : Prop :=
  w = leBytes 4 s.size ++ leBytes 4 s.algo.toU32.toNat ++ lp4 s.signature ∧ s.size < 2 ^ 32 ∧ s.signature.length < 2 ^ 32 ∧
    AlgoOk s.algo

/-- A certificate: length-prefixed bytes. -/
def IsCert (w : Bytes) (c : Cert) : Prop := w = lp4 c.cert ∧ c.size = c.cert.length ∧ c.size < 2 ^ 32

/-- A public key: length-prefixed bytes. -/
def IsKey (w : Bytes) (k : PubKey) : Prop := w = lp4 k.data ∧ k.size = k.data.length ∧ k.size < 2 ^ 32

/-- An attribute: length-prefixed id and data. -/
def IsAttr (w : Bytes) (a : Attr) : Prop := w = wireAttr (a.id, a.data) ∧ a.size = 4 + a.data.length ∧ a.size < 2 ^ 32

/-- The digests: announced length and exactly that many bytes of entries. -/
def IsDigests (w : Bytes) (d : Digests) : Prop :=
  ∃ inner, w = lp4 inner ∧ inner.length = d.size ∧ d.size < 2 ^ 32 ∧ Entries IsDigest d.size inner d.data

/-- The certificates: announced length and entries, the last of which may reach beyond it. -/
def IsCerts (w : Bytes) (c : Certs) : Prop :=
  ∃ inner, w = leBytes 4 c.size ++ inner ∧ c.size < 2 ^ 32 ∧ Entries IsCert c.size inner c.data

/-- The attributes, likewise. -/
def IsAttrs (w : Bytes) (a : Attrs) : Prop :=
  ∃ inner, w = leBytes 4 a.size ++ inner ∧ a.size < 2 ^ 32 ∧ Entries IsAttr a.size inner a.data

/-- The signatures, likewise. -/
def IsSigs (w : Bytes) (s : Sigs) : Prop :=
  ∃ inner, w = leBytes 4 s.size ++ inner ∧ s.size < 2 ^ 32 ∧ Entries IsSig s.size inner s.data

/-- Signed data of a V2 signer: length-prefixed digests, certificates, attributes and any further bytes. -/
def IsSignedV2 (w : Bytes) (s : SignedDataV2) : Prop :=
  ∃ d c a rest, w = lp4 (d ++ c ++ a ++ rest) ∧ (d ++ c ++ a ++ rest).length = s.size ∧ s.size < 2 ^ 32 ∧
    IsDigests d s.digests ∧ IsCerts c s.certs ∧ IsAttrs a s.attrs ∧ s.autoPad = true

/-- Signed data of a source stamp, likewise; its announced length is not kept. -/
def IsSignedStamp (w : Bytes) (s : SignedDataStamp) : Prop :=
  ∃ d c a rest, w = lp4 (d ++ c ++ a ++ rest) ∧ (d ++ c ++ a ++ rest).length < 2 ^ 32 ∧
    IsDigests d s.digests ∧ IsCerts c s.certs ∧ IsAttrs a s.attrs

/-- A V2 signer: announced size (any number), signed data, signatures, key. -/
def IsSigner (w : Bytes) (s : SignerV2) : Prop :=
  ∃ sd sg k, w = leBytes 4 s.size ++ sd ++ sg ++ k ∧ s.size < 2 ^ 32 ∧ IsSignedV2 sd s.signedData ∧ IsSigs sg s.sigs ∧
    IsKey k s.pubKey

/-- The V2 signers: announced length and exactly that many bytes of signers. -/
def IsSigners (w : Bytes) (s : SignersV2) : Prop :=
  ∃ inner, w = lp4 inner ∧ inner.length = s.size ∧ s.size < 2 ^ 32 ∧ Entries IsSigner s.size inner s.data

/-- A source stamp: length-prefixed signed data, signatures, key and any further bytes. -/
def IsStamp (w : Bytes) (s : StampBlock) : Prop :=
  ∃ sd sg k rest, w = lp4 (sd ++ sg ++ k ++ rest) ∧ (sd ++ sg ++ k ++ rest).length = s.size ∧ s.size < 2 ^ 32 ∧
    IsSignedStamp sd s.signedData ∧ IsSigs sg s.sigs ∧ IsKey k s.pubKey

/-- The value bytes of a pair and what they are decoded to, depending on the id; structured values may be followed by any
further bytes. -/
def IsValue (id : UInt32) (value : Bytes) : Value → Prop
  | .v2 s => id = 0x7109871a ∧ s.id = id ∧ s.size = 4 + value.length ∧ ∃ w rest, value = w ++ rest ∧ IsSigners w s.signers
  | .stamp s => id = 0x6dff800d ∧ s.id = id ∧ s.size = 4 + value.length ∧ ∃ w rest, value = w ++ rest ∧ IsStamp w s.block
  | .elf e => id = 0x4c45534b ∧ e.id = id ∧ e.size = 4 + value.length ∧
      ∃ (es : List (Bytes × UInt64 × UInt64)) (rest : Bytes),
        value = leBytes 4 es.length ++ es.flatMap wireSection ++ rest ∧ es.length < 2 ^ 32 ∧
        (∀ x ∈ es, x.1.length < 2 ^ 16 ∧ validUtf8 x.1 = true) ∧ e.count.toNat = es.length ∧
        e.sections.map (fun x => (x.name, x.offset, x.size)) = es ∧ ∀ x ∈ e.sections, x.nameLen.toNat = x.name.length
  | .raw r => r = ⟨4 + value.length, id, value⟩ ∧ id ≠ 0x7109871a ∧ id ≠ 0x6dff800d ∧ id ≠ 0x4c45534b

/-- The content of a block: pairs one after the other, without gaps. -/
inductive IsContent : Bytes → List Value → Prop where
  | nil : IsContent [] []
  | cons (id : UInt32) (value : Bytes) (v : Value) (rest : Bytes) (vs : List Value) :
      IsValue id value v → IsContent rest vs → IsContent (wirePair id value ++ rest) (v :: vs)

end Ksusig.Spec
