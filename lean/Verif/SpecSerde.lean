import Verif.Spec

/-!
# What a signing block that can be stored as JSON looks like

Every number fits its Rust type (`usize` 64 bits), section names are text, the magic has 16 bytes, and no algorithm is one of the
two known ones under the name `Unknown`.
-/

namespace Ksusig.Spec

open Ksusig

def StorableDigest (d : Digest) : Prop := d.size < 2 ^ 64 ∧ AlgoOk d.algo
def StorableDigests (d : Digests) : Prop := d.size < 2 ^ 64 ∧ ∀ x ∈ d.data, StorableDigest x
def StorableCerts (c : Certs) : Prop := c.size < 2 ^ 64 ∧ ∀ x ∈ c.data, x.size < 2 ^ 64
def StorableSigs (s : Sigs) : Prop := s.size < 2 ^ 64 ∧ ∀ x ∈ s.data, x.size < 2 ^ 64 ∧ AlgoOk x.algo
def StorableAttrs (a : Attrs) : Prop := a.size < 2 ^ 64 ∧ ∀ x ∈ a.data, x.size < 2 ^ 64

def StorableSignedV2 (s : SignedDataV2) : Prop :=
  s.size < 2 ^ 64 ∧ StorableDigests s.digests ∧ StorableCerts s.certs ∧ StorableAttrs s.attrs

def StorableSigner (s : SignerV2) : Prop :=
  s.size < 2 ^ 64 ∧ StorableSignedV2 s.signedData ∧ StorableSigs s.sigs ∧ s.pubKey.size < 2 ^ 64

def StorableSignedStamp (s : SignedDataStamp) : Prop :=
  StorableDigests s.digests ∧ StorableCerts s.certs ∧ StorableAttrs s.attrs

def StorableStamp (s : StampBlock) : Prop :=
  s.size < 2 ^ 64 ∧ StorableSignedStamp s.signedData ∧ StorableSigs s.sigs ∧ s.pubKey.size < 2 ^ 64

def StorableValue : Value → Prop
  | .raw r => r.size < 2 ^ 64
  | .v2 s => s.size < 2 ^ 64 ∧ s.signers.size < 2 ^ 64 ∧ ∀ x ∈ s.signers.data, StorableSigner x
  | .stamp s => s.size < 2 ^ 64 ∧ StorableStamp s.block
  | .elf e => e.size < 2 ^ 64 ∧ ∀ x ∈ e.sections, validUtf8 x.name = true

structure Storable (b : SigningBlock) : Prop where
  fileStart : b.fileStart < 2 ^ 64
  fileEnd : b.fileEnd < 2 ^ 64
  sizeStart : b.sizeStart < 2 ^ 64
  contentSize : b.contentSize < 2 ^ 64
  content : ∀ v ∈ b.content, StorableValue v
  sizeEnd : b.sizeEnd < 2 ^ 64
  magic : b.magic.length = 16

end Ksusig.Spec
