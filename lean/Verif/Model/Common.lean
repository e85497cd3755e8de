import Verif.Model.Reader
import Verif.Model.Algorithms

/-!
# `/repo/src/common.rs`: digests, certificates, signatures, attributes, public keys
-/

namespace Ksusig

/-- `Digest` (`common.rs:13-22`). -/
structure Digest where
  size : Nat
  algo : Algo
  digest : Bytes
  deriving DecidableEq, Repr

/-- `Digest::new` (`common.rs:26-34`). -/
def Digest.new (algo : Algo) (digest : Bytes) : Digest := ⟨4 + 4 + digest.length, algo, digest⟩

/-- `Digest::parse` (`common.rs:38-49`). -/
def Digest.parse : P Digest := do
  let size ← P.readSize
  let id ← P.readU32
  let n ← P.readSize
  let d ← P.getTo n
  return ⟨size, Algo.ofU32 id, d⟩

/-- Inner `content` of `Digest::to_u8` (`common.rs:52-59`). -/
def Digest.content (d : Digest) : Bytes :=
  leBytes 4 d.algo.toU32.toNat ++ leBytes 4 d.digest.length ++ d.digest

/-- `Digest::to_u8` (`common.rs:51-67`). -/
def Digest.toU8 (d : Digest) : Bytes := leBytes 4 d.size ++ d.content ++ zeroPad d.size d.content

/-- `Digests` (`common.rs:73-79`). -/
structure Digests where
  size : Nat
  data : List Digest
  deriving DecidableEq, Repr

/-- `Digests::new` (`common.rs:83-88`). -/
def Digests.new (ds : List Digest) : Digests := ⟨ds.foldl (fun acc d => acc + d.size + 4) 0, ds⟩

/-- `Digests::parse` (`common.rs:93-105`): loops over a sub-reader of exactly `size` bytes. -/
def Digests.parse : P Digests := do
  let size ← P.readSize
  let sub ← P.asSlice size
  let ds ← P.on sub (P.loopTo Digest.parse size)
  return ⟨size, ds⟩

/-- Inner content of `Digests::to_u8` (`common.rs:109-113`). -/
def Digests.content (d : Digests) : Bytes := d.data.flatMap Digest.toU8

/-- `Digests::to_u8` (`common.rs:108-121`). -/
def Digests.toU8 (d : Digests) : Bytes := leBytes 4 d.size ++ d.content ++ zeroPad d.size d.content

/-- `Certificate` (`common.rs:185-190`). -/
structure Cert where
  size : Nat
  cert : Bytes
  deriving DecidableEq, Repr

/-- `Certificate::new` (`common.rs:194-199`). -/
def Cert.new (c : Bytes) : Cert := ⟨c.length, c⟩

/-- `Certificate::parse` (`common.rs:228-232`). -/
def Cert.parse : P Cert := do
  let size ← P.readSize
  let c ← P.getTo size
  return ⟨size, c⟩

/-- `Certificate::to_u8` (`common.rs:235-244`). -/
def Cert.toU8 (c : Cert) : Bytes := leBytes 4 c.size ++ c.cert ++ zeroPad c.size c.cert

/-- `Certificates` (`common.rs:127-133`). -/
structure Certs where
  size : Nat
  data : List Cert
  deriving DecidableEq, Repr

/-- `Certificates::new` (`common.rs:137-145`). -/
def Certs.new (cs : List Cert) : Certs := ⟨cs.foldl (fun acc c => acc + c.size + 4) 0, cs⟩

/-- `Certificates::parse` (`common.rs:150-163`): loops on the *enclosing* reader up to `pos + size`. -/
def Certs.parse : P Certs := do
  let size ← P.readSize
  let pos ← P.getPos
  let cs ← P.loopTo Cert.parse (pos + size)
  return ⟨size, cs⟩

/-- Inner content of `Certificates::to_u8` (`common.rs:167-171`). -/
def Certs.content (c : Certs) : Bytes := c.data.flatMap Cert.toU8

/-- `Certificates::to_u8` (`common.rs:166-179`). -/
def Certs.toU8 (c : Certs) : Bytes := leBytes 4 c.size ++ c.content ++ zeroPad c.size c.content

/-- `Signature` (`common.rs:309-316`). -/
structure Sig where
  size : Nat
  algo : Algo
  signature : Bytes
  deriving DecidableEq, Repr

/-- `Signature::new` (`common.rs:320-328`). -/
def Sig.new (algo : Algo) (signature : Bytes) : Sig := ⟨4 + 4 + signature.length, algo, signature⟩

/-- `Signature::parse` (`common.rs:333-344`). -/
def Sig.parse : P Sig := do
  let size ← P.readSize
  let id ← P.readU32
  let n ← P.readSize
  let s ← P.getTo n
  return ⟨size, Algo.ofU32 id, s⟩

/-- Inner content of `Signature::to_u8` (`common.rs:348-355`). -/
def Sig.content (s : Sig) : Bytes :=
  leBytes 4 s.algo.toU32.toNat ++ leBytes 4 s.signature.length ++ s.signature

/-- `Signature::to_u8` (`common.rs:347-363`). -/
def Sig.toU8 (s : Sig) : Bytes := leBytes 4 s.size ++ s.content ++ zeroPad s.size s.content

/-- `Signatures` (`common.rs:250-256`). -/
structure Sigs where
  size : Nat
  data : List Sig
  deriving DecidableEq, Repr

/-- `Signatures::new` (`common.rs:260-268`). -/
def Sigs.new (ss : List Sig) : Sigs := ⟨ss.foldl (fun acc s => acc + s.size + 4) 0, ss⟩

/-- `Signatures::parse` (`common.rs:273-287`): early return for size 0, loops on the enclosing reader. -/
def Sigs.parse : P Sigs := do
  let size ← P.readSize
  if size = 0 then
    return ⟨size, []⟩
  else
    let pos ← P.getPos
    let ss ← P.loopTo Sig.parse (pos + size)
    return ⟨size, ss⟩

/-- Inner content of `Signatures::to_u8` (`common.rs:291-295`). -/
def Sigs.content (s : Sigs) : Bytes := s.data.flatMap Sig.toU8

/-- `Signatures::to_u8` (`common.rs:290-303`). -/
def Sigs.toU8 (s : Sigs) : Bytes := leBytes 4 s.size ++ s.content ++ zeroPad s.size s.content

/-- `AdditionalAttribute` (`common.rs:426-433`). -/
structure Attr where
  size : Nat
  id : UInt32
  data : Bytes
  deriving DecidableEq, Repr

/-- `AdditionalAttribute::parse` (`common.rs:439-448`): size and id are read before the size check. -/
def Attr.parse : P Attr := do
  let size ← P.readSize
  let id ← P.readU32
  if size < 4 then
    P.fail .invalidSize
  else
    let d ← P.getTo (size - 4)
    return ⟨size, id, d⟩

/-- Inner content of `AdditionalAttribute::to_u8` (`common.rs:451`). -/
def Attr.content (a : Attr) : Bytes := leBytes 4 a.id.toNat ++ a.data

/-- `AdditionalAttribute::to_u8` (`common.rs:450-459`). -/
def Attr.toU8 (a : Attr) : Bytes := leBytes 4 a.size ++ a.content ++ zeroPad a.size a.content

/-- `AdditionalAttributes` (`common.rs:369-374`). -/
structure Attrs where
  size : Nat
  data : List Attr
  deriving DecidableEq, Repr

/-- `AdditionalAttributes::new` (`common.rs:378-386`). -/
def Attrs.new (as : List Attr) : Attrs := ⟨as.foldl (fun acc a => acc + a.size + 4) 0, as⟩

/-- `AdditionalAttributes::parse` (`common.rs:391-404`): loops on the enclosing reader. -/
def Attrs.parse : P Attrs := do
  let size ← P.readSize
  let pos ← P.getPos
  let as ← P.loopTo Attr.parse (pos + size)
  return ⟨size, as⟩

/-- Inner content of `AdditionalAttributes::to_u8` (`common.rs:408-412`). -/
def Attrs.content (a : Attrs) : Bytes := a.data.flatMap Attr.toU8

/-- `AdditionalAttributes::to_u8` (`common.rs:407-420`). -/
def Attrs.toU8 (a : Attrs) : Bytes := leBytes 4 a.size ++ a.content ++ zeroPad a.size a.content

/-- `PubKey` (`common.rs:465-470`). -/
structure PubKey where
  size : Nat
  data : Bytes
  deriving DecidableEq, Repr

/-- `PubKey::new` (`common.rs:474-479`). -/
def PubKey.new (d : Bytes) : PubKey := ⟨d.length, d⟩

/-- `PubKey::parse` (`common.rs:484-488`). -/
def PubKey.parse : P PubKey := do
  let size ← P.readSize
  let d ← P.getTo size
  return ⟨size, d⟩

/-- `PubKey::to_u8` (`common.rs:491-500`). -/
def PubKey.toU8 (k : PubKey) : Bytes := leBytes 4 k.size ++ k.data ++ zeroPad k.size k.data

end Ksusig
