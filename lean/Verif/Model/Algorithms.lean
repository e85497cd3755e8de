import Verif.Model.Basic

/-!
# `/repo/src/signing_block/algorithms.rs`
-/

namespace Ksusig

/-- `Algorithms` (`algorithms.rs:14-21`). -/
inductive Algo where
  /-- `ECDSA_SHA2_256` -/
  | p256
  /-- `ECDSA_SHA2_512` -/
  | p384
  /-- `Unknown(u32)` -/
  | unknown (id : UInt32)
  deriving DecidableEq, Repr

/-- `From<u32> for Algorithms` (`algorithms.rs:66-74`), constants from lines 7 and 9. -/
def Algo.ofU32 (x : UInt32) : Algo :=
  if x = 0x0201 then .p256 else if x = 0x0202 then .p384 else .unknown x

/-- `From<&Algorithms> for u32` / `to_u32` (`algorithms.rs:76-84,106-108`). -/
def Algo.toU32 : Algo → UInt32
  | .p256 => 0x0201
  | .p384 => 0x0202
  | .unknown u => u

/-- `PartialEq<Algorithms> for u32` (`algorithms.rs:44-52`). -/
def Algo.eqU32 (x : UInt32) : Algo → Bool
  | .p256 => x == 0x0201
  | .p384 => x == 0x0202
  | .unknown u => x == u

/-- `Serialize for Algorithms` (`algorithms.rs:24-31`): the number handed to the serializer. -/
def Algo.serialize (a : Algo) : UInt32 := a.toU32

/-- `Deserialize for Algorithms` (`algorithms.rs:34-42`): from the number the deserializer produced. -/
def Algo.deserialize (x : UInt32) : Algo := Algo.ofU32 x

/-- `PrivateKey` (`algorithms.rs:179-184`); key material is kept abstract as bytes. -/
inductive PrivateKey where
  /-- `EcdsaP256` -/
  | p256 (k : Bytes)
  /-- `EcdsaP384` -/
  | p384 (k : Bytes)
  deriving DecidableEq, Repr

/-- Outcome of `webpki`'s `verify_for_usage` (`verifier.rs`, `verify_chain`). -/
inductive PkiOutcome where
  | ok
  | expired
  | notYetValid
  | unknownIssuer
  | ekuMissing
  | other
  deriving DecidableEq, Repr

/-- External code the model is parametric in (crates sha2, p256, p384, x509-cert, rustls-webpki, the clock). -/
structure Env where
  /-- SHA-256 (`algorithms.rs:88-93`). -/
  sha256 : Bytes → Bytes
  /-- SHA-512 (`algorithms.rs:97-102`). -/
  sha512 : Bytes → Bytes
  /-- P-256: does `signature` (DER) verify for `message` under `pubkey` (SPKI DER)?
  (`algorithms.rs:131-140`; includes both DER decodings and the crate's own hashing). -/
  p256Verify : (pubkey message signature : Bytes) → Bool
  /-- P-384 (`algorithms.rs:141-150`). -/
  p384Verify : (pubkey message signature : Bytes) → Bool
  /-- P-256 signature in DER (`algorithms.rs:162-166`). -/
  p256Sign : (key message : Bytes) → Bytes
  /-- P-384 signature in DER (`algorithms.rs:167-171`). -/
  p384Sign : (key message : Bytes) → Bytes
  /-- `public_key_der` for P-256 (`algorithms.rs:193-200`). -/
  p256Pub : Bytes → Option Bytes
  /-- `public_key_der` for P-384 (`algorithms.rs:201-208`). -/
  p384Pub : Bytes → Option Bytes
  /-- Subject public key info (DER) of a certificate, `none` if it does not parse (`verifier.rs`). -/
  certSpki : Bytes → Option Bytes
  /-- Issuer and subject name of a certificate, `none` if it does not parse (`verifier.rs`). -/
  certNames : Bytes → Option (Bytes × Bytes)
  /-- Can a trust anchor be built from this root certificate (`anchor_from_trusted_cert`)? -/
  anchorOk : Bytes → Bool
  /-- Can the leaf be parsed by `EndEntityCert::try_from`? -/
  eeOk : Bytes → Bool
  /-- `pem::parse`: tag and contents of the first PEM block (`verifier.rs:361`, `keystore.rs`). -/
  pemParse : Bytes → Option (String × Bytes)
  /-- webpki path building: trust anchors, leaf, intermediates, unix time. -/
  pki : (roots : List Bytes) → (leaf : Bytes) → (inters : List Bytes) → (now : Nat) → PkiOutcome

/-- `Algorithms::hash` (`algorithms.rs:112-118`). -/
def Algo.hash (E : Env) (a : Algo) (d : Bytes) : Bytes :=
  match a with
  | .p256 => E.sha256 d
  | .p384 => E.sha512 d
  | .unknown _ => []

/-- `Algorithms::verify` (`algorithms.rs:128-153`); `true` is `Ok(())`. -/
def Algo.verify (E : Env) (a : Algo) (pubkey rawData signature : Bytes) : Bool :=
  let data := a.hash E rawData
  match a with
  | .p256 => E.p256Verify pubkey data signature
  | .p384 => E.p384Verify pubkey data signature
  | .unknown _ => false

/-- `Algorithms::sign` (`algorithms.rs:159-174`). -/
def Algo.sign (E : Env) (a : Algo) (key : PrivateKey) (rawData : Bytes) : Res Bytes :=
  let hashed := a.hash E rawData
  match a, key with
  | .p256, .p256 k => .ok (E.p256Sign k hashed)
  | .p384, .p384 k => .ok (E.p384Sign k hashed)
  | _, _ => .err .keyMismatch

/-- `PrivateKey::public_key_der` (`algorithms.rs:191-210`). -/
def PrivateKey.publicKeyDer (E : Env) : PrivateKey → Res Bytes
  | .p256 k => Res.ofOption .pubKey (E.p256Pub k)
  | .p384 k => Res.ofOption .pubKey (E.p384Pub k)

end Ksusig
