import Verif.Model.ElfInfo
import Verif.Model.Elf

/-!
# `/repo/src/keystore.rs`, and the choice of credentials in `/repo/src/cli/sign.rs`

Decoding of keys, PEM text and PKCS#12 containers is done by other crates and is a parameter. Files are given by their
content: every path given exists and is readable.
-/

namespace Ksusig

/-- `KeystoreError` (`keystore.rs:10-29`), without the messages; `missing` stands for the messages of `cli/sign.rs` about
missing arguments. -/
inductive KErr where
  | io
  | pem
  | p12
  | cert
  | unsupported
  | passwordRequired
  | invalidPassword
  | missing
  deriving DecidableEq, Repr

deriving instance DecidableEq for Except

/-- The decoders of other crates. A key is represented by bytes, as in `PrivateKey`. -/
structure KeyEnv where
  /-- `p256::ecdsa::SigningKey::from_pkcs8_pem`, and the other decoders of PEM text. -/
  p256Pkcs8Pem : Bytes → Option Bytes
  p384Pkcs8Pem : Bytes → Option Bytes
  p256Sec1Pem : Bytes → Option Bytes
  p384Sec1Pem : Bytes → Option Bytes
  /-- `from_pkcs8_encrypted_pem`: text and password. -/
  p256EncPem : Bytes → Bytes → Option Bytes
  p384EncPem : Bytes → Bytes → Option Bytes
  /-- `from_pkcs8_der`, `from_sec1_der`. -/
  p256Pkcs8Der : Bytes → Option Bytes
  p384Pkcs8Der : Bytes → Option Bytes
  p256Sec1Der : Bytes → Option Bytes
  p384Sec1Der : Bytes → Option Bytes
  /-- The PEM blocks found in a text: tag and contents, or `none` where the block does not decode. `pem::parse_many` collects
  all of them or fails, `pem::parse` takes the first one. -/
  pemBlocks : Bytes → List (Option (String × Bytes))
  /-- `p12::PFX::parse`. -/
  p12Ok : Bytes → Bool
  /-- `key_bags`: data and password. -/
  p12Keys : Bytes → Bytes → Option (List Bytes)
  /-- `cert_x509_bags`: data and password. -/
  p12Certs : Bytes → Bytes → Option (List Bytes)

/-- `pem::parse_many` of the `pem` crate. -/
def allBlocks : List (Option (String × Bytes)) → Option (List (String × Bytes))
  | [] => some []
  | none :: _ => none
  | some x :: rest => (allBlocks rest).map (x :: ·)

/-- `pem::parse` of the `pem` crate. -/
def firstBlock : List (Option (String × Bytes)) → Option (String × Bytes)
  | some x :: _ => some x
  | _ => none

/-- `SignerCredentials` (`keystore.rs:48-58`). -/
structure Credentials where
  key : PrivateKey
  cert : Bytes
  algo : Algo
  chain : List Bytes
  deriving DecidableEq, Repr

/-- `str::contains`. -/
def containsBytes (needle : Bytes) : Bytes → Bool
  | [] => needle.isEmpty
  | b :: d => needle.isPrefixOf (b :: d) || containsBytes needle d

/-- `"ENCRYPTED"`. -/
def encryptedWord : Bytes := [0x45, 0x4e, 0x43, 0x52, 0x59, 0x50, 0x54, 0x45, 0x44]

/-- The first decoder that succeeds. -/
def firstKey : List (Option (PrivateKey × Algo)) → Option (PrivateKey × Algo)
  | [] => none
  | some x :: _ => some x
  | none :: rest => firstKey rest

/-- `(PrivateKey::EcdsaP256(key), Algorithms::ECDSA_SHA2_256)`. -/
def asP256 (k : Option Bytes) : Option (PrivateKey × Algo) := k.map fun k => (.p256 k, .p256)

/-- `(PrivateKey::EcdsaP384(key), Algorithms::ECDSA_SHA2_512)`. -/
def asP384 (k : Option Bytes) : Option (PrivateKey × Algo) := k.map fun k => (.p384 k, .p384)

/-- `parse_private_key_pem` (`keystore.rs:142-192`). -/
def parseKeyPem (K : KeyEnv) (pem : Bytes) (password : Option Bytes) : Except KErr (PrivateKey × Algo) :=
  if !validUtf8 pem then .error .pem
  else match firstKey [asP256 (K.p256Pkcs8Pem pem), asP384 (K.p384Pkcs8Pem pem), asP256 (K.p256Sec1Pem pem),
      asP384 (K.p384Sec1Pem pem)] with
    | some x => .ok x
    | none =>
      match password with
      | some pwd =>
        match firstKey [asP256 (K.p256EncPem pem pwd), asP384 (K.p384EncPem pem pwd)] with
        | some x => .ok x
        | none => .error .invalidPassword
      | none => if containsBytes encryptedWord pem then .error .passwordRequired else .error .unsupported

/-- `parse_certificate_pem` (`keystore.rs:197-208`). -/
def parseCertPem (K : KeyEnv) (pem : Bytes) : Except KErr Bytes :=
  match firstBlock (K.pemBlocks pem) with
  | none => .error .pem
  | some (tag, contents) => if tag ≠ "CERTIFICATE" then .error .cert else .ok contents

/-- `parse_certificate_chain_pem` (`keystore.rs:225-263`). -/
def parseChainPem (K : KeyEnv) (pem : Bytes) : Except KErr (Bytes × List Bytes) :=
  match allBlocks (K.pemBlocks pem) with
  | some blocks =>
    if blocks.isEmpty then .error .cert
    else
      match (blocks.filter fun x => x.1 == "CERTIFICATE").map (·.2) with
      | [] => .error .cert
      | leaf :: chain => .ok (leaf, chain)
  | none =>
    match parseCertPem K pem with
    | .ok c => .ok (c, [])
    | .error e => .error e

/-- `load_pem_from_bytes` (`keystore.rs:114-131`). -/
def loadPemBytes (K : KeyEnv) (key cert : Bytes) (password : Option Bytes) : Except KErr Credentials :=
  match parseKeyPem K key password with
  | .error e => .error e
  | .ok (k, a) =>
    match parseChainPem K cert with
    | .error e => .error e
    | .ok (leaf, chain) => .ok ⟨k, leaf, a, chain⟩

/-- `load_pem` (`keystore.rs:85-99`) on the contents of the two files; `read_to_string` fails if they are not UTF-8. -/
def loadPem (K : KeyEnv) (key cert : Bytes) (password : Option Bytes) : Except KErr Credentials :=
  if !validUtf8 key then .error .io
  else if !validUtf8 cert then .error .io
  else loadPemBytes K key cert password

/-- `parse_private_key_der`, `load_private_key_der` (`keystore.rs:340-370`). -/
def parseKeyDer (K : KeyEnv) (der : Bytes) : Except KErr (PrivateKey × Algo) :=
  match firstKey [asP256 (K.p256Pkcs8Der der), asP384 (K.p384Pkcs8Der der), asP256 (K.p256Sec1Der der),
      asP384 (K.p384Sec1Der der)] with
  | some x => .ok x
  | none => .error .unsupported

/-- `load_p12_from_bytes`, `load_p12` (`keystore.rs:273-332`). -/
def loadP12 (K : KeyEnv) (data password : Bytes) : Except KErr Credentials :=
  if !K.p12Ok data then .error .p12
  else match K.p12Keys data password, K.p12Certs data password with
    | none, _ => .error .p12
    | some _, none => .error .p12
    | some [], some _ => .error .p12
    | some (_ :: _), some [] => .error .p12
    | some (key :: _), some (leaf :: chain) =>
      match parseKeyDer K key with
      | .error e => .error e
      | .ok (k, a) => .ok ⟨k, leaf, a, chain⟩

/-- `load_certificate_der` (`keystore.rs:376-383`). -/
def loadCertDer (der : Bytes) : Except KErr Bytes := if der.isEmpty then .error .cert else .ok der

/-- `ModuleSignerConfig::from_credentials` (`signer.rs:58-67`). -/
def SignerConfig.ofCredentials (c : Credentials) : SignerConfig := ⟨c.key, c.cert, c.algo, c.chain⟩

/-! ## The credentials of the sign command -/

/-- `--key`, `--cert`, `--p12`, `--password`, or the same with `--stamp-` (`cli/sign.rs:25-54`): contents of the files and the
password. -/
structure CredArgs where
  key : Option Bytes
  cert : Option Bytes
  p12 : Option Bytes
  password : Option Bytes
  deriving DecidableEq, Repr

/-- The choice between PKCS#12 and PEM (`cli/sign.rs:75-90` and `95-116`): `ok none` if neither is given. -/
def CredArgs.load (K : KeyEnv) (a : CredArgs) : Except KErr (Option Credentials) :=
  match a.p12 with
  | some data =>
    match a.password with
    | none => .error .missing
    | some pwd => (loadP12 K data pwd).map some
  | none =>
    match a.key with
    | some key =>
      match a.cert with
      | none => .error .missing
      | some cert => (loadPem K key cert a.password).map some
    | none => .ok none

/-- The signer of the sign command (`cli/sign.rs:74-130`). -/
def cliSigner (K : KeyEnv) (v2 stamp : CredArgs) : Except KErr ModuleSigner :=
  match v2.load K with
  | .error e => .error e
  | .ok none => .error .missing
  | .ok (some c) =>
    match stamp.load K with
    | .error e => .error e
    | .ok none => .ok (.v2Only (.ofCredentials c))
    | .ok (some s) => .ok (.withSourceStamp (.ofCredentials c) (.ofCredentials s))

/-- `execute` of the sign command (`cli/sign.rs:68-212`) from its arguments; see `cliSign`. -/
def cliSignArgs (K : KeyEnv) (E : Env) (p : Profile) (acc : Bytes → Bool) (clock : Option UInt64) (v2 stamp : CredArgs)
    (sections : List (List Char)) (inPlace : Bool) (file : Bytes) : Option Bytes × Res Unit :=
  match cliSigner K v2 stamp with
  | .error _ => (none, .err .keystore)
  | .ok signer => cliSign E p acc clock signer sections inPlace file

end Ksusig
