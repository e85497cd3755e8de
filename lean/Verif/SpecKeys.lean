import Verif.SpecSign
import Verif.Model.Keystore

/-!
# Specification vocabulary for loading keys and certificates
-/

namespace Ksusig.Spec

open Ksusig

/-- The key is what a decoder for its own curve made of the text (with the password, if there is one). -/
def PemKey (K : KeyEnv) (text : Bytes) (password : Option Bytes) : PrivateKey → Prop
  | .p256 k => K.p256Pkcs8Pem text = some k ∨ K.p256Sec1Pem text = some k ∨
      ∃ pwd, password = some pwd ∧ K.p256EncPem text pwd = some k
  | .p384 k => K.p384Pkcs8Pem text = some k ∨ K.p384Sec1Pem text = some k ∨
      ∃ pwd, password = some pwd ∧ K.p384EncPem text pwd = some k

/-- The same for binary encodings. -/
def DerKey (K : KeyEnv) (der : Bytes) : PrivateKey → Prop
  | .p256 k => K.p256Pkcs8Der der = some k ∨ K.p256Sec1Der der = some k
  | .p384 k => K.p384Pkcs8Der der = some k ∨ K.p384Sec1Der der = some k

/-- The contents of the certificate blocks of a bundle, in order. -/
def certificatesOf (blocks : List (String × Bytes)) : List Bytes :=
  blocks.filterMap fun x => if x.1 = "CERTIFICATE" then some x.2 else none

/-- The credentials come from these arguments: from the PKCS#12 container if one is given, else from the PEM files. -/
inductive FromArgs (K : KeyEnv) (a : CredArgs) (c : Credentials) : Prop where
  | p12 (data pwd key : Bytes) (keys : List Bytes) : a.p12 = some data → a.password = some pwd →
      K.p12Ok data = true → K.p12Keys data pwd = some (key :: keys) → DerKey K key c.key →
      K.p12Certs data pwd = some (c.cert :: c.chain) → FromArgs K a c
  | pem (key cert : Bytes) : a.p12 = none → a.key = some key → a.cert = some cert → PemKey K key a.password c.key →
      parseChainPem K cert = .ok (c.cert, c.chain) → FromArgs K a c

end Ksusig.Spec
