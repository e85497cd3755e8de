import Verif.Model.CliOut

/-! What a private key shows of itself: its public key, and its signatures. -/

namespace Ksusig.Spec

open Ksusig

/-- `k'` shows the same as `k` to someone who sees the public key and the signature for the message `d`. -/
structure ShowsAs (E : Env) (a : Algo) (k k' : PrivateKey) (d : Bytes) : Prop where
  pub : k'.publicKeyDer E = k.publicKeyDer E
  sig : a.sign E k' d = a.sign E k d

/-- Two V2 configurations that differ in the private key only, with keys that show the same. -/
structure V2As (E : Env) (d : Bytes) (c c' : SignerConfig) : Prop where
  cert : c'.cert = c.cert
  algo : c'.algo = c.algo
  chain : c'.chain = c.chain
  key : ShowsAs E c.algo c.key c'.key d

/-- Two stamp configurations that differ in the private key and the rest of the certificate chain only, with keys that show the same. -/
structure StampAs (E : Env) (d : Bytes) (c c' : SignerConfig) : Prop where
  cert : c'.cert = c.cert
  algo : c'.algo = c.algo
  key : ShowsAs E c.algo c.key c'.key d

/-- Both absent, or both present and related. -/
inductive BothAs {α : Type} (R : α → α → Prop) : Option α → Option α → Prop where
  | none : BothAs R .none .none
  | some {c c' : α} : R c c' → BothAs R (.some c) (.some c')

/-- Two signers with the same switches and with keys that show the same: the V2 key for `d`, the stamp key for `e`. -/
structure SignerAs (E : Env) (d e : Bytes) (m m' : ModuleSigner) : Prop where
  v2 : BothAs (V2As E d) m.v2 m'.v2
  stamp : BothAs (StampAs E e) m.stamp m'.stamp
  timestamp : m'.timestamp = m.timestamp
  padding : m'.padding = m.padding

/-- A signer without its private keys. -/
def noKeys (m : ModuleSigner) : ModuleSigner :=
  { m with v2 := m.v2.map fun c => { c with key := .p256 [] }, stamp := m.stamp.map fun c => { c with key := .p256 [] } }

/-- Loading both fails, or both options are absent, or what is loaded is related. -/
inductive LoadAs (R : SignerConfig → SignerConfig → Prop) : Except KErr (Option Credentials) → Except KErr (Option Credentials) → Prop where
  | error {e e' : KErr} : LoadAs R (.error e) (.error e')
  | none : LoadAs R (.ok .none) (.ok .none)
  | some {c c' : Credentials} : R (.ofCredentials c) (.ofCredentials c') → LoadAs R (.ok (.some c)) (.ok (.some c'))

/-- Two runs of the sign command that someone who sees the lines (which leave out the names of the files), the bytes written and the
result cannot tell apart. -/
structure SameRun (x y : List SLine × Outcome) : Prop where
  lines : y.1 = x.1
  written : y.2.written.map (·.2) = x.2.written.map (·.2)
  result : y.2.result = x.2.result

end Ksusig.Spec
