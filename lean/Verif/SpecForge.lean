import Verif.SpecSign

/-!
# Specification vocabulary for what a signature proves
-/

namespace Ksusig.Spec

open Ksusig

/-- One use of a private key by its holder: its public key, the message that was signed, and the regions of the file it was
signed for. -/
structure KeyUse where
  pk : Bytes
  msg : Bytes
  parts : List Bytes

/-- The message starts with a list of digests, and these are the digests of the regions. -/
def KeyUse.Honest (E : Env) (u : KeyUse) : Prop :=
  ∃ (ds : List (Algo × Bytes)) (rest : Bytes), u.msg = lp4 (ds.flatMap wireTagged) ++ rest ∧ (ds.flatMap wireTagged).length < 2 ^ 32 ∧
    ∀ d ∈ ds, AlgoOk d.1 ∧ d.2 = treeDigest (d.1.hash E) u.parts

/-- A message with its signatures under one key is accounted for by the uses of that key: the key was used for regions with the
same content as `parts`; or one of the signatures is a forgery, that is a correct signature of a message the key was never
used for; or two different inputs with the same hash value can be read off from `parts` and the regions of one of the uses. -/
def Accounted (E : Env) (uses : KeyUse → Prop) (parts : List Bytes) (pk msg : Bytes) (sigs : List Sig) : Prop :=
  (∃ u, uses u ∧ u.pk = pk ∧ u.parts.flatMap pieces = parts.flatMap pieces) ∨
  (∃ g ∈ sigs, CryptoOk E g.algo pk msg g.signature ∧ ∀ u, uses u → ¬ (u.pk = pk ∧ u.msg = msg)) ∨
  (∃ u, uses u ∧ u.pk = pk ∧ ∃ al, Known al ∧ Collision (al.hash E) u.parts parts)

/-- The messages that a block holds signatures of, with their keys: one per V2 signer and one per stamp. -/
def SignedBy (b : SigningBlock) (pk msg : Bytes) : Prop :=
  (∃ s ∈ v2Signers b, pk = s.pubKey.data ∧ msg = s.signedData.toU8.drop 4) ∨
    (∃ s ∈ stamps b, pk = s.pubKey.data ∧ msg = s.signedData.toU8.drop 4)

/-- The same for the block found in a module. -/
def SignedIn (p : Profile) (file pk msg : Bytes) : Prop :=
  ∃ b, (Module.new file).getSigningBlock p file = .ok b ∧ SignedBy b pk msg

end Ksusig.Spec
