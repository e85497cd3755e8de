import Verif.SpecTorn
import Verif.SpecOut
import Verif.SpecAnatomy
import Verif.Model.Signer

/-!
# Specification vocabulary for the exit status
-/

namespace Ksusig.Spec

open Ksusig

/-- A module on which builds with checks stop: the block before its directory has two different size fields, or the part that is
hashed as its directory would end before it starts. -/
def Damaged (file : Bytes) : Prop :=
  ∃ pos t off, EndRecord file pos t off ∧
    ((∃ u, TornBefore file (min file.length off) u) ∨ ∃ s e, Located file off s e ∧ pos < e)

/-- What the signer puts into a block for these digests: a V2 value if it has a V2 configuration, and a source stamp if it has a
configuration for one. -/
def Signs (E : Env) (clock : Option UInt64) (m : ModuleSigner) (ds : Digests) (vs : List Value) : Prop :=
  ∃ v1 v2, vs = v1 ++ v2 ∧ vs ≠ [] ∧
    (m.v2 = none ∧ v1 = [] ∨ ∃ c s, m.v2 = some c ∧ v2Sign E c ds = .ok s ∧ v1 = [.v2 s]) ∧
    (m.stamp = none ∧ v2 = [] ∨ ∃ c s, m.stamp = some c ∧ stampSign E c m.timestamp clock ds = .ok s ∧ v2 = [.stamp s])

/-- Padding is asked for, and the block would end less than 12 bytes before a multiple of 4096. -/
def TooTight (E : Env) (clock : Option UInt64) (m : ModuleSigner) (ds : Digests) : Prop :=
  m.padding = true ∧ ∃ vs k, Signs E clock m ds vs ∧
    4096 * k - 12 < 32 + (vs.map Value.size).sum ∧ 32 + (vs.map Value.size).sum < 4096 * k

/-- The digests of the regions `s`, `e`, `pos` of a module, as the sign command hands them to the signer. -/
def moduleDigests (E : Env) (m : ModuleSigner) (file : Bytes) (s e pos : Nat) : Digests :=
  Digests.new (m.requiredAlgorithms.map fun al => Digest.new al (treeDigest (al.hash E) (regions file s e pos)))

end Ksusig.Spec
