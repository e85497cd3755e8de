import Verif.SpecGrammar

/-!
# What two builds of the library make of the same block

The feature `elf` decides whether the section list of ELF files is decoded. `SamePair` says when a pair read with the feature and one
read without it are the same pair of the file.
-/

namespace Ksusig.Spec

open Ksusig

/-- The pair with the id of the section list is kept as bytes by the build without ELF support; these bytes read as the list. All
other pairs are the same in both builds. -/
def SamePair (v v' : Value) : Prop :=
  match v with
  | .elf e => ∃ r, v' = .raw r ∧ r.id = 0x4c45534b ∧ r.size = 4 + r.data.length ∧ IsValue r.id r.data (.elf e)
  | .raw r => v' = .raw r ∧ r.id ≠ 0x4c45534b
  | v => v' = v

/-- Pairs are the same one by one. -/
inductive SamePairs : List Value → List Value → Prop where
  | nil : SamePairs [] []
  | cons (v v' : Value) (vs vs' : List Value) : SamePair v v' → SamePairs vs vs' → SamePairs (v :: vs) (v' :: vs')

/-- Two readings of the same block: same place, same sizes, same pairs. -/
def SameReading (b b' : SigningBlock) : Prop := ∃ c', b' = { b with content := c' } ∧ SamePairs b.content c'

/-- A pair with the id of the section list whose bytes are not a section list. -/
def Unreadable (v : Value) : Prop :=
  ∃ r, v = .raw r ∧ r.id = 0x4c45534b ∧ ∀ e, ¬ IsValue r.id r.data (.elf e)

end Ksusig.Spec
