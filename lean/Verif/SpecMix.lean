import Verif.SpecAnatomy
import Verif.Model.Cli

/-!
# Modules that differ in their signing block only
-/

namespace Ksusig.Spec

open Ksusig

/-- `pairs` are the bytes of a content that stands for the values `vs`, and a block with them is not too large to be read. -/
def Encodes (pairs : Bytes) (vs : List Value) : Prop := IsContent pairs vs ∧ pairs.length + 24 ≤ 16384

/-- The verify command accepts the archive when it is given a block with these values. -/
def Passes (E : Env) (p : Profile) (builtinPem : Bytes) (root : Option Bytes) (now : Nat) (a : Archive) (vs : List Value) : Prop :=
  ∃ pairs, Encodes pairs vs ∧ cliVerify E p builtinPem root now (a.signed (wireFrame pairs)) = .ok ()

end Ksusig.Spec
