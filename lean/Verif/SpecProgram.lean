import Verif.Model.Program

/-!
# Specification vocabulary for histories of commands
-/

namespace Ksusig.Spec

open Ksusig

/-- The files named by credential options. -/
def credFiles (c : CredPaths) : List Path := c.key.toList ++ c.cert.toList ++ c.p12.toList

/-- The files a command is told to read. -/
def inputs : Command → List Path
  | .sign input _ v2 stamp _ => input :: (credFiles v2 ++ credFiles stamp)
  | .verify module root => module :: root.toList
  | .info module => [module]
  | .digest input _ _ _ => [input]
  | .dump input _ _ => [input]

/-- The file a command is told to write. -/
def output : Command → Option Path
  | .sign _ output _ _ _ => some output
  | .dump _ output _ => some output
  | _ => none

/-- No command of the history is told to write this path. -/
def Spares (rs : List Run) (q : Path) : Prop := ∀ r ∈ rs, output r.command ≠ some q

/-- Neither of two commands writes what the other one reads or writes. -/
def Independent (c d : Command) : Prop :=
  (∀ q, output c = some q → q ∉ inputs d ∧ output d ≠ some q) ∧ (∀ q, output d = some q → q ∉ inputs c ∧ output c ≠ some q)

end Ksusig.Spec
