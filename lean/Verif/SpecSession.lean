import Verif.SpecArgs
import Verif.Props.Exit

/-!
# Accepting a module
-/

namespace Ksusig.Spec

open Ksusig

/-- The module is accepted: it and the root certificate (the built-in one if none is named) can be read, it has a signing block with at
least one V2 signer, every V2 signer and the first source stamp, if there is one, are good for its content under that root. -/
def Accepts (M : Machine) (now : Nat) (fs : Fs) (module : Path) (root : Option Path) : Prop :=
  ∃ file pem b cert d256 d384, fs module = some file ∧ (match root with | none => M.builtin = pem | some q => fs q = some pem) ∧
    M.env.pemParse pem = some ("CERTIFICATE", cert) ∧ (Module.new file).getSigningBlock M.profile file = .ok b ∧
    (Module.new file).digest M.env M.profile file .p256 = .ok d256 ∧ (Module.new file).digest M.env M.profile file .p384 = .ok d384 ∧
    v2Signers b ≠ [] ∧ (∀ s ∈ v2Signers b, GoodV2 M.env [cert] now (table d256 d384) s) ∧
    ∀ s rest, stamps b = s :: rest → GoodStamp M.env [cert] now (table d256 d384) s

/-- A file name that verification takes for a wish for help. -/
def HelpName (f : Path) : Prop :=
  f = "--help".toList ∨ (∃ rest, f = '-' :: 'h' :: rest) ∨ ∃ rest, f = '-' :: 'v' :: 'h' :: rest

/-- Command lines run one after the other, each with the time it is run at and the timestamp it would put into a signature. -/
structure Entered where
  argv : List Arg
  now : Nat
  clock : Option UInt64

/-- The files after a session. -/
def session (M : Machine) (ls : List Entered) (fs : Fs) : Fs := ls.foldl (fun fs l => (runMain M l.now l.clock fs l.argv).2) fs

/-- No line of the session names this file as its output. -/
def LeavesAlone (ls : List Entered) (q : Path) : Prop := ∀ l ∈ ls, ∀ c v, Says l.argv c v → output c ≠ some q

end Ksusig.Spec
