import Verif.SpecFault

/-!
# Specification vocabulary for a command in a world where anything happens

Between the operations of a command other programs may do what they like with the files, and each operation may fail.
-/

namespace Ksusig.Spec

open Ksusig

/-- What happens next: the command does its next operation, which may fail (as in `faultyRun`), or some other program changes,
creates or removes a file. -/
inductive Event where
  | own (fault : Option Bytes)
  | other (path : Path) (content : Option Bytes)

/-- What the event does. -/
def Event.step (M : Machine) (s : Fs × Proc End) : Event → Fs × Proc End
  | .own none => s.2.step M s.1
  | .own (some left) => Proc.fail left s.1 s.2
  | .other path content => (fun q => if q = path then content else s.1 q, s.2)

/-- The events one after the other. A command that is killed is one that has no more events of its own. -/
def world (M : Machine) (events : List Event) (s : Fs × Proc End) : Fs × Proc End := events.foldl (Event.step M) s

/-- The faults of the command's own operations. -/
def faultsOf (events : List Event) : List (Option Bytes) :=
  events.filterMap fun | .own f => some f | .other _ _ => none

/-- The files without the command: what the other programs do. -/
def without (events : List Event) (fs : Fs) : Fs :=
  events.foldl (fun fs e => match e with
    | .own _ => fs
    | .other path content => fun q => if q = path then content else fs q) fs

/-- The other programs leave this file alone. -/
def Untouched (events : List Event) (q : Path) : Prop := ∀ content, Event.other q content ∉ events

/-- At some moment of the run the file had this content. -/
def Seen (M : Machine) (events : List Event) (s : Fs × Proc End) (q : Path) (d : Bytes) : Prop :=
  ∃ before after, events = before ++ after ∧ (world M before s).1 q = some d

end Ksusig.Spec
