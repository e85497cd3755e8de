import Verif.Model.Proc
import Verif.SpecProgram

/-!
# Specification vocabulary for commands that run at the same time
-/

namespace Ksusig.Spec

open Ksusig

/-- Processes sharing a file system. -/
structure Sys where
  fs : Fs
  procs : List (Proc End)

/-- Process number `i` does its next operation (nothing if it has ended, or if there is no such process). -/
def Sys.step (M : Machine) (s : Sys) (i : Nat) : Sys :=
  match s.procs[i]? with
  | none => s
  | some x => ⟨(x.step M s.fs).1, s.procs.set i (x.step M s.fs).2⟩

/-- The processes take turns as the schedule says. A process that is killed is one that gets no more turns. -/
def Sys.run (M : Machine) (s : Sys) (schedule : List Nat) : Sys := schedule.foldl (Sys.step M) s

/-- A command together with the times it sees. -/
structure Job where
  command : Command
  now : Nat
  clock : Option UInt64

/-- What the job does when nothing else runs (`Model/Program.lean`). -/
def Job.outcome (M : Machine) (j : Job) (fs : Fs) : Outcome := j.command.exec M j.now j.clock fs

/-- The jobs, started on a file system. -/
def start (M : Machine) (cut : Bytes → List Bytes) (fs : Fs) (jobs : List Job) : Sys :=
  ⟨fs, jobs.map fun j => j.command.proc M cut j.now j.clock⟩

/-- Buffering: the pieces, one after the other, are what was to be written. -/
def Buffering (cut : Bytes → List Bytes) : Prop := ∀ d, (cut d).flatten = d

/-- No job writes what another one reads or writes. -/
def Disjoint (jobs : List Job) : Prop :=
  ∀ i j (hi : i < jobs.length) (hj : j < jobs.length), i ≠ j → Independent jobs[i].command jobs[j].command

end Ksusig.Spec
