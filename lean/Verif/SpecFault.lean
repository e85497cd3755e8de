import Verif.SpecProc

/-!
# Specification vocabulary for input and output errors

The commands of `Model/Proc.lean`, on a system that may report an error at any operation.
-/

namespace Ksusig.Spec

open Ksusig

/-- The next operation fails: a read gives nothing, a file is not created and nothing changes, and after a failed write the file
being written has some other content (`BufWriter` may write more when it is dropped) and the command ends with the error, as every
`write_all` and `flush` is followed by `?` (`signable.rs:368-383`, `elf/mod.rs:299`, `cli/sign.rs:205-206`, `cli/digest.rs:149,155`). -/
def Proc.fail (left : Bytes) (fs : Fs) : Proc End → Fs × Proc End
  | .done e => (fs, .done e)
  | .read _ k => (fs, k none)
  | .create _ k => (fs, k false)
  | .write path _ _ _ => (fs.set path left, .done ([], .err .io))

/-- A run on such a system. For every operation it is given whether it fails, and what a failed write leaves. -/
def faultyRun (M : Machine) : List (Option Bytes) → Fs × Proc End → Fs × Proc End
  | [], s => s
  | none :: faults, s => faultyRun M faults (s.2.step M s.1)
  | some left :: faults, s => faultyRun M faults (Proc.fail left s.1 s.2)

/-- A job on such a system ends in this way: the files it leaves, and its end. -/
def EndsWith (M : Machine) (cut : Bytes → List Bytes) (j : Job) (fs : Fs) (faults : List (Option Bytes)) (fs' : Fs) (e : End) : Prop :=
  faultyRun M faults (fs, j.command.proc M cut j.now j.clock) = (fs', .done e)

/-- An operation of the job really fails. -/
def Hit (M : Machine) (cut : Bytes → List Bytes) (j : Job) (fs : Fs) (faults : List (Option Bytes)) : Prop :=
  ∃ before left after s x, faults = before ++ some left :: after ∧
    faultyRun M before (fs, j.command.proc M cut j.now j.clock) = (s, x) ∧ ∀ e, x ≠ .done e

end Ksusig.Spec
