import Verif.SpecSession
import Verif.SpecNoElf
import Verif.Model.Builds

/-!
# What a build leaves out
-/

namespace Ksusig.Spec

open Ksusig

/-- The build has no such command. -/
def Missing (b : Build) (cmd : String) : Prop :=
  (cmd = "sign" ∧ b.keystore = false) ∨ ((cmd = "verify" ∨ cmd = "info") ∧ b.verify = false)

/-- The line gives a command that the build does not have, or asks for the help on it. -/
def Lacks (b : Build) (argv : List Arg) : Prop :=
  ∃ cmd, Missing b cmd ∧ ((∃ args, argv = cmd.toList :: args) ∨ argv = ["help".toList, cmd.toList])

/-- The file a command is about. -/
def subject : Command → Path
  | .sign input _ _ _ _ => input
  | .verify module _ => module
  | .info module => module
  | .digest input _ _ _ => input
  | .dump input _ _ => input

/-- The file starts like an ELF file. -/
def StartsElf (file : Bytes) : Prop := [0x7f, 0x45, 0x4c, 0x46] <+: file

/-- The file has a signing block with a pair that has the id of a section list and is none: where a module has it, or at its end. -/
def OddList (p : Profile) (file : Bytes) : Prop :=
  ∃ b, (NoElf.getSigningBlock p (Module.new file) file = .ok b ∨ NoElf.fromReader p file file.length 0 = .ok b) ∧
    ∃ v ∈ b.content, Unreadable v

/-- The files after a session in which every line is entered in a build of its own. -/
def mixedSession (M : Machine) (ls : List (Build × Entered)) (fs : Fs) : Fs :=
  ls.foldl (fun fs l => (runMainIn l.1 M l.2.now l.2.clock fs l.2.argv).2) fs

end Ksusig.Spec
