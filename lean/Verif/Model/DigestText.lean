import Verif.Model.Text

/-!
# The text of the digest command (`/repo/src/cli/digest.rs`, `/repo/src/main.rs`)

`Model/CliOut.lean` says which lines are printed; here is the wording, and on which of the two streams. The names of the input and of the
dump, as `display()` writes them, are parameters.
-/

namespace Ksusig

/-- What a line of the digest command puts on standard error (`cli/digest.rs:69-105,157-161`). An empty line follows the total (89), nothing
can go wrong between the two. -/
def DLine.errText (input dump : List Char) : DLine → List (List Char)
  | .format .module => ["File: ".toList ++ input, "Format: Module (ZIP)".toList]
  | .format .elf => ["File: ".toList ++ input, "Format: ELF".toList]
  | .regions => ["Signable regions:".toList]
  | .region r =>
    ["  - ".toList ++ r.name.toList ++ " @ offset ".toList ++ decimal r.offset ++ " (".toList ++ decimal r.size ++ " bytes)".toList]
  | .total n => ["Total size: ".toList ++ decimal n ++ " bytes".toList, []]
  | .algorithm false => ["Algorithm: SHA-256".toList]
  | .algorithm true => ["Algorithm: SHA-512".toList]
  | .digest _ => []
  | .dumped n => ["Dumped ".toList ++ decimal n ++ " bytes to ".toList ++ dump]

/-- What a line of the digest command puts on standard output (`cli/digest.rs:119`). -/
def DLine.outText : DLine → List (List Char)
  | .digest t => [t]
  | _ => []

/-- Both streams for the lines `ls` of a command with the result `r` (`cli/digest.rs:53-164`, `main.rs:5-12`). -/
def TextOf (input dump : List Char) (ls : List DLine) (r : Res Unit) (out err : List Char) : Prop :=
  out = unlines (ls.flatMap DLine.outText) ∧ ∃ last, MainSays r last ∧ err = unlines (ls.flatMap (DLine.errText input dump)) ++ last

/-- The text of the digest command without `--dump` (`cli/digest.rs:53-122`). -/
def DigestTextSays (M : Machine) (fs : Fs) (input : Path) (sha512 : Bool) (format : OutputFormat) (sections : List (List Char))
    (inputName out err : List Char) : Prop :=
  TextOf inputName [] (digestRun M fs input sha512 format sections).1 (digestRun M fs input sha512 format sections).2.result out err

/-- The text of the digest command with `--dump` (`cli/digest.rs:53-94,125-164`). -/
def DumpTextSays (M : Machine) (fs : Fs) (input output : Path) (sections : List (List Char)) (inputName dumpName out err : List Char) : Prop :=
  TextOf inputName dumpName (dumpRun M fs input output sections).1 (dumpRun M fs input output sections).2.result out err

end Ksusig
