import Verif.Model.Text

/-!
# The text of the sign command (`/repo/src/cli/sign.rs`, `/repo/src/main.rs`)

`Model/CliOut.lean` says which lines are printed; here is the wording. The names of the two files, as `display()` writes them, are
parameters. The sign command itself writes nothing to standard error.
-/

namespace Ksusig

/-- The text of a line, or of a fixed group of lines, of the sign command (`cli/sign.rs:69-209`, the places given at `SLine`). -/
def SLine.text (input output : List Char) : SLine → List (List Char)
  | .start => ["Signing module file...".toList, "Input: ".toList ++ input, "Output: ".toList ++ output, []]
  | .v2Key => ["✓ V2 signing key loaded".toList]
  | .stampKey => ["✓ Source Stamp key loaded".toList]
  | .format .module => ["✓ 检测到模块（ZIP）文件".toList]
  | .format .elf => ["✓ 检测到 ELF 文件".toList]
  | .regions => ["待签名区域:".toList]
  | .region r => ["  - ".toList ++ r.name.toList ++ " @ ".toList ++ decimal r.offset ++ " (".toList ++ decimal r.size ++ " bytes)".toList]
  | .count n => ["ℹ 需要计算 ".toList ++ decimal n ++ " 种算法的 digest".toList]
  | .calculating => ["Calculating digests...".toList]
  | .hashing a => ["  - 计算 ".toList ++ a.display ++ " digest...".toList]
  | .digestsDone => ["✓ Digest calculation complete".toList]
  | .signing => ["Signing...".toList]
  | .complete n => ["✓ Signing complete (signing block size: ".toList ++ decimal n ++ " bytes)".toList]
  | .writing => ["Writing signed module...".toList]
  | .success => ["✓ Signing successful!".toList, "Output file: ".toList ++ output]

/-- The text the sign command writes to standard output and to standard error (`cli/sign.rs:68-212`, `main.rs:5-12`). -/
def SignTextSays (M : Machine) (clock : Option UInt64) (fs : Fs) (input output : Path) (v2 stamp : CredPaths) (sections : List (List Char))
    (inputName outputName out err : List Char) : Prop :=
  let r := signRun M clock fs input output v2 stamp sections
  out = unlines (r.1.flatMap (SLine.text inputName outputName)) ∧ MainSays r.2.result err

end Ksusig
