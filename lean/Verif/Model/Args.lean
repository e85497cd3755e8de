import Verif.Model.Program

/-!
# The command line: `Cli::parse_args` (`/repo/src/cli/mod.rs:46-48`) and `main` (`/repo/src/main.rs:5-12`)

The code declares the arguments with attributes (`cli/mod.rs:15-43`, `cli/sign.rs:15-64`, `cli/verify.rs:12-24`, `cli/info.rs:12-17`,
`cli/digest.rs:10-50`); clap 4.5 reads the command line. What is modelled here is clap's reading of these declarations: options before,
between and after the other arguments, `--name value` and `--name=value`, `--` in front of arguments that are not options, single-letter
switches in one word, `--help`, `--version` and `help`, an error for an option given twice unless it takes a list, for unknown options,
missing values, empty paths, and for too few or too many other arguments. Arguments are sequences of characters: those that are not
Unicode are not modelled. What clap prints is not modelled. The build has all features; for the others see `Model/Builds.lean`.
-/

namespace Ksusig

/-- An argument. -/
abbrev Arg := List Char

/-- What a subcommand declares: how many arguments are not options, the switches (`bool` fields), their one-letter names, the options
with one value with the check of the value, and the options with a list of values (`num_args = 0..`, `value_delimiter = ','`). -/
structure CmdDef where
  words : Nat
  switches : List Arg
  shorts : List (Char × Arg)
  values : List (Arg × (Arg → Bool))
  lists : List Arg

/-- What has been read: the options with their values, and the other arguments. -/
structure Scan where
  given : List (Arg × List Arg)
  words : List Arg

/-- clap's `PathBufValueParser` refuses empty paths. -/
def isPath (v : Arg) : Bool := !v.isEmpty

/-- clap's `StringValueParser`. -/
def anyString (_ : Arg) : Bool := true

/-- `ValueEnum` of `OutputFormat` (`cli/digest.rs:44-50`). -/
def isFormat (v : Arg) : Bool := v == "hex".toList || v == "base64".toList

/-- `SignArgs` (`cli/sign.rs:15-64`). -/
def signDef : CmdDef where
  words := 2
  switches := []
  shorts := []
  values := [("key".toList, isPath), ("cert".toList, isPath), ("p12".toList, isPath), ("password".toList, anyString),
    ("stamp-key".toList, isPath), ("stamp-cert".toList, isPath), ("stamp-p12".toList, isPath), ("stamp-password".toList, anyString)]
  lists := ["elf-section".toList]

/-- `VerifyArgs` (`cli/verify.rs:12-24`). -/
def verifyDef : CmdDef where
  words := 1
  switches := ["verbose".toList]
  shorts := [('v', "verbose".toList)]
  values := [("root".toList, isPath)]
  lists := []

/-- `InfoArgs` (`cli/info.rs:12-17`). -/
def infoDef : CmdDef where
  words := 1
  switches := []
  shorts := []
  values := []
  lists := []

/-- `DigestArgs` (`cli/digest.rs:10-42`). -/
def digestDef : CmdDef where
  words := 1
  switches := ["sha256".toList, "sha512".toList]
  shorts := []
  values := [("dump".toList, isPath), ("format".toList, isFormat)]
  lists := ["elf-section".toList]

/-- The parts between commas. -/
def splitComma : Arg → List Arg
  | [] => [[]]
  | c :: cs =>
    if c = ',' then [] :: splitComma cs
    else
      match splitComma cs with
      | [] => [[c]]
      | p :: ps => (c :: p) :: ps

/-- The end of a switch: it may not be given twice. -/
def Scan.switch (s : Scan) (name : Arg) : Option Scan :=
  if s.given.any (·.1 == name) then none else some { s with given := s.given ++ [(name, [])] }

/-- The end of an option with one value: it may not be given twice. -/
def Scan.value (s : Scan) (name : Arg) (ok : Arg → Bool) (v : Arg) : Option Scan :=
  if s.given.any (·.1 == name) then none else if ok v then some { s with given := s.given ++ [(name, [v])] } else none

/-- The end of an option with a list of values. -/
def Scan.list (s : Scan) (name : Arg) (vs : List Arg) : Scan := { s with given := s.given ++ [(name, vs.flatMap splitComma)] }

/-- An argument that is no option. -/
def Scan.word (d : CmdDef) (s : Scan) (v : Arg) : Option Scan :=
  if s.words.length < d.words && isPath v then some { s with words := s.words ++ [v] } else none

/-- What came out: an error, help is shown, or all has been read. -/
inductive ArgOut where
  | usage
  | help
  | done (s : Scan)

/-- The arguments after `--`. -/
def scanWords (d : CmdDef) (s : Scan) : List Arg → ArgOut
  | [] => .done s
  | t :: ts =>
    match s.word d t with
    | none => .usage
    | some s => scanWords d s ts

/-- An argument that starts with `--`: the name and the attached value. -/
def longOf : Arg → Option (Arg × Option Arg)
  | '-' :: '-' :: rest =>
    match rest.dropWhile (· != '=') with
    | [] => some (rest, none)
    | _ :: v => some (rest.takeWhile (· != '='), some v)
  | _ => none

/-- An argument that starts with a single `-` and has letters behind it. -/
def shortsOf : Arg → Option (List Char)
  | '-' :: c :: cs => if c = '-' then none else some (c :: cs)
  | _ => none

/-- The letters of one argument: all are switches, and `h` shows the help. -/
def scanShorts (d : CmdDef) (s : Scan) : List Char → ArgOut
  | [] => .done s
  | c :: cs =>
    if c = 'h' then .help
    else
      match d.shorts.lookup c with
      | none => .usage
      | some name =>
        match s.switch name with
        | none => .usage
        | some s => scanShorts d s cs

/-- What is being read: nothing in particular, the value of an option, or the values of a list. -/
inductive Expect where
  | any
  | value (name : Arg) (ok : Arg → Bool)
  | list (name : Arg) (vs : List Arg)

/-- An option ends, because another one starts or there are no more arguments. -/
def Expect.close (s : Scan) : Expect → Option Scan
  | .any => some s
  | .value _ _ => none
  | .list name vs => some (s.list name vs)

/-- The arguments of a subcommand, from left to right. -/
def scan (d : CmdDef) (s : Scan) (e : Expect) : List Arg → ArgOut
  | [] =>
    match e.close s with
    | none => .usage
    | some s => .done s
  | t :: ts =>
    if t = "--".toList then
      match e.close s with
      | none => .usage
      | some s => scanWords d s ts
    else
      match longOf t with
      | some (name, attached) =>
        match e.close s with
        | none => .usage
        | some s =>
          if name = "help".toList then
            match attached with
            | none => .help
            | some _ => .usage
          else if name ∈ d.switches then
            match attached with
            | none =>
              match s.switch name with
              | none => .usage
              | some s => scan d s .any ts
            | some _ => .usage
          else
            match d.values.lookup name with
            | some ok =>
              match attached with
              | none => scan d s (.value name ok) ts
              | some v =>
                match s.value name ok v with
                | none => .usage
                | some s => scan d s .any ts
            | none =>
              if name ∈ d.lists then
                match attached with
                | none => scan d s (.list name []) ts
                | some v => scan d (s.list name [v]) .any ts
              else .usage
      | none =>
        match shortsOf t with
        | some cs =>
          match e.close s with
          | none => .usage
          | some s =>
            match scanShorts d s cs with
            | .done s => scan d s .any ts
            | r => r
        | none =>
          match e with
          | .any =>
            match s.word d t with
            | none => .usage
            | some s => scan d s .any ts
          | .value name ok =>
            match s.value name ok t with
            | none => .usage
            | some s => scan d s .any ts
          | .list name vs => scan d s (.list name (vs ++ [t])) ts

/-- The value of an option. -/
def Scan.one (s : Scan) (name : String) : Option Arg := (s.given.lookup name.toList).bind (·.head?)

/-- Whether a switch is given. -/
def Scan.has (s : Scan) (name : String) : Bool := s.given.any (·.1 == name.toList)

/-- All values of a list. -/
def Scan.many (s : Scan) (name : String) : List Arg := (s.given.filter (·.1 == name.toList)).flatMap (·.2)

/-- What a command line asks for: nothing (an error is printed), help or the version, or a command, and whether it is verbose. -/
inductive Line where
  | usage
  | help
  | run (c : Command) (verbose : Bool)
  deriving DecidableEq

/-- `SignArgs` from what was read. -/
def signArgs (s : Scan) : Line :=
  match s.words with
  | [i, o] => .run (.sign i o ⟨s.one "key", s.one "cert", s.one "p12", (s.one "password").map utf8⟩
      ⟨s.one "stamp-key", s.one "stamp-cert", s.one "stamp-p12", (s.one "stamp-password").map utf8⟩ (s.many "elf-section")) false
  | _ => .usage

/-- `VerifyArgs` from what was read. -/
def verifyArgs (s : Scan) : Line :=
  match s.words with
  | [m] => .run (.verify m (s.one "root")) (s.has "verbose")
  | _ => .usage

/-- `InfoArgs` from what was read. -/
def infoArgs (s : Scan) : Line :=
  match s.words with
  | [m] => .run (.info m) false
  | _ => .usage

/-- `DigestArgs` from what was read; `--sha256` and `--sha512` are in a group, so only one may be given (`cli/digest.rs:17-22`). -/
def digestArgs (s : Scan) : Line :=
  match s.words with
  | [i] =>
    if s.has "sha256" && s.has "sha512" then .usage
    else
      match s.one "dump" with
      | some o => .run (.dump i o (s.many "elf-section")) false
      | none =>
        .run (.digest i (s.has "sha512") (if s.one "format" = some "base64".toList then .base64 else .hex) (s.many "elf-section")) false
  | _ => .usage

/-- The arguments of a subcommand. -/
def subcommand (d : CmdDef) (line : Scan → Line) (ts : List Arg) : Line :=
  match scan d ⟨[], []⟩ .any ts with
  | .usage => .usage
  | .help => .help
  | .done s => line s

/-- The names of the subcommands (`cli/mod.rs:27-43`). -/
def subcommands : List Arg := ["sign".toList, "verify".toList, "info".toList, "digest".toList]

/-- `Cli::parse_args` (`cli/mod.rs:46-48`), given the arguments after the program's name. Without any, help is printed as an error. -/
def parseArgs : List Arg → Line
  | [] => .usage
  | t :: ts =>
    if t = "sign".toList then subcommand signDef signArgs ts
    else if t = "verify".toList then subcommand verifyDef verifyArgs ts
    else if t = "info".toList then subcommand infoDef infoArgs ts
    else if t = "digest".toList then subcommand digestDef digestArgs ts
    else if t = "help".toList then
      match ts with
      | [] => .help
      | [n] => if n ∈ "help".toList :: subcommands then .help else .usage
      | _ => .usage
    else if t = "--help".toList ∨ t = "--version".toList then .help
    else
      match shortsOf t with
      | some (c :: _) => if c = 'h' ∨ c = 'V' then .help else .usage
      | _ => .usage

/-- `main` (`main.rs:5-12`): the exit status and the files afterwards. clap exits with status 2 after an error, with 0 after help. -/
def runMain (M : Machine) (now : Nat) (clock : Option UInt64) (fs : Fs) (argv : List Arg) : Nat × Fs :=
  match parseArgs argv with
  | .usage => (2, fs)
  | .help => (0, fs)
  | .run c _ => ((c.exec M now clock fs).status, (c.exec M now clock fs).after fs)

end Ksusig
