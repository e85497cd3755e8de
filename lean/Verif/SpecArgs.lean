import Verif.Model.Args

/-!
# The grammar of the command line

What `--help` says about the commands, as tables, and how a command line is put together from options and other arguments.
-/

namespace Ksusig.Spec

open Ksusig

/-- The options of a command: switches, their one-letter names, options with one value, options with a list of values; and how many other
arguments it takes. -/
structure Syntax where
  words : Nat
  switches : List String
  shorts : List (Char × String)
  values : List String
  lists : List String

def signSyntax : Syntax :=
  ⟨2, [], [], ["key", "cert", "p12", "password", "stamp-key", "stamp-cert", "stamp-p12", "stamp-password"], ["elf-section"]⟩

def verifySyntax : Syntax := ⟨1, ["verbose"], [('v', "verbose")], ["root"], []⟩

def infoSyntax : Syntax := ⟨1, [], [], [], []⟩

def digestSyntax : Syntax := ⟨1, ["sha256", "sha512"], [], ["dump", "format"], ["elf-section"]⟩

/-- A part of a command line. -/
inductive Item where
  /-- an argument that is no option -/
  | word (v : Arg)
  /-- `--name` -/
  | switch (name : String)
  /-- `-c`, which is short for `--name` -/
  | short (c : Char) (name : String)
  /-- `--name v` -/
  | value (name : String) (v : Arg)
  /-- `--name=v` -/
  | valueAt (name : String) (v : Arg)
  /-- `--name v1 v2 …` -/
  | list (name : String) (vs : List Arg)
  /-- `--name=v` -/
  | listAt (name : String) (v : Arg)

/-- How it is written. -/
def Item.args : Item → List Arg
  | .word v => [v]
  | .switch n => ['-' :: '-' :: n.toList]
  | .short c _ => [['-', c]]
  | .value n v => ['-' :: '-' :: n.toList, v]
  | .valueAt n v => ['-' :: '-' :: (n.toList ++ '=' :: v)]
  | .list n vs => ('-' :: '-' :: n.toList) :: vs
  | .listAt n v => ['-' :: '-' :: (n.toList ++ '=' :: v)]

/-- An argument that does not look like an option: it does not start with `-`, or is just that. -/
def NoOption (v : Arg) : Prop := v = ['-'] ∨ v.head? ≠ some '-'

/-- The part is something the command knows, and separate values do not look like options. -/
def Item.Known (S : Syntax) : Item → Prop
  | .word v => NoOption v
  | .switch n => n ∈ S.switches
  | .short c n => (c, n) ∈ S.shorts
  | .value n v => n ∈ S.values ∧ NoOption v
  | .valueAt n _ => n ∈ S.values
  | .list n vs => n ∈ S.lists ∧ ∀ v ∈ vs, NoOption v
  | .listAt n _ => n ∈ S.lists

/-- An argument right behind a list is one of its values. So it cannot be a part of its own. -/
def Apart : List Item → Prop
  | .list _ _ :: .word _ :: _ => False
  | _ :: is => Apart is
  | [] => True

/-- The option, if it may be given once only. -/
def Item.single : Item → Option String
  | .switch n => some n
  | .short _ n => some n
  | .value n _ => some n
  | .valueAt n _ => some n
  | _ => none

/-- The values that are allowed: paths may not be empty, and there are two formats. -/
def Allowed (name : String) (v : Arg) : Prop :=
  if name = "password" ∨ name = "stamp-password" then True
  else if name = "format" then v = "hex".toList ∨ v = "base64".toList
  else v ≠ []

def Item.Allowed : Item → Prop
  | .value n v => Spec.Allowed n v
  | .valueAt n v => Spec.Allowed n v
  | _ => True

/-- The arguments `args` of a command are the parts `is`, and then perhaps `--` and `more` arguments that are no options. -/
structure Parts (S : Syntax) (args : List Arg) (is : List Item) (more : List Arg) : Prop where
  written : args = is.flatMap Item.args ++ (['-', '-'] :: more) ∨ (more = [] ∧ args = is.flatMap Item.args)
  known : ∀ i ∈ is, i.Known S
  apart : Apart is
  once : (is.filterMap Item.single).Nodup
  allowed : ∀ i ∈ is, i.Allowed

/-- The arguments that are no options. -/
def words (is : List Item) : List Arg := is.filterMap fun
  | .word v => some v
  | _ => none

/-- The value of an option. -/
def valueOf (name : String) (is : List Item) : Option Arg := is.findSome? fun
  | .value n v => if n = name then some v else none
  | .valueAt n v => if n = name then some v else none
  | _ => none

/-- The switch is given. -/
def Given (name : String) (is : List Item) : Prop := ∃ i ∈ is, i = .switch name ∨ ∃ c, i = .short c name

/-- `v` is `parts`, with commas between them. -/
def Commas (v : Arg) (parts : List Arg) : Prop := parts ≠ [] ∧ (∀ p ∈ parts, ',' ∉ p) ∧ v = [','].intercalate parts

/-- All values of `--elf-section`, one after the other. -/
def sectionValues (is : List Item) : List Arg := is.flatMap fun
  | .list n vs => if n = "elf-section" then vs else []
  | .listAt n v => if n = "elf-section" then [v] else []
  | _ => []

/-- The parts of all values, one after the other. -/
inductive AtCommas : List Arg → List Arg → Prop where
  | nil : AtCommas [] []
  | cons : Commas v ps → AtCommas vs names → AtCommas (v :: vs) (ps ++ names)

/-- The section names that are given: all values of `--elf-section`, each taken apart at its commas. -/
def Sections (is : List Item) (names : List Arg) : Prop := AtCommas (sectionValues is) names

/-- The command line `argv` (without the program's name) says: run the command `c`, and be verbose. -/
inductive Says : List Arg → Command → Bool → Prop where
  | sign : Parts signSyntax args is more → words is ++ more = [input, output] → input ≠ [] → output ≠ [] → Sections is names →
      Says ("sign".toList :: args)
        (.sign input output ⟨valueOf "key" is, valueOf "cert" is, valueOf "p12" is, (valueOf "password" is).map utf8⟩
          ⟨valueOf "stamp-key" is, valueOf "stamp-cert" is, valueOf "stamp-p12" is, (valueOf "stamp-password" is).map utf8⟩ names) false
  | verify : Parts verifySyntax args is more → words is ++ more = [module] → module ≠ [] → (verbose = true ↔ Given "verbose" is) →
      Says ("verify".toList :: args) (.verify module (valueOf "root" is)) verbose
  | info : Parts infoSyntax args is more → words is ++ more = [module] → module ≠ [] → Says ("info".toList :: args) (.info module) false
  | digest : Parts digestSyntax args is more → words is ++ more = [input] → input ≠ [] → Sections is names →
      ¬ (Given "sha256" is ∧ Given "sha512" is) → valueOf "dump" is = none → (sha512 = true ↔ Given "sha512" is) →
      (format = .base64 ↔ valueOf "format" is = some "base64".toList) →
      Says ("digest".toList :: args) (.digest input sha512 format names) false
  | dump : Parts digestSyntax args is more → words is ++ more = [input] → input ≠ [] → Sections is names →
      ¬ (Given "sha256" is ∧ Given "sha512" is) → valueOf "dump" is = some output →
      Says ("digest".toList :: args) (.dump input output names) false

/-- An argument that asks for help: `--help`, `-h…`, or `-` with the letters of switches that are not given before and then `h`. -/
def HelpWord (S : Syntax) (is : List Item) (t : Arg) : Prop :=
  t = "--help".toList ∨ (∃ rest, t = '-' :: 'h' :: rest) ∨
    ∃ c n rest, (c, n) ∈ S.shorts ∧ some n ∉ is.map Item.single ∧ t = '-' :: c :: 'h' :: rest

/-- A command's arguments ask for help: up to there they can be read. -/
def AsksHelp (S : Syntax) (args : List Arg) : Prop :=
  ∃ is t rest, args = is.flatMap Item.args ++ t :: rest ∧ (∀ i ∈ is, i.Known S) ∧ Apart is ∧ (is.filterMap Item.single).Nodup ∧
    (∀ i ∈ is, i.Allowed) ∧ (words is).length ≤ S.words ∧ (∀ v ∈ words is, v ≠ []) ∧ HelpWord S is t

/-- The command line asks for help or the version. -/
inductive Asks : List Arg → Prop where
  | long : Asks ("--help".toList :: rest)
  | version : Asks ("--version".toList :: rest)
  | short : Asks (('-' :: 'h' :: cs) :: rest)
  | shortVersion : Asks (('-' :: 'V' :: cs) :: rest)
  | help : Asks ["help".toList]
  | helpOn : n ∈ ["help", "sign", "verify", "info", "digest"] → Asks ["help".toList, n.toList]
  | sign : AsksHelp signSyntax args → Asks ("sign".toList :: args)
  | verify : AsksHelp verifySyntax args → Asks ("verify".toList :: args)
  | info : AsksHelp infoSyntax args → Asks ("info".toList :: args)
  | digest : AsksHelp digestSyntax args → Asks ("digest".toList :: args)

/-- Credentials that can be given with options: no path is empty, and a password is text. -/
def CredsSayable (c : CredPaths) : Prop :=
  c.key ≠ some [] ∧ c.cert ≠ some [] ∧ c.p12 ≠ some [] ∧ ∀ p, c.password = some p → ∃ text, p = utf8 text

/-- The commands that can be given: no path is empty, passwords are text, and section names have no comma. -/
def Sayable : Command → Prop
  | .sign i o v2 stamp names => i ≠ [] ∧ o ≠ [] ∧ CredsSayable v2 ∧ CredsSayable stamp ∧ ∀ n ∈ names, ',' ∉ n
  | .verify m root => m ≠ [] ∧ root ≠ some []
  | .info m => m ≠ []
  | .digest i _ _ names => i ≠ [] ∧ ∀ n ∈ names, ',' ∉ n
  | .dump i o names => i ≠ [] ∧ o ≠ [] ∧ ∀ n ∈ names, ',' ∉ n

/-- The options of the subcommand with this name. -/
def syntaxOf (cmd : String) : Option Syntax :=
  [("sign", signSyntax), ("verify", verifySyntax), ("info", infoSyntax), ("digest", digestSyntax)].lookup cmd

end Ksusig.Spec
