import Verif.Model.Args
import Verif.Model.NoElfCli

/-!
# The program in every build

The features `keystore`, `verify` and `elf` (`/repo/Cargo.toml:54-77`) decide which subcommands there are (`/repo/src/cli/mod.rs:27-43`)
and whether there is ELF support. Here the command line and the commands are put together for all eight choices. The options of a
subcommand do not depend on the features: `--elf-section` is there without ELF support, and refused when the command runs.
-/

namespace Ksusig

/-- The features of a build (`Cargo.toml:54-77`). The features `signing` and `hash` come with `keystore` and `verify`; `serde` does not
change the program. -/
structure Build where
  keystore : Bool
  verify : Bool
  elf : Bool
  deriving DecidableEq

/-- The names of the subcommands of a build (`cli/mod.rs:27-43`). -/
def Build.subcommands (b : Build) : List Arg :=
  (if b.keystore then ["sign".toList] else []) ++ (if b.verify then ["verify".toList, "info".toList] else []) ++ ["digest".toList]

/-- `Cli::parse_args` (`cli/mod.rs:46-48`) of a build; see `parseArgs` for the build with all features. -/
def parseArgsIn (b : Build) : List Arg → Line
  | [] => .usage
  | t :: ts =>
    if b.keystore = true ∧ t = "sign".toList then subcommand signDef signArgs ts
    else if b.verify = true ∧ t = "verify".toList then subcommand verifyDef verifyArgs ts
    else if b.verify = true ∧ t = "info".toList then subcommand infoDef infoArgs ts
    else if t = "digest".toList then subcommand digestDef digestArgs ts
    else if t = "help".toList then
      match ts with
      | [] => .help
      | [n] => if n ∈ "help".toList :: b.subcommands then .help else .usage
      | _ => .usage
    else if t = "--help".toList ∨ t = "--version".toList then .help
    else
      match shortsOf t with
      | some (c :: _) => if c = 'h' ∨ c = 'V' then .help else .usage
      | _ => .usage

/-- `Cli::execute` (`cli/mod.rs:52-63`) without the feature `elf`; see `Command.exec` for the full build. -/
def NoElf.exec (M : Machine) (now : Nat) (clock : Option UInt64) (fs : Fs) : Command → Outcome
  | .sign input output v2 stamp sections =>
    match signerFrom M.keys fs v2 stamp with
    | .error _ => .quiet (.err .keystore)
    | .ok signer =>
      match fs input with
      | none => .quiet (.err .io)
      | some file => .create M output (NoElf.cliSign M.env M.profile clock signer sections (decide (output = input)) file)
  | .verify module root =>
    match fs module with
    | none => .quiet (.err .io)
    | some file =>
      match root with
      | none => .quiet (NoElf.cliVerify M.env M.profile M.builtin none now file)
      | some path =>
        match fs path with
        | some pem => .quiet (NoElf.cliVerify M.env M.profile M.builtin (some pem) now file)
        | none => .quiet (do
          let _ ← (NoElf.getSigningBlock M.profile (Module.new file) file).mapErr fun _ => .verifyFailed
          .err .io)
  | .info module =>
    match fs module with
    | none => .quiet (.err .io)
    | some file => .quiet (NoElf.cliInfoRun M.env M.profile M.builtin now file).2
  | .digest input sha512 format sections =>
    match fs input with
    | none => .quiet (.err .io)
    | some file =>
      match NoElf.cliDigest M.env M.profile sha512 format sections file with
      | .ok text => ⟨none, text, .ok ()⟩
      | .err e => .quiet (.err e)
      | .panic => .quiet .panic
  | .dump input output sections =>
    match fs input with
    | none => .quiet (.err .io)
    | some file => .create M output (NoElf.cliDump M.profile sections (decide (output = input)) file)

/-- The command in a build. -/
def Command.execIn (b : Build) (M : Machine) (now : Nat) (clock : Option UInt64) (fs : Fs) (c : Command) : Outcome :=
  if b.elf then c.exec M now clock fs else NoElf.exec M now clock fs c

/-- `main` (`main.rs:5-12`) of a build: the exit status and the files afterwards. -/
def runMainIn (b : Build) (M : Machine) (now : Nat) (clock : Option UInt64) (fs : Fs) (argv : List Arg) : Nat × Fs :=
  match parseArgsIn b argv with
  | .usage => (2, fs)
  | .help => (0, fs)
  | .run c _ => ((c.execIn b M now clock fs).status, (c.execIn b M now clock fs).after fs)

end Ksusig
