import Verif.Model.Keystore
import Verif.Model.CliDigest

/-!
# The program: `/repo/src/main.rs`, `/repo/src/cli/mod.rs` and what the commands do to the file system

A file system gives every path the content of the readable file there, if there is one. Two paths are the same file only if they
are equal: links and different spellings of one path are not modelled, nor are directories. Files do not change while a
command runs, except through the command itself. Everything printed is left out here, except what the digest command prints on
standard output; see `Model/CliVerify.lean`, `Model/CliInfo.lean` and `Model/CliOut.lean`.
-/

namespace Ksusig

/-- A path, as given on the command line. -/
abbrev Path := List Char

/-- The readable files. -/
abbrev Fs := Path → Option Bytes

/-- The file system with another content at one path. -/
def Fs.set (fs : Fs) (p : Path) (d : Bytes) : Fs := fun q => if q = p then some d else fs q

/-- What the program runs on: the external code, the build profile, the rest of goblin's parser (`acc`, see `SignableFile.open`),
the built-in root certificate, and the paths where a file can be created. -/
structure Machine where
  keys : KeyEnv
  env : Env
  profile : Profile
  acc : Bytes → Bool
  builtin : Bytes
  creatable : Path → Bool

/-- The paths and the password of `--key`, `--cert`, `--p12`, `--password`, or of the same options with `--stamp-`
(`cli/sign.rs:25-54`). -/
structure CredPaths where
  key : Option Path
  cert : Option Path
  p12 : Option Path
  password : Option Bytes
  deriving DecidableEq, Repr

/-- `Commands` with its arguments (`cli/mod.rs:27-43`, `cli/sign.rs:14-64`, `cli/verify.rs:11-24`, `cli/info.rs:11-17`,
`cli/digest.rs:14-50`). The digest command is two constructors: without and with `--dump`. The flag `--verbose` only changes
what is printed. -/
inductive Command where
  | sign (input output : Path) (v2 stamp : CredPaths) (sections : List (List Char))
  | verify (module : Path) (root : Option Path)
  | info (module : Path)
  | digest (input : Path) (sha512 : Bool) (format : OutputFormat) (sections : List (List Char))
  | dump (input output : Path) (sections : List (List Char))
  deriving DecidableEq, Repr

/-- The choice of credentials (`cli/sign.rs:75-90`, `95-116`), with `load_p12` (`keystore.rs:273-276`) and `load_pem`
(`keystore.rs:85-99`) reading the files: `ok none` if neither `--p12` nor `--key` is given. -/
def CredPaths.load (K : KeyEnv) (fs : Fs) (a : CredPaths) : Except KErr (Option Credentials) :=
  match a.p12 with
  | some path =>
    match a.password with
    | none => .error .missing
    | some pwd =>
      match fs path with
      | none => .error .io
      | some data => (loadP12 K data pwd).map some
  | none =>
    match a.key with
    | some kpath =>
      match a.cert with
      | none => .error .missing
      | some cpath =>
        match fs kpath, fs cpath with
        | some key, some cert => (loadPem K key cert a.password).map some
        | _, _ => .error .io
    | none => .ok none

/-- The signer of the sign command (`cli/sign.rs:74-130`). -/
def signerFrom (K : KeyEnv) (fs : Fs) (v2 stamp : CredPaths) : Except KErr ModuleSigner :=
  match v2.load K fs with
  | .error e => .error e
  | .ok none => .error .missing
  | .ok (some c) =>
    match stamp.load K fs with
    | .error e => .error e
    | .ok none => .ok (.v2Only (.ofCredentials c))
    | .ok (some s) => .ok (.withSourceStamp (.ofCredentials c) (.ofCredentials s))

/-- What a command does: the file it writes, what the digest command prints, and how the command ends. -/
structure Outcome where
  written : Option (Path × Bytes)
  printed : List Char
  result : Res Unit
  deriving DecidableEq

/-- A command that writes nothing. -/
def Outcome.quiet (r : Res Unit) : Outcome := ⟨none, [], r⟩

/-- The end of a command that creates the output with `File::create` (`cli/sign.rs:204`, `cli/digest.rs:131`): if the output cannot
be created, nothing is written. `x.1` is `none` if the command fails before. -/
def Outcome.create (M : Machine) (output : Path) (x : Option Bytes × Res Unit) : Outcome :=
  match x with
  | (none, r) => .quiet r
  | (some d, r) => if M.creatable output then ⟨some (output, d), [], r⟩ else .quiet (.err .io)

/-- `Cli::execute` (`cli/mod.rs:52-63`) at the time `now`, with the clock of `SystemTime` at `clock`. -/
def Command.exec (M : Machine) (now : Nat) (clock : Option UInt64) (fs : Fs) : Command → Outcome
  | .sign input output v2 stamp sections =>
    match signerFrom M.keys fs v2 stamp with
    | .error _ => .quiet (.err .keystore)
    | .ok signer =>
      match fs input with
      | none => .quiet (.err .io)
      | some file => .create M output (cliSign M.env M.profile M.acc clock signer sections (decide (output = input)) file)
  | .verify module root =>
    match fs module with
    | none => .quiet (.err .io)
    | some file =>
      match root with
      | none => .quiet (cliVerify M.env M.profile M.builtin none now file)
      | some path =>
        match fs path with
        | some pem => .quiet (cliVerify M.env M.profile M.builtin (some pem) now file)
        -- the block is read before the root certificate
        | none => .quiet (do
          let _ ← ((Module.new file).getSigningBlock M.profile file).mapErr fun _ => .verifyFailed
          .err .io)
  | .info module =>
    match fs module with
    | none => .quiet (.err .io)
    | some file => .quiet ((cliInfo M.env M.profile M.builtin now file).bind fun _ => .ok ())
  | .digest input sha512 format sections =>
    match fs input with
    | none => .quiet (.err .io)
    | some file =>
      match cliDigest M.env M.profile M.acc sha512 format sections file with
      | .ok text => ⟨none, text, .ok ()⟩
      | .err e => .quiet (.err e)
      | .panic => .quiet .panic
  | .dump input output sections =>
    match fs input with
    | none => .quiet (.err .io)
    | some file => .create M output (cliDump M.profile M.acc sections (decide (output = input)) file)

/-- `main` (`main.rs:5-12`): the exit status. A panic of the main thread is status 101. -/
def Outcome.status (o : Outcome) : Nat :=
  match o.result with
  | .ok _ => 0
  | .err _ => 1
  | .panic => 101

/-- The file system after a command. -/
def Outcome.after (o : Outcome) (fs : Fs) : Fs :=
  match o.written with
  | some (path, d) => fs.set path d
  | none => fs

/-- How far a command gets. The output is created empty and then written from its beginning to its end (`BufWriter` and
`write_all`), so a command stopped while it writes leaves the first bytes of what it would have written. -/
inductive Stop where
  | finished
  | before
  | writing (n : Nat)
  deriving DecidableEq, Repr

/-- One run of the program: the command, the time, and how far it gets. -/
structure Run where
  command : Command
  now : Nat
  clock : Option UInt64
  stop : Stop
  deriving DecidableEq, Repr

/-- The file system after a run. -/
def Run.after (M : Machine) (r : Run) (fs : Fs) : Fs :=
  let o := r.command.exec M r.now r.clock fs
  match r.stop with
  | .finished => o.after fs
  | .before => fs
  | .writing n =>
    match o.written with
    | some (path, d) => fs.set path (d.take n)
    | none => fs

/-- The file system after a history of runs. -/
def history (M : Machine) (rs : List Run) (fs : Fs) : Fs := rs.foldl (fun fs r => r.after M fs) fs

end Ksusig
