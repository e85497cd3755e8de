import Verif.Model.Program

/-!
# The commands as processes

The same commands as in `Model/Program.lean`, one file operation at a time, so that several of them can run at once and can be
stopped between any two operations. An operation is: opening a file and reading through that handle, creating (emptying) a file,
or one `write` at the position the handle has reached. Looking at the length of a file, reading all of it and reading parts of it
through one handle all count as one read of the whole content; where the code opens a file and reads it only after other
operations, there are two reads. There are no links and nothing is renamed or deleted, so a handle always reads what is at the
path at that time.
-/

namespace Ksusig

/-- A process that still has to run. -/
inductive Proc (α : Type) where
  | done (a : α)
  | read (path : Path) (k : Option Bytes → Proc α)
  | create (path : Path) (k : Bool → Proc α)
  | write (path : Path) (pos : Nat) (d : Bytes) (k : Proc α)

namespace Proc

/-- One process after another. -/
def bind {α β : Type} : Proc α → (α → Proc β) → Proc β
  | .done a, f => f a
  | .read path k, f => .read path fun x => (k x).bind f
  | .create path k, f => .create path fun x => (k x).bind f
  | .write path pos d k, f => .write path pos d (k.bind f)

/-- The operator `?`. -/
def andThen {α β : Type} (x : Proc (Res α)) (f : α → Proc (Res β)) : Proc (Res β) :=
  x.bind fun
    | .ok a => f a
    | .err e => .done (.err e)
    | .panic => .done .panic

/-- `File::open` or `fs::read` of a file that may be missing. -/
def open' {α : Type} (path : Path) (k : Bytes → Proc (Res α)) : Proc (Res α) :=
  .read path fun
    | some d => k d
    | none => .done (.err .io)

/-- Writing the pieces one after the other from this position on. -/
def writeAll {α : Type} (path : Path) : Nat → List Bytes → Proc α → Proc α
  | _, [], k => k
  | pos, d :: ds, k => .write path pos d (writeAll path (pos + d.length) ds k)

end Proc

/-- `write` at a position; a gap is filled with zeros. Writing nothing changes nothing. -/
def writeAt (c : Bytes) (pos : Nat) (d : Bytes) : Bytes :=
  if d = [] then c else c.take pos ++ List.replicate (pos - c.length) 0 ++ d ++ c.drop (pos + d.length)

/-- One operation of a process. -/
def Proc.step {α : Type} (M : Machine) (fs : Fs) : Proc α → Fs × Proc α
  | .done a => (fs, .done a)
  | .read path k => (fs, k (fs path))
  | .create path k => if M.creatable path then (fs.set path [], k true) else (fs, k false)
  | .write path pos d k => (fs.set path (writeAt ((fs path).getD []) pos d), k)

/-! ## The library functions -/

/-- `Module::find_eocd` (`module/mod.rs:248-251`). -/
def Module.findEocdP (m : Module) (path : Path) : Proc (Res Eocd) := .open' path fun f => .done (m.findEocd f)

/-- `Module::get_signing_block` (`module/mod.rs:73-99`). -/
def Module.getSigningBlockP (p : Profile) (m : Module) (path : Path) : Proc (Res SigningBlock) :=
  match m.sig with
  | some s => .done (.ok s)
  | none =>
    if m.raw then .done (.err .moduleIsRaw)
    else (m.findEocdP path).andThen fun eocd =>
      .open' path fun f => .done (SigningBlock.fromReader p f m.fileLen (m.fileLen - eocd.cdOffset.toNat))

/-- `Module::get_offsets` (`module/mod.rs:258-301`). -/
def Module.getOffsetsP (p : Profile) (m : Module) (path : Path) : Proc (Res FileOffsets) :=
  (m.findEocdP path).andThen fun eocd =>
    (m.getSigningBlockP p path).bind fun
      | .ok sig =>
        let fileLen := if m.raw then m.fileLen + sig.fullSize else m.fileLen
        let stopCd := if m.raw then eocd.fileOffset + sig.fullSize else eocd.fileOffset
        .done (.ok (FileOffsets.new sig.fileStart sig.fileEnd stopCd fileLen))
      | .err e =>
        if e.isMissing then .done (.ok (FileOffsets.withoutSignature eocd.cdOffset.toNat eocd.fileOffset m.fileLen))
        else .done (.err .corrupted)
      | .panic => .done .panic

/-- `Module::digest` (`module/mod.rs:307-311`): the file is opened, then the offsets are determined, then it is read. -/
def Module.digestP (E : Env) (p : Profile) (m : Module) (path : Path) (algo : Algo) : Proc (Res Bytes) :=
  .open' path fun _ => (m.getOffsetsP p path).andThen fun o =>
    .open' path fun f => .done (digestModule E p fullReads fullReads f o algo)

/-- `<Module as Signable>::digest_regions` (`signable.rs:281-301`). -/
def Module.digestRegionsP (p : Profile) (m : Module) (path : Path) : Proc (Res (List DigestRegion)) :=
  (m.getOffsetsP p path).andThen fun o => .done (do
    let n1 ← usub p o.stopContent o.startContent
    let n2 ← usub p o.stopCd o.startCd
    let n3 ← usub p o.stopEocd o.startEocd
    .ok [⟨"zip_entries", o.startContent, n1⟩, ⟨"central_directory", o.startCd, n2⟩, ⟨"eocd", o.startEocd, n3⟩])

/-- `Module::get_raw_module` (`module/mod.rs:316-363`). -/
def Module.getRawModuleP (p : Profile) (m : Module) (path : Path) : Proc (Res Bytes) :=
  .open' path fun file =>
    if m.raw then .done (.ok file)
    else (m.getSigningBlockP p path).andThen fun sig =>
      match (do
        let sizeSig ← usub p sig.fileEnd sig.fileStart
        let start ← Res.ofOption .invalidData (slice? file 0 sig.fileStart)
        .ok (sizeSig, start) : Res (Nat × Bytes)) with
      | .err e => .done (.err e)
      | .panic => .done .panic
      | .ok (sizeSig, start) => (m.findEocdP path).andThen fun eocd => .done (do
        let cd ← Res.ofOption .invalidData (checkedSub32 eocd.cdOffset sizeSig)
        let ser := { eocd with cdOffset := cd }.toU8
        let stop ← usub p file.length ser.length
        let rest ← Res.ofOption .invalidData (slice? file sig.fileEnd stop)
        .ok (start ++ rest ++ ser))

/-- The source of the bytes in `<Module as Signable>::write_with_signature` (`signable.rs:331-356`). -/
def Module.signSourceP (p : Profile) (m : Module) (path : Path) : Proc (Res (Bytes × Eocd)) :=
  (m.getSigningBlockP p path).bind fun
    | .ok _ => (m.getRawModuleP p path).andThen fun bytes => .done (do
      let eocd ← Ksusig.findEocd bytes bytes.length
      .ok (bytes, eocd))
    | .err e =>
      if e.isMissing then .open' path fun file => .done (do
        let eocd ← Ksusig.findEocd file file.length
        .ok (file, eocd))
      else .done (.err .refuseCorrupted)
    | .panic => .done .panic

/-- What `<Module as Signable>::write_with_signature` (`signable.rs:358-386`) writes once it has its source, and how it ends. -/
def signableBytes (p : Profile) (b : SigningBlock) : Res (Bytes × Eocd) → Bytes × Res Unit
  | .err e => ([], .err e)
  | .panic => ([], .panic)
  | .ok (raw, eocd) =>
    let blockBytes := b.toU8
    let cdOffset := eocd.cdOffset.toNat
    let eocdOffset := eocd.fileOffset
    if eocdOffset < cdOffset then ([], .err .invalidData)
    else
      let cdSize := eocdOffset - cdOffset
      match usub p raw.length eocdOffset with
      | .err e => ([], .err e)
      | .panic => ([], .panic)
      | .ok eocdSize =>
        match slice? raw 0 cdOffset with
        | none => ([], .err .invalidData)
        | some header =>
          match slice? raw cdOffset eocdOffset with
          | none => (header ++ blockBytes, .err .invalidData)
          | some cd =>
            if cdOffset + blockBytes.length ≥ 2 ^ 64 then (header ++ blockBytes ++ cd, .err .invalidData)
            else
              let eocd' := { eocd with
                fileOffset := eocdOffset + blockBytes.length
                cdOffset := UInt32.ofNat (cdOffset + blockBytes.length) }
              match debugAssert p (cdSize + eocdSize + cdOffset == raw.length) with
              | .panic => (header ++ blockBytes ++ cd, .panic)
              | _ => (header ++ blockBytes ++ cd ++ eocd'.toU8, .ok ())

/-- An opened file (`signable.rs:81-87`): a module is its path and its length, an ELF file is in memory. -/
inductive Opened where
  | module (m : Module)
  | elf (f : ElfFile)

/-- `SignableFile::open` (`signable.rs:94-105`), with `detect_file_format` (`242-270`), and the choice of sections
(`cli/digest.rs:55-61`, `cli/sign.rs:133-138`). -/
def openP (acc : Bytes → Bool) (sections : List (List Char)) (path : Path) : Proc (Res Opened) :=
  .open' path fun f0 =>
    match detectFileFormat f0 with
    | .err e => .done (.err e)
    | .panic => .done .panic
    | .ok .module => .open' path fun f =>
      if sections.isEmpty then .done (.ok (.module (Module.new f))) else .done (.err .unknownFormat)
    | .ok .elf => .open' path fun f => .done (do
      let e ← ElfFile.new acc f
      let e ← cliElfSelect e sections
      .ok (.elf e))

/-- `SignableFile::digest_regions` (`signable.rs:137-143`). -/
def Opened.digestRegionsP (p : Profile) (acc : Bytes → Bool) (path : Path) : Opened → Proc (Res (List DigestRegion))
  | .module m => m.digestRegionsP p path
  | .elf f => .done (f.digestRegions acc)

/-- `SignableFile::digest` (`signable.rs:149-155`). -/
def Opened.digestP (E : Env) (p : Profile) (acc : Bytes → Bool) (path : Path) (algo : Algo) : Opened → Proc (Res Bytes)
  | .module m => m.digestP E p path algo
  | .elf f => .done (f.digest E acc algo)

/-! ## The commands -/

/-- How a command ends: what the digest command prints, and the result. -/
abbrev End := List Char × Res Unit

/-- The exit status (`main.rs:5-12`). -/
def End.status (e : End) : Nat :=
  match e.2 with
  | .ok _ => 0
  | .err _ => 1
  | .panic => 101

/-- A command that prints nothing that is modelled. -/
def ending (x : Proc (Res Unit)) : Proc End := x.bind fun r => .done ([], r)

/-- Loading credentials (`cli/sign.rs:75-90`, `95-116`; `keystore.rs:85-99,273-276`). -/
def CredPaths.loadP (K : KeyEnv) (a : CredPaths) : Proc (Except KErr (Option Credentials)) :=
  match a.p12 with
  | some path =>
    match a.password with
    | none => .done (.error .missing)
    | some pwd => .read path fun
      | none => .done (.error .io)
      | some data => .done ((loadP12 K data pwd).map some)
  | none =>
    match a.key with
    | some kpath =>
      match a.cert with
      | none => .done (.error .missing)
      | some cpath => .read kpath fun
        | none => .done (.error .io)
        | some key => .read cpath fun
          | none => .done (.error .io)
          | some cert => .done ((loadPem K key cert a.password).map some)
    | none => .done (.ok none)

/-- The signer of the sign command (`cli/sign.rs:74-130`). -/
def signerP (K : KeyEnv) (v2 stamp : CredPaths) : Proc (Except KErr ModuleSigner) :=
  (v2.loadP K).bind fun
    | .error e => .done (.error e)
    | .ok none => .done (.error .missing)
    | .ok (some c) => (stamp.loadP K).bind fun
      | .error e => .done (.error e)
      | .ok none => .done (.ok (.v2Only (.ofCredentials c)))
      | .ok (some s) => .done (.ok (.withSourceStamp (.ofCredentials c) (.ofCredentials s)))

/-- The digests of the sign command (`cli/sign.rs:161-175`). -/
def Opened.digestsP (E : Env) (p : Profile) (acc : Bytes → Bool) (path : Path) (o : Opened) :
    List Algo → Proc (Res (List (Algo × Bytes)))
  | [] => .done (.ok [])
  | a :: as => (o.digestP E p acc path a).andThen fun d =>
    (o.digestsP E p acc path as).andThen fun rest => .done (.ok ((a, d) :: rest))

/-- The sections recorded for an ELF file (`cli/sign.rs:181-194`). -/
def Opened.record (acc : Bytes → Bool) (b : SigningBlock) : Opened → Res SigningBlock
  | .module _ => .ok b
  | .elf f => do
    let l ← f.resolvedSections acc
    let info := ElfSectionInfo.fromTuples (l.map fun x => (utf8 x.1, UInt64.ofNat x.2.1, UInt64.ofNat x.2.2))
    .ok (SigningBlock.recalculateSize { b with content := b.content ++ [.elf info] })

/-- Writing a result in pieces (`cut` is the buffering of `BufWriter`, `write_all` and the system), and the end of the command. -/
def emit (cut : Bytes → List Bytes) (path : Path) (x : Bytes × Res Unit) : Proc (Res Unit) :=
  .writeAll path 0 (cut x.1) (.done x.2)

/-- The end of the sign command (`cli/sign.rs:204-206`): the output is created, then the input is read again if it is a module. -/
def Opened.writeP (p : Profile) (acc : Bytes → Bool) (cut : Bytes → List Bytes) (input output : Path) (b : SigningBlock) :
    Opened → Proc (Res Unit)
  | .module m => .create output fun ok =>
    if ok then (m.signSourceP p input).bind fun s => emit cut output (signableBytes p b s) else .done (.err .io)
  | .elf f => .create output fun ok =>
    if ok then emit cut output (match f.writeWithSignature acc b with
      | .ok out => (out, .ok ())
      | .err e => ([], .err e)
      | .panic => ([], .panic))
    else .done (.err .io)

/-- `execute` of the sign command (`cli/sign.rs:68-212`). -/
def signP (M : Machine) (cut : Bytes → List Bytes) (clock : Option UInt64) (input output : Path) (v2 stamp : CredPaths)
    (sections : List (List Char)) : Proc (Res Unit) :=
  (signerP M.keys v2 stamp).bind fun
    | .error _ => .done (.err .keystore)
    | .ok signer =>
      (openP M.acc sections input).andThen fun o =>
      (o.digestRegionsP M.profile M.acc input).andThen fun _ =>
      (o.digestsP M.env M.profile M.acc input signer.requiredAlgorithms).andThen fun pairs =>
      match signer.sign M.env M.profile clock (Digests.new (pairs.map fun x => Digest.new x.1 x.2)) with
      | .err e => .done (.err e)
      | .panic => .done .panic
      | .ok b =>
        match o.record M.acc b with
        | .err e => .done (.err e)
        | .panic => .done .panic
        | .ok b => o.writeP M.profile M.acc cut input output b

/-- The roots of the verify command (`cli/verify.rs:43-58`). -/
def rootsP (M : Machine) : Option Path → Proc (Res Roots)
  | none => .done (cliRoots M.env M.builtin none)
  | some path => .open' path fun pem => .done (cliRoots M.env M.builtin (some pem))

/-- One digest of the verify command (`cli/verify.rs:64-76,79-91`). -/
def addDigestP (E : Env) (p : Profile) (m : Module) (path : Path) (a : Algo) (c : DigestCtx) : Proc (Res DigestCtx) :=
  (m.digestP E p path a).bind fun
    | .ok d => .done (.ok (c.add a.toU32 d))
    | .err _ => .done (.ok c)
    | .panic => .done .panic

/-- The verify command once everything is read (`cli/verify.rs:93-332`). -/
def judge (E : Env) (roots : Roots) (now : Nat) (b : SigningBlock) (c : DigestCtx) : Res Unit :=
  if c.entries.isEmpty then .err .verifyFailed
  else do
    let v2 ← cliV2 (verifyV2 E roots now b (some c))
    let stampFailed := cliStampFailed (verifySourceStamp E roots now b (some c))
    let fully := match v2 with
      | some r => r.sigValid && r.digestValid && r.chainValid && r.trusted
      | none => false
    if fully then
      if stampFailed then .err .verifyFailed else .ok ()
    else .err .verifyFailed

/-- `execute` of the verify command (`cli/verify.rs:27-332`). -/
def verifyP (M : Machine) (now : Nat) (path : Path) (root : Option Path) : Proc (Res Unit) :=
  .open' path fun f0 =>
    let m := Module.new f0
    (m.getSigningBlockP M.profile path).bind fun
      | .err _ => .done (.err .verifyFailed)
      | .panic => .done .panic
      | .ok b =>
        (rootsP M root).andThen fun roots =>
        (addDigestP M.env M.profile m path .p256 DigestCtx.new).andThen fun c1 =>
        (addDigestP M.env M.profile m path .p384 c1).andThen fun c2 =>
        .done (judge M.env roots now b c2)

/-- The regions and the sum of their sizes in the digest command (`cli/digest.rs:78-88`). -/
def Opened.regionsP (p : Profile) (acc : Bytes → Bool) (path : Path) (o : Opened) : Proc (Res (List DigestRegion)) :=
  (o.digestRegionsP p acc path).andThen fun rs => .done (do
    let _ ← rs.foldlM (fun t r => uadd p t r.size) 0
    .ok rs)

/-- `execute` of the digest command without `--dump` (`cli/digest.rs:53-90,96-122`). -/
def digestP (M : Machine) (path : Path) (sha512 : Bool) (format : OutputFormat) (sections : List (List Char)) : Proc End :=
  ((openP M.acc sections path).andThen fun o =>
    (o.regionsP M.profile M.acc path).andThen fun _ =>
    (o.digestP M.env M.profile M.acc path (if sha512 then .p384 else .p256))).bind fun
  | .ok d => .done (format.render d, .ok ())
  | .err e => .done ([], .err e)
  | .panic => .done ([], .panic)

/-- `execute` of the digest command with `--dump` (`cli/digest.rs:53-94,125-164`): the input is opened, the output is created,
then the input is read. -/
def dumpP (M : Machine) (cut : Bytes → List Bytes) (input output : Path) (sections : List (List Char)) : Proc (Res Unit) :=
  (openP M.acc sections input).andThen fun o =>
  (o.regionsP M.profile M.acc input).andThen fun rs =>
  .open' input fun _ => .create output fun ok =>
    if ok then .open' input fun f =>
      let r := dumpRegions f rs
      emit cut output (r.1, if r.2 then .ok () else .err .unexpectedEof)
    else .done (.err .io)

/-- `Cli::execute` (`cli/mod.rs:52-63`). -/
def Command.proc (M : Machine) (cut : Bytes → List Bytes) (now : Nat) (clock : Option UInt64) : Command → Proc End
  | .sign input output v2 stamp sections => ending (signP M cut clock input output v2 stamp sections)
  | .verify module root => ending (verifyP M now module root)
  | .info module => ending (.open' module fun f =>
    .done ((cliInfo M.env M.profile M.builtin now f).bind fun _ => .ok ()))
  | .digest input sha512 format sections => digestP M input sha512 format sections
  | .dump input output sections => ending (dumpP M cut input output sections)

end Ksusig
