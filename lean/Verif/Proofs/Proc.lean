import Verif.SpecProc
import Verif.Proofs.Bytes

/-! # Lemmas about processes -/

namespace Ksusig

open Spec

theorem Fs.set_same (fs : Fs) (q : Path) (d : Bytes) : fs.set q d q = some d := by simp [Fs.set]

theorem Fs.set_other {fs : Fs} {q r : Path} {d : Bytes} (h : r ≠ q) : fs.set q d r = fs r := by simp [Fs.set, h]

theorem Fs.set_set (fs : Fs) (q : Path) (c d : Bytes) : (fs.set q c).set q d = fs.set q d := by
  funext r
  by_cases h : r = q <;> simp [Fs.set, h]

namespace Proc

/-- A process run to its end, alone. The flag tells whether it has created a file. -/
def run {α : Type} (M : Machine) : Fs × Bool → Proc α → (Fs × Bool) × α
  | s, .done a => (s, a)
  | s, .read path k => run M s (k (s.1 path))
  | s, .create path k => if M.creatable path then run M (s.1.set path [], true) (k true) else run M s (k false)
  | s, .write path pos d k => run M (s.1.set path (writeAt ((s.1 path).getD []) pos d), s.2) k

theorem run_bind {α β : Type} (M : Machine) (x : Proc α) (f : α → Proc β) (s : Fs × Bool) :
    run M s (x.bind f) = run M (run M s x).1 (f (run M s x).2) := by
  induction x generalizing s with
  | done a => rfl
  | read path k ih => simp only [bind, run]; exact ih _ _
  | create path k ih =>
    simp only [bind, run]
    split
    · exact ih _ _
    · exact ih _ _
  | write path pos d k ih => simp only [bind, run]; exact ih _

theorem run_andThen {α β : Type} (M : Machine) (x : Proc (Res α)) (f : α → Proc (Res β)) (s : Fs × Bool) :
    run M s (x.andThen f) = match run M s x with
      | (s', .ok a) => run M s' (f a)
      | (s', .err e) => (s', .err e)
      | (s', .panic) => (s', .panic) := by
  unfold andThen
  rw [run_bind]
  rcases run M s x with ⟨s', a | e | _⟩ <;> rfl

/-- For processes that only read. -/
theorem run_andThen_pure {α β : Type} {M : Machine} {x : Proc (Res α)} {f : α → Proc (Res β)} {s : Fs × Bool} {r : Res α}
    (h : run M s x = (s, r)) : run M s (x.andThen f) = match (generalizing := false) r with
      | .ok a => run M s (f a)
      | .err e => (s, .err e)
      | .panic => (s, .panic) := by
  rw [run_andThen, h]
  cases r <;> rfl

theorem run_open {α : Type} {M : Machine} {s : Fs × Bool} {path : Path} {d : Bytes} {k : Bytes → Proc (Res α)}
    (h : s.1 path = some d) : run M s (open' path k) = run M s (k d) := by
  simp only [open', run, h]

theorem run_open_none {α : Type} {M : Machine} {s : Fs × Bool} {path : Path} {k : Bytes → Proc (Res α)}
    (h : s.1 path = none) : run M s (open' path k) = (s, .err .io) := by
  simp only [open', run, h]

end Proc

theorem writeAt_end (c d : Bytes) : writeAt c c.length d = c ++ d := by
  unfold writeAt
  split
  · simp [*]
  · simp

theorem writeAt_writeAt (c : Bytes) (n : Nat) (a b : Bytes) : writeAt (writeAt c n a) (n + a.length) b = writeAt c n (a ++ b) := by
  by_cases ha : a = []
  · subst ha; simp [writeAt]
  by_cases hb : b = []
  · subst hb; simp [writeAt]
  have hab : a ++ b ≠ [] := by simp [ha]
  unfold writeAt
  rw [if_neg ha, if_neg hb, if_neg hab]
  have hp : (c.take n ++ List.replicate (n - c.length) (0 : UInt8) ++ a).length = n + a.length := by
    simp only [List.length_append, List.length_take, List.length_replicate]; omega
  have hd : (c.take n ++ List.replicate (n - c.length) (0 : UInt8) ++ a ++ c.drop (n + a.length)).drop (n + a.length + b.length) =
      c.drop (n + (a ++ b).length) := by
    rw [← List.drop_drop, List.drop_left' hp, List.drop_drop, List.length_append, Nat.add_assoc]
  rw [List.take_left' hp, hd]
  rw [List.length_append, hp, show n + a.length - (n + a.length + (c.drop (n + a.length)).length) = 0 by omega]
  simp


theorem Proc.run_writeAll {α : Type} (M : Machine) (path : Path) (ds : List Bytes) (k : Proc α) (fs : Fs) (t : Bool) (c : Bytes) :
    run M (fs.set path c, t) (writeAll path c.length ds k) = run M (fs.set path (c ++ ds.flatten), t) k := by
  induction ds generalizing c with
  | nil => simp [writeAll]
  | cons d ds ih =>
    simp only [writeAll, run, Fs.set_same, Option.getD_some, writeAt_end, Fs.set_set]
    rw [show c.length + d.length = (c ++ d).length by simp, ih (c ++ d)]
    simp

/-! ## Functions that only read -/

section Reading

variable {M : Machine} {s : Fs × Bool} {path : Path} {file : Bytes}

theorem findEocdP_run (h : s.1 path = some file) (m : Module) :
    Proc.run M s (m.findEocdP path) = (s, m.findEocd file) := Proc.run_open h

theorem getSigningBlockP_run (h : s.1 path = some file) (p : Profile) (m : Module) :
    Proc.run M s (m.getSigningBlockP p path) = (s, m.getSigningBlock p file) := by
  unfold Module.getSigningBlockP Module.getSigningBlock Module.getSigningBlockT
  cases m.sig with
  | some b => rfl
  | none =>
    dsimp only
    split
    · rfl
    · rw [Proc.run_andThen_pure (findEocdP_run h m)]
      cases m.findEocd file with
      | ok e => exact Proc.run_open h
      | err e => rfl
      | panic => rfl

theorem getOffsetsP_run (h : s.1 path = some file) (p : Profile) (m : Module) :
    Proc.run M s (m.getOffsetsP p path) = (s, m.getOffsets p file) := by
  unfold Module.getOffsetsP Module.getOffsets Module.getOffsetsT
  rw [Proc.run_andThen_pure (findEocdP_run h m)]
  cases m.findEocd file with
  | err e => rfl
  | panic => rfl
  | ok eocd =>
    dsimp only
    rw [Proc.run_bind, getSigningBlockP_run h, Res.ok_bind]
    show Proc.run M s _ = _
    rw [show m.getSigningBlockT p file file = m.getSigningBlock p file from rfl]
    cases m.getSigningBlock p file with
    | ok b => rfl
    | panic => rfl
    | err e =>
      dsimp only
      cases e.isMissing <;> rfl

theorem digestP_run (h : s.1 path = some file) (E : Env) (p : Profile) (m : Module) (a : Algo) :
    Proc.run M s (m.digestP E p path a) = (s, m.digest E p file a) := by
  unfold Module.digestP Module.digest Module.digestT
  rw [Proc.run_open h, Proc.run_andThen_pure (getOffsetsP_run h p m)]
  rw [show m.getOffsetsT p file file file = m.getOffsets p file from rfl]
  cases m.getOffsets p file with
  | ok o => exact Proc.run_open h
  | err e => rfl
  | panic => rfl

theorem digestRegionsP_run (h : s.1 path = some file) (p : Profile) (m : Module) :
    Proc.run M s (m.digestRegionsP p path) = (s, m.digestRegions p file) := by
  unfold Module.digestRegionsP Module.digestRegions
  rw [Proc.run_andThen_pure (getOffsetsP_run h p m)]
  cases m.getOffsets p file <;> rfl

theorem getRawModuleP_run (h : s.1 path = some file) (p : Profile) (m : Module) :
    Proc.run M s (m.getRawModuleP p path) = (s, m.getRawModule p file) := by
  unfold Module.getRawModuleP Module.getRawModule
  rw [Proc.run_open h]
  split
  · rfl
  · rw [Proc.run_andThen_pure (getSigningBlockP_run h p m)]
    cases m.getSigningBlock p file with
    | err e => rfl
    | panic => rfl
    | ok sig =>
      dsimp only
      rw [Res.ok_bind]
      cases usub p sig.fileEnd sig.fileStart with
      | err e => rfl
      | panic => rfl
      | ok n =>
        cases slice? file 0 sig.fileStart with
        | none => rfl
        | some st =>
          simp only [Res.ok_bind, Res.ofOption]
          rw [Proc.run_andThen_pure (findEocdP_run h m)]
          cases m.findEocd file <;> rfl

theorem signSourceP_run (h : s.1 path = some file) (p : Profile) (m : Module) :
    Proc.run M s (m.signSourceP p path) = (s, m.signSource p file) := by
  unfold Module.signSourceP Module.signSource
  rw [Proc.run_bind, getSigningBlockP_run h]
  cases m.getSigningBlock p file with
  | panic => rfl
  | ok b =>
    dsimp only
    rw [Proc.run_andThen_pure (getRawModuleP_run h p m)]
    cases m.getRawModule p file <;> rfl
  | err e =>
    dsimp only
    cases e.isMissing with
    | false => rfl
    | true => exact Proc.run_open h

theorem addDigestP_run (h : s.1 path = some file) (E : Env) (p : Profile) (m : Module) (a : Algo) (c : DigestCtx) :
    Proc.run M s (addDigestP E p m path a c) = (s, cliAddDigest E p m file a c) := by
  unfold addDigestP cliAddDigest
  rw [Proc.run_bind, digestP_run h]
  cases m.digest E p file a <;> rfl

end Reading

theorem signableWrite_eq (p : Profile) (m : Module) (file : Bytes) (b : SigningBlock) :
    m.signableWrite p file b = signableBytes p b (m.signSource p file) := by
  unfold Module.signableWrite signableBytes
  rcases m.signSource p file with ⟨raw, eocd⟩ | e | _ <;> rfl

theorem cliVerify_eq (E : Env) (p : Profile) (pem : Bytes) (root : Option Bytes) (now : Nat) (file : Bytes) :
    cliVerify E p pem root now file = (do
      let m := Module.new file
      let b ← (m.getSigningBlock p file).mapErr fun _ => .verifyFailed
      let roots ← cliRoots E pem root
      let c1 ← cliAddDigest E p m file .p256 DigestCtx.new
      let c2 ← cliAddDigest E p m file .p384 c1
      judge E roots now b c2) := rfl

/-! ## Commands run alone -/

theorem emit_run {M : Machine} {cut : Bytes → List Bytes} (hcut : Buffering cut) (fs : Fs) (path : Path) (x : Bytes × Res Unit) :
    Proc.run M (fs.set path [], true) (emit cut path x) = ((fs.set path x.1, true), x.2) := by
  unfold emit
  have := Proc.run_writeAll M path (cut x.1) (.done x.2) fs true []
  rw [List.length_nil, List.nil_append, hcut] at this
  rw [this]
  rfl

theorem loadP_run (M : Machine) (s : Fs × Bool) (a : CredPaths) : Proc.run M s (a.loadP M.keys) = (s, a.load M.keys s.1) := by
  unfold CredPaths.loadP CredPaths.load
  cases a.p12 with
  | some path =>
    dsimp only
    cases a.password with
    | none => rfl
    | some pwd =>
      dsimp only [Proc.run]
      cases s.1 path <;> rfl
  | none =>
    dsimp only
    cases a.key with
    | none => rfl
    | some kp =>
      dsimp only
      cases a.cert with
      | none => rfl
      | some cp =>
        dsimp only [Proc.run]
        cases s.1 kp with
        | none => rfl
        | some key =>
          dsimp only [Proc.run]
          cases s.1 cp <;> rfl

theorem signerP_run (M : Machine) (s : Fs × Bool) (v2 stamp : CredPaths) :
    Proc.run M s (signerP M.keys v2 stamp) = (s, signerFrom M.keys s.1 v2 stamp) := by
  unfold signerP signerFrom
  rw [Proc.run_bind, loadP_run]
  rcases v2.load M.keys s.1 with e | _ | c
  · rfl
  · rfl
  · dsimp only
    rw [Proc.run_bind, loadP_run]
    rcases stamp.load M.keys s.1 with e | _ | c <;> rfl

/-- What is opened is what `cliOpen` opens. -/
def Opened.of : SignableFile → Opened
  | .module m _ => .module m
  | .elf f => .elf f

/-- The file an opened module reads is the one at its path. -/
def SignableFile.At (file : Bytes) : SignableFile → Prop
  | .module m f => f = file ∧ m = Module.new file
  | .elf _ => True

theorem cliOpen_at {acc : Bytes → Bool} {sections : List (List Char)} {file : Bytes} {o : SignableFile}
    (h : cliOpen acc sections file = .ok o) : o.At file := by
  unfold cliOpen SignableFile.open at h
  obtain ⟨x, hx, h⟩ := Res.bind_eq_ok.mp h
  obtain ⟨fmt, _, hx⟩ := Res.bind_eq_ok.mp hx
  cases fmt with
  | module =>
    cases hx
    dsimp only [SignableFile.setElfSections] at h
    split at h
    · cases h; exact ⟨rfl, rfl⟩
    · cases h
  | elf =>
    obtain ⟨f, _, hx⟩ := Res.bind_eq_ok.mp hx
    cases hx
    dsimp only [SignableFile.setElfSections] at h
    split at h
    · cases h; trivial
    · split at h
      · rename_i heq
        injection heq with h1 h2
        subst h1
        cases h; trivial
      · cases h
      · cases h

theorem openP_run {M : Machine} {s : Fs × Bool} {path : Path} {file : Bytes} (h : s.1 path = some file) (acc : Bytes → Bool)
    (sections : List (List Char)) : Proc.run M s (openP acc sections path) =
      (s, (cliOpen acc sections file).bind fun o => .ok (Opened.of o)) := by
  unfold openP cliOpen SignableFile.open
  rw [Proc.run_open h]
  cases detectFileFormat file with
  | err e => rfl
  | panic => rfl
  | ok fmt =>
    simp only [Res.ok_bind]
    cases fmt with
    | module =>
      dsimp only
      rw [Proc.run_open h]
      simp only [Res.ok_bind, SignableFile.setElfSections]
      cases sections.isEmpty <;> rfl
    | elf =>
      dsimp only
      rw [Proc.run_open h]
      cases ElfFile.new acc file with
      | err e => rfl
      | panic => rfl
      | ok f =>
        simp only [Res.ok_bind, SignableFile.setElfSections, Proc.run]
        unfold cliElfSelect
        cases sections.isEmpty with
        | true => rfl
        | false =>
          simp only [Bool.false_eq_true, if_false]
          rcases f.setSignedSections sections with ⟨f', _ | e | _⟩ <;> rfl

theorem openedRegions_run {M : Machine} {s : Fs × Bool} {path : Path} {file : Bytes} (h : s.1 path = some file) {o : SignableFile}
    (ho : o.At file) : Proc.run M s ((Opened.of o).digestRegionsP M.profile M.acc path) = (s, o.digestRegions M.profile M.acc) := by
  cases o with
  | elf f => rfl
  | module m f =>
    obtain ⟨rfl, rfl⟩ := ho
    exact digestRegionsP_run h _ _

theorem openedDigest_run {M : Machine} {s : Fs × Bool} {path : Path} {file : Bytes} (h : s.1 path = some file) {o : SignableFile}
    (ho : o.At file) (a : Algo) :
    Proc.run M s ((Opened.of o).digestP M.env M.profile M.acc path a) = (s, o.digest M.env M.profile M.acc a) := by
  cases o with
  | elf f => rfl
  | module m f =>
    obtain ⟨rfl, rfl⟩ := ho
    exact digestP_run h _ _ _ _

theorem openedTotal_run {M : Machine} {s : Fs × Bool} {path : Path} {file : Bytes} (h : s.1 path = some file) {o : SignableFile}
    (ho : o.At file) : Proc.run M s ((Opened.of o).regionsP M.profile M.acc path) = (s, cliRegions M.profile M.acc o) := by
  unfold Opened.regionsP cliRegions
  rw [Proc.run_andThen_pure (openedRegions_run h ho)]
  cases o.digestRegions M.profile M.acc <;> rfl

/-- The digests of the sign command, for both kinds of file. -/
def fileDigests (M : Machine) (o : SignableFile) : List Algo → Res (List (Algo × Bytes))
  | [] => .ok []
  | a :: as => do
    let d ← o.digest M.env M.profile M.acc a
    let rest ← fileDigests M o as
    .ok ((a, d) :: rest)

theorem openedDigests_run {M : Machine} {s : Fs × Bool} {path : Path} {file : Bytes} (h : s.1 path = some file) {o : SignableFile}
    (ho : o.At file) (as : List Algo) :
    Proc.run M s ((Opened.of o).digestsP M.env M.profile M.acc path as) = (s, fileDigests M o as) := by
  induction as with
  | nil => rfl
  | cons a as ih =>
    unfold Opened.digestsP fileDigests
    rw [Proc.run_andThen_pure (openedDigest_run h ho a)]
    cases o.digest M.env M.profile M.acc a with
    | err e => rfl
    | panic => rfl
    | ok d =>
      dsimp only
      rw [Proc.run_andThen_pure ih, Res.ok_bind]
      cases fileDigests M o as <;> rfl

theorem fileDigests_module (M : Machine) (m : Module) (file : Bytes) (as : List Algo) :
    fileDigests M (.module m file) as = cliDigests M.env M.profile m file as := by
  induction as with
  | nil => rfl
  | cons a as ih => unfold fileDigests cliDigests; rw [ih]; rfl

theorem fileDigests_elf (M : Machine) (f : ElfFile) (as : List Algo) :
    fileDigests M (.elf f) as = cliElfDigests M.env M.acc f as := by
  induction as with
  | nil => rfl
  | cons a as ih => unfold fileDigests cliElfDigests; rw [ih]; rfl

/-- The end of a run as an outcome tells it. -/
def Outcome.ends (o : Outcome) (fs : Fs) : (Fs × Bool) × End := ((o.after fs, o.written.isSome), (o.printed, o.result))

theorem ends_of {M : Machine} {fs : Fs} {x : Proc (Res Unit)} {o : Outcome}
    (h : Proc.run M (fs, false) x = ((o.after fs, o.written.isSome), o.result)) (hp : o.printed = []) :
    Proc.run M (fs, false) (ending x) = o.ends fs := by
  unfold ending Outcome.ends
  rw [Proc.run_bind, h, hp]
  rfl

theorem printed_create (M : Machine) (output : Path) (x : Option Bytes × Res Unit) : (Outcome.create M output x).printed = [] := by
  rcases x with ⟨_ | d, r⟩
  · rfl
  · unfold Outcome.create
    dsimp only
    split <;> rfl

/-- The sign command up to the creation of the output. -/
def signPrepare (M : Machine) (clock : Option UInt64) (signer : ModuleSigner) (sections : List (List Char)) (file : Bytes) :
    Res (SignableFile × SigningBlock) := do
  let o ← cliOpen M.acc sections file
  let _ ← o.digestRegions M.profile M.acc
  let pairs ← fileDigests M o signer.requiredAlgorithms
  let b ← signer.sign M.env M.profile clock (Digests.new (pairs.map fun x => Digest.new x.1 x.2))
  let b ← (Opened.of o).record M.acc b
  .ok (o, b)

/-- What the sign command writes. -/
def signContent (M : Machine) (file : Bytes) (b : SigningBlock) : SignableFile → Bytes × Res Unit
  | .module m _ => m.signableWrite M.profile file b
  | .elf f => match f.writeWithSignature M.acc b with
    | .ok out => (out, .ok ())
    | .err e => ([], .err e)
    | .panic => ([], .panic)

theorem cliSign_eq (M : Machine) (clock : Option UInt64) (signer : ModuleSigner) (sections : List (List Char)) (inPlace : Bool)
    (file : Bytes) : cliSign M.env M.profile M.acc clock signer sections inPlace file =
      match signPrepare M clock signer sections file with
      | .err e => (none, .err e)
      | .panic => (none, .panic)
      | .ok (o, b) =>
        let r := signContent M (if inPlace then [] else file) b o
        (some r.1, r.2) := by
  unfold cliSign signPrepare cliOpen SignableFile.open
  cases detectFileFormat file with
  | err e => rfl
  | panic => rfl
  | ok fmt =>
    simp only [Res.ok_bind]
    cases fmt with
    | module =>
      simp only [Res.ok_bind, SignableFile.setElfSections]
      cases sections.isEmpty with
      | false => rfl
      | true =>
        simp only [if_true, Res.ok_bind, SignableFile.digestRegions]
        unfold cliSignModule
        dsimp only
        cases (Module.new file).digestRegions M.profile file with
        | err e => rfl
        | panic => rfl
        | ok rs =>
          simp only [Res.ok_bind]
          rw [fileDigests_module]
          cases cliDigests M.env M.profile (Module.new file) file signer.requiredAlgorithms with
          | err e => rfl
          | panic => rfl
          | ok pairs =>
            simp only [Res.ok_bind]
            cases signer.sign M.env M.profile clock (Digests.new (pairs.map fun x => Digest.new x.1 x.2)) <;> rfl
    | elf =>
      cases ElfFile.new M.acc file with
      | err e => rfl
      | panic => rfl
      | ok f =>
        simp only [Res.ok_bind, SignableFile.setElfSections]
        have key : ∀ g : ElfFile, (match (do
              let b ← cliElfBlock M.env M.profile M.acc clock signer g
              .ok (g, b) : Res (ElfFile × SigningBlock)) with
            | .err e => (none, .err e)
            | .panic => (none, .panic)
            | .ok (f, b) =>
              match f.writeWithSignature M.acc b with
              | .ok out => (some out, .ok ())
              | .err e => (some [], .err e)
              | .panic => (some [], .panic) : Option Bytes × Res Unit) =
            match (do
              let _ ← (SignableFile.elf g).digestRegions M.profile M.acc
              let pairs ← fileDigests M (.elf g) signer.requiredAlgorithms
              let b ← signer.sign M.env M.profile clock (Digests.new (pairs.map fun x => Digest.new x.1 x.2))
              let b ← (Opened.of (.elf g)).record M.acc b
              .ok (.elf g, b) : Res (SignableFile × SigningBlock)) with
            | .err e => (none, .err e)
            | .panic => (none, .panic)
            | .ok (o, b) =>
              let r := signContent M (if inPlace then [] else file) b o
              (some r.1, r.2) := by
          intro g
          unfold cliElfBlock
          rw [fileDigests_elf]
          simp only [SignableFile.digestRegions]
          cases g.digestRegions M.acc with
          | err e => rfl
          | panic => rfl
          | ok rs =>
            simp only [Res.ok_bind]
            cases cliElfDigests M.env M.acc g signer.requiredAlgorithms with
            | err e => rfl
            | panic => rfl
            | ok pairs =>
              simp only [Res.ok_bind]
              cases signer.sign M.env M.profile clock (Digests.new (pairs.map fun x => Digest.new x.1 x.2)) with
              | err e => rfl
              | panic => rfl
              | ok b =>
                simp only [Res.ok_bind, Opened.of, Opened.record]
                cases g.resolvedSections M.acc with
                | err e => rfl
                | panic => rfl
                | ok l =>
                  simp only [Res.ok_bind, signContent]
                  split <;> simp_all
        unfold cliElfSelect
        cases sections.isEmpty with
        | true => exact key f
        | false =>
          simp only [Bool.false_eq_true, if_false]
          rcases f.setSignedSections sections with ⟨f', _ | e | _⟩
          · exact key f'
          · rfl
          · rfl

theorem write_run {M : Machine} {cut : Bytes → List Bytes} (hcut : Buffering cut) {fs : Fs} {input output : Path} {file : Bytes}
    (h : fs input = some file) {o : SignableFile} (ho : o.At file) (b : SigningBlock) :
    Proc.run M (fs, false) ((Opened.of o).writeP M.profile M.acc cut input output b) =
      if M.creatable output then
        let r := signContent M (if decide (output = input) = true then [] else file) b o
        ((fs.set output r.1, true), r.2)
      else ((fs, false), .err .io) := by
  cases o with
  | elf f =>
    simp only [Opened.of, Opened.writeP, Proc.run]
    split
    · exact emit_run hcut fs output _
    · rfl
  | module m g =>
    obtain ⟨rfl, rfl⟩ := ho
    simp only [Opened.of, Opened.writeP, Proc.run]
    split
    · have hi : (fs.set output []) input = some (if decide (output = input) = true then [] else g) := by
        by_cases hio : output = input
        · subst hio; simp [Fs.set]
        · have : input ≠ output := fun h => hio h.symm
          simp [Fs.set, hio, this, h]
      simp only [if_true]
      rw [Proc.run_bind, signSourceP_run (s := (fs.set output [], true)) hi]
      dsimp only
      rw [emit_run hcut, ← signableWrite_eq]
      rfl
    · rfl

theorem sign_run {M : Machine} {cut : Bytes → List Bytes} (hcut : Buffering cut) (fs : Fs) (clock : Option UInt64)
    (input output : Path) (v2 stamp : CredPaths) (sections : List (List Char)) (now : Nat) :
    Proc.run M (fs, false) (Command.proc M cut now clock (.sign input output v2 stamp sections)) =
      (Command.exec M now clock fs (.sign input output v2 stamp sections)).ends fs := by
  unfold Command.proc
  refine ends_of ?_ ?_
  case refine_2 =>
    unfold Command.exec
    dsimp only
    cases signerFrom M.keys fs v2 stamp with
    | error e => rfl
    | ok signer => cases fs input with
      | none => rfl
      | some file => exact printed_create _ _ _
  unfold signP Command.exec
  rw [Proc.run_bind, signerP_run]
  dsimp only
  cases signerFrom M.keys fs v2 stamp with
  | error e => rfl
  | ok signer =>
    dsimp only
    cases hf : fs input with
    | none =>
      have : Proc.run M (fs, false) (openP M.acc sections input) = ((fs, false), .err .io) := Proc.run_open_none hf
      rw [Proc.run_andThen_pure this]
      rfl
    | some file =>
      dsimp only
      rw [cliSign_eq, Proc.run_andThen_pure (openP_run (M := M) (s := (fs, false)) hf M.acc sections)]
      unfold signPrepare
      cases hopen : cliOpen M.acc sections file with
      | err e => rfl
      | panic => rfl
      | ok o =>
        have ho := cliOpen_at hopen
        dsimp only [Res.bind, Bind.bind]
        rw [Proc.run_andThen_pure (openedRegions_run (M := M) (s := (fs, false)) hf ho)]
        cases o.digestRegions M.profile M.acc with
        | err e => rfl
        | panic => rfl
        | ok rs =>
          dsimp only
          rw [Proc.run_andThen_pure (openedDigests_run (M := M) (s := (fs, false)) hf ho _)]
          cases fileDigests M o signer.requiredAlgorithms with
          | err e => rfl
          | panic => rfl
          | ok pairs =>
            dsimp only
            cases signer.sign M.env M.profile clock (Digests.new (pairs.map fun x => Digest.new x.1 x.2)) with
            | err e => rfl
            | panic => rfl
            | ok b =>
              dsimp only
              cases (Opened.of o).record M.acc b with
              | err e => rfl
              | panic => rfl
              | ok b =>
                dsimp only
                rw [write_run hcut hf ho b]
                dsimp only [Outcome.create]
                split <;> rfl

theorem verify_run (M : Machine) (cut : Bytes → List Bytes) (fs : Fs) (clock : Option UInt64) (path : Path) (root : Option Path)
    (now : Nat) : Proc.run M (fs, false) (Command.proc M cut now clock (.verify path root)) =
      (Command.exec M now clock fs (.verify path root)).ends fs := by
  unfold Command.proc
  refine ends_of ?_ ?_
  case refine_2 =>
    unfold Command.exec
    dsimp only
    cases fs path with
    | none => rfl
    | some file => cases root with
      | none => rfl
      | some rp => dsimp only; cases fs rp <;> rfl
  unfold verifyP Command.exec
  dsimp only
  cases hf : fs path with
  | none => rw [Proc.run_open_none hf]; rfl
  | some file =>
    rw [Proc.run_open (s := (fs, false)) hf]
    dsimp only
    rw [Proc.run_bind, getSigningBlockP_run (s := (fs, false)) hf]
    have tail : ∀ (b : SigningBlock) (roots : Roots),
        Proc.run M (fs, false) ((addDigestP M.env M.profile (Module.new file) path .p256 DigestCtx.new).andThen fun c1 =>
          (addDigestP M.env M.profile (Module.new file) path .p384 c1).andThen fun c2 => .done (judge M.env roots now b c2)) =
        ((fs, false), do
          let c1 ← cliAddDigest M.env M.profile (Module.new file) file .p256 DigestCtx.new
          let c2 ← cliAddDigest M.env M.profile (Module.new file) file .p384 c1
          judge M.env roots now b c2) := by
      intro b roots
      rw [Proc.run_andThen_pure (addDigestP_run (s := (fs, false)) hf _ _ _ _ _)]
      cases cliAddDigest M.env M.profile (Module.new file) file .p256 DigestCtx.new with
      | err e => rfl
      | panic => rfl
      | ok c1 =>
        dsimp only
        rw [Proc.run_andThen_pure (addDigestP_run (s := (fs, false)) hf _ _ _ _ _), Res.ok_bind]
        cases cliAddDigest M.env M.profile (Module.new file) file .p384 c1 <;> rfl
    cases root with
    | none =>
      dsimp only
      rw [cliVerify_eq]
      dsimp only
      cases (Module.new file).getSigningBlock M.profile file with
      | err e => rfl
      | panic => rfl
      | ok b =>
        simp only [rootsP]
        rw [Proc.run_andThen_pure (r := cliRoots M.env M.builtin none) rfl]
        cases cliRoots M.env M.builtin none with
        | err e => rfl
        | panic => rfl
        | ok roots =>
          dsimp only
          rw [tail]
          rfl
    | some rp =>
      dsimp only
      cases hr : fs rp with
      | none =>
        cases (Module.new file).getSigningBlock M.profile file with
        | err e => rfl
        | panic => rfl
        | ok b =>
          simp only [rootsP]
          rw [Proc.run_andThen_pure (r := .err .io) (Proc.run_open_none hr)]
          rfl
      | some pem =>
        dsimp only
        rw [cliVerify_eq]
        dsimp only
        cases (Module.new file).getSigningBlock M.profile file with
        | err e => rfl
        | panic => rfl
        | ok b =>
          simp only [rootsP]
          rw [Proc.run_andThen_pure (r := cliRoots M.env M.builtin (some pem)) (Proc.run_open (s := (fs, false)) hr)]
          cases cliRoots M.env M.builtin (some pem) with
          | err e => rfl
          | panic => rfl
          | ok roots =>
            dsimp only
            rw [tail]
            rfl

theorem info_run (M : Machine) (cut : Bytes → List Bytes) (fs : Fs) (clock : Option UInt64) (path : Path) (now : Nat) :
    Proc.run M (fs, false) (Command.proc M cut now clock (.info path)) = (Command.exec M now clock fs (.info path)).ends fs := by
  unfold Command.proc ending Command.exec
  dsimp only
  rw [Proc.run_bind]
  cases hf : fs path with
  | none => rw [Proc.run_open_none hf]; rfl
  | some file => rw [Proc.run_open (s := (fs, false)) hf]; rfl

theorem digest_run (M : Machine) (cut : Bytes → List Bytes) (fs : Fs) (clock : Option UInt64) (path : Path) (sha512 : Bool)
    (format : OutputFormat) (sections : List (List Char)) (now : Nat) :
    Proc.run M (fs, false) (Command.proc M cut now clock (.digest path sha512 format sections)) =
      (Command.exec M now clock fs (.digest path sha512 format sections)).ends fs := by
  have inner : ∀ file, fs path = some file → Proc.run M (fs, false) ((openP M.acc sections path).andThen fun o =>
      (o.regionsP M.profile M.acc path).andThen fun _ =>
      (o.digestP M.env M.profile M.acc path (if sha512 then .p384 else .p256))) =
      ((fs, false), do
        let o ← cliOpen M.acc sections file
        let _ ← cliRegions M.profile M.acc o
        o.digest M.env M.profile M.acc (if sha512 then .p384 else .p256)) := by
    intro file hf
    rw [Proc.run_andThen_pure (openP_run (M := M) (s := (fs, false)) hf M.acc sections)]
    cases hopen : cliOpen M.acc sections file with
    | err e => rfl
    | panic => rfl
    | ok o =>
      have ho := cliOpen_at hopen
      dsimp only [Res.bind, Bind.bind]
      rw [Proc.run_andThen_pure (openedTotal_run (M := M) (s := (fs, false)) hf ho)]
      cases cliRegions M.profile M.acc o with
      | err e => rfl
      | panic => rfl
      | ok rs => exact openedDigest_run (s := (fs, false)) hf ho _
  unfold Command.proc digestP Command.exec
  dsimp only
  rw [Proc.run_bind]
  cases hf : fs path with
  | none =>
    have : Proc.run M (fs, false) (openP M.acc sections path) = ((fs, false), .err .io) := Proc.run_open_none hf
    rw [Proc.run_andThen_pure this]
    rfl
  | some file =>
    rw [inner file hf]
    unfold cliDigest
    dsimp only
    cases cliOpen M.acc sections file with
    | err e => rfl
    | panic => rfl
    | ok o =>
      simp only [Res.ok_bind]
      cases cliRegions M.profile M.acc o with
      | err e => rfl
      | panic => rfl
      | ok rs =>
        simp only [Res.ok_bind]
        cases o.digest M.env M.profile M.acc (if sha512 = true then Algo.p384 else Algo.p256) <;> rfl

theorem dump_run {M : Machine} {cut : Bytes → List Bytes} (hcut : Buffering cut) (fs : Fs) (clock : Option UInt64)
    (input output : Path) (sections : List (List Char)) (now : Nat) :
    Proc.run M (fs, false) (Command.proc M cut now clock (.dump input output sections)) =
      (Command.exec M now clock fs (.dump input output sections)).ends fs := by
  unfold Command.proc
  refine ends_of ?_ ?_
  case refine_2 =>
    unfold Command.exec
    dsimp only
    cases fs input with
    | none => rfl
    | some file => exact printed_create _ _ _
  unfold dumpP Command.exec
  dsimp only
  cases hf : fs input with
  | none =>
    have : Proc.run M (fs, false) (openP M.acc sections input) = ((fs, false), .err .io) := Proc.run_open_none hf
    rw [Proc.run_andThen_pure this]
    rfl
  | some file =>
    rw [Proc.run_andThen_pure (openP_run (M := M) (s := (fs, false)) hf M.acc sections)]
    dsimp only
    unfold cliDump
    dsimp only [Res.bind, Bind.bind]
    cases hopen : cliOpen M.acc sections file with
    | err e => rfl
    | panic => rfl
    | ok o =>
      have ho := cliOpen_at hopen
      dsimp only
      rw [Proc.run_andThen_pure (openedTotal_run (M := M) (s := (fs, false)) hf ho)]
      cases cliRegions M.profile M.acc o with
      | err e => rfl
      | panic => rfl
      | ok rs =>
        dsimp only
        rw [Proc.run_open (s := (fs, false)) hf]
        simp only [Proc.run, Outcome.create]
        split
        · have hi : (fs.set output []) input = some (if decide (output = input) = true then [] else file) := by
            by_cases hio : output = input
            · subst hio; simp [Fs.set]
            · have : input ≠ output := fun h => hio h.symm
              simp [Fs.set, hio, this, hf]
          simp only [if_true]
          rw [Proc.run_open (s := (fs.set output [], true)) hi]
          rw [emit_run hcut]
          rfl
        · rfl

/-- A command run alone does what `Command.exec` says. -/
theorem command_run {M : Machine} {cut : Bytes → List Bytes} (hcut : Buffering cut) (now : Nat) (clock : Option UInt64) (fs : Fs)
    (c : Command) : Proc.run M (fs, false) (c.proc M cut now clock) = (c.exec M now clock fs).ends fs := by
  cases c with
  | sign input output v2 stamp sections => exact sign_run hcut fs clock input output v2 stamp sections now
  | verify path root => exact verify_run M cut fs clock path root now
  | info path => exact info_run M cut fs clock path now
  | digest path sha512 format sections => exact digest_run M cut fs clock path sha512 format sections now
  | dump input output sections => exact dump_run hcut fs clock input output sections now

end Ksusig
