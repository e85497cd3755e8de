import Verif.Proofs.Proc

/-! # Processes under a schedule -/

namespace Ksusig

open Spec

namespace Proc

/-- The process reads these files and does nothing else. -/
def Reads {α : Type} (R : Path → Prop) : Proc α → Prop
  | .done _ => True
  | .read path k => R path ∧ ∀ x, Reads R (k x)
  | .create _ _ => False
  | .write _ _ _ _ => False

/-- The process reads these files, creates at most one file, one of those, and then writes it from its beginning on. The state is
the file created and the position reached. -/
def Lawful {α : Type} (R W : Path → Prop) : Option (Path × Nat) → Proc α → Prop
  | _, .done _ => True
  | o, .read path k => R path ∧ ∀ x, Lawful R W o (k x)
  | none, .create path k => W path ∧ Lawful R W (some (path, 0)) (k true) ∧ Lawful R W none (k false)
  | some _, .create _ _ => False
  | none, .write _ _ _ _ => False
  | some (q, n), .write path pos d k => W path ∧ path = q ∧ pos = n ∧ Lawful R W (some (q, n + d.length)) k

section

variable {α β : Type} {R W : Path → Prop}

theorem reads_bind {x : Proc α} {f : α → Proc β} (hx : Reads R x) (hf : ∀ a, Reads R (f a)) : Reads R (x.bind f) := by
  induction x with
  | done a => exact hf a
  | read path k ih => exact ⟨hx.1, fun y => ih y (hx.2 y)⟩
  | create path k ih => exact hx.elim
  | write path pos d k ih => exact hx.elim

theorem reads_andThen {x : Proc (Res α)} {f : α → Proc (Res β)} (hx : Reads R x) (hf : ∀ a, Reads R (f a)) :
    Reads R (x.andThen f) := by
  refine reads_bind hx fun a => ?_
  cases a with
  | ok a => exact hf a
  | err e => trivial
  | panic => trivial

theorem reads_open {path : Path} {k : Bytes → Proc (Res α)} (hp : R path) (hk : ∀ d, Reads R (k d)) : Reads R (open' path k) := by
  refine ⟨hp, fun x => ?_⟩
  cases x with
  | some d => exact hk d
  | none => trivial

theorem Reads.lawful {x : Proc α} (hx : Reads R x) (o : Option (Path × Nat)) : Lawful R W o x := by
  induction x with
  | done a => cases o <;> trivial
  | read path k ih => cases o <;> exact ⟨hx.1, fun y => ih y (hx.2 y)⟩
  | create path k ih => exact hx.elim
  | write path pos d k ih => exact hx.elim

theorem lawful_done {o : Option (Path × Nat)} {a : α} : Lawful R W o (.done a) := by cases o <;> trivial

theorem lawful_read {o : Option (Path × Nat)} {path : Path} {k : Option Bytes → Proc α} (hp : R path)
    (hk : ∀ x, Lawful R W o (k x)) : Lawful R W o (.read path k) := by cases o <;> exact ⟨hp, hk⟩

theorem lawful_bind {x : Proc α} {f : α → Proc β} {o : Option (Path × Nat)} (hx : Reads R x) (hf : ∀ a, Lawful R W o (f a)) :
    Lawful R W o (x.bind f) := by
  induction x with
  | done a => exact hf a
  | read path k ih => exact lawful_read hx.1 fun y => ih y (hx.2 y)
  | create path k ih => exact hx.elim
  | write path pos d k ih => exact hx.elim

theorem lawful_andThen {x : Proc (Res α)} {f : α → Proc (Res β)} {o : Option (Path × Nat)} (hx : Reads R x)
    (hf : ∀ a, Lawful R W o (f a)) : Lawful R W o (x.andThen f) := by
  refine lawful_bind hx fun a => ?_
  cases a with
  | ok a => exact hf a
  | err e => exact lawful_done
  | panic => exact lawful_done

theorem lawful_open {path : Path} {k : Bytes → Proc (Res α)} {o : Option (Path × Nat)} (hp : R path)
    (hk : ∀ d, Lawful R W o (k d)) : Lawful R W o (open' path k) := by
  refine lawful_read hp fun x => ?_
  cases x with
  | some d => exact hk d
  | none => exact lawful_done

/-- A process followed by a computation. -/
theorem lawful_end {x : Proc α} {f : α → β} {o : Option (Path × Nat)} (hx : Lawful R W o x) :
    Lawful R W o (x.bind fun a => .done (f a)) := by
  induction x generalizing o with
  | done a => exact lawful_done
  | read path k ih => cases o <;> exact ⟨hx.1, fun y => ih y (hx.2 y)⟩
  | create path k ih =>
    cases o with
    | none => exact ⟨hx.1, ih true hx.2.1, ih false hx.2.2⟩
    | some _ => exact hx.elim
  | write path pos d k ih =>
    cases o with
    | none => exact hx.elim
    | some y => exact ⟨hx.1, hx.2.1, hx.2.2.1, ih hx.2.2.2⟩

theorem lawful_writeAll {path : Path} (hW : W path) {n : Nat} {ds : List Bytes} {a : α} :
    Lawful R W (some (path, n)) (writeAll path n ds (.done a)) := by
  induction ds generalizing n with
  | nil => trivial
  | cons d ds ih => exact ⟨hW, rfl, rfl, ih⟩

end

end Proc

open Proc

/-! ## The commands are lawful -/

section

variable {R W : Path → Prop} {path : Path}

theorem reads_findEocd (h : R path) (m : Module) : Reads R (m.findEocdP path) := reads_open h fun _ => trivial

theorem reads_block (h : R path) (p : Profile) (m : Module) : Reads R (m.getSigningBlockP p path) := by
  unfold Module.getSigningBlockP
  cases m.sig with
  | some s => trivial
  | none =>
    dsimp only
    split
    · trivial
    · exact reads_andThen (reads_findEocd h m) fun _ => reads_open h fun _ => trivial

theorem reads_offsets (h : R path) (p : Profile) (m : Module) : Reads R (m.getOffsetsP p path) := by
  refine reads_andThen (reads_findEocd h m) fun _ => reads_bind (reads_block h p m) fun a => ?_
  cases a with
  | ok a => trivial
  | panic => trivial
  | err e => dsimp only; split <;> trivial

theorem reads_digest (h : R path) (E : Env) (p : Profile) (m : Module) (a : Algo) : Reads R (m.digestP E p path a) :=
  reads_open h fun _ => reads_andThen (reads_offsets h p m) fun _ => reads_open h fun _ => trivial

theorem reads_regions (h : R path) (p : Profile) (m : Module) : Reads R (m.digestRegionsP p path) :=
  reads_andThen (reads_offsets h p m) fun _ => trivial

theorem reads_raw (h : R path) (p : Profile) (m : Module) : Reads R (m.getRawModuleP p path) := by
  refine reads_open h fun d => ?_
  split
  · trivial
  · refine reads_andThen (reads_block h p m) fun sig => ?_
    split
    · trivial
    · trivial
    · exact reads_andThen (reads_findEocd h m) fun _ => trivial

theorem reads_source (h : R path) (p : Profile) (m : Module) : Reads R (m.signSourceP p path) := by
  refine reads_bind (reads_block h p m) fun a => ?_
  cases a with
  | ok a => exact reads_andThen (reads_raw h p m) fun _ => trivial
  | panic => trivial
  | err e =>
    dsimp only
    split
    · exact reads_open h fun _ => trivial
    · trivial

theorem reads_openP (h : R path) (acc : Bytes → Bool) (sections : List (List Char)) : Reads R (openP acc sections path) := by
  refine reads_open h fun d => ?_
  split
  · trivial
  · trivial
  · refine reads_open h fun d => ?_
    split <;> trivial
  · exact reads_open h fun d => trivial

theorem reads_openedRegions (h : R path) (p : Profile) (acc : Bytes → Bool) (o : Opened) : Reads R (o.digestRegionsP p acc path) := by
  cases o with
  | module m => exact reads_regions h p m
  | elf f => trivial

theorem reads_openedDigest (h : R path) (E : Env) (p : Profile) (acc : Bytes → Bool) (a : Algo) (o : Opened) :
    Reads R (o.digestP E p acc path a) := by
  cases o with
  | module m => exact reads_digest h E p m a
  | elf f => trivial

theorem reads_openedDigests (h : R path) (E : Env) (p : Profile) (acc : Bytes → Bool) (o : Opened) (as : List Algo) :
    Reads R (o.digestsP E p acc path as) := by
  induction as with
  | nil => trivial
  | cons a as ih => exact reads_andThen (reads_openedDigest h E p acc a o) fun _ => reads_andThen ih fun _ => trivial

theorem reads_load {a : CredPaths} (h : ∀ q ∈ credFiles a, R q) (K : KeyEnv) : Reads R (a.loadP K) := by
  unfold CredPaths.loadP
  cases hp : a.p12 with
  | some q =>
    dsimp only
    cases a.password with
    | none => trivial
    | some pwd =>
      refine ⟨h q (by simp [credFiles, hp]), fun x => ?_⟩
      cases x <;> trivial
  | none =>
    dsimp only
    cases hk : a.key with
    | none => trivial
    | some kq =>
      dsimp only
      cases hc : a.cert with
      | none => trivial
      | some cq =>
        refine ⟨h kq (by simp [credFiles, hk]), fun x => ?_⟩
        cases x with
        | none => trivial
        | some key =>
          refine ⟨h cq (by simp [credFiles, hc]), fun x => ?_⟩
          cases x <;> trivial

theorem reads_signer {v2 stamp : CredPaths} (h1 : ∀ q ∈ credFiles v2, R q) (h2 : ∀ q ∈ credFiles stamp, R q) (K : KeyEnv) :
    Reads R (signerP K v2 stamp) := by
  refine reads_bind (reads_load h1 K) fun a => ?_
  rcases a with e | _ | c
  · trivial
  · trivial
  · refine reads_bind (reads_load h2 K) fun a => ?_
    rcases a with e | _ | c <;> trivial

theorem lawful_emit {out : Path} (h : W out) (cut : Bytes → List Bytes) (x : Bytes × Res Unit) :
    Lawful R W (some (out, 0)) (emit cut out x) := lawful_writeAll h

theorem lawful_write {input out : Path} (h : R input) (hW : W out) (p : Profile) (acc : Bytes → Bool) (cut : Bytes → List Bytes)
    (b : SigningBlock) (o : Opened) : Lawful R W none (o.writeP p acc cut input out b) := by
  cases o with
  | module m =>
    refine ⟨hW, ?_, ?_⟩
    · exact lawful_bind (reads_source h p m) fun _ => lawful_writeAll hW
    · trivial
  | elf f => exact ⟨hW, lawful_writeAll hW, trivial⟩

theorem reads_regionsP (h : R path) (p : Profile) (acc : Bytes → Bool) (o : Opened) : Reads R (o.regionsP p acc path) :=
  reads_andThen (reads_openedRegions h p acc o) fun _ => trivial

end

/-- Every command reads the files it is told to read and writes the file it is told to write. -/
theorem command_lawful (M : Machine) (cut : Bytes → List Bytes) (now : Nat) (clock : Option UInt64) (c : Command) :
    Lawful (· ∈ inputs c) (output c = some ·) none (c.proc M cut now clock) := by
  cases c with
  | sign input out v2 stamp sections =>
    have hi : input ∈ inputs (.sign input out v2 stamp sections) := List.mem_cons_self
    refine lawful_end (f := fun r => ([], r)) (lawful_bind (reads_signer ?_ ?_ _) fun a => ?_)
    · intro q hq; exact List.mem_cons_of_mem _ (List.mem_append_left _ hq)
    · intro q hq; exact List.mem_cons_of_mem _ (List.mem_append_right _ hq)
    · cases a with
      | error e => trivial
      | ok signer =>
        refine lawful_andThen (reads_openP hi _ _) fun o => lawful_andThen (reads_openedRegions hi _ _ o) fun _ =>
          lawful_andThen (reads_openedDigests hi _ _ _ o _) fun pairs => ?_
        split
        · trivial
        · trivial
        · split
          · trivial
          · trivial
          · exact lawful_write (W := (output (.sign input out v2 stamp sections) = some ·)) hi rfl _ _ _ _ _
  | verify module root =>
    have hi : module ∈ inputs (.verify module root) := List.mem_cons_self
    refine lawful_end (f := fun r => ([], r)) (Reads.lawful ?_ none)
    refine reads_open hi fun f0 => reads_bind (reads_block hi _ _) fun a => ?_
    have had : ∀ a c, Reads (· ∈ inputs (.verify module root)) (addDigestP M.env M.profile (Module.new f0) module a c) := by
      intro a c
      refine reads_bind (reads_digest hi _ _ _ _) fun r => ?_
      cases r <;> trivial
    cases a with
    | err e => trivial
    | panic => trivial
    | ok b =>
      refine reads_andThen ?_ fun roots => reads_andThen (had _ _) fun c1 => reads_andThen (had _ _) fun c2 => trivial
      cases root with
      | none => trivial
      | some q => exact reads_open (by simp [inputs]) fun _ => trivial
  | info module =>
    refine lawful_end (f := fun r => ([], r)) (Reads.lawful ?_ none)
    exact reads_open (by simp [inputs]) fun _ => trivial
  | digest input sha512 format sections =>
    have hi : input ∈ inputs (.digest input sha512 format sections) := List.mem_cons_self
    refine Reads.lawful ?_ none
    refine reads_bind (reads_andThen (reads_openP hi _ _) fun o => reads_andThen (reads_regionsP hi _ _ o) fun _ =>
      reads_openedDigest hi _ _ _ _ o) fun r => ?_
    cases r <;> trivial
  | dump input out sections =>
    have hi : input ∈ inputs (.dump input out sections) := List.mem_cons_self
    refine lawful_end (f := fun r => ([], r)) ?_
    refine lawful_andThen (reads_openP hi _ _) fun o => lawful_andThen (reads_regionsP hi _ _ o) fun rs =>
      lawful_open hi fun _ => ⟨rfl, ?_, ?_⟩
    · exact lawful_open hi fun _ => lawful_writeAll (W := (output (.dump input out sections) = some ·)) rfl
    · trivial

/-! ## Steps of one process -/

/-- `n` operations of a process that runs alone. -/
def Proc.steps {α : Type} (M : Machine) : Nat → Fs × Proc α → Fs × Proc α
  | 0, s => s
  | n + 1, s => Proc.step M (Proc.steps M n s).1 (Proc.steps M n s).2

namespace Proc

variable {α : Type} {M : Machine}

theorem steps_succ' (n : Nat) (s : Fs × Proc α) : steps M (n + 1) s = steps M n (step M s.1 s.2) := by
  induction n with
  | zero => rfl
  | succ n ih => rw [steps, ih, steps]

theorem steps_done (n : Nat) (fs : Fs) (a : α) : steps M n (fs, .done a) = (fs, .done a) := by
  induction n with
  | zero => rfl
  | succ n ih => rw [steps, ih]; rfl

theorem steps_add (m n : Nat) (s : Fs × Proc α) : steps M (m + n) s = steps M n (steps M m s) := by
  induction n with
  | zero => rfl
  | succ n ih => rw [← Nat.add_assoc, steps, ih, steps]

/-- A process that runs alone ends after finitely many operations. -/
theorem steps_run (x : Proc α) (fs : Fs) (t : Bool) :
    ∃ n, ∀ m, n ≤ m → steps M m (fs, x) = ((run M (fs, t) x).1.1, .done (run M (fs, t) x).2) := by
  have one : ∀ {x y : Proc α} {fs fs' : Fs} {t t' : Bool}, step M fs x = (fs', y) → run M (fs, t) x = run M (fs', t') y →
      (∃ n, ∀ m, n ≤ m → steps M m (fs', y) = ((run M (fs', t') y).1.1, .done (run M (fs', t') y).2)) →
      ∃ n, ∀ m, n ≤ m → steps M m (fs, x) = ((run M (fs, t) x).1.1, .done (run M (fs, t) x).2) := by
    intro x y fs fs' t t' hs hr ⟨n, hn⟩
    refine ⟨n + 1, fun m hm => ?_⟩
    obtain ⟨m, rfl⟩ : ∃ k, m = k + 1 := ⟨m - 1, by omega⟩
    rw [steps_succ', hs, hr]
    exact hn m (by omega)
  induction x generalizing fs t with
  | done a => exact ⟨0, fun m _ => steps_done m fs a⟩
  | read path k ih => exact one rfl rfl (ih _ fs t)
  | create path k ih =>
    by_cases h : M.creatable path = true
    · exact one (by simp [step, h]) (by simp [run, h]) (ih true (fs.set path []) true)
    · exact one (by simp [step, h]) (by simp [run, h]) (ih false fs t)
  | write path pos d k ih => exact one rfl rfl (ih _ t)

variable {R W : Path → Prop}

/-- Where a lawful process is, after some of its operations. -/
def At (fs fs' : Fs) (t : Bool) : Option (Path × Nat) → Prop
  | none => fs' = fs ∧ t = false
  | some (q, n) => ∃ c : Bytes, c.length = n ∧ fs' = fs.set q c ∧ t = true

theorem step_lawful {x : Proc α} {fs0 fs : Fs} {t : Bool} {o : Option (Path × Nat)} (hx : Lawful R W o x) (h : At fs0 fs t o)
    (ho : ∀ q n, o = some (q, n) → W q) :
    ∃ t' o', Lawful R W o' (step M fs x).2 ∧ At fs0 (step M fs x).1 t' o' ∧ (∀ q n, o' = some (q, n) → W q) ∧
      run M (fs, t) x = run M ((step M fs x).1, t') (step M fs x).2 := by
  cases x with
  | done a => exact ⟨t, o, hx, h, ho, rfl⟩
  | read path k =>
    refine ⟨t, o, ?_, h, ho, rfl⟩
    cases o <;> exact hx.2 _
  | create path k =>
    cases o with
    | some _ => exact hx.elim
    | none =>
      by_cases hc : M.creatable path = true
      · refine ⟨true, some (path, 0), by simpa [step, hc] using hx.2.1, ⟨[], rfl, ?_, rfl⟩, ?_, by simp [step, run, hc]⟩
        · simp [step, hc, h.1]
        · intro q n hq; cases hq; exact hx.1
      · refine ⟨false, none, by simpa [step, hc] using hx.2.2, ⟨?_, rfl⟩, (fun q n hq => by cases hq), by simp [step, run, hc, h.2]⟩
        simp [step, hc, h.1]
  | write path pos d k =>
    cases o with
    | none => exact hx.elim
    | some y =>
      obtain ⟨q, n⟩ := y
      obtain ⟨hW, rfl, rfl, hk⟩ := hx
      obtain ⟨c, hc, rfl, rfl⟩ := h
      refine ⟨true, _, hk, ⟨c ++ d, by simp [hc], ?_, rfl⟩, ?_, rfl⟩
      · simp only [step, Fs.set_same, Option.getD_some, ← hc, writeAt_end, Fs.set_set]
      · intro q' n' hq; cases hq; exact hW

theorem steps_lawful {x : Proc α} {fs : Fs} (hx : Lawful R W none x) (n : Nat) :
    ∃ t o, Lawful R W o (steps M n (fs, x)).2 ∧ At fs (steps M n (fs, x)).1 t o ∧ (∀ q k, o = some (q, k) → W q) ∧
      run M (fs, false) x = run M ((steps M n (fs, x)).1, t) (steps M n (fs, x)).2 := by
  induction n with
  | zero => exact ⟨false, none, hx, ⟨rfl, rfl⟩, (fun q k h => by cases h), rfl⟩
  | succ n ih =>
    obtain ⟨t, o, h1, h2, h3, h4⟩ := ih
    obtain ⟨t', o', h5, h6, h7, h8⟩ := step_lawful (M := M) h1 h2 h3
    exact ⟨t', o', h5, h6, h7, h4.trans h8⟩

/-- What a process has written is the beginning of what it will have written. -/
theorem run_prefix {x : Proc α} {fs : Fs} {q : Path} {c : Bytes} (hx : Lawful R W (some (q, c.length)) x) :
    ∃ more, (run M (fs.set q c, true) x).1 = (fs.set q (c ++ more), true) := by
  induction x generalizing c with
  | done a => exact ⟨[], by simp [run]⟩
  | read path k ih => exact ih _ (hx.2 _)
  | create path k ih => exact hx.elim
  | write path pos d k ih =>
    obtain ⟨hW, rfl, rfl, hk⟩ := hx
    rw [show c.length + d.length = (c ++ d).length by simp] at hk
    obtain ⟨more, hm⟩ := ih hk
    refine ⟨d ++ more, ?_⟩
    simp only [run, Fs.set_same, Option.getD_some, writeAt_end, Fs.set_set]
    rw [hm]; simp

/-- Two file systems that agree on what the process uses. -/
theorem step_congr {x : Proc α} {o : Option (Path × Nat)} (hx : Lawful R W o x) {fs fs' : Fs} (h : ∀ q, R q ∨ W q → fs q = fs' q) :
    (step M fs x).2 = (step M fs' x).2 ∧ ∀ q, R q ∨ W q → (step M fs x).1 q = (step M fs' x).1 q := by
  cases x with
  | done a => exact ⟨rfl, h⟩
  | read path k =>
    have hR : R path := by cases o <;> exact hx.1
    simp only [step, h path (.inl hR)]
    exact ⟨trivial, h⟩
  | create path k =>
    simp only [step]
    split
    · refine ⟨rfl, fun q hq => ?_⟩
      by_cases hqp : q = path
      · simp [Fs.set, hqp]
      · simp [Fs.set, hqp, h q hq]
    · exact ⟨rfl, h⟩
  | write path pos d k =>
    have hW : W path := by
      cases o with
      | none => exact hx.elim
      | some y => exact hx.1
    simp only [step, h path (.inr hW)]
    refine ⟨trivial, fun q hq => ?_⟩
    by_cases hqp : q = path
    · simp [Fs.set, hqp]
    · simp [Fs.set, hqp, h q hq]

/-- An operation changes only what the process may write. -/
theorem step_frame {x : Proc α} {o : Option (Path × Nat)} (hx : Lawful R W o x) {fs : Fs} {q : Path} (hq : ¬ W q) :
    (step M fs x).1 q = fs q := by
  cases x with
  | done a => rfl
  | read path k => rfl
  | create path k =>
    have hW : W path := by
      cases o with
      | none => exact hx.1
      | some y => exact hx.elim
    simp only [step]
    split
    · exact Fs.set_other (fun h => hq (h ▸ hW))
    · rfl
  | write path pos d k =>
    have hW : W path := by
      cases o with
      | none => exact hx.elim
      | some y => exact hx.1
    exact Fs.set_other (fun h => hq (h ▸ hW))

end Proc

end Ksusig
