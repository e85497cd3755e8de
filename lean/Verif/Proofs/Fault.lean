import Verif.SpecFault
import Verif.Proofs.Schedule

/-!
# Input and output errors

`Fails Q x`: whatever `x` reads, its result satisfies `Q`. `Strict Q x`: as soon as an operation of `x` fails, its result
satisfies `Q`.
-/

namespace Ksusig

open Spec

namespace Proc

/-- Whatever happens, the result satisfies `Q`. -/
def Fails {α : Type} (Q : α → Prop) : Proc α → Prop
  | .done a => Q a
  | .read _ k => ∀ x, Fails Q (k x)
  | .create _ k => ∀ b, Fails Q (k b)
  | .write _ _ _ k => Fails Q k

/-- If an operation fails, the result satisfies `Q`. -/
def Strict {α : Type} (Q : α → Prop) : Proc α → Prop
  | .done _ => True
  | .read _ k => Fails Q (k none) ∧ ∀ d, Strict Q (k (some d))
  | .create _ k => Fails Q (k false) ∧ Strict Q (k true)
  | .write _ _ _ k => Strict Q k

section

variable {α β : Type} {Q : α → Prop} {Q' : β → Prop}

theorem Fails.bind {x : Proc α} {f : α → Proc β} (hx : Fails Q x) (hf : ∀ a, Q a → Fails Q' (f a)) : Fails Q' (x.bind f) := by
  induction x with
  | done a => exact hf a hx
  | read path k ih => exact fun y => ih y (hx y)
  | create path k ih => exact fun y => ih y (hx y)
  | write path pos d k ih => exact ih hx

theorem Strict.bind {x : Proc α} {f : α → Proc β} (hx : Strict Q x) (hq : ∀ a, Q a → Fails Q' (f a))
    (hf : ∀ a, Strict Q' (f a)) : Strict Q' (x.bind f) := by
  induction x with
  | done a => exact hf a
  | read path k ih => exact ⟨hx.1.bind hq, fun d => ih (some d) (hx.2 d)⟩
  | create path k ih => exact ⟨hx.1.bind hq, ih true hx.2⟩
  | write path pos d k ih => exact ih hx

end

/-- An error, other than that there is no block. -/
def Bad {α : Type} (r : Res α) : Prop := ∃ e, r = .err e ∧ e.isMissing = false

section

variable {α β : Type}

theorem bad_done {e : Err} (h : e.isMissing = false) : Fails (Bad (α := α)) (.done (.err e)) := ⟨e, rfl, h⟩

theorem Strict.andThen {x : Proc (Res α)} {f : α → Proc (Res β)} (hx : Strict Bad x) (hf : ∀ a, Strict Bad (f a)) :
    Strict Bad (x.andThen f) := by
  refine hx.bind (fun a ha => ?_) fun a => ?_
  · obtain ⟨e, rfl, he⟩ := ha
    exact bad_done he
  · cases a with
    | ok a => exact hf a
    | err e => trivial
    | panic => trivial

theorem strict_open {path : Path} {k : Bytes → Proc (Res α)} (hk : ∀ d, Strict Bad (k d)) : Strict Bad (open' path k) :=
  ⟨bad_done rfl, hk⟩

theorem strict_writeAll {Q : α → Prop} {path : Path} {n : Nat} {ds : List Bytes} {a : α} :
    Strict Q (writeAll path n ds (.done a)) := by
  induction ds generalizing n with
  | nil => trivial
  | cons d ds ih => exact ih

end

end Proc

open Proc

section

variable {path : Path}

theorem strict_findEocd (m : Module) : Strict Bad (m.findEocdP path) := strict_open fun _ => trivial

theorem strict_block (p : Profile) (m : Module) : Strict Bad (m.getSigningBlockP p path) := by
  unfold Module.getSigningBlockP
  cases m.sig with
  | some s => trivial
  | none =>
    dsimp only
    split
    · trivial
    · exact (strict_findEocd m).andThen fun _ => strict_open fun _ => trivial

theorem strict_offsets (p : Profile) (m : Module) : Strict Bad (m.getOffsetsP p path) := by
  refine (strict_findEocd m).andThen fun _ => (strict_block p m).bind (fun a ha => ?_) fun a => ?_
  · obtain ⟨e, rfl, he⟩ := ha
    dsimp only
    rw [he]
    exact bad_done rfl
  · cases a with
    | ok a => trivial
    | panic => trivial
    | err e => dsimp only; split <;> trivial

theorem strict_digest (E : Env) (p : Profile) (m : Module) (a : Algo) : Strict Bad (m.digestP E p path a) :=
  strict_open fun _ => (strict_offsets p m).andThen fun _ => strict_open fun _ => trivial

theorem strict_regions (p : Profile) (m : Module) : Strict Bad (m.digestRegionsP p path) :=
  (strict_offsets p m).andThen fun _ => trivial

theorem strict_raw (p : Profile) (m : Module) : Strict Bad (m.getRawModuleP p path) := by
  refine strict_open fun d => ?_
  split
  · trivial
  · refine (strict_block p m).andThen fun s => ?_
    split
    · trivial
    · trivial
    · exact (strict_findEocd m).andThen fun _ => trivial

theorem strict_source (p : Profile) (m : Module) : Strict Bad (m.signSourceP p path) := by
  refine (strict_block p m).bind (fun a ha => ?_) fun a => ?_
  · obtain ⟨e, rfl, he⟩ := ha
    dsimp only
    rw [he]
    exact bad_done rfl
  · cases a with
    | ok a => exact (strict_raw p m).andThen fun _ => trivial
    | panic => trivial
    | err e =>
      dsimp only
      split
      · exact strict_open fun _ => trivial
      · trivial

theorem strict_openP (acc : Bytes → Bool) (sections : List (List Char)) : Strict Bad (openP acc sections path) := by
  refine strict_open fun d => ?_
  split
  · trivial
  · trivial
  · refine strict_open fun f => ?_
    split <;> trivial
  · exact strict_open fun f => trivial

theorem strict_openedRegions (p : Profile) (acc : Bytes → Bool) (o : Opened) : Strict Bad (o.digestRegionsP p acc path) := by
  cases o with
  | module m => exact strict_regions p m
  | elf f => trivial

theorem strict_openedDigest (E : Env) (p : Profile) (acc : Bytes → Bool) (a : Algo) (o : Opened) :
    Strict Bad (o.digestP E p acc path a) := by
  cases o with
  | module m => exact strict_digest E p m a
  | elf f => trivial

theorem strict_openedDigests (E : Env) (p : Profile) (acc : Bytes → Bool) (o : Opened) (as : List Algo) :
    Strict Bad (o.digestsP E p acc path as) := by
  induction as with
  | nil => trivial
  | cons a as ih => exact (strict_openedDigest E p acc a o).andThen fun _ => ih.andThen fun _ => trivial

/-- Loading credentials fails. -/
def BadKey {α : Type} (r : Except KErr α) : Prop := ∃ e, r = .error e

theorem strict_load (a : CredPaths) (K : KeyEnv) : Strict BadKey (a.loadP K) := by
  unfold CredPaths.loadP
  split
  · split
    · trivial
    · exact ⟨⟨_, rfl⟩, fun _ => trivial⟩
  · split
    · split
      · trivial
      · exact ⟨⟨_, rfl⟩, fun _ => ⟨⟨_, rfl⟩, fun _ => trivial⟩⟩
    · trivial

theorem strict_signer (v2 stamp : CredPaths) (K : KeyEnv) : Strict BadKey (signerP K v2 stamp) := by
  refine (strict_load v2 K).bind (fun a ha => ?_) fun a => ?_
  · obtain ⟨e, rfl⟩ := ha
    exact ⟨e, rfl⟩
  · match a with
    | .error e => trivial
    | .ok none => trivial
    | .ok (some c) =>
      refine (strict_load stamp K).bind (fun a ha => ?_) fun a => ?_
      · obtain ⟨e, rfl⟩ := ha
        exact ⟨e, rfl⟩
      · match a with
        | .error e => trivial
        | .ok none => trivial
        | .ok (some c) => trivial

theorem strict_emit {out : Path} (cut : Bytes → List Bytes) (x : Bytes × Res Unit) : Strict Bad (emit cut out x) := strict_writeAll

theorem strict_write {input out : Path} (p : Profile) (acc : Bytes → Bool) (cut : Bytes → List Bytes) (b : SigningBlock)
    (o : Opened) : Strict Bad (o.writeP p acc cut input out b) := by
  cases o with
  | module m =>
    refine ⟨bad_done rfl, ?_⟩
    refine (strict_source p m).bind (fun a ha => ?_) fun a => strict_emit _ _
    obtain ⟨e, rfl, he⟩ := ha
    have : ∀ n (ds : List Bytes), Fails Bad (writeAll out n ds (.done (.err e : Res Unit))) := by
      intro n ds
      induction ds generalizing n with
      | nil => exact bad_done he
      | cons d ds ih => exact ih _
    exact this _ _
  | elf f => exact ⟨bad_done rfl, strict_emit _ _⟩

theorem strict_regionsP (p : Profile) (acc : Bytes → Bool) (o : Opened) : Strict Bad (o.regionsP p acc path) :=
  (strict_openedRegions p acc o).andThen fun _ => trivial

theorem strict_ending {x : Proc (Res Unit)} (h : Strict Bad x) : Strict (fun e : End => e.status = 1) (ending x) := by
  refine h.bind (fun a ha => ?_) fun a => trivial
  obtain ⟨e, rfl, _⟩ := ha
  rfl

/-- Every command but verify: an error is an error. -/
theorem command_strict (M : Machine) (cut : Bytes → List Bytes) (now : Nat) (clock : Option UInt64) (c : Command)
    (hc : ∀ module root, c ≠ .verify module root) :
    Strict (fun e : End => e.status = 1) (c.proc M cut now clock) := by
  cases c with
  | sign input output v2 stamp sections =>
    refine strict_ending ((strict_signer v2 stamp M.keys).bind (fun a ha => ?_) fun a => ?_)
    · obtain ⟨e, rfl⟩ := ha
      exact bad_done rfl
    · cases a with
      | error e => trivial
      | ok signer =>
        refine (strict_openP _ _).andThen fun o => (strict_openedRegions _ _ o).andThen fun _ =>
          (strict_openedDigests _ _ _ o _).andThen fun pairs => ?_
        split
        · trivial
        · trivial
        · split
          · trivial
          · trivial
          · exact strict_write _ _ _ _ o
  | verify module root => exact absurd rfl (hc module root)
  | info module => exact strict_ending (strict_open fun _ => trivial)
  | digest input sha512 format sections =>
    refine ((strict_openP _ _).andThen fun o => (strict_regionsP _ _ o).andThen fun _ => strict_openedDigest _ _ _ _ o).bind
      (fun a ha => ?_) fun a => ?_
    · obtain ⟨e, rfl, _⟩ := ha
      rfl
    · cases a <;> trivial
  | dump input output sections =>
    refine strict_ending ((strict_openP _ _).andThen fun o => (strict_regionsP _ _ o).andThen fun rs =>
      strict_open fun _ => ⟨bad_done rfl, strict_open fun _ => strict_emit _ _⟩)

end

/-! ## Runs -/

theorem faultyRun_done (M : Machine) (faults : List (Option Bytes)) (fs : Fs) (e : End) :
    faultyRun M faults (fs, .done e) = (fs, .done e) := by
  induction faults with
  | nil => rfl
  | cons f faults ih => cases f <;> exact ih

theorem faultyRun_append (M : Machine) (a b : List (Option Bytes)) (s : Fs × Proc End) :
    faultyRun M (a ++ b) s = faultyRun M b (faultyRun M a s) := by
  induction a generalizing s with
  | nil => rfl
  | cons f a ih => cases f <;> exact ih _

theorem fails_run {M : Machine} {Q : End → Prop} (hQ : Q ([], .err .io)) {x : Proc End} (hx : Fails Q x) (faults : List (Option Bytes))
    {fs fs' : Fs} {e : End} (h : faultyRun M faults (fs, x) = (fs', .done e)) : Q e := by
  induction faults generalizing fs x with
  | nil => cases h; exact hx
  | cons f faults ih =>
    cases f with
    | none =>
      cases x with
      | done a => exact ih (x := .done a) hx h
      | read path k => exact ih (hx _) h
      | create path k =>
        simp only [faultyRun, step] at h
        split at h
        · exact ih (hx _) h
        · exact ih (hx _) h
      | write path pos d k => exact ih (x := k) hx h
    | some left =>
      cases x with
      | done a => exact ih (x := .done a) hx h
      | read path k => exact ih (hx _) h
      | create path k => exact ih (hx _) h
      | write path pos d k => exact ih (x := .done ([], .err .io)) hQ h

/-- A strict process ends as if nothing had failed, or with an error. -/
theorem strict_run {M : Machine} {Q : End → Prop} (hQ : Q ([], .err .io)) {x : Proc End} (hx : Strict Q x)
    (faults : List (Option Bytes)) {fs fs' : Fs} {e : End} (h : faultyRun M faults (fs, x) = (fs', .done e)) :
    Q e ∨ ∃ n, steps M n (fs, x) = (fs', .done e) := by
  induction faults generalizing fs x with
  | nil => exact .inr ⟨0, h⟩
  | cons f faults ih =>
    have next : ∀ {y : Proc End} {g : Fs}, step M fs x = (g, y) → Strict Q y → faultyRun M faults (g, y) = (fs', .done e) →
        Q e ∨ ∃ n, steps M n (fs, x) = (fs', .done e) := by
      intro y g hs hy h'
      rcases ih hy h' with hq | ⟨n, hn⟩
      · exact .inl hq
      · exact .inr ⟨n + 1, by rw [steps_succ']; dsimp only; rw [hs]; exact hn⟩
    cases f with
    | none =>
      cases x with
      | done a => exact next (y := .done a) rfl trivial h
      | read path k =>
        cases hp : fs path with
        | some d => exact next (y := k (some d)) (g := fs) (by simp only [step, hp]) (hx.2 d) (by simpa only [faultyRun, step, hp] using h)
        | none =>
          refine .inl (fails_run hQ hx.1 faults (fs := fs) (fs' := fs') ?_ (M := M))
          simpa only [faultyRun, step, hp] using h
      | create path k =>
        by_cases hp : M.creatable path = true
        · exact next (y := k true) (g := fs.set path []) (by simp only [step, hp, if_true]) hx.2 (by simpa only [faultyRun, step, hp, if_true] using h)
        · refine .inl (fails_run hQ hx.1 faults (fs := fs) (fs' := fs') ?_ (M := M))
          simpa only [faultyRun, step, if_neg hp] using h
      | write path pos d k => exact next rfl hx h
    | some left =>
      cases x with
      | done a => exact next (y := .done a) rfl trivial h
      | read path k => exact .inl (fails_run hQ hx.1 faults h)
      | create path k => exact .inl (fails_run hQ hx.1 faults h)
      | write path pos d k => exact .inl (fails_run (x := .done ([], .err .io)) hQ hQ faults h)

/-- A strict process in which something has failed ends with an error. -/
theorem strict_hit {M : Machine} {Q : End → Prop} (hQ : Q ([], .err .io)) {x : Proc End} (hx : Strict Q x)
    {before after : List (Option Bytes)} {left : Bytes} {fs g fs' : Fs} {y : Proc End} {e : End}
    (hb : faultyRun M before (fs, x) = (g, y)) (hy : ∀ e, y ≠ .done e)
    (h : faultyRun M (before ++ some left :: after) (fs, x) = (fs', .done e)) : Q e := by
  induction before generalizing fs x with
  | nil =>
    obtain ⟨rfl, rfl⟩ : fs = g ∧ x = y := Prod.mk.inj hb
    cases x with
    | done a => exact absurd rfl (hy a)
    | read path k => exact fails_run hQ hx.1 after h
    | create path k => exact fails_run hQ hx.1 after h
    | write path pos d k => exact fails_run (x := .done ([], .err .io)) hQ hQ after h
  | cons f before ih =>
    cases f with
    | none =>
      cases x with
      | done a => rw [faultyRun_done] at hb; cases hb; exact absurd rfl (hy a)
      | read path k =>
        cases hp : fs path with
        | some d =>
          refine ih (hx.2 d) (fs := fs) ?_ ?_
          · simpa only [faultyRun, step, hp] using hb
          · simpa only [List.cons_append, faultyRun, step, hp] using h
        | none =>
          refine fails_run hQ hx.1 (before ++ some left :: after) (fs := fs) (fs' := fs') (M := M) ?_
          simpa only [List.cons_append, faultyRun, step, hp] using h
      | create path k =>
        by_cases hp : M.creatable path = true
        · refine ih hx.2 (fs := fs.set path []) ?_ ?_
          · simpa only [faultyRun, step, hp, if_true] using hb
          · simpa only [List.cons_append, faultyRun, step, hp, if_true] using h
        · refine fails_run hQ hx.1 (before ++ some left :: after) (fs := fs) (fs' := fs') (M := M) ?_
          simpa only [List.cons_append, faultyRun, step, if_neg hp] using h
      | write path pos d k => exact ih (x := k) hx hb h
    | some l =>
      cases x with
      | done a => rw [faultyRun_done] at hb; cases hb; exact absurd rfl (hy a)
      | read path k => exact fails_run hQ hx.1 (before ++ some left :: after) h
      | create path k => exact fails_run hQ hx.1 (before ++ some left :: after) h
      | write path pos d k => exact fails_run (x := .done ([], .err .io)) hQ hQ (before ++ some left :: after) h

/-- Nothing else is touched, whatever fails. -/
theorem faulty_frame {M : Machine} {R W : Path → Prop} {x : Proc End} {o : Option (Path × Nat)} (hx : Lawful R W o x)
    (faults : List (Option Bytes)) {fs : Fs} {q : Path} (hq : ¬ W q) : (faultyRun M faults (fs, x)).1 q = fs q := by
  induction faults generalizing fs x o with
  | nil => rfl
  | cons f faults ih =>
    cases f with
    | none =>
      cases x with
      | done a => exact ih (o := o) (x := .done a) lawful_done
      | read path k => exact ih (o := o) (by cases o <;> exact hx.2 _)
      | create path k =>
        cases o with
        | some _ => exact hx.elim
        | none =>
          simp only [faultyRun, step]
          split
          · rw [ih hx.2.1]
            exact Fs.set_other fun he => hq (he ▸ hx.1)
          · exact ih hx.2.2
      | write path pos d k =>
        cases o with
        | none => exact hx.elim
        | some y =>
          simp only [faultyRun, step]
          rw [ih hx.2.2.2]
          exact Fs.set_other fun he => hq (he ▸ hx.1)
    | some left =>
      cases x with
      | done a => exact ih (o := o) (x := .done a) lawful_done
      | read path k => exact ih (o := o) (by cases o <;> exact hx.2 _)
      | create path k =>
        cases o with
        | some _ => exact hx.elim
        | none => exact ih hx.2.2
      | write path pos d k =>
        cases o with
        | none => exact hx.elim
        | some y =>
          simp only [faultyRun, Spec.Proc.fail]
          rw [faultyRun_done]
          exact Fs.set_other fun he => hq (he ▸ hx.1)

end Ksusig
