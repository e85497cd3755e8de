import Verif.Proofs.Fault
import Verif.Props.Schedule

/-!
# Input and output errors
-/

namespace Ksusig.Props

open Ksusig Spec

/-- The results a process that only reads can have, if reads may fail. -/
def CanGive {α : Type} (fs : Fs) : Proc α → α → Prop
  | .done a, b => a = b
  | .read path k, b => CanGive fs (k (fs path)) b ∨ CanGive fs (k none) b
  | .create _ _, _ => False
  | .write _ _ _ _, _ => False

theorem canGive_bind {α β : Type} {fs : Fs} {x : Proc α} {f : α → Proc β} {b : β} (h : CanGive fs (x.bind f) b) :
    ∃ a, CanGive fs x a ∧ CanGive fs (f a) b := by
  induction x with
  | done a => exact ⟨a, rfl, h⟩
  | read path k ih =>
    rcases h with h | h
    · obtain ⟨a, h1, h2⟩ := ih _ h
      exact ⟨a, .inl h1, h2⟩
    · obtain ⟨a, h1, h2⟩ := ih _ h
      exact ⟨a, .inr h1, h2⟩
  | create path k ih => exact h.elim
  | write path pos d k ih => exact h.elim

theorem fails_give {α : Type} {fs : Fs} {Q : α → Prop} {x : Proc α} {a : α} (hx : Proc.Fails Q x) (h : CanGive fs x a) : Q a := by
  induction x with
  | done b => cases h; exact hx
  | read path k ih =>
    rcases h with h | h
    · exact ih _ (hx _) h
    · exact ih _ (hx _) h
  | create path k ih => exact h.elim
  | write path pos d k ih => exact h.elim

theorem strict_give {α : Type} {M : Machine} {fs : Fs} {t : Bool} {Q : α → Prop} {x : Proc α} {a : α} (hx : Proc.Strict Q x)
    (h : CanGive fs x a) : Q a ∨ a = (Proc.run M (fs, t) x).2 := by
  induction x with
  | done b => cases h; exact .inr rfl
  | read path k ih =>
    rcases h with h | h
    · cases hp : fs path with
      | some d =>
        rw [hp] at h
        have := ih _ (hx.2 d) h
        simp only [Proc.run, hp]
        exact this
      | none =>
        rw [hp] at h
        exact .inl (fails_give hx.1 h)
    · exact .inl (fails_give hx.1 h)
  | create path k ih => exact h.elim
  | write path pos d k ih => exact h.elim

theorem faulty_reads {M : Machine} {R : Path → Prop} {x : Proc End} (hx : Proc.Reads R x) (faults : List (Option Bytes)) {fs fs' : Fs}
    {e : End} (h : faultyRun M faults (fs, x) = (fs', .done e)) : fs' = fs ∧ CanGive fs x e := by
  induction faults generalizing x with
  | nil => cases h; exact ⟨rfl, rfl⟩
  | cons f faults ih =>
    cases x with
    | done a => rw [faultyRun_done] at h; cases h; exact ⟨rfl, rfl⟩
    | read path k =>
      cases f with
      | none =>
        obtain ⟨h1, h2⟩ := ih (hx.2 _) h
        exact ⟨h1, .inl h2⟩
      | some left =>
        obtain ⟨h1, h2⟩ := ih (hx.2 _) h
        exact ⟨h1, .inr h2⟩
    | create path k => exact hx.elim
    | write path pos d k => exact hx.elim

theorem reads_of_lawful {α : Type} {R W : Path → Prop} {x : Proc α} (hx : Proc.Lawful R W none x) (hW : ∀ q, ¬ W q) : Proc.Reads R x := by
  induction x with
  | done a => trivial
  | read path k ih => exact ⟨hx.1, fun y => ih _ (hx.2 y)⟩
  | create path k ih => exact (hW _ hx.1).elim
  | write path pos d k ih => exact hx.elim

/-! ### The verify command -/

/-- The decision, once everything is read. -/
theorem judge_ok {E : Env} {roots : Roots} {now : Nat} {b : SigningBlock} {c : DigestCtx} :
    judge E roots now b c = .ok () ↔ c.entries.isEmpty = false ∧ (verifyV2 E roots now b (some c)).allFlags = true ∧
      ((verifySourceStamp E roots now b (some c)).allFlags = true ∨
        (verifySourceStamp E roots now b (some c)).isNoSignature = true) := by
  unfold judge
  cases hc : c.entries.isEmpty
  · rw [if_neg (by simp)]
    simp only [true_and]
    exact cli_decide
  · rw [if_pos rfl]
    simp

theorem judge_np {E : Env} {roots : Roots} {now : Nat} {b : SigningBlock} {c : DigestCtx} : judge E roots now b c ≠ .panic := by
  unfold judge
  split
  · exact np_err
  · refine np_bind ?_ fun v _ => ?_
    · unfold cliV2
      split
      · exact np_ok
      · exact np_err
      · split
        · split
          · exact np_err
          · split
            · exact np_err
            · split
              · exact np_err
              · exact np_ok
        · exact np_err
    · dsimp only
      repeat' split
      all_goals first | exact np_err | exact np_ok

/-- More digests never make a verdict worse. -/
theorem judge_mono {E : Env} {added : List Bytes} {now : Nat} {b : SigningBlock} {c c' : DigestCtx}
    (hsub : ∀ id d, c.get id = some d → c'.get id = some d) (hne : c'.entries.isEmpty = false)
    (h : judge E (storeOf E added) now b c = .ok ()) : judge E (storeOf E added) now b c' = .ok () := by
  rw [judge_ok, allFlags_iff, allFlags_iff, isNoSignature_iff, verifySourceStamp_valid, verifySourceStamp_noSignature,
    verifyV2_valid] at h ⊢
  obtain ⟨_, ⟨h1, h2⟩, h3⟩ := h
  refine ⟨hne, ⟨h1, fun s hs => ?_⟩, ?_⟩
  · have hg := h2 s hs
    exact ⟨hg.signed, hg.crypto, fun g hg' => (hg.content g hg').imp fun d hd => ⟨hd.1, hsub _ _ hd.2⟩, hg.cert⟩
  · refine h3.imp ?_ id
    rintro ⟨s, rest, he, hg⟩
    exact ⟨s, rest, he, hg.signed, hg.crypto, fun g hg' d hd => hsub _ _ (hg.content g hg' d hd), hg.cert⟩

theorem storeOf_roots {E : Env} {pem : Bytes} {root : Option Bytes} {roots : Roots} (h : cliRoots E pem root = .ok roots) :
    ∃ added, roots = storeOf E added := by
  rcases cliRoots_ok h with ⟨c, _, rfl⟩ | rfl
  · exact ⟨_, rfl⟩
  · exact ⟨_, rfl⟩

/-- What a digest computation can do to the context. -/
theorem addDigest_give {M : Machine} {fs : Fs} {path : Path} {file : Bytes} (hf : fs path = some file) {m : Module} {a : Algo}
    {c : DigestCtx} {r : Res DigestCtx} (h : CanGive fs (addDigestP M.env M.profile m path a c) r) :
    r = .ok c ∨ r = cliAddDigest M.env M.profile m file a c := by
  obtain ⟨x, h1, h2⟩ := canGive_bind h
  rcases strict_give (M := M) (t := false) (strict_digest _ _ m a) h1 with ⟨e, rfl, _⟩ | rfl
  · exact .inl h2.symm
  · rw [digestP_run (s := (fs, false)) hf] at h2
    refine .inr ?_
    unfold cliAddDigest
    dsimp only at h2
    cases hd : m.digest M.env M.profile file a with
    | ok d => rw [hd] at h2; exact h2.symm
    | err e => rw [hd] at h2; exact h2.symm
    | panic => rw [hd] at h2; exact h2.symm

theorem ctx_add_sub {c : DigestCtx} {id : UInt32} {d : Bytes} (h : c.get id = none ∨ c.get id = some d) :
    ∀ i x, c.get i = some x → (c.add id d).get i = some x := by
  intro i x hx
  rw [DigestCtx.get_add]
  split
  · rename_i he
    subst he
    rcases h with h | h
    · rw [h] at hx; cases hx
    · rw [h] at hx; exact hx
  · exact hx

/-- The verify command once the block and the roots are there. -/
theorem tail_give {M : Machine} {fs : Fs} {path : Path} {file : Bytes} (hf : fs path = some file) {m : Module}
    {added : List Bytes} {now : Nat} {b : SigningBlock} {r : Res Unit}
    (h : CanGive fs ((addDigestP M.env M.profile m path .p256 DigestCtx.new).andThen fun c1 =>
      (addDigestP M.env M.profile m path .p384 c1).andThen fun c2 => .done (judge M.env (storeOf M.env added) now b c2)) r) :
    (r = .ok () → (do
      let c1 ← cliAddDigest M.env M.profile m file .p256 DigestCtx.new
      let c2 ← cliAddDigest M.env M.profile m file .p384 c1
      judge M.env (storeOf M.env added) now b c2) = .ok ()) ∧
    (r = .panic → (do
      let c1 ← cliAddDigest M.env M.profile m file .p256 DigestCtx.new
      let c2 ← cliAddDigest M.env M.profile m file .p384 c1
      judge M.env (storeOf M.env added) now b c2) = .panic) := by
  obtain ⟨x1, h1, h⟩ := canGive_bind h
  have h1 := addDigest_give hf h1
  have step2 : ∀ c1, CanGive fs ((addDigestP M.env M.profile m path .p384 c1).andThen fun c2 =>
      .done (judge M.env (storeOf M.env added) now b c2)) r →
      r = judge M.env (storeOf M.env added) now b c1 ∨ r = (do
        let c2 ← cliAddDigest M.env M.profile m file .p384 c1
        judge M.env (storeOf M.env added) now b c2) := by
    intro c1 h
    obtain ⟨x2, h2, h⟩ := canGive_bind h
    rcases addDigest_give hf h2 with rfl | rfl
    · exact .inl h.symm
    · refine .inr ?_
      cases hc : cliAddDigest M.env M.profile m file .p384 c1 with
      | ok c2 => rw [hc] at h; exact h.symm
      | err e => rw [hc] at h; exact h.symm
      | panic => rw [hc] at h; exact h.symm
  rcases digest_form M.profile m file with ⟨ps, hd⟩ | ⟨e, hd⟩ | ⟨hd⟩
  · have e1 : ∀ c, cliAddDigest M.env M.profile m file .p256 c = .ok (c.add Algo.p256.toU32 (treeDigest (Algo.p256.hash M.env) ps)) :=
      fun c => cliAddDigest_ok _ (hd _ _)
    have e2 : ∀ c, cliAddDigest M.env M.profile m file .p384 c = .ok (c.add Algo.p384.toU32 (treeDigest (Algo.p384.hash M.env) ps)) :=
      fun c => cliAddDigest_ok _ (hd _ _)
    simp only [e1, e2, Res.ok_bind] at step2 ⊢
    rw [e1] at h1
    have hnp : r ≠ .panic := by
      rcases h1 with rfl | rfl
      · rcases step2 _ h with rfl | rfl <;> exact judge_np
      · rcases step2 _ h with rfl | rfl <;> exact judge_np
    refine ⟨fun hr => ?_, fun hr => absurd hr hnp⟩
    have fin : ∀ c : DigestCtx, (∀ i x, c.get i = some x → ((DigestCtx.new.add Algo.p256.toU32 (treeDigest (Algo.p256.hash M.env) ps)).add
        Algo.p384.toU32 (treeDigest (Algo.p384.hash M.env) ps)).get i = some x) → judge M.env (storeOf M.env added) now b c = .ok () →
        judge M.env (storeOf M.env added) now b ((DigestCtx.new.add Algo.p256.toU32 (treeDigest (Algo.p256.hash M.env) ps)).add
          Algo.p384.toU32 (treeDigest (Algo.p384.hash M.env) ps)) = .ok () :=
      fun c hc hj => judge_mono hc (by simp [DigestCtx.add]) hj
    have hnew : ∀ i x, DigestCtx.new.get i = some x → False := by intro i x hx; cases hx
    rcases h1 with rfl | rfl
    · rcases step2 _ h with h | h
      · exact fin _ (fun i x hx => (hnew i x hx).elim) (h ▸ hr)
      · refine fin (DigestCtx.new.add Algo.p384.toU32 (treeDigest (Algo.p384.hash M.env) ps)) (fun i x hx => ?_) (h ▸ hr)
        rw [DigestCtx.get_add] at hx ⊢
        split
        · rename_i he; rw [if_pos he] at hx; exact hx
        · rename_i he; rw [if_neg he] at hx; cases hx
    · rcases step2 _ h with h | h
      · refine fin (DigestCtx.new.add Algo.p256.toU32 (treeDigest (Algo.p256.hash M.env) ps)) (ctx_add_sub (.inl ?_)) (h ▸ hr)
        rw [DigestCtx.get_add, if_neg (by decide)]
        rfl
      · exact h ▸ hr
  · have e1 : ∀ c, cliAddDigest M.env M.profile m file .p256 c = .ok c := fun c => by unfold cliAddDigest; rw [hd]
    have e2 : ∀ c, cliAddDigest M.env M.profile m file .p384 c = .ok c := fun c => by unfold cliAddDigest; rw [hd]
    simp only [e1, e2, Res.ok_bind] at step2 ⊢
    rw [e1] at h1
    have h1' : x1 = .ok DigestCtx.new := by rcases h1 with rfl | rfl <;> rfl
    subst h1'
    have : r = judge M.env (storeOf M.env added) now b DigestCtx.new := by rcases step2 _ h with h | h <;> exact h
    exact ⟨fun hr => this ▸ hr, fun hr => this ▸ hr⟩
  · have e1 : ∀ c, cliAddDigest M.env M.profile m file .p256 c = .panic := fun c => by unfold cliAddDigest; rw [hd]
    have e2 : ∀ c, cliAddDigest M.env M.profile m file .p384 c = .panic := fun c => by unfold cliAddDigest; rw [hd]
    simp only [e1, e2] at step2 ⊢
    refine ⟨fun hr => ?_, fun _ => rfl⟩
    rw [e1] at h1
    rcases h1 with rfl | rfl
    · rcases step2 _ h with h | h
      · rw [h, judge_ok] at hr
        cases hr.1
      · rw [h] at hr; cases hr
    · have h' : Res.panic = r := h
      rw [← h'] at hr
      cases hr

/-- The verify command on a system that may report errors: it accepts only what it accepts otherwise. -/
theorem verify_give {M : Machine} {fs : Fs} {now : Nat} {path : Path} {root : Option Path} {r : Res Unit}
    (h : CanGive fs (verifyP M now path root) r) :
    (r = .ok () → (Proc.run M (fs, false) (verifyP M now path root)).2 = .ok ()) ∧
    (r = .panic → (Proc.run M (fs, false) (verifyP M now path root)).2 = .panic) := by
  unfold verifyP at h ⊢
  have trivially : ∀ {e : Err} {P Q : Prop}, Res.err e = r → ((r = .ok () → P) ∧ (r = .panic → Q)) := by
    intro e P Q he
    rw [← he]
    exact ⟨(fun h => by cases h), (fun h => by cases h)⟩
  rcases h with h | h
  case inr => exact trivially h
  cases hf : fs path with
  | none => rw [hf] at h; exact trivially h
  | some file =>
    rw [hf] at h
    rw [Proc.run_open (s := (fs, false)) hf]
    dsimp only at h ⊢
    rw [Proc.run_bind, getSigningBlockP_run (s := (fs, false)) hf]
    obtain ⟨x, h1, h⟩ := canGive_bind h
    rcases strict_give (M := M) (t := false) (strict_block _ _) h1 with ⟨e, rfl, _⟩ | rfl
    · exact trivially h
    rw [getSigningBlockP_run (s := (fs, false)) hf] at h
    dsimp only at h ⊢
    cases hb : (Module.new file).getSigningBlock M.profile file with
    | err e => rw [hb] at h; exact trivially h
    | panic =>
      rw [hb] at h
      have h' : Res.panic = r := h
      subst h'
      exact ⟨(fun h => by cases h), fun _ => rfl⟩
    | ok b =>
      rw [hb] at h
      dsimp only at h ⊢
      have tail : ∀ (b : SigningBlock) (roots : Roots),
          Proc.run M (fs, false) ((addDigestP M.env M.profile (Module.new file) path .p256 DigestCtx.new).andThen fun c1 =>
            (addDigestP M.env M.profile (Module.new file) path .p384 c1).andThen fun c2 => .done (judge M.env roots now b c2)) =
          ((fs, false), do
            let c1 ← cliAddDigest M.env M.profile (Module.new file) file .p256 DigestCtx.new
            let c2 ← cliAddDigest M.env M.profile (Module.new file) file .p384 c1
            judge M.env roots now b c2) := by
        intro b roots
        rw [Proc.run_andThen_pure (addDigestP_run (s := (fs, false)) hf _ _ _ _ _)]
        cases cliAddDigest M.env M.profile (Module.new file) file .p256 DigestCtx.new with
        | err e => rfl
        | panic => rfl
        | ok c1 =>
          dsimp only
          rw [Proc.run_andThen_pure (addDigestP_run (s := (fs, false)) hf _ _ _ _ _), Res.ok_bind]
          cases cliAddDigest M.env M.profile (Module.new file) file .p384 c1 <;> rfl
      obtain ⟨y, h2, h⟩ := canGive_bind h
      have hroots : ∀ rp, Proc.Strict Proc.Bad (rootsP M rp) := by
        intro rp
        cases rp with
        | none => trivial
        | some q => exact Proc.strict_open fun _ => trivial
      have hrun : ∃ z, Proc.run M (fs, false) (rootsP M root) = ((fs, false), z) ∧ ∀ roots, z = .ok roots → ∃ added, roots = storeOf M.env added := by
        cases root with
        | none => exact ⟨_, rfl, fun roots hr => storeOf_roots hr⟩
        | some q =>
          unfold rootsP
          cases hq : fs q with
          | none => exact ⟨_, Proc.run_open_none hq, fun roots hr => by cases hr⟩
          | some pem => exact ⟨_, (Proc.run_open (s := (fs, false)) hq).trans rfl, fun roots hr => storeOf_roots hr⟩
      obtain ⟨z, hz, hadd⟩ := hrun
      rw [Proc.run_andThen_pure hz]
      rcases strict_give (M := M) (t := false) (hroots root) h2 with ⟨e, rfl, _⟩ | rfl
      · exact trivially h
      rw [hz] at h
      dsimp only at h
      cases z with
      | err e => exact trivially h
      | panic =>
        have h' : Res.panic = r := h
        subst h'
        exact ⟨(fun h => by cases h), fun _ => rfl⟩
      | ok roots =>
        obtain ⟨added, rfl⟩ := hadd _ rfl
        dsimp only
        rw [tail]
        exact tail_give hf h

/-- What a job does alone, in the terms of `Model/Program.lean`. -/
theorem steps_outcome {M : Machine} {cut : Bytes → List Bytes} (hcut : Buffering cut) {j : Job} {fs fs' : Fs} {n : Nat} {e : End}
    (h : Proc.steps M n (fs, Job.proc M cut j) = (fs', .done e)) :
    fs' = (j.outcome M fs).after fs ∧ e = ((j.outcome M fs).printed, (j.outcome M fs).result) := by
  obtain ⟨stop, h1, h2⟩ := alone hcut j fs n
  rw [h] at h1 h2
  obtain ⟨rfl, he⟩ := h2 e rfl
  exact ⟨h1, he⟩

/-- C96: whatever input or output errors the system reports, and whenever: a command that exits with 0 has done exactly what it does
without errors. The verify command accepts only what it accepts without errors, and no error makes a command crash. -/
theorem C96_success_means_success {M : Machine} {cut : Bytes → List Bytes} (hcut : Buffering cut) {j : Job} {fs fs' : Fs}
    {faults : List (Option Bytes)} {e : End} (h : EndsWith M cut j fs faults fs' e) (hs : e.status ≠ 1) :
    e.status = (j.outcome M fs).status ∧ e.1 = (j.outcome M fs).printed ∧ fs' = (j.outcome M fs).after fs := by
  by_cases hv : ∃ module root, j.command = .verify module root
  · obtain ⟨path, root, hc⟩ := hv
    obtain ⟨command, now, clock⟩ := j
    dsimp only at hc
    subst hc
    have hr : Proc.Reads (fun q => q ∈ inputs (.verify path root)) (ending (verifyP M now path root)) :=
      reads_of_lawful (command_lawful M cut now clock (.verify path root)) fun q hq => by cases hq
    have hw : (Command.exec M now clock fs (.verify path root)).written = none := by
      cases hw : (Command.exec M now clock fs (.verify path root)).written with
      | none => rfl
      | some x => exact absurd (C79_writes_output (q := x.1) (d := x.2) hw) (by simp [output])
    obtain ⟨hfs, hg⟩ := faulty_reads hr faults h
    subst hfs
    obtain ⟨r, hgv, he⟩ := canGive_bind hg
    have he : ([], r) = e := he
    subst he
    obtain ⟨h1, h2⟩ := verify_give hgv
    have hrun : Proc.run M (fs', false) (ending (verifyP M now path root)) = _ := command_run hcut now clock fs' (.verify path root)
    unfold ending at hrun
    rw [Proc.run_bind] at hrun
    have hres : (Proc.run M (fs', false) (verifyP M now path root)).2 = (Command.exec M now clock fs' (.verify path root)).result :=
      congrArg (fun x => x.2.2) hrun
    have hpr : ([] : List Char) = (Command.exec M now clock fs' (.verify path root)).printed := congrArg (fun x => x.2.1) hrun
    rw [hres] at h1 h2
    refine ⟨?_, hpr, ?_⟩
    · unfold Job.outcome Outcome.status End.status
      cases r with
      | ok u => dsimp only; rw [h1 rfl]
      | panic => dsimp only; rw [h2 rfl]
      | err e => exact absurd rfl hs
    · unfold Job.outcome Outcome.after
      dsimp only
      rw [hw]
  · have hst := command_strict M cut j.now j.clock j.command fun m r he => hv ⟨m, r, he⟩
    rcases strict_run (M := M) (Q := fun e : End => e.status = 1) rfl hst faults h with hq | ⟨n, hn⟩
    · exact absurd hq hs
    · obtain ⟨h1, rfl⟩ := steps_outcome hcut hn
      refine ⟨?_, rfl, h1⟩
      unfold End.status Outcome.status
      rfl

/-- C96: every command but verify reports every error: if an operation really fails, whatever it is, the exit status is 1. -/
theorem C96_errors_are_reported_partial {M : Machine} {cut : Bytes → List Bytes} {j : Job} {fs fs' : Fs} {faults : List (Option Bytes)} {e : End}
    (hj : ∀ module root, j.command ≠ .verify module root) (hhit : Hit M cut j fs faults) (h : EndsWith M cut j fs faults fs' e) :
    e.status = 1 := by
  obtain ⟨before, left, after, s, x, rfl, h1, h2⟩ := hhit
  exact strict_hit (Q := fun e : End => e.status = 1) rfl (command_strict M cut j.now j.clock j.command hj) h1 h2 h

/-- C96: whatever fails, only the output is touched. -/
theorem C96_only_output {M : Machine} {cut : Bytes → List Bytes} {j : Job} {fs : Fs} (faults : List (Option Bytes)) {q : Path}
    (hq : output j.command ≠ some q) : (faultyRun M faults (fs, Job.proc M cut j)).1 q = fs q :=
  faulty_frame (command_lawful M cut j.now j.clock j.command) faults hq

theorem faulty_ends {M : Machine} (x : Proc End) (fs : Fs) :
    ∃ n, ∀ faults : List (Option Bytes), n ≤ faults.length → ∃ fs' e, faultyRun M faults (fs, x) = (fs', .done e) := by
  have both : ∀ {x : Proc End} {fs : Fs}, (∃ n, ∀ faults : List (Option Bytes), n ≤ faults.length →
        ∃ fs' e, faultyRun M faults (x.step M fs) = (fs', .done e)) →
      (∃ n, ∀ (left : Bytes) (faults : List (Option Bytes)), n ≤ faults.length →
        ∃ fs' e, faultyRun M faults (Proc.fail left fs x) = (fs', .done e)) →
      ∃ n, ∀ faults : List (Option Bytes), n ≤ faults.length → ∃ fs' e, faultyRun M faults (fs, x) = (fs', .done e) := by
    rintro x fs ⟨n, hn⟩ ⟨m, hm⟩
    refine ⟨n + m + 1, fun faults hl => ?_⟩
    cases faults with
    | nil => simp at hl
    | cons f faults =>
      simp only [List.length_cons] at hl
      cases f with
      | none => exact hn faults (by omega)
      | some left => exact hm left faults (by omega)
  induction x generalizing fs with
  | done e => exact ⟨0, fun faults _ => ⟨fs, e, faultyRun_done M faults fs e⟩⟩
  | read path k ih => exact both (ih _ fs) ((ih none fs).imp fun n hn _ faults hl => hn faults hl)
  | create path k ih =>
    refine both ?_ ((ih false fs).imp fun n hn _ faults hl => hn faults hl)
    simp only [Proc.step]
    split
    · exact ih _ _
    · exact ih _ _
  | write path pos d k ih => exact both (ih _) ⟨0, fun left faults _ => ⟨_, _, faultyRun_done M faults _ _⟩⟩

/-- C96: a command always ends: after a number of operations, each of which may fail or not, it has ended. -/
theorem C96_ends (M : Machine) (cut : Bytes → List Bytes) (j : Job) (fs : Fs) :
    ∃ n, ∀ faults, n ≤ faults.length → ∃ fs' e, EndsWith M cut j fs faults fs' e :=
  faulty_ends _ fs

/-- The module signed by `signFirst`. -/
def signedFs : Fs := ((signFirst "o".toList).outcome toyMachine pairFs).after pairFs

/-- Verifying it. -/
def verifyFirst : Job := ⟨.verify "o".toList none, 0, none⟩

/-- A run that has ended, with this exit status. -/
theorem endsWith_of {M : Machine} {cut : Bytes → List Bytes} {j : Job} {fs : Fs} {faults : List (Option Bytes)} {n : Nat}
    (h : exited (some (faultyRun M faults (fs, Job.proc M cut j)).2) = some n) :
    ∃ fs' e, EndsWith M cut j fs faults fs' e ∧ e.status = n := by
  unfold EndsWith
  rcases hx : faultyRun M faults (fs, Job.proc M cut j) with ⟨fs', x⟩
  rw [hx] at h
  cases x with
  | done e => exact ⟨fs', e, rfl, Option.some.inj h⟩
  | read path k => cases h
  | create path k => cases h
  | write path pos d k => cases h

/-- An operation that really fails: the job has not ended before it. -/
theorem hit_of {M : Machine} {cut : Bytes → List Bytes} {j : Job} {fs : Fs} {before : List (Option Bytes)} (left : Bytes)
    (after : List (Option Bytes)) (h : exited (some (faultyRun M before (fs, Job.proc M cut j)).2) = none) :
    Hit M cut j fs (before ++ some left :: after) :=
  ⟨before, left, after, _, _, rfl, rfl, fun e he => by
    rw [he] at h
    cases h⟩

set_option maxRecDepth 100000 in
/-- C96: the verify command does not report every error: reading the module for the second digest fails (nothing is printed about it
without `--verbose`), and the exit status is 0. By `C96_success_means_success` it is the right one: the signature is there, is made
with the first digest, and is good. -/
theorem C96_verify_hides_an_error : ∃ faults, Hit toyMachine cut30 verifyFirst signedFs faults ∧
    ∃ fs' e, EndsWith toyMachine cut30 verifyFirst signedFs faults fs' e ∧ e.status = 0 :=
  ⟨List.replicate 8 none ++ some [] :: List.replicate 5 none, hit_of _ _ (by decide +kernel), endsWith_of (by decide +kernel)⟩

set_option maxRecDepth 100000 in
/-- The hypotheses of `C96_errors_are_reported_partial`: the signing of a module whose output cannot be written to its end. -/
example : ∃ fs' e, Hit toyMachine cut30 (signFirst "o".toList) pairFs (List.replicate 17 none ++ [some [1, 2, 3]]) ∧
    EndsWith toyMachine cut30 (signFirst "o".toList) pairFs (List.replicate 17 none ++ [some [1, 2, 3]]) fs' e := by
  obtain ⟨fs', e, h, _⟩ := endsWith_of (M := toyMachine) (cut := cut30) (j := signFirst "o".toList) (fs := pairFs)
    (faults := List.replicate 17 none ++ [some [1, 2, 3]]) (n := 1) (by decide +kernel)
  exact ⟨fs', e, hit_of _ _ (by decide +kernel), h⟩

set_option maxRecDepth 100000 in
/-- The hypotheses of `C96_success_means_success`, for the signing, in whose run nothing fails, and for the run of the verify command
above. -/
example : ∃ fs' e, EndsWith toyMachine cut30 (signFirst "o".toList) pairFs (List.replicate 20 none) fs' e ∧ e.status = 0 :=
  endsWith_of (by decide +kernel)

end Ksusig.Props
