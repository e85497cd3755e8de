import Verif.Proofs.Schedule
import Verif.Props.Exit

/-!
# Commands that run at the same time
-/

namespace Ksusig.Props

open Ksusig Spec

/-- The process of a job. -/
abbrev Job.proc (M : Machine) (cut : Bytes → List Bytes) (j : Job) : Proc End := j.command.proc M cut j.now j.clock

/-- The run of a job that gets as far as this. -/
abbrev Job.run (j : Job) (stop : Stop) : Run := ⟨j.command, j.now, j.clock, stop⟩

/-- A job that runs alone, after any number of operations. -/
theorem alone {M : Machine} {cut : Bytes → List Bytes} (hcut : Buffering cut) (j : Job) (fs : Fs) (n : Nat) :
    ∃ stop, (Proc.steps M n (fs, Job.proc M cut j)).1 = (Job.run j stop).after M fs ∧
      ∀ e, (Proc.steps M n (fs, Job.proc M cut j)).2 = .done e →
        stop = .finished ∧ e = ((j.outcome M fs).printed, (j.outcome M fs).result) := by
  obtain ⟨t, o, h1, h2, h3, h4⟩ := Proc.steps_lawful (M := M) (fs := fs) (command_lawful M cut j.now j.clock j.command) n
  rw [command_run hcut] at h4
  generalize Proc.steps M n (fs, Job.proc M cut j) = s at h1 h2 h3 h4
  obtain ⟨fs', x⟩ := s
  dsimp only at h1 h2 h3 h4 ⊢
  have hdone : ∀ e, x = .done e → fs' = (j.outcome M fs).after fs ∧ e = ((j.outcome M fs).printed, (j.outcome M fs).result) := by
    rintro e rfl
    simp only [Proc.run, Outcome.ends, Prod.mk.injEq] at h4
    exact ⟨h4.1.1.symm, h4.2.symm⟩
  by_cases hx : ∃ e, x = .done e
  · obtain ⟨e, rfl⟩ := hx
    obtain ⟨h5, h6⟩ := hdone e rfl
    exact ⟨.finished, h5, fun e' he => ⟨rfl, by cases he; exact h6⟩⟩
  · cases o with
    | none => exact ⟨.before, h2.1, fun e he => absurd ⟨e, he⟩ hx⟩
    | some y =>
      obtain ⟨q, k⟩ := y
      obtain ⟨c, rfl, rfl, rfl⟩ := h2
      obtain ⟨more, hm⟩ := Proc.run_prefix (M := M) (fs := fs) h1
      rw [← h4] at hm
      simp only [Outcome.ends, Prod.mk.injEq] at hm
      refine ⟨.writing c.length, ?_, fun e he => absurd ⟨e, he⟩ hx⟩
      have hq : output j.command = some q := h3 q _ rfl
      unfold Run.after
      dsimp only
      cases hw : (j.command.exec M j.now j.clock fs).written with
      | none => rw [hw] at hm; cases hm.2
      | some z =>
        obtain ⟨q', d⟩ := z
        have hq' := C79_writes_output hw
        rw [hq] at hq'
        cases hq'
        dsimp only
        have := congrFun hm.1 q
        unfold Outcome.after at this
        rw [hw] at this
        dsimp only at this
        rw [Fs.set_same, Fs.set_same] at this
        cases this
        rw [List.take_left' rfl]

/-- Every process does what it would do alone, and every file is as the one job that writes it has left it. -/
theorem isolated {M : Machine} {cut : Bytes → List Bytes} {jobs : List Job} (hd : Disjoint jobs) (fs : Fs) (schedule : List Nat) :
    ((start M cut fs jobs).run M schedule).procs.length = jobs.length ∧
    (∀ i (hi : i < jobs.length),
      ((start M cut fs jobs).run M schedule).procs[i]? =
        some (Proc.steps M (schedule.count i) (fs, Job.proc M cut jobs[i])).2 ∧
      ∀ q, q ∈ inputs jobs[i].command ∨ output jobs[i].command = some q →
        ((start M cut fs jobs).run M schedule).fs q = (Proc.steps M (schedule.count i) (fs, Job.proc M cut jobs[i])).1 q) ∧
    ∀ q, (∀ j ∈ jobs, output j.command ≠ some q) → ((start M cut fs jobs).run M schedule).fs q = fs q := by
  -- the schedule is taken apart at its end
  rw [← List.reverse_reverse schedule]
  generalize schedule.reverse = rev
  induction rev with
  | nil =>
    refine ⟨by simp [Sys.run, start], fun i hi => ⟨by simp [Sys.run, start, Proc.steps, hi], fun q _ => by simp [Sys.run, start, Proc.steps]⟩,
      fun q _ => rfl⟩
  | cons a rev ih =>
    rw [List.reverse_cons]
    generalize rev.reverse = sched at ih ⊢
    obtain ⟨hlen, hi1, hfr⟩ := ih
    have hrun : (start M cut fs jobs).run M (sched ++ [a]) = ((start M cut fs jobs).run M sched).step M a := by
      simp [Sys.run]
    rw [hrun]
    generalize (start M cut fs jobs).run M sched = s at hlen hi1 hfr
    have hcount : ∀ i, (sched ++ [a]).count i = sched.count i + if a = i then 1 else 0 := by
      intro i
      rw [List.count_append, List.count_singleton]
      simp
    by_cases ha : a < jobs.length
    · obtain ⟨hpa, hfa⟩ := hi1 a ha
      obtain ⟨t, o, hlaw, _, _, _⟩ := Proc.steps_lawful (M := M) (fs := fs)
        (command_lawful M cut jobs[a].now jobs[a].clock jobs[a].command) (sched.count a)
      have hstep : s.step M a = ⟨(Proc.step M s.fs (Proc.steps M (sched.count a) (fs, Job.proc M cut jobs[a])).2).1,
          s.procs.set a (Proc.step M s.fs (Proc.steps M (sched.count a) (fs, Job.proc M cut jobs[a])).2).2⟩ := by
        unfold Sys.step
        rw [hpa]
      obtain ⟨hc1, hc2⟩ := Proc.step_congr (M := M) hlaw hfa
      rw [hstep]
      refine ⟨by simp [hlen], fun i hi => ?_, fun q hq => ?_⟩
      · by_cases hia : a = i
        · subst hia
          rw [hcount, if_pos rfl, Proc.steps]
          refine ⟨?_, hc2⟩
          dsimp only
          rw [List.getElem?_set_self (by omega), hc1]
        · rw [hcount, if_neg hia, Nat.add_zero]
          refine ⟨?_, fun q hq => ?_⟩
          · dsimp only
            rw [List.getElem?_set_ne hia]
            exact (hi1 i hi).1
          · rw [← (hi1 i hi).2 q hq]
            refine Proc.step_frame hlaw fun hw => ?_
            obtain ⟨h1, _⟩ := hd a i ha hi hia
            rcases hq with hq | hq
            · exact (h1 q hw).1 hq
            · exact (h1 q hw).2 hq
      · rw [← hfr q hq]
        exact Proc.step_frame hlaw (hq _ (List.getElem_mem ha))
    · have hstep : s.step M a = s := by
        unfold Sys.step
        rw [List.getElem?_eq_none (by omega)]
      rw [hstep]
      refine ⟨hlen, fun i hi => ?_, hfr⟩
      rw [hcount, if_neg (by omega), Nat.add_zero]
      exact hi1 i hi

/-- C86: commands that run at the same time, none of which writes what another one reads or writes: whatever the schedule, and
whichever of them are killed on the way, every one that has ended has printed and returned exactly what it would have alone, and
its output is what it would have written alone. -/
theorem C86_ended {M : Machine} {cut : Bytes → List Bytes} (hcut : Buffering cut) {jobs : List Job} (hd : Disjoint jobs) (fs : Fs)
    (schedule : List Nat) {i : Nat} (hi : i < jobs.length) {e : End}
    (h : ((start M cut fs jobs).run M schedule).procs[i]? = some (.done e)) :
    e.1 = (jobs[i].outcome M fs).printed ∧ e.2 = (jobs[i].outcome M fs).result ∧ e.status = (jobs[i].outcome M fs).status ∧
      ∀ q, output jobs[i].command = some q → ((start M cut fs jobs).run M schedule).fs q = (jobs[i].outcome M fs).after fs q := by
  obtain ⟨hp, hf⟩ := (isolated (M := M) (cut := cut) hd fs schedule).2.1 i hi
  rw [h] at hp
  obtain ⟨stop, h1, h2⟩ := alone hcut jobs[i] fs (schedule.count i)
  obtain ⟨rfl, rfl⟩ := h2 e (Option.some.inj hp).symm
  refine ⟨rfl, rfl, rfl, fun q hq => ?_⟩
  rw [hf q (.inr hq), h1]
  rfl

theorem choose_list {α β : Type} (l : List α) (P : Nat → α → β → Prop) (h : ∀ i (hi : i < l.length), ∃ b, P i l[i] b) :
    ∃ bs : List β, bs.length = l.length ∧ ∀ i (hi : i < l.length) (hb : i < bs.length), P i l[i] bs[i] := by
  induction l generalizing P with
  | nil => exact ⟨[], rfl, fun i hi => by simp at hi⟩
  | cons a l ih =>
    obtain ⟨b, hb⟩ := h 0 (by simp)
    obtain ⟨bs, hl, hbs⟩ := ih (fun i => P (i + 1)) fun i hi => h (i + 1) (by simpa using hi)
    refine ⟨b :: bs, by simp [hl], fun i hi hb' => ?_⟩
    cases i with
    | zero => exact hb
    | succ i => exact hbs i (by simpa using hi) (by simpa using hb')

/-- What independent runs leave behind. -/
theorem history_independent {M : Machine} {rs : List Run} {fs : Fs} (h : rs.Pairwise fun r s => Independent r.command s.command)
    {r : Run} (hr : r ∈ rs) {q : Path} (hq : output r.command = some q) : history M rs fs q = r.after M fs q := by
  induction rs generalizing fs with
  | nil => cases hr
  | cons s rs ih =>
    obtain ⟨h1, h2⟩ := List.pairwise_cons.mp h
    show history M rs (s.after M fs) q = _
    rcases List.mem_cons.mp hr with rfl | hr
    · exact C79_history_frame fun x hx hxq => ((h1 x hx).1 q hq).2 hxq
    · rw [ih h2 hr, after_eq (r := r), (C79_independent_commute (h1 r hr)).2.2, after_eq (r := r)]
      cases he : Run.effect r (r.command.exec M r.now r.clock fs) with
      | none => exact after_other (r := s) fun hs => ((h1 r hr).2 q hq).2 hs
      | some x =>
        obtain ⟨q', d⟩ := x
        have := effect_output he
        rw [hq] at this
        cases this
        simp [applyEffect, Fs.set]

/-- C86: at every moment the files are as if the commands had run one after the other, each of them to its end or stopped before
it wrote anything or while it was writing; those that have ended have run to their end. So what is proved about histories (C79)
holds for commands that run at the same time and are killed at any time. -/
theorem C86_serial {M : Machine} {cut : Bytes → List Bytes} (hcut : Buffering cut) {jobs : List Job} (hd : Disjoint jobs) (fs : Fs)
    (schedule : List Nat) :
    ∃ rs : List Run, rs.map (fun r => (⟨r.command, r.now, r.clock⟩ : Job)) = jobs ∧
      ((start M cut fs jobs).run M schedule).fs = history M rs fs ∧
      ∀ (i : Nat) (r : Run) (e : End), rs[i]? = some r → ((start M cut fs jobs).run M schedule).procs[i]? = some (.done e) → r.stop = .finished := by
  obtain ⟨hlen, hp, hfr⟩ := isolated (M := M) (cut := cut) hd fs schedule
  obtain ⟨stops, hl, hst⟩ := choose_list jobs
    (fun i j stop => (Proc.steps M (schedule.count i) (fs, Job.proc M cut j)).1 = (Job.run j stop).after M fs ∧
      ∀ e, (Proc.steps M (schedule.count i) (fs, Job.proc M cut j)).2 = .done e →
        stop = .finished ∧ e = ((j.outcome M fs).printed, (j.outcome M fs).result))
    (fun i hi => alone hcut jobs[i] fs (schedule.count i))
  have hget : ∀ (i : Nat) (r : Run), ((jobs.zip stops).map fun x => Job.run x.1 x.2)[i]? = some r →
      ∃ hi : i < jobs.length, ∃ hs : i < stops.length, r = Job.run jobs[i] stops[i] := by
    intro i r h
    rw [List.getElem?_map, Option.map_eq_some_iff] at h
    obtain ⟨⟨j, st⟩, h1, rfl⟩ := h
    obtain ⟨h2, h3⟩ := List.getElem?_eq_some_iff.mp h1
    have h4 : i < jobs.length := by simp at h2; omega
    have h5 : i < stops.length := by omega
    refine ⟨h4, h5, ?_⟩
    rw [List.getElem_zip] at h3
    cases h3
    rfl
  have hpair : ((jobs.zip stops).map fun x => Job.run x.1 x.2).Pairwise fun r s => Independent r.command s.command := by
    rw [List.pairwise_iff_getElem]
    intro i k hi hk hik
    obtain ⟨h1, _, h2⟩ := hget i _ (List.getElem?_eq_getElem hi)
    obtain ⟨h3, _, h4⟩ := hget k _ (List.getElem?_eq_getElem hk)
    rw [h2, h4]
    exact hd i k h1 h3 (by omega)
  refine ⟨(jobs.zip stops).map fun x => Job.run x.1 x.2, ?_, ?_, ?_⟩
  · rw [List.map_map]
    conv => rhs; rw [← List.map_fst_zip (l₁ := jobs) (l₂ := stops) (by omega)]
    rfl
  · funext q
    by_cases hq : ∃ i, ∃ hi : i < jobs.length, output jobs[i].command = some q
    · obtain ⟨i, hi, ho⟩ := hq
      have hs : i < stops.length := by omega
      have hmem : Job.run jobs[i] stops[i] ∈ (jobs.zip stops).map fun x => Job.run x.1 x.2 := by
        refine List.mem_map.mpr ⟨(jobs[i], stops[i]), ?_, rfl⟩
        rw [List.mem_iff_getElem]
        exact ⟨i, by simp; omega, by simp⟩
      rw [history_independent hpair hmem ho, (hp i hi).2 q (.inr ho), (hst i hi hs).1]
    · have hno : ∀ j ∈ jobs, output j.command ≠ some q := by
        intro j hj ho
        obtain ⟨i, hi, rfl⟩ := List.mem_iff_getElem.mp hj
        exact hq ⟨i, hi, ho⟩
      rw [hfr q hno, C79_history_frame]
      intro r hr
      obtain ⟨x, hx, rfl⟩ := List.mem_map.mp hr
      exact hno x.1 (List.of_mem_zip hx).1
  · intro i r e hr he
    obtain ⟨hi, hs, rfl⟩ := hget i r hr
    rw [(hp i hi).1] at he
    exact ((hst i hi hs).2 e (Option.some.inj he)).1

/-- C86: no number of other commands delays one of them: after a number of its own operations that does not depend on the schedule,
it has ended. -/
theorem C86_own_pace {M : Machine} {cut : Bytes → List Bytes} {jobs : List Job} (hd : Disjoint jobs) (fs : Fs) {i : Nat}
    (hi : i < jobs.length) :
    ∃ n, ∀ schedule : List Nat, n ≤ schedule.count i → ∃ e, ((start M cut fs jobs).run M schedule).procs[i]? = some (.done e) := by
  obtain ⟨n, hn⟩ := Proc.steps_run (M := M) (Job.proc M cut jobs[i]) fs false
  refine ⟨n, fun schedule hs => ?_⟩
  rw [((isolated (M := M) (cut := cut) hd fs schedule).2.1 i hi).1, hn _ hs]
  exact ⟨_, rfl⟩

/-! ### Without any assumption about the files -/

theorem step_other {M : Machine} {s : Sys} {i a : Nat} (h : a ≠ i) : (s.step M a).procs[i]? = s.procs[i]? := by
  unfold Sys.step
  split
  · rfl
  · exact List.getElem?_set_ne h

/-- C86: no command waits for another one: whatever files they use, in every infinite schedule in which a command gets its turn
again and again, it ends. -/
theorem C86_never_waits {M : Machine} {cut : Bytes → List Bytes} {jobs : List Job} (fs : Fs) (schedule : Nat → Nat) {i : Nat}
    (hi : i < jobs.length) (hfair : ∀ n, ∃ m, n ≤ m ∧ schedule m = i) :
    ∃ n e, ((start M cut fs jobs).run M ((List.range n).map schedule)).procs[i]? = some (.done e) := by
  have key : ∀ (x : Proc End) (n : Nat), ((start M cut fs jobs).run M ((List.range n).map schedule)).procs[i]? = some x →
      ∃ n e, ((start M cut fs jobs).run M ((List.range n).map schedule)).procs[i]? = some (.done e) := by
    have next : ∀ n, (start M cut fs jobs).run M ((List.range (n + 1)).map schedule) =
        ((start M cut fs jobs).run M ((List.range n).map schedule)).step M (schedule n) := by
      intro n
      rw [List.range_succ, List.map_append]
      simp [Sys.run]
    have wait : ∀ (x : Proc End) (n k : Nat), (∀ m, n ≤ m → m < n + k → schedule m ≠ i) →
        ((start M cut fs jobs).run M ((List.range n).map schedule)).procs[i]? = some x →
        ((start M cut fs jobs).run M ((List.range (n + k)).map schedule)).procs[i]? = some x := by
      intro x n k
      induction k with
      | zero => intro _ h; exact h
      | succ k ih =>
        intro hk h
        rw [← Nat.add_assoc, next, step_other (hk (n + k) (by omega) (by omega))]
        exact ih (fun m h1 h2 => hk m h1 (by omega)) h
    -- the next turn of the process
    have turn : ∀ n, ∃ m, n ≤ m ∧ schedule m = i ∧ ∀ k, n ≤ k → k < m → schedule k ≠ i := by
      intro n
      obtain ⟨m, h1, h2⟩ := hfair n
      clear hfair
      induction m using Nat.strongRecOn with
      | ind m ih =>
        by_cases h : ∃ k, n ≤ k ∧ k < m ∧ schedule k = i
        · obtain ⟨k, h3, h4, h5⟩ := h
          exact ih k h4 h3 h5
        · exact ⟨m, h1, h2, fun k h3 h4 h5 => h ⟨k, h3, h4, h5⟩⟩
    have go : ∀ (x : Proc End) (n : Nat), ((start M cut fs jobs).run M ((List.range n).map schedule)).procs[i]? = some x →
        ∃ m fs', ((start M cut fs jobs).run M ((List.range m).map schedule)).procs[i]? = some (Proc.step M fs' x).2 := by
      intro x n h
      obtain ⟨m, h1, h2, h3⟩ := turn n
      have h4 := wait x n (m - n) (fun k h5 h6 => h3 k h5 (by omega)) h
      rw [show n + (m - n) = m by omega] at h4
      refine ⟨m + 1, ((start M cut fs jobs).run M ((List.range m).map schedule)).fs, ?_⟩
      rw [next, h2]
      unfold Sys.step
      rw [h4]
      dsimp only
      rw [List.getElem?_set_self (List.getElem?_eq_some_iff.mp h4).1]
    intro x
    induction x with
    | done e => intro n h; exact ⟨n, e, h⟩
    | read path k ih =>
      intro n h
      obtain ⟨m, fs', h1⟩ := go _ n h
      exact ih _ m h1
    | create path k ih =>
      intro n h
      obtain ⟨m, fs', h1⟩ := go _ n h
      by_cases hc : M.creatable path = true
      · rw [Proc.step, if_pos hc] at h1; exact ih _ m h1
      · rw [Proc.step, if_neg hc] at h1; exact ih _ m h1
    | write path pos d k ih =>
      intro n h
      obtain ⟨m, fs', h1⟩ := go _ n h
      exact ih m h1
  refine key (Job.proc M cut jobs[i]) 0 ?_
  simp [Sys.run, start, hi]

/-! ### Two commands with the same output -/

theorem run_flag {α : Type} {M : Machine} (x : Proc α) (fs : Fs) : (Proc.run M (fs, true) x).1.2 = true := by
  induction x generalizing fs with
  | done a => rfl
  | read path k ih => exact ih _ fs
  | create path k ih =>
    simp only [Proc.run]
    split
    · exact ih _ _
    · exact ih _ _
  | write path pos d k ih => exact ih _

/-- A process that has not created its output yet does not see what is there. -/
theorem run_before {α : Type} {M : Machine} {R W : Path → Prop} {q : Path} (hR : ¬ R q) (hW : ∀ p, W p → p = q) {x : Proc α}
    (hx : Proc.Lawful R W none x) (fs : Fs) (c : Bytes) (h : (Proc.run M (fs, false) x).1.2 = true) :
    Proc.run M (fs.set q c, false) x = Proc.run M (fs, false) x := by
  induction x with
  | done a => cases h
  | read path k ih =>
    have hne : path ≠ q := fun he => hR (he ▸ hx.1)
    simp only [Proc.run, Fs.set_other hne] at h ⊢
    exact ih _ (hx.2 _) h
  | create path k ih =>
    obtain rfl := hW path hx.1
    simp only [Proc.run] at h ⊢
    split
    · rw [Fs.set_set]
    · rename_i hc
      rw [if_neg hc] at h
      exact ih _ hx.2.2 h
  | write path pos d k ih => exact hx.elim

/-- A process that has created its output writes the same, whatever is there. -/
theorem run_after {α : Type} {M : Machine} {R W : Path → Prop} {q : Path} (hR : ¬ R q) {x : Proc α} {n : Nat}
    (hx : Proc.Lawful R W (some (q, n)) x) (fs : Fs) :
    ∃ rest a, ∀ c, Proc.run M (fs.set q c, true) x = ((fs.set q (writeAt c n rest), true), a) := by
  induction x generalizing n with
  | done a => exact ⟨[], a, fun c => by simp [Proc.run, writeAt]⟩
  | read path k ih =>
    have hne : path ≠ q := fun he => hR (he ▸ hx.1)
    obtain ⟨rest, a, h⟩ := ih (fs path) (hx.2 _)
    refine ⟨rest, a, fun c => ?_⟩
    simp only [Proc.run, Fs.set_other hne]
    exact h c
  | create path k ih => exact hx.elim
  | write path pos d k ih =>
    obtain ⟨_, rfl, rfl, hk⟩ := hx
    obtain ⟨rest, a, h⟩ := ih hk
    refine ⟨d ++ rest, a, fun c => ?_⟩
    simp only [Proc.run, Fs.set_same, Option.getD_some, Fs.set_set]
    rw [h, writeAt_writeAt]

/-- One process that runs on its own for a while. -/
theorem run_replicate {M : Machine} {s : Sys} {i : Nat} {x : Proc End} (h : s.procs[i]? = some x) (n : Nat) :
    s.run M (List.replicate n i) = ⟨(Proc.steps M n (s.fs, x)).1, s.procs.set i (Proc.steps M n (s.fs, x)).2⟩ := by
  obtain ⟨hi, hx⟩ := List.getElem?_eq_some_iff.mp h
  induction n with
  | zero =>
    simp only [List.replicate_zero, Sys.run, List.foldl_nil, Proc.steps]
    rw [← hx, List.set_getElem_self]
  | succ n ih =>
    rw [List.replicate_succ', show s.run M (List.replicate n i ++ [i]) = (s.run M (List.replicate n i)).step M i by simp [Sys.run], ih]
    unfold Sys.step
    dsimp only
    rw [List.getElem?_set_self hi]
    dsimp only
    rw [List.set_set]
    rfl

theorem run_append {M : Machine} {s : Sys} {a b : List Nat} : s.run M (a ++ b) = (s.run M a).run M b := by
  simp [Sys.run]

/-- What a command that is told to write `q`, and does not read it, does after something else was written there. -/
theorem outcome_set {M : Machine} {j : Job} {q : Path} (hi : q ∉ inputs j.command) (fs : Fs) (c : Bytes) :
    j.outcome M (fs.set q c) = j.outcome M fs :=
  C79_depends_on_inputs fun p hp => Fs.set_other fun he => hi (he ▸ hp)

/-- The command stays lawful whatever the others do. -/
theorem step_keeps {M : Machine} {R W : Path → Prop} {x : Proc End} {o : Option (Path × Nat)} (hx : Proc.Lawful R W o x) (fs : Fs) :
    ∃ o', Proc.Lawful R W o' (Proc.step M fs x).2 := by
  cases x with
  | done a => exact ⟨o, hx⟩
  | read path k => exact ⟨o, by cases o <;> exact hx.2 _⟩
  | create path k =>
    cases o with
    | some y => exact hx.elim
    | none =>
      simp only [Proc.step]
      split
      · exact ⟨_, hx.2.1⟩
      · exact ⟨_, hx.2.2⟩
  | write path pos d k =>
    cases o with
    | none => exact hx.elim
    | some y => exact ⟨_, hx.2.2.2⟩

/-- One process among others, which may be in each other's way as they like. -/
theorem isolated_one {M : Machine} {cut : Bytes → List Bytes} {jobs : List Job} {i : Nat} (hi : i < jobs.length)
    (hd : ∀ k (hk : k < jobs.length), k ≠ i → Independent jobs[k].command jobs[i].command) (fs : Fs) (schedule : List Nat) :
    ((start M cut fs jobs).run M schedule).procs[i]? =
        some (Proc.steps M (schedule.count i) (fs, Job.proc M cut jobs[i])).2 ∧
      (∀ q, q ∈ inputs jobs[i].command ∨ output jobs[i].command = some q →
        ((start M cut fs jobs).run M schedule).fs q = (Proc.steps M (schedule.count i) (fs, Job.proc M cut jobs[i])).1 q) ∧
      ∀ (k : Nat) (hk : k < jobs.length) (x : Proc End), ((start M cut fs jobs).run M schedule).procs[k]? = some x →
        ∃ o, Proc.Lawful (· ∈ inputs jobs[k].command) (output jobs[k].command = some ·) o x := by
  rw [← List.reverse_reverse schedule]
  generalize schedule.reverse = rev
  induction rev with
  | nil =>
    refine ⟨by simp [Sys.run, start, Proc.steps, hi], fun q _ => by simp [Sys.run, start, Proc.steps], fun k hk x hx => ?_⟩
    have : x = Job.proc M cut jobs[k] := by
      simp [Sys.run, start, hk] at hx
      exact hx.symm
    rw [this]
    exact ⟨none, command_lawful M cut _ _ _⟩
  | cons a rev ih =>
    rw [List.reverse_cons]
    generalize rev.reverse = sched at ih ⊢
    obtain ⟨hpi, hfi, hlaw⟩ := ih
    have hrun : (start M cut fs jobs).run M (sched ++ [a]) = ((start M cut fs jobs).run M sched).step M a := by
      simp [Sys.run]
    have hlen : ((start M cut fs jobs).run M sched).procs.length = jobs.length := by
      have : ∀ (l : List Nat) (s : Sys), (s.run M l).procs.length = s.procs.length := by
        intro l
        induction l with
        | nil => intro s; rfl
        | cons b l ih =>
          intro s
          show ((s.step M b).run M l).procs.length = _
          rw [ih]
          unfold Sys.step
          split
          · rfl
          · simp
      rw [this]
      simp [start]
    rw [hrun]
    generalize (start M cut fs jobs).run M sched = s at hpi hfi hlaw hlen
    have hcount : (sched ++ [a]).count i = sched.count i + if a = i then 1 else 0 := by
      rw [List.count_append, List.count_singleton]
      simp
    cases hpa : s.procs[a]? with
    | none =>
      have hia : a ≠ i := by rintro rfl; rw [hpi] at hpa; cases hpa
      have hstep : s.step M a = s := by
        unfold Sys.step
        rw [hpa]
      rw [hstep, hcount, if_neg hia]
      exact ⟨hpi, hfi, hlaw⟩
    | some x =>
      have ha : a < jobs.length := by
        rw [← hlen]; exact (List.getElem?_eq_some_iff.mp hpa).1
      obtain ⟨o, hx⟩ := hlaw a ha x hpa
      have hstep : s.step M a = ⟨(Proc.step M s.fs x).1, s.procs.set a (Proc.step M s.fs x).2⟩ := by
        unfold Sys.step
        rw [hpa]
      rw [hstep]
      refine ⟨?_, ?_, ?_⟩
      · by_cases hia : a = i
        · subst hia
          rw [hpi] at hpa
          cases hpa
          rw [hcount, if_pos rfl, Proc.steps]
          dsimp only
          rw [List.getElem?_set_self (by omega), (Proc.step_congr (M := M) hx hfi).1]
        · rw [hcount, if_neg hia, Nat.add_zero]
          dsimp only
          rw [List.getElem?_set_ne hia]
          exact hpi
      · intro q hq
        by_cases hia : a = i
        · subst hia
          rw [hpi] at hpa
          cases hpa
          rw [hcount, if_pos rfl, Proc.steps]
          exact (Proc.step_congr (M := M) hx hfi).2 q hq
        · rw [hcount, if_neg hia, Nat.add_zero, ← hfi q hq]
          refine Proc.step_frame hx fun hw => ?_
          obtain ⟨h1, _⟩ := hd a ha hia
          rcases hq with hq | hq
          · exact (h1 q hw).1 hq
          · exact (h1 q hw).2 hq
      · intro k hk y hy
        by_cases hka : a = k
        · subst hka
          dsimp only at hy
          rw [List.getElem?_set_self (by omega)] at hy
          cases hy
          exact step_keeps hx s.fs
        · dsimp only at hy
          rw [List.getElem?_set_ne hka] at hy
          exact hlaw k hk y hy

/-- C87, if no other command writes the output or one of the files that are read, or reads the output (missing: other commands that
do): whatever the others do to each other, a command that has ended has ended as it would have alone, and its output is what it
computed. -/
theorem C87_exclusive_partial {M : Machine} {cut : Bytes → List Bytes} (hcut : Buffering cut) {jobs : List Job} {i : Nat}
    (hi : i < jobs.length) (hd : ∀ k (hk : k < jobs.length), k ≠ i → Independent jobs[k].command jobs[i].command) (fs : Fs)
    (schedule : List Nat) {e : End} (h : ((start M cut fs jobs).run M schedule).procs[i]? = some (.done e)) :
    e.1 = (jobs[i].outcome M fs).printed ∧ e.2 = (jobs[i].outcome M fs).result ∧ e.status = (jobs[i].outcome M fs).status ∧
      ∀ q, output jobs[i].command = some q → ((start M cut fs jobs).run M schedule).fs q = (jobs[i].outcome M fs).after fs q := by
  obtain ⟨hp, hf, _⟩ := isolated_one (M := M) (cut := cut) hi hd fs schedule
  rw [h] at hp
  obtain ⟨stop, h1, h2⟩ := alone hcut jobs[i] fs (schedule.count i)
  obtain ⟨rfl, rfl⟩ := h2 e (Option.some.inj hp).symm
  refine ⟨rfl, rfl, rfl, fun q hq => ?_⟩
  rw [hf q (.inr hq), h1]
  rfl

/-- C87: two commands that are told to write the same file. If one of them runs from its beginning to its end while the other one
has done any number of operations, then both end as they would have alone, and the file has the content the first one would have
written, or the content the second one would have written with the remainder of the first one's written over it. -/
theorem C87_overlap {M : Machine} {cut : Bytes → List Bytes} (hcut : Buffering cut) {j1 j2 : Job} {fs : Fs} {q : Path}
    (hi1 : q ∉ inputs j1.command) (hi2 : q ∉ inputs j2.command) {d1 d2 : Bytes} (hw1 : (j1.outcome M fs).written = some (q, d1))
    (hw2 : (j2.outcome M fs).written = some (q, d2)) (n : Nat) :
    ∃ n1 n2 e1 e2, ∃ s : Sys, s = (start M cut fs [j1, j2]).run M (List.replicate n 0 ++ List.replicate n2 1 ++ List.replicate n1 0) ∧
      s.procs = [.done e1, .done e2] ∧ e1.status = (j1.outcome M fs).status ∧ e2.status = (j2.outcome M fs).status ∧
      (s.fs q = some d1 ∨ ∃ m, m ≤ d1.length ∧ s.fs q = some (writeAt d2 m (d1.drop m))) := by
  have ho1 : output j1.command = some q := C79_writes_output hw1
  have hrun0 := run_replicate (M := M) (s := start M cut fs [j1, j2]) (i := 0) (x := Job.proc M cut j1) rfl n
  obtain ⟨t, o, hlaw, hat, hW, hrun⟩ := Proc.steps_lawful (M := M) (fs := fs) (command_lawful M cut j1.now j1.clock j1.command) n
  rw [command_run hcut] at hrun
  replace hrun0 : (start M cut fs [j1, j2]).run M (List.replicate n 0) =
      ⟨(Proc.steps M n (fs, Job.proc M cut j1)).1, [(Proc.steps M n (fs, Job.proc M cut j1)).2, Job.proc M cut j2]⟩ := hrun0
  generalize Proc.steps M n (fs, Job.proc M cut j1) = s1 at hrun0 hlaw hat hrun
  obtain ⟨fs1, x1⟩ := s1
  dsimp only at hrun0 hlaw hat hrun
  -- the second command, from its beginning to its end
  have hfs1 : fs1 = fs ∨ ∃ c, fs1 = fs.set q c := by
    cases o with
    | none => exact .inl hat.1
    | some y =>
      obtain ⟨q', k⟩ := y
      have hq := hW q' k rfl
      rw [ho1] at hq
      cases hq
      obtain ⟨c, _, rfl, _⟩ := hat
      exact .inr ⟨c, rfl⟩
  have hB : ∃ n2, Proc.steps M n2 (fs1, Job.proc M cut j2) =
      (fs.set q d2, .done ((j2.outcome M fs).printed, (j2.outcome M fs).result)) := by
    obtain ⟨n2, hn2⟩ := Proc.steps_run (M := M) (Job.proc M cut j2) fs1 false
    refine ⟨n2, ?_⟩
    rw [hn2 n2 (Nat.le_refl _), command_run hcut]
    have he : j2.command.exec M j2.now j2.clock fs1 = j2.outcome M fs := by
      rcases hfs1 with rfl | ⟨c, rfl⟩
      · rfl
      · exact outcome_set hi2 fs c
    rw [he]
    unfold Outcome.ends Outcome.after
    rw [hw2]
    dsimp only
    rcases hfs1 with rfl | ⟨c, rfl⟩
    · rfl
    · rw [Fs.set_set]
  obtain ⟨n2, hn2⟩ := hB
  have hrun1 := run_replicate (M := M) (s := ⟨fs1, [x1, Job.proc M cut j2]⟩) (i := 1) (x := Job.proc M cut j2) rfl n2
  dsimp only at hrun1
  rw [hn2] at hrun1
  replace hrun1 : (⟨fs1, [x1, Job.proc M cut j2]⟩ : Sys).run M (List.replicate n2 1) =
    ⟨fs.set q d2, [x1, .done ((j2.outcome M fs).printed, (j2.outcome M fs).result)]⟩ := hrun1
  -- the remainder of the first command
  have hC : ∃ c, Proc.run M (fs.set q d2, t) x1 =
      ((fs.set q c, true), ((j1.outcome M fs).printed, (j1.outcome M fs).result)) ∧
      (c = d1 ∨ ∃ m, m ≤ d1.length ∧ c = writeAt d2 m (d1.drop m)) := by
    have hend : (j1.command.exec M j1.now j1.clock fs).ends fs =
        ((fs.set q d1, true), ((j1.outcome M fs).printed, (j1.outcome M fs).result)) := by
      show (j1.outcome M fs).ends fs = _
      unfold Outcome.ends Outcome.after
      rw [hw1]
      rfl
    rw [hend] at hrun
    cases o with
    | none =>
      obtain ⟨rfl, rfl⟩ := hat
      refine ⟨d1, ?_, .inl rfl⟩
      rw [run_before (q := q) hi1 (fun p hp => by rw [ho1] at hp; exact (Option.some.inj hp).symm) hlaw _ _ (by rw [← hrun]), ← hrun]
    | some y =>
      obtain ⟨q', k⟩ := y
      have hq := hW q' k rfl
      rw [ho1] at hq
      cases hq
      obtain ⟨c, hc, rfl, rfl⟩ := hat
      obtain ⟨rest, a, hr⟩ := run_after (M := M) hi1 hlaw fs
      rw [hr c] at hrun
      simp only [Prod.mk.injEq, and_true] at hrun
      obtain ⟨h1, rfl⟩ := hrun
      have h2 := congrFun h1 q
      rw [Fs.set_same, Fs.set_same, ← hc, writeAt_end] at h2
      cases h2
      refine ⟨writeAt d2 k rest, hr d2, .inr ⟨k, by simp [← hc], ?_⟩⟩
      rw [← hc, List.drop_left' rfl]
  obtain ⟨c, hc, hcc⟩ := hC
  obtain ⟨n1, hn1⟩ := Proc.steps_run (M := M) x1 (fs.set q d2) t
  have h1 := hn1 n1 (Nat.le_refl _)
  rw [hc] at h1
  have hrun2 := run_replicate (M := M) (s := ⟨fs.set q d2, [x1, .done ((j2.outcome M fs).printed, (j2.outcome M fs).result)]⟩) (i := 0)
    (x := x1) rfl n1
  dsimp only at hrun2
  rw [h1] at hrun2
  refine ⟨n1, n2, ((j1.outcome M fs).printed, (j1.outcome M fs).result), ((j2.outcome M fs).printed, (j2.outcome M fs).result), _, rfl, ?_⟩
  rw [run_append, run_append, hrun0, hrun1, hrun2]
  refine ⟨rfl, rfl, rfl, ?_⟩
  rcases hcc with rfl | ⟨m, hm, rfl⟩
  · left; exact Fs.set_same _ _ _
  · right; exact ⟨m, hm, Fs.set_same _ _ _⟩

/-! ### A concrete machine with two modules -/

/-- The files of `toyFs` and a second module. -/
def pairFs : Fs := fun q => if q = "in2".toList then some (List.replicate 30 9 ++ plainArchive.unsigned.drop 30) else toyFs q

/-- A buffer of 30 bytes that is written out once and then no more. -/
def cut30 (d : Bytes) : List Bytes := [d.take 30, d.drop 30]

theorem cut30_buffering : Buffering cut30 := fun d => by simp [cut30]

/-- Signing the first module, and signing the second one. -/
def signFirst (out : Path) : Job := ⟨.sign "in".toList out toyPaths noPaths [], 0, some 5⟩

def signSecond (out : Path) : Job := ⟨.sign "in2".toList out toyPaths noPaths [], 0, some 5⟩

/-- The exit status of a process that has ended. -/
def exited : Option (Proc End) → Option Nat
  | some (.done e) => some e.status
  | _ => none

/-- The hypotheses of the theorems about C86: two signings and a digest, and a schedule in which the second signing is killed. -/
example : Disjoint [signFirst "o".toList, signSecond "p".toList, ⟨.digest "in".toList false .hex [], 0, none⟩] := by
  intro i j hi hj hij
  have : ∀ i j : Fin 3, i ≠ j → Independent
      ([signFirst "o".toList, signSecond "p".toList, ⟨.digest "in".toList false .hex [], 0, none⟩] : List Job)[i].command
      ([signFirst "o".toList, signSecond "p".toList, ⟨.digest "in".toList false .hex [], 0, none⟩] : List Job)[j].command := by
    intro i j hij
    match i, j with
    | 0, 0 | 1, 1 | 2, 2 => exact absurd rfl hij
    | 0, 1 | 0, 2 | 1, 0 | 1, 2 | 2, 0 | 2, 1 => constructor <;> intro q hq <;> cases hq <;> decide
  exact this ⟨i, hi⟩ ⟨j, hj⟩ (fun h => hij (congrArg Fin.val h))

set_option maxRecDepth 100000 in
example :
    exited ((start toyMachine cut30 pairFs [signFirst "o".toList, signSecond "p".toList]).run toyMachine
      (List.replicate 17 0 ++ List.replicate 17 1 ++ [0])).procs[0]? = some 0 ∧
    ((start toyMachine cut30 pairFs [signFirst "o".toList, signSecond "p".toList]).run toyMachine
      (List.replicate 17 0 ++ List.replicate 17 1 ++ [0])).fs "p".toList = some (List.replicate 30 9) := by
  decide +kernel

/-- The hypotheses of `C87_exclusive_partial`, with two other commands that write the same file. -/
example : ∀ k (hk : k < 3), k ≠ 0 → Independent
    ([signFirst "o".toList, signSecond "p".toList, signFirst "p".toList] : List Job)[k].command (signFirst "o".toList).command := by
  intro k hk hk0
  match k, hk with
  | 0, _ => exact absurd rfl hk0
  | 1, _ =>
    show Independent (signSecond "p".toList).command (signFirst "o".toList).command
    constructor <;> intro q hq <;> cases hq <;> decide
  | 2, _ =>
    show Independent (signFirst "p".toList).command (signFirst "o".toList).command
    constructor <;> intro q hq <;> cases hq <;> decide

set_option maxRecDepth 100000 in
/-- The hypotheses of `C87_overlap`. -/
example : "o".toList ∉ inputs (signFirst "o".toList).command ∧ "o".toList ∉ inputs (signSecond "o".toList).command ∧
    (((signFirst "o".toList).outcome toyMachine pairFs).written.map fun x => (x.1, x.2.length)) = some ("o".toList, 4152) ∧
    (((signSecond "o".toList).outcome toyMachine pairFs).written.map fun x => (x.1, x.2.length)) = some ("o".toList, 4152) := by
  decide +kernel

set_option maxRecDepth 100000 in
/-- C87: so an exit status of 0 does not mean that the output is a signed module, if another command writes it at the same time:
two signings end with 0, and the verify command, which accepts the output of each of them alone, refuses what they leave. -/
theorem C87_both_succeed_output_refused :
    ∃ schedule : List Nat, ∃ s : Sys, s = (start toyMachine cut30 pairFs [signFirst "o".toList, signSecond "o".toList]).run toyMachine schedule ∧
      exited s.procs[0]? = some 0 ∧ exited s.procs[1]? = some 0 ∧
      ((Command.verify "o".toList none).exec toyMachine 0 none s.fs).status = 1 ∧
      ((Command.verify "o".toList none).exec toyMachine 0 none (((signFirst "o".toList).outcome toyMachine pairFs).after pairFs)).status = 0 ∧
      ((Command.verify "o".toList none).exec toyMachine 0 none (((signSecond "o".toList).outcome toyMachine pairFs).after pairFs)).status = 0 :=
  ⟨List.replicate 17 0 ++ List.replicate 18 1 ++ [0], _, rfl, by decide +kernel, by decide +kernel, by decide +kernel, by decide +kernel,
    by decide +kernel⟩

end Ksusig.Props
