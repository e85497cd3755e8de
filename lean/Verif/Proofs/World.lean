import Verif.SpecWorld
import Verif.Proofs.Fault

/-! # Lemmas about commands in a world where anything happens -/

namespace Ksusig

open Spec Proc

theorem world_cons {M : Machine} {e : Event} {events : List Event} {s : Fs × Proc End} :
    world M (e :: events) s = world M events (e.step M s) := rfl

theorem world_append {M : Machine} {a b : List Event} {s : Fs × Proc End} : world M (a ++ b) s = world M b (world M a s) := by
  simp [world]

theorem world_done {M : Machine} (events : List Event) (fs : Fs) (e : End) : (world M events (fs, .done e)).2 = .done e := by
  induction events generalizing fs with
  | nil => rfl
  | cons ev events ih =>
    rw [world_cons]
    cases ev with
    | own f => cases f <;> exact ih _
    | other p c => exact ih _

/-- A failing operation. -/
theorem fail_congr {R W : Path → Prop} {x : Proc End} {o : Option (Path × Nat)} (hx : Lawful R W o x) {fs fs' : Fs} (left : Bytes)
    (h : ∀ q, R q ∨ W q → fs q = fs' q) :
    (Proc.fail left fs x).2 = (Proc.fail left fs' x).2 ∧
      ∀ q, R q ∨ W q → (Proc.fail left fs x).1 q = (Proc.fail left fs' x).1 q := by
  cases x with
  | done a => exact ⟨rfl, h⟩
  | read path k => exact ⟨rfl, h⟩
  | create path k => exact ⟨rfl, h⟩
  | write path pos d k =>
    refine ⟨rfl, fun q hq => ?_⟩
    show Fs.set fs path left q = Fs.set fs' path left q
    unfold Fs.set
    split
    · rfl
    · exact h q hq

theorem fail_frame {R W : Path → Prop} {x : Proc End} {o : Option (Path × Nat)} (hx : Lawful R W o x) {fs : Fs} (left : Bytes)
    {q : Path} (hq : ¬ W q) : (Proc.fail left fs x).1 q = fs q := by
  cases x with
  | done a => rfl
  | read path k => rfl
  | create path k => rfl
  | write path pos d k =>
    cases o with
    | none => exact hx.elim
    | some y =>
      show Fs.set fs path left q = fs q
      exact Fs.set_other fun he => hq (he ▸ hx.1)

theorem fail_keeps {R W : Path → Prop} {x : Proc End} {o : Option (Path × Nat)} (hx : Lawful R W o x) (left : Bytes) (fs : Fs) :
    ∃ o', Lawful R W o' (Proc.fail left fs x).2 := by
  cases x with
  | done a => exact ⟨o, hx⟩
  | read path k => exact ⟨o, by cases o <;> exact hx.2 _⟩
  | create path k =>
    cases o with
    | some y => exact hx.elim
    | none => exact ⟨_, hx.2.2⟩
  | write path pos d k => exact ⟨none, lawful_done⟩

theorem step_lawful' {M : Machine} {R W : Path → Prop} {x : Proc End} {o : Option (Path × Nat)} (hx : Lawful R W o x) (fs : Fs) :
    ∃ o', Lawful R W o' (Proc.step M fs x).2 := by
  cases x with
  | done a => exact ⟨o, hx⟩
  | read path k => exact ⟨o, by cases o <;> exact hx.2 _⟩
  | create path k =>
    cases o with
    | some y => exact hx.elim
    | none =>
      simp only [Proc.step]
      split
      · exact ⟨_, hx.2.1⟩
      · exact ⟨_, hx.2.2⟩
  | write path pos d k =>
    cases o with
    | none => exact hx.elim
    | some y => exact ⟨_, hx.2.2.2⟩

/-- A process whose files nobody else touches. -/
theorem world_undisturbed {M : Machine} {R W : Path → Prop} (events : List Event) (hu : ∀ q, R q ∨ W q → Untouched events q)
    {x : Proc End} {o : Option (Path × Nat)} (hx : Lawful R W o x) {fs fs' : Fs} (h : ∀ q, R q ∨ W q → fs q = fs' q) :
    (world M events (fs, x)).2 = (faultyRun M (faultsOf events) (fs', x)).2 ∧
      ∀ q, R q ∨ W q → (world M events (fs, x)).1 q = (faultyRun M (faultsOf events) (fs', x)).1 q := by
  induction events generalizing x o fs fs' with
  | nil => exact ⟨rfl, h⟩
  | cons e events ih =>
    have hu' : ∀ q, R q ∨ W q → Untouched events q := fun q hq c hc => hu q hq c (List.mem_cons_of_mem _ hc)
    rw [world_cons]
    cases e with
    | other p c =>
      refine ih hu' hx fun q hq => ?_
      show (if q = p then c else fs q) = fs' q
      rw [if_neg]
      · exact h q hq
      · rintro rfl
        exact hu q hq c (List.mem_cons_self ..)
    | own f =>
      cases f with
      | none =>
        obtain ⟨o', ho'⟩ := step_lawful' (M := M) hx fs
        obtain ⟨h1, h2⟩ := step_congr (M := M) hx h
        have he : Event.step M (fs, x) (.own none) = ((step M fs x).1, (step M fs x).2) := rfl
        have hf : faultyRun M (faultsOf (.own none :: events)) (fs', x) = faultyRun M (faultsOf events) (step M fs' x) := rfl
        rw [he, hf, show step M fs' x = ((step M fs' x).1, (step M fs x).2) from by rw [h1]]
        exact ih hu' ho' h2
      | some left =>
        obtain ⟨o', ho'⟩ := fail_keeps hx left fs
        obtain ⟨h1, h2⟩ := fail_congr hx left h
        have he : Event.step M (fs, x) (.own (some left)) = ((Proc.fail left fs x).1, (Proc.fail left fs x).2) := rfl
        have hf : faultyRun M (faultsOf (.own (some left) :: events)) (fs', x) =
          faultyRun M (faultsOf events) (Proc.fail left fs' x) := rfl
        rw [he, hf, show Proc.fail left fs' x = ((Proc.fail left fs' x).1, (Proc.fail left fs x).2) from by rw [h1]]
        exact ih hu' ho' h2

/-- The other files. -/
theorem world_frame {M : Machine} {R W : Path → Prop} (events : List Event) {x : Proc End} {o : Option (Path × Nat)}
    (hx : Lawful R W o x) {fs fs' : Fs} {q : Path} (hq : ¬ W q) (h : fs q = fs' q) :
    (world M events (fs, x)).1 q = without events fs' q := by
  induction events generalizing x o fs fs' with
  | nil => exact h
  | cons e events ih =>
    rw [world_cons]
    cases e with
    | other p c =>
      refine ih hx ?_
      show (if q = p then c else fs q) = if q = p then c else fs' q
      rw [h]
    | own f =>
      cases f with
      | none =>
        obtain ⟨o', ho'⟩ := step_lawful' (M := M) hx fs
        exact ih ho' ((step_frame hx hq).trans h)
      | some left =>
        obtain ⟨o', ho'⟩ := fail_keeps hx left fs
        exact ih ho' ((fail_frame hx left hq).trans h)

/-- The process after one of its operations, failed or not: one of the possible continuations. -/
theorem world_ends {M : Machine} (x : Proc End) (fs : Fs) (events : Nat → Event)
    (hfair : ∀ n, ∃ m f, n ≤ m ∧ events m = .own f) :
    ∃ n e, (world M ((List.range n).map events) (fs, x)).2 = .done e := by
  -- the first own event
  have first : ∀ (events : Nat → Event), (∀ n, ∃ m f, n ≤ m ∧ events m = .own f) →
      ∃ m f, events m = .own f ∧ ∀ k < m, ∃ p c, events k = .other p c := by
    intro events hfair
    obtain ⟨m, f, -, h⟩ := hfair 0
    induction m using Nat.strongRecOn generalizing f with
    | ind m ih =>
      by_cases hk : ∃ k f', k < m ∧ events k = .own f'
      · obtain ⟨k, f', hk, he⟩ := hk
        exact ih k hk f' he
      · refine ⟨m, f, h, fun k hkm => ?_⟩
        cases he : events k with
        | own f' => exact absurd ⟨k, f', hkm, he⟩ hk
        | other p c => exact ⟨p, c, rfl⟩
  have wait : ∀ (x : Proc End) (fs : Fs) (events : Nat → Event) (m : Nat), (∀ k < m, ∃ p c, events k = .other p c) →
      (world M ((List.range m).map events) (fs, x)).2 = x := by
    intro x fs events m
    induction m with
    | zero => intro _; rfl
    | succ m ih =>
      intro h
      rw [List.range_succ, List.map_append, world_append]
      obtain ⟨p, c, he⟩ := h m (by omega)
      show (world M [events m] _).2 = x
      rw [he]
      exact ih fun k hk => h k (by omega)
  have shift : ∀ (s : Fs × Proc End) (events : Nat → Event) (m n : Nat),
      world M ((List.range (m + n)).map events) s =
        world M ((List.range n).map fun k => events (m + k)) (world M ((List.range m).map events) s) := by
    intro s events m n
    rw [List.range_add, List.map_append, world_append, List.map_map]
    rfl
  -- one operation
  have go : ∀ (x : Proc End) (fs : Fs) (events : Nat → Event), (∀ n, ∃ m f, n ≤ m ∧ events m = .own f) →
      ∃ m fs' f, (world M ((List.range m).map events) (fs, x)) = Event.step M (fs', x) (.own f) := by
    intro x fs events hfair
    obtain ⟨m, f, h1, h2⟩ := first events hfair
    refine ⟨m + 1, (world M ((List.range m).map events) (fs, x)).1, f, ?_⟩
    rw [List.range_succ, List.map_append, world_append]
    show Event.step M _ (events m) = _
    rw [h1]
    have hw := wait x fs events m h2
    have : world M ((List.range m).map events) (fs, x) = ((world M ((List.range m).map events) (fs, x)).1, x) :=
      Prod.ext rfl hw
    exact congrArg (fun s => Event.step M s (.own f)) this
  have fairShift : ∀ (events : Nat → Event) (m : Nat), (∀ n, ∃ m f, n ≤ m ∧ events m = .own f) →
      ∀ n, ∃ k f, n ≤ k ∧ events (m + k) = .own f := by
    intro events m h n
    obtain ⟨k, f, hk, he⟩ := h (m + n)
    exact ⟨k - m, f, by omega, by rw [show m + (k - m) = k by omega]; exact he⟩
  have conclude : ∀ (x y : Proc End) (fs fs' : Fs) (events : Nat → Event) (m : Nat),
      (world M ((List.range m).map events) (fs, x)) = (fs', y) →
      (∃ n e, (world M ((List.range n).map fun k => events (m + k)) (fs', y)).2 = .done e) →
      ∃ n e, (world M ((List.range n).map events) (fs, x)).2 = .done e := by
    rintro x y fs fs' events m h ⟨n, e, hn⟩
    exact ⟨m + n, e, by rw [shift, h]; exact hn⟩
  induction x generalizing fs events with
  | done e => exact ⟨0, e, rfl⟩
  | read path k ih =>
    obtain ⟨m, fs', f, h⟩ := go _ fs events hfair
    cases f with
    | none => exact conclude _ _ _ _ _ m h (ih _ _ _ (fairShift events m hfair))
    | some left => exact conclude _ _ _ _ _ m h (ih _ _ _ (fairShift events m hfair))
  | create path k ih =>
    obtain ⟨m, fs', f, h⟩ := go (.create path k) fs events hfair
    cases f with
    | none =>
      simp only [Event.step, Proc.step] at h
      by_cases hc : M.creatable path = true
      · rw [if_pos hc] at h
        exact conclude _ _ _ _ _ m h (ih _ _ _ (fairShift events m hfair))
      · rw [if_neg hc] at h
        exact conclude _ _ _ _ _ m h (ih _ _ _ (fairShift events m hfair))
    | some left => exact conclude _ _ _ _ _ m h (ih _ _ _ (fairShift events m hfair))
  | write path pos d k ih =>
    obtain ⟨m, fs', f, h⟩ := go _ fs events hfair
    cases f with
    | none => exact conclude _ _ _ _ _ m h (ih _ _ (fairShift events m hfair))
    | some left => exact conclude _ _ _ _ _ m h ⟨0, _, rfl⟩

/-! ## What a process that only reads can have seen -/

/-- The results a process that only reads can have, if every read gives one of these contents, or fails. -/
def CanGet {α : Type} (S : Path → Bytes → Prop) : Proc α → α → Prop
  | .done a, b => a = b
  | .read path k, b => CanGet S (k none) b ∨ ∃ d, S path d ∧ CanGet S (k (some d)) b
  | .create _ _, _ => False
  | .write _ _ _ _, _ => False

theorem canGet_bind {α β : Type} {S : Path → Bytes → Prop} {x : Proc α} {f : α → Proc β} {b : β} (h : CanGet S (x.bind f) b) :
    ∃ a, CanGet S x a ∧ CanGet S (f a) b := by
  induction x with
  | done a => exact ⟨a, rfl, h⟩
  | read path k ih =>
    rcases h with h | ⟨d, hd, h⟩
    · obtain ⟨a, h1, h2⟩ := ih none h
      exact ⟨a, .inl h1, h2⟩
    · obtain ⟨a, h1, h2⟩ := ih (some d) h
      exact ⟨a, .inr ⟨d, hd, h1⟩, h2⟩
  | create path k ih => exact h.elim
  | write path pos d k ih => exact h.elim

theorem canGet_ok {α β : Type} {S : Path → Bytes → Prop} {x : Proc (Res α)} {f : α → Proc (Res β)} {b : β}
    (h : CanGet S (x.andThen f) (.ok b)) : ∃ a, CanGet S x (.ok a) ∧ CanGet S (f a) (.ok b) := by
  obtain ⟨r, h1, h2⟩ := canGet_bind h
  cases r with
  | ok a => exact ⟨a, h1, h2⟩
  | err e => cases h2
  | panic => cases h2

theorem canGet_open {α : Type} {S : Path → Bytes → Prop} {path : Path} {k : Bytes → Proc (Res α)} {b : α}
    (h : CanGet S (open' path k) (.ok b)) : ∃ d, S path d ∧ CanGet S (k d) (.ok b) := by
  rcases h with h | h
  · cases h
  · exact h

theorem canGet_mono {α : Type} {S T : Path → Bytes → Prop} (hST : ∀ q d, S q d → T q d) {x : Proc α} {b : α} (h : CanGet S x b) :
    CanGet T x b := by
  induction x with
  | done a => exact h
  | read path k ih =>
    rcases h with h | ⟨d, hd, h⟩
    · exact .inl (ih none h)
    · exact .inr ⟨d, hST _ _ hd, ih (some d) h⟩
  | create path k ih => exact h.elim
  | write path pos d k ih => exact h.elim

theorem world_canGet {M : Machine} {R : Path → Prop} (events : List Event) {x : Proc End} (hx : Reads R x) {fs fs' : Fs} {e : End}
    (h : world M events (fs, x) = (fs', .done e)) : CanGet (Seen M events (fs, x)) x e := by
  induction events generalizing x fs with
  | nil =>
    cases h
    exact rfl
  | cons ev events ih =>
    rw [world_cons] at h
    have later : ∀ q d, Seen M events (ev.step M (fs, x)) q d → Seen M (ev :: events) (fs, x) q d := by
      rintro q d ⟨b, a, rfl, hb⟩
      exact ⟨ev :: b, a, rfl, hb⟩
    cases ev with
    | other p c => exact canGet_mono later (ih hx h)
    | own f =>
      cases x with
      | done a =>
        have := world_done (M := M) events (Event.step M (fs, .done a) (.own f)).1 a
        cases f <;> exact Proc.done.inj ((this.symm.trans (congrArg Prod.snd h)))
      | create path k => exact hx.elim
      | write path pos d k => exact hx.elim
      | read path k =>
        cases f with
        | some left => exact .inl (canGet_mono later (ih (hx.2 none) h))
        | none =>
          have h1 := canGet_mono later (ih (x := k (fs path)) (hx.2 (fs path)) h)
          cases hd : fs path with
          | none => rw [hd] at h1; exact .inl h1
          | some d => rw [hd] at h1; exact .inr ⟨d, ⟨[], _, rfl, hd⟩, h1⟩

end Ksusig
