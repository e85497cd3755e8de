import Verif.SpecProgram
import Verif.Props.Commands
import Verif.Props.Forge
import Verif.Props.Keystore

/-!
# Histories of commands on a file system
-/

namespace Ksusig.Props

open Ksusig Spec

theorem load_congr {K : KeyEnv} {fs fs' : Fs} {c : CredPaths} (h : ∀ q ∈ credFiles c, fs q = fs' q) :
    c.load K fs = c.load K fs' := by
  have hp : ∀ q, c.p12 = some q → fs q = fs' q := fun q hq => h q (by simp [credFiles, hq])
  have hk : ∀ q, c.key = some q → fs q = fs' q := fun q hq => h q (by simp [credFiles, hq])
  have hc : ∀ q, c.cert = some q → fs q = fs' q := fun q hq => h q (by simp [credFiles, hq])
  obtain ⟨key, cert, p12, pwd⟩ := c
  unfold CredPaths.load
  dsimp only at hp hk hc ⊢
  cases p12 with
  | some q => dsimp only; rw [hp q rfl]
  | none =>
    cases key with
    | none => rfl
    | some k =>
      cases cert with
      | none => rfl
      | some c => dsimp only; rw [hk k rfl, hc c rfl]

theorem signerFrom_congr {K : KeyEnv} {fs fs' : Fs} {v2 stamp : CredPaths}
    (h : ∀ q ∈ credFiles v2 ++ credFiles stamp, fs q = fs' q) : signerFrom K fs v2 stamp = signerFrom K fs' v2 stamp := by
  unfold signerFrom
  rw [load_congr (fs' := fs') (c := v2) fun q hq => h q (by simp [hq]),
    load_congr (fs' := fs') (c := stamp) fun q hq => h q (by simp [hq])]

/-- C79: what a command writes, prints and returns depends on nothing but the files it is told to read. -/
theorem C79_depends_on_inputs {M : Machine} {now : Nat} {clock : Option UInt64} {c : Command} {fs fs' : Fs}
    (h : ∀ q ∈ inputs c, fs q = fs' q) : c.exec M now clock fs = c.exec M now clock fs' := by
  cases c with
  | sign input out v2 stamp sections =>
    unfold Command.exec
    dsimp only
    rw [signerFrom_congr (fs' := fs') fun q hq => h q (by simp only [inputs, List.mem_cons]; exact .inr hq), h input (by simp [inputs])]
  | verify module root =>
    unfold Command.exec
    dsimp only
    rw [h module (by simp [inputs])]
    cases root with
    | none => rfl
    | some q => dsimp only; rw [h q (by simp [inputs])]
  | info module => unfold Command.exec; dsimp only; rw [h module (by simp [inputs])]
  | digest input _ _ _ => unfold Command.exec; dsimp only; rw [h input (by simp [inputs])]
  | dump input out _ => unfold Command.exec; dsimp only; rw [h input (by simp [inputs])]

theorem create_written {M : Machine} {o : Path} {x : Option Bytes × Res Unit} {q : Path} {d : Bytes}
    (h : (Outcome.create M o x).written = some (q, d)) : q = o := by
  unfold Outcome.create at h
  split at h
  · cases h
  · split at h
    · cases h; rfl
    · cases h

/-- C79: a command writes at most the file it is told to write. -/
theorem C79_writes_output {M : Machine} {now : Nat} {clock : Option UInt64} {c : Command} {fs : Fs} {q : Path} {d : Bytes}
    (h : (c.exec M now clock fs).written = some (q, d)) : output c = some q := by
  cases c with
  | sign input out v2 stamp sections =>
    unfold Command.exec at h
    dsimp only at h
    split at h
    · cases h
    · split at h
      · cases h
      · rw [create_written h]; rfl
  | verify module root =>
    unfold Command.exec at h
    dsimp only at h
    repeat' split at h
    all_goals cases h
  | info module =>
    unfold Command.exec at h
    dsimp only at h
    split at h <;> cases h
  | digest input _ _ _ =>
    unfold Command.exec at h
    dsimp only at h
    split at h
    · cases h
    · split at h <;> cases h
  | dump input out _ =>
    unfold Command.exec at h
    dsimp only at h
    split at h
    · cases h
    · rw [create_written h]; rfl

theorem set_other {fs : Fs} {p q : Path} {d : Bytes} (h : q ≠ p) : fs.set p d q = fs q := by
  unfold Fs.set; rw [if_neg h]

theorem set_same {fs : Fs} {p : Path} {d : Bytes} : fs.set p d p = some d := by
  unfold Fs.set; rw [if_pos rfl]

/-- How a run changes the file system: not at all, or by a new content of one path, which does not depend on anything but the
outcome of the command. -/
def Run.effect (r : Run) (o : Outcome) : Option (Path × Bytes) :=
  match r.stop with
  | .finished => o.written
  | .before => none
  | .writing n => o.written.map fun x => (x.1, x.2.take n)

def applyEffect (e : Option (Path × Bytes)) (fs : Fs) : Fs :=
  match e with
  | some (p, d) => fs.set p d
  | none => fs

theorem after_eq {M : Machine} {r : Run} {fs : Fs} :
    r.after M fs = applyEffect (Run.effect r (r.command.exec M r.now r.clock fs)) fs := by
  unfold Run.after Run.effect Outcome.after applyEffect
  dsimp only
  cases r.stop with
  | finished => rfl
  | before => rfl
  | writing n =>
    dsimp only
    cases (r.command.exec M r.now r.clock fs).written <;> rfl

theorem effect_output {M : Machine} {r : Run} {fs : Fs} {q : Path} {d : Bytes}
    (h : Run.effect r (r.command.exec M r.now r.clock fs) = some (q, d)) : output r.command = some q := by
  unfold Run.effect at h
  split at h
  · exact C79_writes_output h
  · cases h
  · rw [Option.map_eq_some_iff] at h
    obtain ⟨⟨p, d'⟩, hw, he⟩ := h
    cases he
    exact C79_writes_output hw

theorem after_other {M : Machine} {r : Run} {fs : Fs} {q : Path} (h : output r.command ≠ some q) : r.after M fs q = fs q := by
  rw [after_eq]
  cases he : Run.effect r (r.command.exec M r.now r.clock fs) with
  | none => rfl
  | some x =>
    obtain ⟨p, d⟩ := x
    have := effect_output he
    refine set_other fun hq => h ?_
    rw [this, hq]

/-- C79: over any history of commands, each of which may be stopped at any point, a file that none of them is told to write
keeps its content, and no such file appears. -/
theorem C79_history_frame {M : Machine} {rs : List Run} {fs : Fs} {q : Path} (h : Spares rs q) : history M rs fs q = fs q := by
  unfold history
  induction rs generalizing fs with
  | nil => rfl
  | cons r rs ih =>
    rw [List.foldl_cons, ih fun x hx => h x (by simp [hx])]
    exact after_other (h r (by simp))

/-- C79: a command does after any history what it would have done before, if none of the files it reads is written in between. -/
theorem C79_history_stable {M : Machine} {rs : List Run} {fs : Fs} {c : Command} {now : Nat} {clock : Option UInt64}
    (h : ∀ q ∈ inputs c, Spares rs q) : c.exec M now clock (history M rs fs) = c.exec M now clock fs :=
  C79_depends_on_inputs fun q hq => C79_history_frame (h q hq)

/-- C79: the verify, info and digest commands change nothing. -/
theorem C79_read_only {M : Machine} {rs : List Run} {fs : Fs} (h : ∀ r ∈ rs, output r.command = none) : history M rs fs = fs := by
  funext q
  exact C79_history_frame fun r hr => by rw [h r hr]; simp

theorem applyEffect_comm {e e' : Option (Path × Bytes)} {fs : Fs} (h : ∀ p d p' d', e = some (p, d) → e' = some (p', d') → p ≠ p') :
    applyEffect e (applyEffect e' fs) = applyEffect e' (applyEffect e fs) := by
  cases e with
  | none => rfl
  | some x =>
    cases e' with
    | none => rfl
    | some x' =>
      obtain ⟨p, d⟩ := x
      obtain ⟨p', d'⟩ := x'
      have hne := h p d p' d' rfl rfl
      funext q
      simp only [applyEffect, Fs.set]
      by_cases h1 : q = p
      · by_cases h2 : q = p'
        · exact absurd (h1.symm.trans h2) hne
        · rw [if_pos h1, if_neg h2, if_pos h1]
      · by_cases h2 : q = p'
        · rw [if_neg h1, if_pos h2, if_pos h2]
        · rw [if_neg h1, if_neg h2, if_neg h2, if_neg h1]

/-- C79: two runs of independent commands can be exchanged: the files end up the same, and each of them does the same. -/
theorem C79_independent_commute {M : Machine} {r s : Run} {fs : Fs} (h : Independent r.command s.command) :
    r.after M (s.after M fs) = s.after M (r.after M fs) ∧
      r.command.exec M r.now r.clock (s.after M fs) = r.command.exec M r.now r.clock fs ∧
      s.command.exec M s.now s.clock (r.after M fs) = s.command.exec M s.now s.clock fs := by
  have h1 : r.command.exec M r.now r.clock (s.after M fs) = r.command.exec M r.now r.clock fs :=
    C79_depends_on_inputs fun q hq => after_other fun ho => (h.2 q ho).1 hq
  have h2 : s.command.exec M s.now s.clock (r.after M fs) = s.command.exec M s.now s.clock fs :=
    C79_depends_on_inputs fun q hq => after_other fun ho => (h.1 q ho).1 hq
  refine ⟨?_, h1, h2⟩
  rw [after_eq, h1, after_eq (r := s) (fs := r.after M fs), h2, after_eq (r := s) (fs := fs), after_eq (r := r) (fs := fs)]
  refine applyEffect_comm fun p d p' d' he he' => ?_
  rintro rfl
  exact (h.1 p (effect_output he)).2 (effect_output he')

/-- C79: a set of runs of pairwise independent commands leaves the same files in every order. -/
theorem C79_any_order {M : Machine} {rs rs' : List Run} {fs : Fs} (hp : rs.Perm rs')
    (h : rs.Pairwise fun r s => Independent r.command s.command) : history M rs fs = history M rs' fs := by
  unfold history
  induction hp generalizing fs with
  | nil => rfl
  | cons x _ ih => exact ih (List.pairwise_cons.mp h).2
  | swap x y l =>
    rw [List.foldl_cons, List.foldl_cons, List.foldl_cons, List.foldl_cons]
    have := (List.pairwise_cons.mp h).1 x (by simp)
    rw [(C79_independent_commute (M := M) (fs := fs) this).1]
  | trans h1 _ ih1 ih2 =>
    rw [ih1 h]
    refine ih2 (h1.pairwise h ?_)
    intro a b hab
    exact ⟨hab.2, hab.1⟩

/-- C79: a command that was stopped can be repeated: if it reads nothing that it writes, running it again to its end leaves the
same files as running it once. -/
theorem C79_repeat_after_stop {M : Machine} {c : Command} {now : Nat} {clock : Option UInt64} {stops : List Stop} {fs : Fs}
    (h : ∀ q, output c = some q → q ∉ inputs c) :
    history M (stops.map (fun s => Run.mk c now clock s) ++ [⟨c, now, clock, .finished⟩]) fs =
      history M [⟨c, now, clock, .finished⟩] fs := by
  have hs : ∀ q, output c ≠ some q → history M (stops.map fun s => Run.mk c now clock s) fs q = fs q := by
    intro q hq
    refine C79_history_frame fun r hr => ?_
    obtain ⟨s, _, rfl⟩ := List.mem_map.mp hr
    exact hq
  have he : c.exec M now clock (history M (stops.map fun s => Run.mk c now clock s) fs) = c.exec M now clock fs :=
    C79_depends_on_inputs fun q hq => hs q fun ho => h q ho hq
  unfold history at he hs ⊢
  rw [List.foldl_append]
  simp only [List.foldl_cons, List.foldl_nil]
  rw [after_eq, after_eq]
  dsimp only
  rw [he]
  cases hx : Run.effect ⟨c, now, clock, .finished⟩ (c.exec M now clock fs) with
  | none =>
    -- nothing is written, so the stopped runs have written nothing either
    have hw : (c.exec M now clock fs).written = none := hx
    clear he hs
    show List.foldl _ fs _ = fs
    induction stops with
    | nil => rfl
    | cons s stops ih =>
      rw [List.map_cons, List.foldl_cons, after_eq]
      have : Run.effect ⟨c, now, clock, s⟩ (c.exec M now clock fs) = none := by
        unfold Run.effect; rw [hw]; cases s <;> rfl
      dsimp only
      rw [this]
      exact ih
  | some x =>
    obtain ⟨p, d⟩ := x
    have ho : output c = some p := effect_output (r := ⟨c, now, clock, .finished⟩) hx
    funext q
    by_cases hq : q = p
    · subst hq; exact set_same.trans set_same.symm
    · refine (set_other hq).trans ((hs q ?_).trans (set_other hq).symm)
      rw [ho]; intro h'; cases h'; exact hq rfl

/-! ### Signing and verifying in a history -/

theorem detect_signed {p' : Profile} {a : Archive} {file : Bytes} {b : SigningBlock} (hin : SignInput a file)
    (hs : ∀ n, n ≤ 16392 → Signable a n) (hb : Built p' b) (h4 : 4 ≤ a.body.length) (h : detectFileFormat file = .ok .module) :
    detectFileFormat (a.signed b.toU8) = .ok .module := by
  have hpre : ∀ {rest rest' : Bytes} {x : Bytes}, x.length ≤ 4 → (x <+: a.body ++ rest ↔ x <+: a.body ++ rest') := by
    intro rest rest' x hx
    constructor <;> intro hp
    all_goals
      have := List.prefix_of_prefix_length_le hp (List.prefix_append a.body _) (by omega)
      exact this.trans (List.prefix_append _ _)
  have hf : ∃ rest, file = a.body ++ rest := by
    rcases hin with ⟨rfl, _⟩ | ⟨p', b0, _, _, rfl⟩
    · exact ⟨a.cd ++ wireEocd a.tail a.body.length, by simp [Archive.unsigned]⟩
    · exact ⟨b0.toU8 ++ (a.cd ++ wireEocd a.tail (a.body.length + b0.toU8.length)), by simp [Archive.signed]⟩
  obtain ⟨rest, rfl⟩ := hf
  have hsg : a.signed b.toU8 = a.body ++ (b.toU8 ++ (a.cd ++ wireEocd a.tail (a.body.length + b.toU8.length))) := by
    simp [Archive.signed]
  obtain ⟨-, hne, -⟩ := (C51_format_detection _).2.1.mp h
  have hl := built_length hb
  have hsp := split_signed .dev hb.wf (hs _ hl).comment (hs _ hl).cleanNew (hs _ hl).size
  obtain ⟨e, he, _⟩ := hsp.parts
  unfold detectFileFormat readExactAt
  have hlen : 4 ≤ (a.signed b.toU8).length := by rw [hsg, List.length_append]; omega
  rw [slice?_of_le (by omega) (by omega)]
  simp only [Res.ofOption, Res.ok_bind, List.drop_zero]
  rw [if_neg]
  · split
    · rfl
    · rw [he]
  · intro hx
    apply hne
    rw [hpre (rest' := b.toU8 ++ (a.cd ++ wireEocd a.tail (a.body.length + b.toU8.length))) (by simp), ← hsg]
    rw [← hx]
    exact List.take_prefix _ _

theorem load_args {K : KeyEnv} {fs : Fs} {c : CredPaths} {x : Option Credentials} (h : c.load K fs = .ok x) :
    ∃ args : CredArgs, args.load K = .ok x := by
  obtain ⟨key, cert, p12, pwd⟩ := c
  unfold CredPaths.load at h
  dsimp only at h
  split at h
  · split at h
    · cases h
    · rename_i pwd
      split at h
      · cases h
      · rename_i data _
        exact ⟨⟨none, none, some data, some pwd⟩, h⟩
  · split at h
    · split at h
      · cases h
      · split at h
        · rename_i key cert _ _
          exact ⟨⟨some key, some cert, none, pwd⟩, h⟩
        · cases h
    · exact ⟨⟨none, none, none, none⟩, h⟩

theorem signerFrom_args {K : KeyEnv} {fs : Fs} {v2 stamp : CredPaths} {m : ModuleSigner} (h : signerFrom K fs v2 stamp = .ok m) :
    ∃ a b : CredArgs, cliSigner K a b = .ok m := by
  unfold signerFrom at h
  split at h
  · cases h
  · cases h
  · rename_i c hc
    obtain ⟨a, ha⟩ := load_args hc
    split at h
    · cases h
    · rename_i hs
      obtain ⟨b, hb⟩ := load_args hs
      refine ⟨a, b, ?_⟩
      unfold cliSigner
      rw [ha, hb]
      exact h
    · rename_i s hs
      obtain ⟨b, hb⟩ := load_args hs
      refine ⟨a, b, ?_⟩
      unfold cliSigner
      rw [ha, hb]
      exact h

theorem signerFrom_known {K : KeyEnv} {fs : Fs} {v2 stamp : CredPaths} {m : ModuleSigner} (h : signerFrom K fs v2 stamp = .ok m) :
    ∀ c, m.v2 = some c ∨ m.stamp = some c → Known c.algo := by
  obtain ⟨a, b, hab⟩ := signerFrom_args h
  exact fun c hc => known_of_matching (cliSigner_match hab c hc)

theorem signerFrom_v2 {K : KeyEnv} {fs : Fs} {v2 stamp : CredPaths} {m : ModuleSigner} (h : signerFrom K fs v2 stamp = .ok m) :
    m.v2 ≠ none := by
  obtain ⟨a, b, hab⟩ := signerFrom_args h
  obtain ⟨c, _, h | ⟨s, _, h⟩⟩ := cliSigner_ok hab
  · obtain ⟨_, rfl⟩ := h
    simp [ModuleSigner.v2Only]
  · subst h
    simp [ModuleSigner.withSourceStamp]

/-- What is assumed about the file that is signed: it is a module as in C25, and its entries are at least four bytes long, so
that its format can be told from them. -/
structure ModuleFile (a : Archive) (file : Bytes) : Prop where
  input : SignInput a file
  signable : ∀ n, n ≤ 16392 → Signable a n
  long : 4 ≤ a.body.length
  format : detectFileFormat file = .ok .module

/-- The outcome of the sign command on such a file, when the output is another file that can be created. -/
theorem sign_outcome {M : Machine} {now : Nat} {clock : Option UInt64} {fs : Fs} {input out : Path} {v2 stamp : CredPaths} {a : Archive}
    {file : Bytes} (hi : fs input = some file) (hf : ModuleFile a file) (hne : out ≠ input) :
    (Command.sign input out v2 stamp []).exec M now clock fs =
      match signerFrom M.keys fs v2 stamp with
      | .error _ => .quiet (.err .keystore)
      | .ok m => match m.sign M.env M.profile clock (Digests.new (m.requiredAlgorithms.map fun al => Digest.new al (contentDigest M.env a al))) with
        | .ok b => if M.creatable out then ⟨some (out, a.signed b.toU8), [], .ok ()⟩ else .quiet (.err .io)
        | .err e => .quiet (.err e)
        | .panic => .quiet .panic := by
  unfold Command.exec
  dsimp only
  cases hsig : signerFrom M.keys fs v2 stamp with
  | error e => rfl
  | ok m =>
    dsimp only
    rw [hi]
    dsimp only
    obtain ⟨r, hr, hc⟩ := C25_sign_command (E := M.env) (p := M.profile) (clock := clock) hf.input hf.signable (signerFrom_known hsig)
    have hcs : cliSign M.env M.profile M.acc clock m [] (decide (out = input)) file = cliSignModule M.env M.profile clock m false file := by
      have ho : SignableFile.open M.acc file = .ok (.module (Module.new file) file) := by
        unfold SignableFile.open
        rw [hf.format]
        rfl
      unfold cliSign
      rw [ho, decide_eq_false hne]
      rfl
    rw [hcs, hc, hr]
    cases r <;> rfl

theorem moduleFile_signed {M : Machine} {clock : Option UInt64} {fs : Fs} {v2 stamp : CredPaths} {a : Archive} {m : ModuleSigner}
    {file : Bytes} {b : SigningBlock} (hf : ModuleFile a file) (hm : signerFrom M.keys fs v2 stamp = .ok m)
    (hb : m.sign M.env M.profile clock (Digests.new (m.requiredAlgorithms.map fun al => Digest.new al (contentDigest M.env a al))) = .ok b) :
    Built M.profile b ∧ ModuleFile a (a.signed b.toU8) := by
  have hk := signerFrom_known hm
  have hmap : ((m.requiredAlgorithms.map fun al => (al, contentDigest M.env a al)).map fun x => Digest.new x.1 x.2) =
      m.requiredAlgorithms.map fun al => Digest.new al (contentDigest M.env a al) := by
    rw [List.map_map]; rfl
  have hbuilt : Built M.profile b := by
    refine sign_built (E := M.env) (clock := clock) (m := m)
      (pairs := m.requiredAlgorithms.map fun al => (al, contentDigest M.env a al)) ?_ ?_
    · intro x hx
      obtain ⟨al, hal, rfl⟩ := List.mem_map.mp hx
      rcases ((C37_required_algorithms m).2 al).mp hal with ⟨c, hc, rfl⟩ | ⟨c, hc, rfl⟩
      · rcases hk c (.inl hc) with h | h <;> simp [AlgoOk, h]
      · rcases hk c (.inr hc) with h | h <;> simp [AlgoOk, h]
    · unfold pairDigests; rw [hmap]; exact hb
  exact ⟨hbuilt, .inr ⟨_, b, hbuilt, hf.signable _ (built_length hbuilt), rfl⟩, hf.signable, hf.long,
    detect_signed hf.input hf.signable hbuilt hf.long hf.format⟩

/-- A chain of runs of the sign command: each one reads what the one before wrote, with any other runs in between that write
neither that file nor the credentials; the last components are the file that is reached and the file system. -/
inductive Relay (M : Machine) (fs : Fs) (start : Path) : Path → Fs → Prop where
  | start : Relay M fs start start fs
  | other {path : Path} {fs' : Fs} (rs : List Run) : Relay M fs start path fs' → Spares rs path → Relay M fs start path (history M rs fs')
  | sign {path : Path} {fs' : Fs} (out : Path) (v2 stamp : CredPaths) (now : Nat) (clock : Option UInt64) :
      Relay M fs start path fs' → out ≠ path →
      ((Command.sign path out v2 stamp []).exec M now clock fs').status = 0 →
      Relay M fs start out (Run.after M ⟨.sign path out v2 stamp [], now, clock, .finished⟩ fs')

theorem sign_finished {M : Machine} {now : Nat} {clock : Option UInt64} {fs : Fs} {input out : Path} {v2 stamp : CredPaths} {a : Archive}
    {file : Bytes} (hi : fs input = some file) (hf : ModuleFile a file) (hne : out ≠ input)
    (h : ((Command.sign input out v2 stamp []).exec M now clock fs).status = 0) :
    ∃ m b, signerFrom M.keys fs v2 stamp = .ok m ∧
      m.sign M.env M.profile clock (Digests.new (m.requiredAlgorithms.map fun al => Digest.new al (contentDigest M.env a al))) = .ok b ∧
      (Command.sign input out v2 stamp []).exec M now clock fs = ⟨some (out, a.signed b.toU8), [], .ok ()⟩ ∧
      Run.after M ⟨.sign input out v2 stamp [], now, clock, .finished⟩ fs out = some (a.signed b.toU8) := by
  have ho := sign_outcome (M := M) (now := now) (clock := clock) (v2 := v2) (stamp := stamp) hi hf hne
  rw [ho] at h
  split at h
  · cases h
  · rename_i m hm
    split at h
    · rename_i b hb
      split at h
      · rename_i hcr
        have hx : (Command.sign input out v2 stamp []).exec M now clock fs = ⟨some (out, a.signed b.toU8), [], .ok ()⟩ := by
          rw [ho, hm]; dsimp only; rw [hb]; dsimp only; rw [if_pos hcr]
        refine ⟨m, b, hm, hb, hx, ?_⟩
        rw [after_eq]
        dsimp only
        rw [hx]
        exact set_same
      · cases h
    · cases h
    · cases h

/-- C79, for modules as in C25: however often a module has been signed before, and whatever else has happened, signing what is
there now has the same outcome as signing the original, so the last signing alone determines the result. -/
theorem C79_resigning_chain_partial {M : Machine} {fs fs' : Fs} {start path out : Path} {a : Archive} {file : Bytes}
    {v2 stamp : CredPaths} {now : Nat} {clock : Option UInt64} (hi : fs start = some file) (hf : ModuleFile a file)
    (hr : Relay M fs start path fs') (hcred : ∀ q ∈ credFiles v2 ++ credFiles stamp, fs' q = fs q)
    (h1 : out ≠ path) (h2 : out ≠ start) :
    (Command.sign path out v2 stamp []).exec M now clock fs' = (Command.sign start out v2 stamp []).exec M now clock fs := by
  have hinv : ∃ file', fs' path = some file' ∧ ModuleFile a file' := by
    clear hcred h1
    induction hr with
    | start => exact ⟨file, hi, hf⟩
    | other rs _ hs ih =>
      obtain ⟨file', h, hf'⟩ := ih
      exact ⟨file', (C79_history_frame hs).trans h, hf'⟩
    | sign out v2 stamp now clock _ hne hst ih =>
      obtain ⟨file', h, hf'⟩ := ih
      obtain ⟨m, b, hm, hb, _, hx⟩ := sign_finished h hf' hne hst
      exact ⟨_, hx, (moduleFile_signed hf' hm hb).2⟩
  obtain ⟨file', hi', hf'⟩ := hinv
  rw [sign_outcome hi' hf' h1, sign_outcome hi hf h2, signerFrom_congr hcred]

/-- C79, for modules as in C25: a module that was signed with exit status 0 is accepted by the verify command at every later
time at which the certificates are trusted, whatever commands have run in between, finished or not, unless one of them was told
to write that file or the root certificate. -/
theorem C79_signed_stays_accepted_partial {M : Machine} {fs : Fs} {input out : Path} {a : Archive} {file : Bytes} {v2 stamp : CredPaths}
    {now later : Nat} {clock clock' : Option UInt64} {rs : List Run} {m : ModuleSigner} {rootPath : Option Path} {rootPem : Bytes}
    {cert : Bytes} (hi : fs input = some file) (hf : ModuleFile a file) (hne : out ≠ input)
    (hsign : ((Command.sign input out v2 stamp []).exec M now clock fs).status = 0)
    (hm : signerFrom M.keys fs v2 stamp = .ok m) (hsound : ∀ c, m.v2 = some c ∨ m.stamp = some c → Sound M.env c)
    (hspare : Spares rs out) (hroot : ∀ q, rootPath = some q → Spares rs q ∧ q ≠ out ∧ fs q = some rootPem)
    (hnone : rootPath = none → M.builtin = rootPem) (hcert : M.env.pemParse rootPem = some ("CERTIFICATE", cert))
    (ht : ∀ c, m.v2 = some c → Trusted M.env [cert] later c.cert c.chain)
    (ht' : ∀ c, m.stamp = some c → Trusted M.env [cert] later c.cert []) :
    ((Command.verify out rootPath).exec M later clock'
      (history M (⟨.sign input out v2 stamp [], now, clock, .finished⟩ :: rs) fs)).status = 0 := by
  obtain ⟨m', b, hm', hb, hx, hout⟩ := sign_finished (M := M) hi hf hne hsign
  cases hm.symm.trans hm'
  have hfile : history M (⟨.sign input out v2 stamp [], now, clock, .finished⟩ :: rs) fs out = some (a.signed b.toU8) := by
    have : history M (⟨.sign input out v2 stamp [], now, clock, .finished⟩ :: rs) fs =
        history M rs (Run.after M ⟨.sign input out v2 stamp [], now, clock, .finished⟩ fs) := rfl
    rw [this, C79_history_frame hspare, hout]
  have hver : ∀ root, root.getD M.builtin = rootPem →
      cliVerify M.env M.profile M.builtin root later (a.signed b.toU8) = .ok () := by
    intro root hr
    have hc : cliSignModule M.env M.profile clock m false file = (some (a.signed b.toU8), .ok ()) := by
      obtain ⟨r, hr, hc⟩ := C25_sign_command (E := M.env) (p := M.profile) (clock := clock) hf.input hf.signable (signerFrom_known hm)
      rw [hc]
      rw [hb] at hr
      subst hr
      rfl
    exact (C25_sign_then_verify_partial hf.input hf.signable hsound hc).2.2 M.builtin root cert later (by rw [hr]; exact hcert)
      (signerFrom_v2 hm) ht ht'
  unfold Command.exec Outcome.status
  dsimp only
  rw [hfile]
  dsimp only
  cases rootPath with
  | none =>
    dsimp only [Outcome.quiet]
    rw [hver none (hnone rfl)]
  | some q =>
    obtain ⟨hs, hqo, hq⟩ := hroot q rfl
    have : history M (⟨.sign input out v2 stamp [], now, clock, .finished⟩ :: rs) fs q = some rootPem := by
      rw [← hq]
      refine C79_history_frame fun r hr => ?_
      rcases List.mem_cons.mp hr with rfl | hr
      · intro h; cases h; exact hqo rfl
      · exact hs r hr
    dsimp only
    rw [this]
    dsimp only [Outcome.quiet]
    rw [hver (some rootPem) rfl]

/-! ### A concrete machine -/

/-- The machine of the examples: toy key files and toy cryptography, and every file can be created. -/
def toyMachine : Machine := ⟨toyKeys, toyEnv, .dev, anyElf, [7], fun _ => true⟩

/-- `--key k --cert c`. -/
def toyPaths : CredPaths := ⟨some "k".toList, some "c".toList, none, none⟩

def noPaths : CredPaths := ⟨none, none, none, none⟩

/-- An unsigned module, a key and a certificate. -/
def toyFs : Fs := fun q =>
  if q = "in".toList then some plainArchive.unsigned
  else if q = "k".toList then some [1, 7]
  else if q = "c".toList then some [7, 1, 8, 9]
  else none

theorem toyFs_module : ModuleFile plainArchive plainArchive.unsigned :=
  ⟨plainArchive_input, plainArchive_signable, by decide +kernel, by decide +kernel⟩

theorem toySign_ok (out : Path) (h : out ≠ "in".toList) :
    ((Command.sign "in".toList out toyPaths noPaths []).exec toyMachine 0 (some 5) toyFs).status = 0 := by
  rw [sign_outcome (a := plainArchive) (file := plainArchive.unsigned) (by decide +kernel) toyFs_module h]
  have hm : signerFrom toyMachine.keys toyFs toyPaths noPaths = .ok (.v2Only toyConfig) := by decide +kernel
  rw [hm]
  dsimp only
  have hok : ∃ b, (ModuleSigner.v2Only toyConfig).sign toyMachine.env toyMachine.profile (some 5)
    (Digests.new ((ModuleSigner.v2Only toyConfig).requiredAlgorithms.map fun al =>
      Digest.new al (contentDigest toyMachine.env plainArchive al))) = .ok b := Res.exists_of_isOk (by decide +kernel)
  obtain ⟨b, hb⟩ := hok
  rw [hb]
  rfl

/-- The hypotheses of `C79_signed_stays_accepted_partial` and `C79_resigning_chain_partial`, with a history in between: a command
is stopped while it writes another file, and the signed file is signed again. -/
example : ∃ fs', Relay toyMachine toyFs "in".toList "b".toList fs' ∧
    Spares [⟨.sign "in".toList "x".toList toyPaths noPaths [], 0, some 5, .writing 9⟩, ⟨.verify "b".toList none, 0, none, .finished⟩]
      "b".toList ∧ "b".toList ≠ "in".toList ∧ toyFs "in".toList = some plainArchive.unsigned ∧
    (∀ c, (ModuleSigner.v2Only toyConfig).v2 = some c → Trusted toyMachine.env [[7]] 0 c.cert c.chain) :=
  ⟨_, .other [⟨.sign "in".toList "x".toList toyPaths noPaths [], 0, some 5, .writing 9⟩]
      (.sign "b".toList toyPaths noPaths 0 (some 5) .start (by decide) (toySign_ok _ (by decide)))
      (by intro r hr; simp only [List.mem_singleton] at hr; subst hr; decide),
    by intro r hr; simp only [List.mem_cons, List.not_mem_nil, or_false] at hr; rcases hr with rfl | rfl <;> decide,
    by decide, by decide +kernel, by intro c h; cases h; exact ⟨by simp, .inl (by simp [toyConfig])⟩⟩

/-- Independent commands. -/
example : Independent (.sign "in".toList "a".toList toyPaths noPaths []) (.dump "in".toList "b".toList []) := by
  constructor <;> intro q hq <;> cases hq <;> decide

/-- Without independence the order matters: signing into the file that is dumped. -/
example : ¬ Independent (.sign "in".toList "a".toList toyPaths noPaths []) (.dump "a".toList "b".toList []) := by
  intro h
  exact (h.1 "a".toList rfl).1 (by decide)

end Ksusig.Props
