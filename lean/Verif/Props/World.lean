import Verif.Proofs.World
import Verif.Props.Fault
import Verif.Props.Grammar

/-!
# C103: commands in a world where anything happens
-/

namespace Ksusig.Props

open Ksusig Spec

/-- C103. If the other programs leave alone the files a command is told to read and to write, the command does not notice them, nor
anything they do: it goes through the same steps as on a system where it is alone and the same of its operations fail. -/
theorem C103_undisturbed {M : Machine} {cut : Bytes → List Bytes} {j : Job} {events : List Event} {fs : Fs}
    (hu : ∀ q, q ∈ inputs j.command ∨ output j.command = some q → Untouched events q) :
    (world M events (fs, Job.proc M cut j)).2 = (faultyRun M (faultsOf events) (fs, Job.proc M cut j)).2 ∧
    ∀ q, q ∈ inputs j.command ∨ output j.command = some q →
      (world M events (fs, Job.proc M cut j)).1 q = (faultyRun M (faultsOf events) (fs, Job.proc M cut j)).1 q :=
  world_undisturbed events hu (command_lawful M cut j.now j.clock j.command) fun _ _ => rfl

/-- C103. So, whatever the other programs do to other files, and whatever fails: a command that ends with a status other than 1 has
done exactly what it does alone and without errors, with its output and its inputs. -/
theorem C103_success_means_success {M : Machine} {cut : Bytes → List Bytes} (hcut : Buffering cut) {j : Job} {events : List Event}
    {fs fs' : Fs} {e : End} (hu : ∀ q, q ∈ inputs j.command ∨ output j.command = some q → Untouched events q)
    (h : world M events (fs, Job.proc M cut j) = (fs', .done e)) (hs : e.status ≠ 1) :
    e.status = (j.outcome M fs).status ∧ e.1 = (j.outcome M fs).printed ∧
    ∀ q, q ∈ inputs j.command ∨ output j.command = some q → fs' q = (j.outcome M fs).after fs q := by
  obtain ⟨h1, h2⟩ := C103_undisturbed (M := M) (cut := cut) (fs := fs) hu
  rw [h] at h1 h2
  have hE : EndsWith M cut j fs (faultsOf events) (faultyRun M (faultsOf events) (fs, Job.proc M cut j)).1 e :=
    Prod.ext rfl h1.symm
  obtain ⟨h3, h4, h5⟩ := C96_success_means_success hcut hE hs
  refine ⟨h3, h4, fun q hq => ?_⟩
  rw [← h5]
  exact h2 q hq

/-- C103. Whatever the other programs do, to whatever files, and whatever fails: a command changes no file but its output. Every other
file is as the other programs have left it. -/
theorem C103_only_output {M : Machine} {cut : Bytes → List Bytes} {j : Job} (events : List Event) (fs : Fs) {q : Path}
    (hq : output j.command ≠ some q) : (world M events (fs, Job.proc M cut j)).1 q = without events fs q :=
  world_frame events (command_lawful M cut j.now j.clock j.command) hq rfl

/-- C103. Whatever the other programs do, and whatever fails: a command that is allowed to go on ends. -/
theorem C103_ends {M : Machine} {cut : Bytes → List Bytes} (j : Job) (fs : Fs) (events : Nat → Event)
    (hfair : ∀ n, ∃ m f, n ≤ m ∧ events m = .own f) :
    ∃ n e, (world M ((List.range n).map events) (fs, Job.proc M cut j)).2 = .done e :=
  world_ends _ fs events hfair

theorem eocdForDigest_some {file e : Bytes} {start off : Nat} (h : eocdForDigest file start off = .ok e) :
    e = patchOffset (file.drop start) off := by
  by_cases hl : 20 ≤ (file.drop start).length
  · rw [eocdForDigest_eq hl] at h
    exact (Res.ok.inj h).symm
  · exfalso
    unfold eocdForDigest at h
    simp only [sliceFrom?, if_neg hl] at h
    obtain ⟨_, -, h⟩ := Res.bind_eq_ok.mp h
    obtain ⟨_, hn, -⟩ := Res.bind_eq_ok.mp h
    cases hn

/-- A digest is that of three ranges of the file, the last one reaching to its end. -/
theorem digestModule_ranges {E : Env} {p : Profile} {file x : Bytes} {o : FileOffsets} {a : Algo}
    (h : digestModule E p fullReads fullReads file o a = .ok x) :
    ∃ s1 n1 s2 n2 s3 off, x = treeDigest (a.hash E)
      [(file.drop s1).take n1, (file.drop s2).take n2, patchOffset (file.drop s3) off] := by
  unfold digestModule at h
  obtain ⟨n1, -, h⟩ := Res.bind_eq_ok.mp h
  obtain ⟨n2, -, h⟩ := Res.bind_eq_ok.mp h
  obtain ⟨_, -, h⟩ := Res.bind_eq_ok.mp h
  obtain ⟨c3, h3, h⟩ := Res.bind_eq_ok.mp h
  unfold digestEocd at h3
  obtain ⟨e, he, h3⟩ := Res.bind_eq_ok.mp h3
  refine ⟨o.startContent, n1, o.startCd, n2, o.startEocd, o.stopContent, ?_⟩
  rw [← eocdForDigest_some he]
  cases h3
  cases h
  simp only [digestRegion_eq E fullReads_ge, digestFinal, treeDigest, topInput, List.flatMap_cons, List.flatMap_nil, List.append_nil,
    chunksBy_full fullReads_ge _ _ _ (Nat.le_refl _), List.map_append, List.length_append, List.length_map, List.append_assoc]
  rfl

/-- The digests in a context are of contents that were seen. -/
def FromSeen (E : Env) (S : Bytes → Prop) (c : DigestCtx) : Prop :=
  ∀ id x, c.get id = some x → ∃ (d : Bytes) (a : Algo) (s1 n1 s2 n2 s3 off : Nat), S d ∧ a.toU32 = id ∧
    x = treeDigest (a.hash E) [(d.drop s1).take n1, (d.drop s2).take n2, patchOffset (d.drop s3) off]

theorem addDigest_seen {M : Machine} {S : Path → Bytes → Prop} {m : Module} {path : Path} {a : Algo} {c c' : DigestCtx}
    (hc : FromSeen M.env (S path) c) (h : CanGet S (addDigestP M.env M.profile m path a c) (.ok c')) :
    FromSeen M.env (S path) c' := by
  obtain ⟨r, h1, h2⟩ := canGet_bind h
  cases r with
  | err e => cases h2; exact hc
  | panic => cases h2
  | ok x =>
    cases h2
    obtain ⟨_, -, h1⟩ := canGet_open h1
    obtain ⟨o, -, h1⟩ := canGet_ok h1
    obtain ⟨d, hd, h1⟩ := canGet_open h1
    obtain ⟨s1, n1, s2, n2, s3, off, hx⟩ := digestModule_ranges h1
    intro id y hy
    rw [DigestCtx.get_add] at hy
    by_cases hid : id = a.toU32
    · rw [if_pos hid.symm] at hy
      cases hy
      exact ⟨d, a, s1, n1, s2, n2, s3, off, hd, hid.symm, hx⟩
    · rw [if_neg (Ne.symm hid)] at hy
      exact hc id y hy

/-- C103. What a successful verification shows, whatever the other programs do to the module and to the root certificate while it is
verified, and whatever fails: at some moment the module contained a signing block, all V2 signers of which (there is one) and the
first source stamp of which are good under the certificate that the root file had at some moment; and the digests they signed are
those of ranges of a content that the module had at some moment. -/
theorem C103_verify_evidence {M : Machine} {cut : Bytes → List Bytes} {now : Nat} {clock : Option UInt64} {path : Path}
    {root : Option Path} {events : List Event} {fs fs' : Fs} {e : End}
    (h : world M events (fs, (Command.verify path root).proc M cut now clock) = (fs', .done e)) (hs : e.status = 0) :
    ∃ (b : SigningBlock) (pem cert : Bytes) (computed : UInt32 → Option Bytes),
      (∃ d pre pairs post, Seen M events (fs, (Command.verify path root).proc M cut now clock) path d ∧
        d = pre ++ wireFrame pairs ++ post ∧ IsContent pairs b.content) ∧
      (root = none ∧ pem = M.builtin ∨
        ∃ q, root = some q ∧ Seen M events (fs, (Command.verify path root).proc M cut now clock) q pem) ∧
      M.env.pemParse pem = some ("CERTIFICATE", cert) ∧
      v2Signers b ≠ [] ∧ (∀ s ∈ v2Signers b, GoodV2 M.env [cert] now computed s) ∧
      (∀ s rest, stamps b = s :: rest → GoodStamp M.env [cert] now computed s) ∧
      ∀ id x, computed id = some x → ∃ (d : Bytes) (a : Algo) (s1 n1 s2 n2 s3 off : Nat),
        Seen M events (fs, (Command.verify path root).proc M cut now clock) path d ∧ a.toU32 = id ∧
        x = treeDigest (a.hash M.env) [(d.drop s1).take n1, (d.drop s2).take n2, patchOffset (d.drop s3) off] := by
  have hr : Proc.Reads (· ∈ inputs (Command.verify path root)) ((Command.verify path root).proc M cut now clock) :=
    reads_of_lawful (command_lawful M cut now clock (.verify path root)) fun q hq => by cases hq
  have hg := world_canGet events hr h
  generalize Seen M events (fs, (Command.verify path root).proc M cut now clock) = S at hg ⊢
  clear h
  obtain ⟨r, hg', he⟩ := canGet_bind hg
  clear hg
  cases he
  obtain rfl : r = .ok () := by
    cases r with
    | ok u => rfl
    | err e => cases hs
    | panic => cases hs
  obtain ⟨f0, -, hg⟩ := canGet_open hg'
  obtain ⟨rb, hb, hg⟩ := canGet_bind hg
  cases rb with
  | err e => cases hg
  | panic => cases hg
  | ok b =>
    obtain ⟨roots, hroots, hg⟩ := canGet_ok hg
    obtain ⟨c1, hc1, hg⟩ := canGet_ok hg
    obtain ⟨c2, hc2, hg⟩ := canGet_ok hg
    have hj := judge_ok.mp hg
    obtain ⟨-, hv, hst⟩ := hj
    -- the block
    have hblock : ∃ d pre pairs post, S path d ∧ d = pre ++ wireFrame pairs ++ post ∧ IsContent pairs b.content := by
      obtain ⟨eocd, -, hb⟩ := canGet_ok (x := (Module.new f0).findEocdP path) hb
      obtain ⟨d, hd, hb⟩ := canGet_open hb
      obtain ⟨pre, pairs, post, rfl, -, hc, -⟩ := (C88_from_reader _ _ _ _ _).mp hb
      exact ⟨_, pre, pairs, post, hd, rfl, hc⟩
    -- the digests
    have hseen : FromSeen M.env (S path) c2 :=
      addDigest_seen (addDigest_seen (fun id x hx => by cases hx) hc1) hc2
    -- the root
    have hroot : ∃ pem cert, (root = none ∧ pem = M.builtin ∨ ∃ q, root = some q ∧ S q pem) ∧
        M.env.pemParse pem = some ("CERTIFICATE", cert) ∧ roots = storeOf M.env [cert] := by
      have nz : roots ≠ storeOf M.env [] := by
        rintro rfl
        exact no_roots_no_v2 (allFlags_iff.mp hv)
      cases root with
      | none =>
        have hroots : cliRoots M.env M.builtin none = .ok roots := hroots
        rcases cliRoots_ok hroots with ⟨cert, h1, h2⟩ | h0
        · exact ⟨M.builtin, cert, .inl ⟨rfl, rfl⟩, h1, h2⟩
        · exact absurd h0 nz
      | some q =>
        obtain ⟨pem, hp, hroots⟩ := canGet_open hroots
        have hroots : cliRoots M.env M.builtin (some pem) = .ok roots := hroots
        rcases cliRoots_ok hroots with ⟨cert, h1, h2⟩ | h0
        · exact ⟨pem, cert, .inr ⟨q, rfl, hp⟩, h1, h2⟩
        · exact absurd h0 nz
    obtain ⟨pem, cert, hp, hparse, rfl⟩ := hroot
    rw [allFlags_iff, verifyV2_valid] at hv
    rw [allFlags_iff, isNoSignature_iff, verifySourceStamp_valid, verifySourceStamp_noSignature] at hst
    refine ⟨b, pem, cert, c2.get, hblock, hp, hparse, hv.1, hv.2, fun s rest he => ?_, hseen⟩
    rcases hst with ⟨s', rest', he', hg'⟩ | h0
    · rw [he] at he'; cases he'; exact hg'
    · rw [he] at h0; cases h0

/-- What another program has left in a file. -/
theorem without_cases (events : List Event) (fs : Fs) (q : Path) :
    without events fs q = fs q ∨ ∃ content, .other q content ∈ events ∧ without events fs q = content := by
  induction events generalizing fs with
  | nil => exact .inl rfl
  | cons ev events ih =>
    cases ev with
    | own f =>
      rcases ih fs with h | ⟨c, hc, h⟩
      · exact .inl h
      · exact .inr ⟨c, List.mem_cons_of_mem _ hc, h⟩
    | other path content =>
      rcases ih (fun r => if r = path then content else fs r) with h | ⟨c, hc, h⟩
      · by_cases hq : q = path
        · subst hq
          exact .inr ⟨content, List.mem_cons_self .., h.trans (if_pos rfl)⟩
        · exact .inl (h.trans (if_neg hq))
      · exact .inr ⟨c, List.mem_cons_of_mem _ hc, h⟩

/-- C103. The contents of which `C103_verify_evidence` speaks are the one from the beginning and those that other programs have put
there. -/
theorem C103_seen {M : Machine} {cut : Bytes → List Bytes} {now : Nat} {clock : Option UInt64} {path q : Path}
    {root : Option Path} {events : List Event} {fs : Fs} {d : Bytes}
    (h : Seen M events (fs, (Command.verify path root).proc M cut now clock) q d) :
    fs q = some d ∨ .other q (some d) ∈ events := by
  obtain ⟨before, after, rfl, hb⟩ := h
  have hw : (world M before (fs, (Command.verify path root).proc M cut now clock)).1 q = without before fs q :=
    C103_only_output (j := ⟨.verify path root, now, clock⟩) before fs (fun h => by cases h)
  rw [hw] at hb
  rcases without_cases before fs q with h | ⟨c, hc, h⟩
  · exact .inl (h.symm.trans hb)
  · rw [hb] at h
    subst h
    exact .inr (List.mem_append_left _ hc)

/-- The signed module with another first byte: its digest is wrong. -/
def tamperedFs : Fs := fun q => if q = "o".toList then (signedFs q).map fun d => 9 :: d.drop 1 else signedFs q

/-- The signed module with another byte in its block: its signature is wrong. -/
def brokenBlock : Option Bytes := (signedFs "o".toList).map fun d => d.set 120 250

/-- While the verify command runs, the first is replaced by the second. -/
def swap : List Event :=
  List.replicate 5 (.own none) ++ [.other "o".toList brokenBlock] ++ List.replicate 20 (.own none)

/-- A run that has ended, with this exit status. -/
theorem world_of {M : Machine} {events : List Event} {s : Fs × Proc End} {n : Nat} (h : exited (some (world M events s).2) = some n) :
    ∃ fs' e, world M events s = (fs', .done e) ∧ e.status = n := by
  rcases hx : world M events s with ⟨fs', x⟩
  rw [hx] at h
  cases x with
  | done e => exact ⟨fs', e, rfl, Option.some.inj h⟩
  | read path k => cases h
  | create path k => cases h
  | write path pos d k => cases h

set_option maxRecDepth 100000 in
theorem swap_ends : exited (some (world toyMachine swap (tamperedFs, Job.proc toyMachine cut30 verifyFirst)).2) = some 0 := by
  decide +kernel

set_option maxRecDepth 100000 in
theorem swap_refused : (tamperedFs "o".toList).map (fun d =>
      ((Command.verify "o".toList none).exec toyMachine 0 none (tamperedFs.set "o".toList d)).status) = some 1 ∧
    brokenBlock.map (fun d =>
      ((Command.verify "o".toList none).exec toyMachine 0 none (tamperedFs.set "o".toList d)).status) = some 1 := by
  decide +kernel

/-- C103. More cannot be said: the block and the digests may be of different moments. Here the verify command exits with 0 although
every content that the module has at any moment of the run is refused. -/
theorem C103_verify_mixes : ∃ events fs fs' e,
    world toyMachine events (fs, Job.proc toyMachine cut30 verifyFirst) = (fs', .done e) ∧ e.status = 0 ∧
    ∀ d, Seen toyMachine events (fs, Job.proc toyMachine cut30 verifyFirst) "o".toList d →
      ((Command.verify "o".toList none).exec toyMachine 0 none (fs.set "o".toList d)).status = 1 := by
  obtain ⟨fs', e, h1, h2⟩ := world_of swap_ends
  refine ⟨swap, tamperedFs, fs', e, h1, h2, fun d hd => ?_⟩
  rcases C103_seen hd with h | h
  · have h3 := swap_refused.1
    rw [h] at h3
    exact Option.some.inj h3
  · have hb : some d = brokenBlock := by
      rcases List.mem_append.mp h with h | h
      · rcases List.mem_append.mp h with h | h
        · cases (List.mem_replicate.mp h).2
        · exact (Event.other.inj (List.mem_singleton.mp h)).2
      · cases (List.mem_replicate.mp h).2
    have h3 := swap_refused.2
    rw [← hb] at h3
    exact Option.some.inj h3

/-- While the sign command runs, its input is replaced by another module after it is digested. -/
def swapInput : List Event :=
  List.replicate 12 (.own none) ++ [.other "in".toList (pairFs "in2".toList)] ++ List.replicate 10 (.own none)

set_option maxRecDepth 100000 in
/-- C103. A sign command that exits with 0 has made an output that verifies only if its input was left alone: here the input is
replaced, by a module that could be signed as well, after its digest is computed and before it is copied. The command exits with 0,
and what it has written is refused. -/
theorem C103_sign_race : ∃ events,
    exited (some (world toyMachine events (pairFs, Job.proc toyMachine cut30 (signFirst "o".toList))).2) = some 0 ∧
    (∀ q, q ≠ "in".toList → Untouched events q) ∧
    ((signFirst "o".toList).outcome toyMachine pairFs).status = 0 ∧
    ((signFirst "o".toList).outcome toyMachine (pairFs.set "in".toList ((pairFs "in2".toList).getD []))).status = 0 ∧
    ((Command.verify "o".toList none).exec toyMachine 0 none
      (world toyMachine events (pairFs, Job.proc toyMachine cut30 (signFirst "o".toList))).1).status = 1 := by
  refine ⟨swapInput, by decide +kernel, fun q hq c h => ?_, by decide +kernel, by decide +kernel, by decide +kernel⟩
  rcases List.mem_append.mp h with h | h
  · rcases List.mem_append.mp h with h | h
    · cases (List.mem_replicate.mp h).2
    · exact hq (Event.other.inj (List.mem_singleton.mp h)).1
  · cases (List.mem_replicate.mp h).2

/-- While the sign command runs, another program does things to a file that is none of its own, and nothing fails. -/
def noise : List Event :=
  (List.replicate 10 [.own none, .other "z".toList (some [1]), .own none, .other "z".toList none]).flatten

set_option maxRecDepth 100000 in
/-- The hypotheses of `C103_success_means_success`. -/
example : (∀ q, q ∈ inputs (signFirst "o".toList).command ∨ output (signFirst "o".toList).command = some q → Untouched noise q) ∧
    ∃ fs' e, world toyMachine noise (pairFs, Job.proc toyMachine cut30 (signFirst "o".toList)) = (fs', .done e) ∧ e.status ≠ 1 := by
  constructor
  · have hz : "z".toList ∉ inputs (signFirst "o".toList).command ∧ output (signFirst "o".toList).command ≠ some "z".toList := by
      decide +kernel
    intro q hq c hc
    simp only [noise, List.mem_flatten, List.mem_replicate] at hc
    obtain ⟨l, ⟨-, rfl⟩, hc⟩ := hc
    simp at hc
    obtain rfl : q = "z".toList := by
      rcases hc with h | h
      · exact h.1
      · exact h.1
    exact hq.elim hz.1 hz.2
  · obtain ⟨fs', e, h1, h2⟩ := world_of (n := 0) (M := toyMachine) (events := noise)
      (s := (pairFs, Job.proc toyMachine cut30 (signFirst "o".toList))) (by decide +kernel)
    exact ⟨fs', e, h1, by omega⟩

/-- The hypotheses of `C103_verify_evidence`: the run of `C103_verify_mixes`. -/
example : ∃ fs' e, world toyMachine swap (tamperedFs, (Command.verify "o".toList none).proc toyMachine cut30 0 none) = (fs', .done e) ∧
    e.status = 0 := world_of swap_ends

/-- The hypothesis of `C103_ends`: every other event is the command's. -/
example : ∀ n, ∃ m f, n ≤ m ∧ (fun i => if i % 2 = 0 then Event.own none else .other "in".toList none) m = .own f :=
  fun n => ⟨2 * n, none, by omega, by simp⟩

end Ksusig.Props
