import Verif.SpecSession
import Verif.Props.Args
import Verif.Props.Stays

/-!
# C117: what the exit status of a command line tells
-/

namespace Ksusig.Props

open Ksusig Spec

theorem item_args_ne (i : Item) : i.args ≠ [] := by cases i <;> simp [Item.args]

theorem runMain_run {M : Machine} {now : Nat} {clock : Option UInt64} {fs : Fs} {argv : List Arg} {c : Command} {v : Bool}
    (h : parseArgs argv = .run c v) :
    runMain M now clock fs argv = ((c.exec M now clock fs).status, (c.exec M now clock fs).after fs) := by
  simp only [runMain, h]

/-- A verify line exits with 0 exactly if it asks for help, or names a module that is accepted. -/
theorem C117_verify_line {M : Machine} {now : Nat} {clock : Option UInt64} {fs : Fs} {args : List Arg} :
    (runMain M now clock fs ("verify".toList :: args)).1 = 0 ↔ AsksHelp verifySyntax args ∨
      ∃ is more module, Parts verifySyntax args is more ∧ words is ++ more = [module] ∧ module ≠ [] ∧
        Accepts M now fs module (valueOf "root" is) := by
  have hrun : ∀ c v, parseArgs ("verify".toList :: args) = .run c v → ((runMain M now clock fs ("verify".toList :: args)).1 = 0 ↔
      (c.exec M now clock fs).status = 0) := by
    intro c v h
    rw [runMain_run h]
  have hhelp : parseArgs ("verify".toList :: args) = .help ↔ AsksHelp verifySyntax args := subcommand_help verifyAgrees fun _ => verifyArgs_not
  cases h : parseArgs ("verify".toList :: args) with
  | usage =>
    have h3 : runMain M now clock fs ("verify".toList :: args) = (2, fs) := by simp only [runMain, h]
    rw [h3]
    constructor
    · intro hc; cases hc
    · rintro (ha | ⟨is, more, module, hp, hw, hm, _⟩)
      · rw [← hhelp, h] at ha; cases ha
      · have : parseArgs ("verify".toList :: args) = .run (.verify module (valueOf "root" is))
            (Scan.has ⟨is.filterMap gives, words is ++ more⟩ "verbose") :=
          C116_run.mpr (.verify hp hw hm (has_given verifyAgrees (by decide) hp.known))
        rw [h] at this
        cases this
  | help =>
    have h3 : runMain M now clock fs ("verify".toList :: args) = (0, fs) := by simp only [runMain, h]
    rw [h3]
    exact ⟨fun _ => .inl (hhelp.mp h), fun _ => rfl⟩
  | run c v =>
    rw [hrun c v h]
    constructor
    · intro hst
      have hs := C116_run.mp h
      generalize ha : "verify".toList :: args = argv at hs
      cases hs with
      | verify hp hw hm hv =>
        cases (List.cons.inj ha).2
        exact .inr ⟨_, _, _, hp, hw, hm, C80_verify_status.mp hst⟩
      | sign => exact absurd (List.cons.inj ha).1 (by decide)
      | info => exact absurd (List.cons.inj ha).1 (by decide)
      | digest => exact absurd (List.cons.inj ha).1 (by decide)
      | dump => exact absurd (List.cons.inj ha).1 (by decide)
    · rintro (ha | ⟨is, more, module, hp, hw, hm, hacc⟩)
      · rw [← hhelp, h] at ha; cases ha
      · have : parseArgs ("verify".toList :: args) = .run (.verify module (valueOf "root" is))
            (Scan.has ⟨is.filterMap gives, words is ++ more⟩ "verbose") :=
          C116_run.mpr (.verify hp hw hm (has_given verifyAgrees (by decide) hp.known))
        rw [h] at this
        cases this
        exact C80_verify_status.mpr hacc

/-- `ksusig verify NAME`, for any name: it exits with 0 also if the name looks like a wish for help, whatever the files are. -/
theorem C117_verify_name {M : Machine} {now : Nat} {clock : Option UInt64} {fs : Fs} {f : Path} :
    (runMain M now clock fs ["verify".toList, f]).1 = 0 ↔ HelpName f ∨ (f ≠ [] ∧ NoOption f ∧ Accepts M now fs f none) := by
  rw [C117_verify_line]
  constructor
  · rintro (⟨is, t, rest, hw, hk, -, -, -, -, -, ht⟩ | ⟨is, more, module, hp, hw, hm, hacc⟩)
    · left
      have his : is = [] := by
        cases is with
        | nil => rfl
        | cons i is =>
          have := congrArg List.length hw
          have h1 := List.length_pos_iff.mpr (item_args_ne i)
          simp only [List.length_cons, List.length_nil, List.flatMap_cons, List.length_append] at this
          omega
      subst his
      simp only [List.flatMap_nil, List.nil_append, List.cons.injEq] at hw
      obtain ⟨rfl, -⟩ := hw
      rcases ht with h | h | ⟨c, n, rest, h1, -, h3⟩
      · exact .inl h
      · exact .inr (.inl h)
      · simp only [verifySyntax, List.mem_singleton, Prod.mk.injEq] at h1
        obtain ⟨rfl, -⟩ := h1
        exact .inr (.inr ⟨rest, h3⟩)
    · right
      have hlen : ∀ l : List Item, (words l).length ≤ (l.flatMap Item.args).length := by
        intro l
        induction l with
        | nil => simp [words]
        | cons i l ih =>
          have h1 := List.length_pos_iff.mpr (item_args_ne i)
          rw [List.flatMap_cons, List.length_append, show i :: l = [i] ++ l from rfl, words_append, List.length_append]
          have : (words [i]).length ≤ 1 := by cases i <;> simp [words]
          omega
      have key : is = [.word f] ∧ more = [] := by
        rcases hp.written with h | ⟨rfl, h⟩
        · exfalso
          have h1 := congrArg List.length h
          have h2 := congrArg List.length hw
          have h3 := hlen is
          simp only [List.length_append, List.length_cons, List.length_nil] at h1 h2
          omega
        · refine ⟨?_, rfl⟩
          cases is with
          | nil => cases h
          | cons i is =>
            have h1 := List.length_pos_iff.mpr (item_args_ne i)
            have h2 := congrArg List.length h
            simp only [List.flatMap_cons, List.length_append, List.length_cons, List.length_nil] at h2
            have his : is = [] := by
              cases is with
              | nil => rfl
              | cons j is =>
                have h3 := List.length_pos_iff.mpr (item_args_ne j)
                simp only [List.flatMap_cons, List.length_append] at h2
                omega
            subst his
            cases i with
            | word w =>
              simp only [List.flatMap_cons, List.flatMap_nil, Item.args, List.append_nil, List.cons.injEq, and_true] at h
              rw [h]
            | _ => cases hw
      obtain ⟨rfl, rfl⟩ := key
      simp only [words, List.filterMap_cons, List.filterMap_nil, List.append_nil, List.cons.injEq, and_true] at hw
      subst hw
      exact ⟨hm, hp.known (.word f) (by simp), hacc⟩
  · rintro (hf | ⟨h1, h2, h3⟩)
    · left
      refine ⟨[], f, [], rfl, by simp, trivial, by simp, by simp, by simp [words], by simp [words], ?_⟩
      rcases hf with h | h | ⟨rest, h⟩
      · exact .inl h
      · exact .inr (.inl h)
      · exact .inr (.inr ⟨'v', "verbose", rest, by simp [verifySyntax], by simp, h⟩)
    · right
      refine ⟨[.word f], [], f, ⟨.inr ⟨rfl, rfl⟩, ?_, trivial, List.nodup_nil, ?_⟩, rfl, h1, h3⟩ <;> intro i hi <;> rw [List.mem_singleton] at hi <;> subst hi
      · exact h2
      · trivial

/-- With `--` in front, and the root attached with `=`, the status is 0 exactly if the module is accepted, whatever the name is. -/
theorem C117_verify_safe {M : Machine} {now : Nat} {clock : Option UInt64} {fs : Fs} {f : Path} :
    ((runMain M now clock fs ["verify".toList, "--".toList, f]).1 = 0 ↔ f ≠ [] ∧ Accepts M now fs f none) ∧
    ∀ r, (runMain M now clock fs ["verify".toList, "--root=".toList ++ r, "--".toList, f]).1 = 0 ↔
      f ≠ [] ∧ r ≠ [] ∧ Accepts M now fs f (some r) := by
  have hpos : ∀ l : List Item, l.flatMap Item.args = [] → l = [] := by
    intro l h
    cases l with
    | nil => rfl
    | cons i l =>
      rw [List.flatMap_cons, List.append_eq_nil_iff] at h
      exact absurd h.1 (item_args_ne i)
  constructor
  · by_cases hf : f = []
    · subst hf
      have : runMain M now clock fs ["verify".toList, "--".toList, []] = (2, fs) := rfl
      rw [this]
      simp
    · have : parseArgs ["verify".toList, "--".toList, f] = .run (.verify f none) false :=
        C116_run.mpr (.verify (is := []) (more := [f]) ⟨.inl rfl, by simp, trivial, by simp, by simp⟩ rfl hf (by simp [Given]))
      rw [runMain_run this]
      exact C80_verify_status.trans ⟨fun h => ⟨hf, h⟩, fun h => h.2⟩
  · intro r
    by_cases h : f = [] ∨ r = []
    · have hu : parseArgs ["verify".toList, "--root=".toList ++ r, "--".toList, f] = .usage := by
        have hl : longOf ("--root=".toList ++ r) = some ("root".toList, some r) := longOf_eq (n := "root".toList) (by decide)
        have hne : ¬ "--root=".toList ++ r = "--".toList := fun hc => by
          have h1 := congrArg List.length hc
          rw [List.length_append] at h1
          have h2 : "--root=".toList.length = 7 := by decide
          have h3 : "--".toList.length = 2 := by decide
          omega
        change subcommand verifyDef verifyArgs ["--root=".toList ++ r, "--".toList, f] = .usage
        have hs : scan verifyDef ⟨[], []⟩ .any ["--root=".toList ++ r, "--".toList, f] = .usage := by
          rw [scan, if_neg hne, hl]
          change (match Scan.value ⟨[], []⟩ "root".toList isPath r with | none => ArgOut.usage | some s => scan verifyDef s .any ["--".toList, f]) = _
          rcases h with rfl | rfl
          · cases hv : Scan.value ⟨[], []⟩ "root".toList isPath r with
            | none => rfl
            | some s =>
              obtain ⟨-, -, rfl⟩ := value_some.mp hv
              rfl
          · rfl
        unfold subcommand
        rw [hs]
      have : runMain M now clock fs ["verify".toList, "--root=".toList ++ r, "--".toList, f] = (2, fs) := by simp only [runMain, hu]
      rw [this]
      constructor
      · intro hc; cases hc
      · rintro ⟨h1, h2, -⟩
        rcases h with h | h
        · exact absurd h h1
        · exact absurd h h2
    · have hf : f ≠ [] := fun hc => h (.inl hc)
      have hr : r ≠ [] := fun hc => h (.inr hc)
      have : parseArgs ["verify".toList, "--root=".toList ++ r, "--".toList, f] = .run (.verify f (some r)) false :=
        C116_run.mpr (.verify (is := [.valueAt "root" r]) (more := [f])
          ⟨.inl rfl, by simp [Item.Known, verifySyntax], trivial, by simp [Item.single], by simpa [Item.Allowed, Spec.Allowed] using hr⟩ rfl hf
          (by simp [Given]))
      rw [runMain_run this]
      exact C80_verify_status.trans ⟨fun h => ⟨hf, hr, h⟩, fun h => h.2.2⟩

/-- A sign line exits with 0 exactly if it asks for help, or the output it names has been written and is the signed input. -/
theorem C117_sign_line {M : Machine} {now : Nat} {clock : Option UInt64} {fs : Fs} {args : List Arg}
    (h : (runMain M now clock fs ("sign".toList :: args)).1 = 0) : AsksHelp signSyntax args ∨
      ∃ i o v2 st names file m d, Says ("sign".toList :: args) (.sign i o v2 st names) false ∧ fs i = some file ∧
        signerFrom M.keys fs v2 st = .ok m ∧ cliSign M.env M.profile M.acc clock m names (decide (o = i)) file = (some d, .ok ()) ∧
        (runMain M now clock fs ("sign".toList :: args)).2 o = some d := by
  have hhelp : parseArgs ("sign".toList :: args) = .help ↔ AsksHelp signSyntax args := subcommand_help signAgrees fun _ => signArgs_not
  cases hp : parseArgs ("sign".toList :: args) with
  | usage => simp only [runMain, hp] at h; cases h
  | help => exact .inl (hhelp.mp hp)
  | run c v =>
    rw [runMain_run hp] at h ⊢
    have hs := C116_run.mp hp
    have hsays := hs
    generalize ha : "sign".toList :: args = argv at hs hsays
    cases hs with
    | sign =>
      obtain ⟨file, m, d, h1, h2, -, h3, h4⟩ := C80_sign_success h
      exact .inr ⟨_, _, _, _, _, file, m, d, hsays, h1, h2, h3, h4⟩
    | verify => exact absurd (List.cons.inj ha).1 (by decide)
    | info => exact absurd (List.cons.inj ha).1 (by decide)
    | digest => exact absurd (List.cons.inj ha).1 (by decide)
    | dump => exact absurd (List.cons.inj ha).1 (by decide)

/-- Only the file a line names as output can change: the second file of a sign line, or the one given with `--dump`. -/
theorem C117_changes {M : Machine} {now : Nat} {clock : Option UInt64} {fs : Fs} {argv : List Arg} {q : Path}
    (h : (runMain M now clock fs argv).2 q ≠ fs q) : ∃ c v, Says argv c v ∧ output c = some q := by
  cases hp : parseArgs argv with
  | usage => exact absurd (by simp only [runMain, hp]) h
  | help => exact absurd (by simp only [runMain, hp]) h
  | run c v =>
    refine ⟨c, v, C116_run.mp hp, ?_⟩
    rw [runMain_run hp] at h
    cases hw : (c.exec M now clock fs).written with
    | none => exact absurd (by simp only [Outcome.after, hw]) h
    | some w =>
      obtain ⟨path, d⟩ := w
      have ho := C79_writes_output hw
      by_cases hq : path = q
      · rw [ho, hq]
      · refine absurd ?_ h
        simp only [Outcome.after, hw]
        exact set_other (fun hc => hq hc.symm)

/-- The runs of the commands that the lines of a session say. -/
def runsOf (ls : List Entered) : List Run := ls.filterMap fun l =>
  match parseArgs l.argv with
  | .run c _ => some ⟨c, l.now, l.clock, .finished⟩
  | _ => none

theorem session_history {M : Machine} {ls : List Entered} : ∀ {fs : Fs}, session M ls fs = history M (runsOf ls) fs := by
  induction ls with
  | nil => intro fs; rfl
  | cons l ls ih =>
    intro fs
    have h1 : session M (l :: ls) fs = session M ls (runMain M l.now l.clock fs l.argv).2 := rfl
    rw [h1, ih]
    unfold runMain runsOf
    rw [List.filterMap_cons]
    cases parseArgs l.argv with
    | usage => rfl
    | help => rfl
    | run c v => rfl

theorem leavesAlone_spares {ls : List Entered} {q : Path} (h : LeavesAlone ls q) : Spares (runsOf ls) q := by
  intro r hr
  simp only [runsOf, List.mem_filterMap] at hr
  obtain ⟨l, hl, he⟩ := hr
  split at he
  · rename_i c v hp
    cases he
    exact h l hl c v (C116_run.mp hp)
  · cases he

/-- A file that no line of a session names as output stays as it is. -/
theorem C117_session {M : Machine} {ls : List Entered} {fs : Fs} {q : Path} (h : LeavesAlone ls q) : session M ls fs q = fs q := by
  rw [session_history]
  exact C79_history_frame (leavesAlone_spares h)

/-- A line that signs a module with trusted credentials and exits with 0, any other lines that do not write the output or the root
certificate, and then a line that verifies the output: it exits with 0. -/
theorem C117_sign_then_verify {M : Machine} {fs : Fs} {argv argv' : List Arg} {ls : List Entered} {verbose : Bool} {input out : Path}
    {file : Bytes} {pos : Nat} {t : Tail} {off s e : Nat} {v2 stamp : CredPaths} {now later : Nat} {clock clock' : Option UInt64}
    {m : ModuleSigner} {rootPath : Option Path} {rootPem : Bytes} {cert : Bytes}
    (hsays : Says argv (.sign input out v2 stamp []) false) (hsays' : Says argv' (.verify out rootPath) verbose) (hi : fs input = some file)
    (hfmt : detectFileFormat file = .ok .module) (hlen : file.length < 2 ^ 64) (hr : EndRecord file pos t off)
    (hl : Located file off s e) (hplain : Plain t) (hsize : off + 16392 < 2 ^ 32)
    (hend : pos + 22 + t.comment.length = file.length) (hdir : e = off) (hne : out ≠ input)
    (hsign : (runMain M now clock fs argv).1 = 0)
    (hm : signerFrom M.keys fs v2 stamp = .ok m) (hsound : ∀ c, m.v2 = some c ∨ m.stamp = some c → Sound M.env c)
    (hspare : LeavesAlone ls out) (hroot : ∀ q, rootPath = some q → LeavesAlone ls q ∧ q ≠ out ∧ fs q = some rootPem)
    (hnone : rootPath = none → M.builtin = rootPem) (hcert : M.env.pemParse rootPem = some ("CERTIFICATE", cert))
    (ht : ∀ c, m.v2 = some c → Trusted M.env [cert] later c.cert c.chain)
    (ht' : ∀ c, m.stamp = some c → Trusted M.env [cert] later c.cert []) :
    (runMain M later clock' (session M (⟨argv, now, clock⟩ :: ls) fs) argv').1 = 0 := by
  have hp := C116_run.mpr hsays
  have hp' := C116_run.mpr hsays'
  rw [runMain_run hp] at hsign
  rw [runMain_run hp', session_history]
  have : runsOf (⟨argv, now, clock⟩ :: ls) = ⟨.sign input out v2 stamp [], now, clock, .finished⟩ :: runsOf ls := by
    simp only [runsOf, List.filterMap_cons, hp]
  rw [this]
  exact C79_signed_stays_accepted hi hfmt hlen hr hl hplain hsize hend hdir hne hsign hm hsound (leavesAlone_spares hspare)
    (fun q hq => ⟨leavesAlone_spares (hroot q hq).1, (hroot q hq).2⟩) hnone hcert ht ht'

set_option maxRecDepth 100000 in
/-- A session: a module is signed, other lines are entered, one of them with a mistake, and the output is verified. -/
example : (runMain toyMachine 0 none (session toyMachine
    [⟨["sign", "in", "b", "--key", "k", "--cert=c"].map String.toList, 0, some 5⟩, ⟨["info", "b"].map String.toList, 0, none⟩,
      ⟨["sign", "--key", "k", "--algorithm", "x", "in", "b"].map String.toList, 0, some 5⟩] toyFs)
    (["verify", "-v", "b"].map String.toList)).1 = 0 := by
  have h1 : Says (["sign", "in", "b", "--key", "k", "--cert=c"].map String.toList) (.sign "in".toList "b".toList toyPaths noPaths []) false :=
    C116_run.mp (by decide +kernel)
  have h2 : Says (["verify", "-v", "b"].map String.toList) (.verify "b".toList none) true := C116_run.mp (by decide +kernel)
  refine C117_sign_then_verify (out := "b".toList) h1 h2 (file := plainArchive.unsigned) (m := .v2Only toyConfig) (rootPem := [7]) (cert := [7])
    (by decide +kernel) (by decide +kernel) (by decide +kernel) plainArchive_unsigned_record.1 plainArchive_unsigned_record.2
    (plain_no_comment rfl) (by omega) (by decide +kernel) rfl (by decide)
    (by rw [runMain_run (C116_run.mpr h1)]; exact toySign_ok "b".toList (by decide)) (by decide +kernel)
    (by rintro c (h | h) <;> cases h; exact toyConfig_sound) ?_
    (by intro q h; cases h) (fun _ => rfl) rfl
    (by intro c h; cases h; exact ⟨by simp, .inl (by simp [toyConfig])⟩) (by intro c h; cases h)
  intro l hl c v hs
  simp only [List.mem_cons, List.not_mem_nil, or_false] at hl
  rw [← C116_run] at hs
  rcases hl with rfl | rfl
  · rw [show parseArgs _ = Line.run (.info "b".toList) false from by decide +kernel] at hs
    cases hs
    nofun
  · rw [show parseArgs _ = Line.usage from by decide +kernel] at hs
    cases hs

/-- A file called `-hidden.zip` passes for verified, on every machine and with every content, unless `--` comes before it. -/
example {M : Machine} {now : Nat} {clock : Option UInt64} {fs : Fs} : (runMain M now clock fs (["verify", "-hidden.zip"].map String.toList)).1 = 0 ∧
    ((runMain M now clock fs (["verify", "--", "-hidden.zip"].map String.toList)).1 = 0 ↔ Accepts M now fs "-hidden.zip".toList none) :=
  ⟨C117_verify_name.mpr (.inl (.inr (.inl ⟨"idden.zip".toList, rfl⟩))),
    C117_verify_safe.1.trans ⟨fun h => h.2, fun h => ⟨by decide, h⟩⟩⟩

end Ksusig.Props
