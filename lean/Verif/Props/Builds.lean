import Verif.SpecBuilds
import Verif.Props.Lines
import Verif.Props.NoElfAnatomy
import Verif.Props.InfoOutput

/-!
# C118: the program in every build
-/

namespace Ksusig.Props

open Ksusig Spec

theorem parseArgsIn_lacks {b : Build} {argv : List Arg} (h : Lacks b argv) : parseArgsIn b argv = .usage := by
  obtain ⟨cmd, hm, h⟩ := h
  obtain ⟨k, v, e⟩ := b
  rcases hm with ⟨rfl, h1⟩ | ⟨rfl | rfl, h1⟩ <;> dsimp only at h1 <;> subst h1 <;> rcases h with ⟨args, rfl⟩ | rfl
  · cases v <;> rfl
  · cases v <;> rfl
  · cases k <;> rfl
  · cases k <;> rfl
  · cases k <;> rfl
  · cases k <;> rfl

theorem parseArgsIn_has {b : Build} {argv : List Arg} (h : ¬ Lacks b argv) : parseArgsIn b argv = parseArgs argv := by
  cases argv with
  | nil => rfl
  | cons t ts =>
    have hk : t = "sign".toList → b.keystore = true := by
      intro ht
      cases hb : b.keystore with
      | true => rfl
      | false => exact absurd ⟨"sign", .inl ⟨rfl, hb⟩, .inl ⟨ts, by rw [ht]⟩⟩ h
    have hv : t = "verify".toList → b.verify = true := by
      intro ht
      cases hb : b.verify with
      | true => rfl
      | false => exact absurd ⟨"verify", .inr ⟨.inl rfl, hb⟩, .inl ⟨ts, by rw [ht]⟩⟩ h
    have hi : t = "info".toList → b.verify = true := by
      intro ht
      cases hb : b.verify with
      | true => rfl
      | false => exact absurd ⟨"info", .inr ⟨.inr rfl, hb⟩, .inl ⟨ts, by rw [ht]⟩⟩ h
    unfold parseArgsIn parseArgs
    dsimp only
    by_cases h1 : t = "sign".toList
    · rw [if_pos ⟨hk h1, h1⟩, if_pos h1]
    rw [if_neg (fun x => h1 x.2), if_neg h1]
    by_cases h2 : t = "verify".toList
    · rw [if_pos ⟨hv h2, h2⟩, if_pos h2]
    rw [if_neg (fun x => h2 x.2), if_neg h2]
    by_cases h3 : t = "info".toList
    · rw [if_pos ⟨hi h3, h3⟩, if_pos h3]
    rw [if_neg (fun x => h3 x.2), if_neg h3]
    by_cases h4 : t = "digest".toList
    · rw [if_pos h4, if_pos h4]
    rw [if_neg h4, if_neg h4]
    by_cases h5 : t = "help".toList
    · rw [if_pos h5, if_pos h5]
      match ts with
      | [] => rfl
      | _ :: _ :: _ => rfl
      | [n] =>
        have : n ∈ "help".toList :: b.subcommands ↔ n ∈ "help".toList :: Ksusig.subcommands := by
          obtain ⟨k, v, e⟩ := b
          have a1 : n = "sign".toList → k = true := by
            intro hn
            cases k with
            | true => rfl
            | false => exact absurd ⟨"sign", .inl ⟨rfl, rfl⟩, .inr (by rw [h5, hn])⟩ h
          have a2 : n = "verify".toList → v = true := by
            intro hn
            cases v with
            | true => rfl
            | false => exact absurd ⟨"verify", .inr ⟨.inl rfl, rfl⟩, .inr (by rw [h5, hn])⟩ h
          have a3 : n = "info".toList → v = true := by
            intro hn
            cases v with
            | true => rfl
            | false => exact absurd ⟨"info", .inr ⟨.inr rfl, rfl⟩, .inr (by rw [h5, hn])⟩ h
          simp only [Build.subcommands, Ksusig.subcommands, List.mem_cons, List.mem_append, List.not_mem_nil, or_false]
          cases k <;> cases v <;> simp only [Bool.false_eq_true, if_true, if_false, List.mem_cons, List.not_mem_nil, or_false, false_or] <;>
            simp only [Bool.false_eq_true, imp_false] at a1 a2 a3 <;> simp [a1, a2, a3] <;> grind
        simp only [this]
    rw [if_neg h5, if_neg h5]
    rfl

/-- A line with a command that the build does not have says nothing: the status is 2, and no file changes. -/
theorem C118_missing {b : Build} {M : Machine} {now : Nat} {clock : Option UInt64} {fs : Fs} {argv : List Arg} (h : Lacks b argv) :
    runMainIn b M now clock fs argv = (2, fs) := by
  unfold runMainIn
  rw [parseArgsIn_lacks h]

/-- Every other line means the same in every build; and with ELF support it does the same. -/
theorem C118_same {b : Build} {M : Machine} {now : Nat} {clock : Option UInt64} {fs : Fs} {argv : List Arg} (h : ¬ Lacks b argv) :
    (∀ c v, parseArgsIn b argv = .run c v ↔ Says argv c v) ∧ (parseArgsIn b argv = .help ↔ Asks argv) ∧
    (b.elf = true → runMainIn b M now clock fs argv = runMain M now clock fs argv) := by
  rw [parseArgsIn_has h]
  refine ⟨fun c v => C116_run, C116_help, fun he => ?_⟩
  unfold runMainIn runMain
  rw [parseArgsIn_has h]
  unfold Command.execIn
  simp only [he, if_true]
  rfl

theorem verify_same {E : Env} {p : Profile} {pem : Bytes} {root : Option Bytes} {now : Nat} {file : Bytes} (h : ¬ ReadByOne p file) :
    NoElf.cliVerify E p pem root now file = cliVerify E p pem root now file ∧
    ((NoElf.getSigningBlock p (Module.new file) file).mapErr (fun _ => Err.verifyFailed) >>= fun _ => (.err .io : Res Unit)) =
      (((Module.new file).getSigningBlock p file).mapErr (fun _ => Err.verifyFailed) >>= fun _ => .err .io) := by
  have hd : ∀ a, (Module.new file).digest E p file a = NoElf.digest E p (Module.new file) file a := by
    intro a
    rcases C106_same_digest E p file a with hd | ⟨_, hu⟩
    · exact hd
    · exact absurd hu h
  have ha : ∀ a c, cliAddDigest E p (Module.new file) file a c = NoElf.cliAddDigest E p (Module.new file) file a c := by
    intro a c
    unfold cliAddDigest NoElf.cliAddDigest
    rw [hd]
    rfl
  have hs := getSigningBlock_sides p file
  have hno : ∀ b', NoElf.getSigningBlock p (Module.new file) file = .ok b' → ¬ ∃ v ∈ b'.content, Unreadable v :=
    fun b' hb hu => h ⟨b', hb, hu⟩
  unfold cliVerify NoElf.cliVerify
  dsimp only
  simp only [ha]
  generalize (Module.new file).getSigningBlock p file = x at hs
  generalize NoElf.getSigningBlock p (Module.new file) file = y at hs hno
  cases hs with
  | same e => exact ⟨rfl, rfl⟩
  | errs e e' _ _ => exact ⟨rfl, rfl⟩
  | more e b' _ hb => exact absurd hb (hno b' rfl)
  | panic => exact ⟨rfl, rfl⟩
  | both b b' hs =>
    have hv : ∀ roots ctx, verifyV2 E roots now b ctx = verifyV2 E roots now b' ctx ∧
        verifySourceStamp E roots now b ctx = verifySourceStamp E roots now b' ctx := by
      intro roots ctx
      have := C106_same_verdict hs E roots now ctx
      unfold verifyAll at this
      injection this with h1 h2
      exact ⟨h1, h2⟩
    simp only [Res.mapErr, Res.ok_bind, (hv _ _).1, (hv _ _).2]
    exact ⟨rfl, trivial⟩

theorem oddList_of_one {p : Profile} {file : Bytes} (h : ReadByOne p file) : OddList p file := by
  obtain ⟨b, hb, hu⟩ := h
  exact ⟨b, .inl hb, hu⟩

theorem info_same {E : Env} {p : Profile} {pem : Bytes} {now : Nat} {file : Bytes} (h : ¬ OddList p file) :
    (NoElf.cliInfoRun E p pem now file).2.bind (fun _ => .ok ()) = ((cliInfo E p pem now file).bind fun _ => .ok ()) ∨
    ∃ e e', (NoElf.cliInfoRun E p pem now file).2 = .err e ∧ ((cliInfo E p pem now file).bind fun _ => .ok ()) = .err e' := by
  rw [← (C84_result E p pem now file).1]
  have hs := fromReader_sides p file file.length 0
  have hno : ∀ b', NoElf.fromReader p file file.length 0 = .ok b' → ¬ ∃ v ∈ b'.content, Unreadable v :=
    fun b' hb hu => h ⟨b', .inr hb, hu⟩
  unfold cliInfoRun NoElf.cliInfoRun cliInfoBlock
  generalize SigningBlock.fromReader p file file.length 0 = x at hs
  generalize NoElf.fromReader p file file.length 0 = y at hs hno
  cases hs with
  | same e => exact .inr ⟨_, _, rfl, rfl⟩
  | errs e e' h h' => exact .inr ⟨_, _, rfl, rfl⟩
  | more e b' h hb => exact absurd hb (hno b' rfl)
  | panic => exact .inl rfl
  | both b b' h => exact .inl rfl

theorem exec_same {M : Machine} {now : Nat} {clock : Option UInt64} {fs : Fs} {c : Command}
    (h : ∀ file, fs (subject c) = some file → ¬ OddList M.profile file ∧ (StartsElf file → output c = none ∧ ∀ i h f s, c ≠ .digest i h f s)) :
    (NoElf.exec M now clock fs c).status = (c.exec M now clock fs).status ∧ (NoElf.exec M now clock fs c).after fs = (c.exec M now clock fs).after fs ∧
    (NoElf.exec M now clock fs c).printed = (c.exec M now clock fs).printed := by
  cases c with
  | sign i o v2 st names =>
    unfold NoElf.exec Command.exec
    dsimp only
    cases signerFrom M.keys fs v2 st with
    | error e => exact ⟨rfl, rfl, rfl⟩
    | ok m =>
      cases hf : fs i with
      | none => exact ⟨rfl, rfl, rfl⟩
      | some file =>
        obtain ⟨ho, he⟩ := h file hf
        rcases C112_sign M.env M.profile M.acc clock m names (decide (o = i)) file (fun hm => nomatch (he hm).1) with hs | ⟨_, hu⟩
        · dsimp only
          rw [hs]
          exact ⟨rfl, rfl, rfl⟩
        · exact absurd (oddList_of_one hu) ho
  | verify m root =>
    unfold NoElf.exec Command.exec
    dsimp only
    cases hf : fs m with
    | none => exact ⟨rfl, rfl, rfl⟩
    | some file =>
      have hn : ¬ ReadByOne M.profile file := fun hu => (h file hf).1 (oddList_of_one hu)
      cases root with
      | none =>
        dsimp only
        rw [(verify_same hn).1]
        exact ⟨rfl, rfl, rfl⟩
      | some q =>
        dsimp only
        cases fs q with
        | none =>
          dsimp only
          rw [(verify_same (E := M.env) (pem := []) (root := none) (now := 0) hn).2]
          exact ⟨rfl, rfl, rfl⟩
        | some pem =>
          dsimp only
          rw [(verify_same hn).1]
          exact ⟨rfl, rfl, rfl⟩
  | info m =>
    unfold NoElf.exec Command.exec
    dsimp only
    cases hf : fs m with
    | none => exact ⟨rfl, rfl, rfl⟩
    | some file =>
      rcases info_same (E := M.env) (pem := M.builtin) (now := now) (h file hf).1 with hs | ⟨e, e', h1, h2⟩
      · dsimp only
        rw [← hs]
        generalize (NoElf.cliInfoRun M.env M.profile M.builtin now file).2 = r
        cases r <;> exact ⟨rfl, rfl, rfl⟩
      · dsimp only
        rw [h1, h2]
        exact ⟨rfl, rfl, rfl⟩
  | digest i h5 f names =>
    unfold NoElf.exec Command.exec
    dsimp only
    cases hf : fs i with
    | none => exact ⟨rfl, rfl, rfl⟩
    | some file =>
      obtain ⟨ho, he⟩ := h file hf
      rcases C112_digest M.env M.profile M.acc names file (fun hm => (he hm).2 _ _ _ _ rfl) with ⟨hs, _⟩ | ⟨_, hu⟩
      · dsimp only
        rw [hs]
        exact ⟨rfl, rfl, rfl⟩
      · exact absurd (oddList_of_one hu) ho
  | dump i o names =>
    unfold NoElf.exec Command.exec
    dsimp only
    cases hf : fs i with
    | none => exact ⟨rfl, rfl, rfl⟩
    | some file =>
      obtain ⟨ho, he⟩ := h file hf
      rcases C112_digest M.env M.profile M.acc names file (fun hm => nomatch (he hm).1) with ⟨_, hs⟩ | ⟨_, hu⟩
      · dsimp only
        rw [hs]
        exact ⟨rfl, rfl, rfl⟩
      · exact absurd (oddList_of_one hu) ho

theorem runMainIn_run {b : Build} {M : Machine} {now : Nat} {clock : Option UInt64} {fs : Fs} {argv : List Arg} {c : Command} {v : Bool}
    (hl : ¬ Lacks b argv) (h : Says argv c v) :
    runMainIn b M now clock fs argv = ((c.execIn b M now clock fs).status, (c.execIn b M now clock fs).after fs) := by
  unfold runMainIn
  rw [parseArgsIn_has hl, C116_run.mpr h]

/-- Without ELF support, too, a line does the same, unless the file it is about has a block with an odd section list, or starts like an
ELF file and is to be signed, digested or dumped: the same exit status, the same files, and the same digest. -/
theorem C118_without_elf {b : Build} {M : Machine} {now : Nat} {clock : Option UInt64} {fs : Fs} {argv : List Arg} (h : ¬ Lacks b argv)
    (hf : ∀ c v file, Says argv c v → fs (subject c) = some file → ¬ OddList M.profile file ∧
      (StartsElf file → (∃ m root, c = .verify m root) ∨ ∃ m, c = .info m)) :
    runMainIn b M now clock fs argv = runMain M now clock fs argv ∧
    ∀ c v, Says argv c v → (c.execIn b M now clock fs).printed = (c.exec M now clock fs).printed := by
  cases he : b.elf with
  | true =>
    refine ⟨(C118_same h).2.2 he, fun c v _ => ?_⟩
    unfold Command.execIn
    rw [if_pos he]
  | false =>
    have key : ∀ c v, Says argv c v → _ := fun c v hs => exec_same (M := M) (now := now) (clock := clock) (fs := fs) (c := c) (by
      intro file hfile
      obtain ⟨h1, h2⟩ := hf c v file hs hfile
      refine ⟨h1, fun hm => ?_⟩
      rcases h2 hm with ⟨m, root, rfl⟩ | ⟨m, rfl⟩ <;> exact ⟨rfl, nofun⟩)
    have hx : ∀ c : Command, c.execIn b M now clock fs = NoElf.exec M now clock fs c := by
      intro c
      unfold Command.execIn
      rw [if_neg (by rw [he]; decide)]
    refine ⟨?_, fun c v hs => by rw [hx]; exact (key c v hs).2.2⟩
    unfold runMainIn runMain
    rw [parseArgsIn_has h]
    cases hp : parseArgs argv with
    | usage => rfl
    | help => rfl
    | run c v =>
      obtain ⟨h1, h2, _⟩ := key c v (C116_run.mp hp)
      dsimp only
      rw [hx, h1, h2]

theorem create_ok {M : Machine} {o : Path} {x : Option Bytes × Res Unit} (h : (Outcome.create M o x).status = 0) : x.2 = .ok () := by
  obtain ⟨x1, x2⟩ := x
  unfold Outcome.create at h
  cases x2 with
  | ok u => rfl
  | err e => cases x1 <;> simp only at h <;> (try split at h) <;> cases h
  | panic => cases x1 <;> simp only at h <;> (try split at h) <;> cases h

theorem quiet_ok {r : Res Unit} (h : (Outcome.quiet r).status = 0) : r = .ok () := by
  cases r with
  | ok u => rfl
  | err e => cases h
  | panic => cases h

theorem exec_no_less {M : Machine} {now : Nat} {clock : Option UInt64} {fs : Fs} {c : Command}
    (h : ∀ file, fs (subject c) = some file → StartsElf file → (∃ m root, c = .verify m root) ∨ ∃ m, c = .info m)
    (hok : (c.exec M now clock fs).status = 0) : NoElf.exec M now clock fs c = c.exec M now clock fs := by
  cases c with
  | sign i o v2 st names =>
    unfold Command.exec at hok
    unfold NoElf.exec Command.exec
    dsimp only at hok ⊢
    cases hk : signerFrom M.keys fs v2 st with
    | error e => rfl
    | ok m =>
      rw [hk] at hok
      cases hf : fs i with
      | none => rfl
      | some file =>
        rw [hf] at hok
        dsimp only at hok ⊢
        rcases C112_sign M.env M.profile M.acc clock m names (decide (o = i)) file
          (fun hm => by rcases h file hf hm with ⟨_, _, h⟩ | ⟨_, h⟩ <;> cases h) with hs | ⟨⟨e, he⟩, _⟩
        · rw [hs]
        · rw [he] at hok
          cases create_ok hok
  | verify m root =>
    unfold Command.exec at hok
    unfold NoElf.exec Command.exec
    dsimp only at hok ⊢
    cases hf : fs m with
    | none => rfl
    | some file =>
      rw [hf] at hok
      cases root with
      | none =>
        have := quiet_ok hok
        dsimp only
        rw [this, (C106_command _ _ _ _ _ _).1 this]
      | some q =>
        dsimp only at hok ⊢
        cases hq : fs q with
        | none =>
          rw [hq] at hok
          have := quiet_ok hok
          obtain ⟨_, _, h2⟩ := Res.bind_eq_ok.mp this
          cases h2
        | some pem =>
          rw [hq] at hok
          have := quiet_ok hok
          dsimp only
          rw [this, (C106_command _ _ _ _ _ _).1 this]
  | info m =>
    unfold Command.exec at hok
    unfold NoElf.exec Command.exec
    dsimp only at hok ⊢
    cases hf : fs m with
    | none => rfl
    | some file =>
      rw [hf] at hok
      have hr := quiet_ok hok
      dsimp only
      rw [hr]
      rw [← (C84_result M.env M.profile M.builtin now file).1] at hr
      rw [(C112_info M.env M.profile M.builtin now file).1 hr]
  | digest i h5 f names =>
    unfold Command.exec at hok
    unfold NoElf.exec Command.exec
    dsimp only at hok ⊢
    cases hf : fs i with
    | none => rfl
    | some file =>
      rw [hf] at hok
      dsimp only at hok ⊢
      rcases C112_digest M.env M.profile M.acc names file
        (fun hm => by rcases h file hf hm with ⟨_, _, h⟩ | ⟨_, h⟩ <;> cases h) with ⟨hs, _⟩ | ⟨⟨hs, _⟩, _⟩
      · rw [hs]
        rfl
      · obtain ⟨e, he⟩ := hs h5 f
        rw [he] at hok
        cases hok
  | dump i o names =>
    unfold Command.exec at hok
    unfold NoElf.exec Command.exec
    dsimp only at hok ⊢
    cases hf : fs i with
    | none => rfl
    | some file =>
      rw [hf] at hok
      dsimp only at hok ⊢
      rcases C112_digest M.env M.profile M.acc names file
        (fun hm => by rcases h file hf hm with ⟨_, _, h⟩ | ⟨_, h⟩ <;> cases h) with ⟨_, hs⟩ | ⟨⟨_, hs⟩, _⟩
      · rw [hs]
      · obtain ⟨e, he⟩ := hs (decide (o = i))
        rw [he] at hok
        cases create_ok hok

/-- A line that succeeds in the full build does the same in every build that has the command, unless the file it is about starts like
an ELF file and is to be signed, digested or dumped. -/
theorem C118_no_less {b : Build} {M : Machine} {now : Nat} {clock : Option UInt64} {fs : Fs} {argv : List Arg} (h : ¬ Lacks b argv)
    (hf : ∀ c v file, Says argv c v → fs (subject c) = some file → StartsElf file → (∃ m root, c = .verify m root) ∨ ∃ m, c = .info m)
    (hok : (runMain M now clock fs argv).1 = 0) : runMainIn b M now clock fs argv = runMain M now clock fs argv := by
  cases he : b.elf with
  | true => exact (C118_same h).2.2 he
  | false =>
    unfold runMainIn
    unfold runMain at hok ⊢
    rw [parseArgsIn_has h]
    cases hp : parseArgs argv with
    | usage => rfl
    | help => rfl
    | run c v =>
      rw [hp] at hok
      unfold Command.execIn
      simp only [he, Bool.false_eq_true, if_false]
      rw [exec_no_less (fun file => hf c v file (C116_run.mp hp)) hok]

/-- Without ELF support a file that starts like an ELF file and has no end record of an archive is neither signed nor digested: the
command fails with status 1, or 101, and no file changes. -/
theorem C118_elf_refused {b : Build} {M : Machine} {now : Nat} {clock : Option UInt64} {fs : Fs} {argv : List Arg} {c : Command} {v : Bool}
    {file : Bytes} (he : b.elf = false) (hs : Says argv c v) (hc : output c ≠ none ∨ ∃ i h f s, c = .digest i h f s)
    (hi : fs (subject c) = some file) (hm : StartsElf file) (hr : ∀ r, findEocd file file.length ≠ .ok r) :
    (runMainIn b M now clock fs argv).1 ≠ 0 ∧ (runMainIn b M now clock fs argv).2 = fs := by
  by_cases hl : Lacks b argv
  · rw [C118_missing hl]
    exact ⟨by show (2 : Nat) ≠ 0; decide, rfl⟩
  rw [runMainIn_run hl hs]
  unfold Command.execIn
  rw [if_neg (by rw [he]; decide)]
  cases c with
  | sign i o v2 st names =>
    unfold NoElf.exec
    dsimp only
    cases signerFrom M.keys fs v2 st with
    | error e => exact ⟨by show (1 : Nat) ≠ 0; decide, rfl⟩
    | ok m =>
      have hi : fs i = some file := hi
      rw [hi]
      obtain ⟨h1, h2, _⟩ := C112_elf_refused M.env M.profile clock m names file hm hr (decide (o = i))
      dsimp only
      generalize NoElf.cliSign M.env M.profile clock m names (decide (o = i)) file = x at h1 h2
      obtain ⟨x1, x2⟩ := x
      cases h1
      refine ⟨?_, rfl⟩
      cases x2 with
      | ok u => exact absurd rfl h2
      | err e => show (1 : Nat) ≠ 0; decide
      | panic => show (101 : Nat) ≠ 0; decide
  | verify m root => rcases hc with hc | ⟨_, _, _, _, hc⟩ <;> simp [output] at hc
  | info m => rcases hc with hc | ⟨_, _, _, _, hc⟩ <;> simp [output] at hc
  | digest i h5 f names =>
    unfold NoElf.exec
    dsimp only
    have hi : fs i = some file := hi
    rw [hi]
    have h1 := (C112_elf_refused M.env M.profile clock ⟨none, none, false, false⟩ names file hm hr false).2.2.2.2 h5 f
    dsimp only
    generalize NoElf.cliDigest M.env M.profile h5 f names file = x at h1
    cases x with
    | ok u => exact absurd rfl (h1 u)
    | err e => exact ⟨by show (1 : Nat) ≠ 0; decide, rfl⟩
    | panic => exact ⟨by show (101 : Nat) ≠ 0; decide, rfl⟩
  | dump i o names =>
    unfold NoElf.exec
    dsimp only
    have hi : fs i = some file := hi
    rw [hi]
    obtain ⟨_, _, h1, h2, _⟩ := C112_elf_refused M.env M.profile clock ⟨none, none, false, false⟩ names file hm hr (decide (o = i))
    dsimp only
    generalize NoElf.cliDump M.profile names (decide (o = i)) file = x at h1 h2
    obtain ⟨x1, x2⟩ := x
    cases h1
    refine ⟨?_, rfl⟩
    cases x2 with
    | ok u => exact absurd rfl h2
    | err e => show (1 : Nat) ≠ 0; decide
    | panic => show (101 : Nat) ≠ 0; decide

theorem create_after {M : Machine} {o q : Path} {x : Option Bytes × Res Unit} {fs : Fs} (h : (Outcome.create M o x).after fs q ≠ fs q) :
    o = q := by
  obtain ⟨x1, x2⟩ := x
  cases x1 with
  | none => exact absurd rfl h
  | some d =>
    unfold Outcome.create at h
    dsimp only at h
    split at h
    · by_cases hq : o = q
      · exact hq
      · exact absurd (set_other (Ne.symm hq)) h
    · exact absurd rfl h

theorem noElf_changes {M : Machine} {now : Nat} {clock : Option UInt64} {fs : Fs} {c : Command} {q : Path}
    (h : (NoElf.exec M now clock fs c).after fs q ≠ fs q) : output c = some q := by
  cases c with
  | sign i o v2 st names =>
    unfold NoElf.exec at h
    dsimp only at h
    cases hk : signerFrom M.keys fs v2 st with
    | error e => rw [hk] at h; exact absurd rfl h
    | ok m =>
      rw [hk] at h
      cases hf : fs i with
      | none => rw [hf] at h; exact absurd rfl h
      | some file => rw [hf] at h; exact congrArg some (create_after h)
  | verify m root =>
    unfold NoElf.exec at h
    dsimp only at h
    cases hf : fs m with
    | none => rw [hf] at h; exact absurd rfl h
    | some file =>
      rw [hf] at h
      cases root with
      | none => exact absurd rfl h
      | some r =>
        dsimp only at h
        cases hr : fs r with
        | none => rw [hr] at h; exact absurd rfl h
        | some pem => rw [hr] at h; exact absurd rfl h
  | info m =>
    unfold NoElf.exec at h
    dsimp only at h
    cases hf : fs m with
    | none => rw [hf] at h; exact absurd rfl h
    | some file => rw [hf] at h; exact absurd rfl h
  | digest i h5 f names =>
    unfold NoElf.exec at h
    dsimp only at h
    cases hf : fs i with
    | none => rw [hf] at h; exact absurd rfl h
    | some file =>
      rw [hf] at h
      dsimp only at h
      split at h <;> exact absurd rfl h
  | dump i o names =>
    unfold NoElf.exec at h
    dsimp only at h
    cases hf : fs i with
    | none => rw [hf] at h; exact absurd rfl h
    | some file => rw [hf] at h; exact congrArg some (create_after h)

/-- In every build only the file that a line names as output can change. -/
theorem C118_changes {b : Build} {M : Machine} {now : Nat} {clock : Option UInt64} {fs : Fs} {argv : List Arg} {q : Path}
    (h : (runMainIn b M now clock fs argv).2 q ≠ fs q) : ∃ c v, Says argv c v ∧ output c = some q := by
  by_cases hl : Lacks b argv
  · rw [C118_missing hl] at h
    exact absurd rfl h
  cases he : b.elf with
  | true => rw [(C118_same hl).2.2 he] at h; exact C117_changes h
  | false =>
    unfold runMainIn at h
    cases hp : parseArgsIn b argv with
    | usage => rw [hp] at h; exact absurd rfl h
    | help => rw [hp] at h; exact absurd rfl h
    | run c v =>
      rw [hp] at h
      refine ⟨c, v, ((C118_same (M := M) (now := now) (clock := clock) (fs := fs) hl).1 c v).mp hp, noElf_changes (M := M) (now := now) (clock := clock) (fs := fs) ?_⟩
      unfold Command.execIn at h
      simp only [he, Bool.false_eq_true, if_false] at h
      exact h

theorem mixed_frame {M : Machine} {q : Path} : ∀ {ls : List (Build × Entered)} {fs : Fs}, LeavesAlone (ls.map (·.2)) q →
    mixedSession M ls fs q = fs q
  | [], _, _ => rfl
  | l :: ls, fs, h => by
    have ih := mixed_frame (M := M) (ls := ls) (fs := (runMainIn l.1 M l.2.now l.2.clock fs l.2.argv).2)
      (fun x hx => h x (List.mem_cons_of_mem _ hx))
    refine ih.trans (Classical.byContradiction fun hne => ?_)
    obtain ⟨c, v, hs, ho⟩ := C118_changes hne
    exact h l.2 (List.mem_cons_self ..) c v hs ho

/-- What a build has written when it has signed a module: the sign command without ELF support would have written the same. -/
theorem sign_written_in {b : Build} {M : Machine} {now : Nat} {clock : Option UInt64} {fs : Fs} {input out : Path} {v2 stamp : CredPaths}
    {file : Bytes} {m : ModuleSigner} (hi : fs input = some file) (helf : b.elf = true → ¬ StartsElf file) (hne : out ≠ input) (hm : signerFrom M.keys fs v2 stamp = .ok m)
    (h : ((Command.sign input out v2 stamp []).execIn b M now clock fs).status = 0) :
    ∃ d, NoElf.cliSign M.env M.profile clock m [] false file = (some d, .ok ()) ∧
      ((Command.sign input out v2 stamp []).execIn b M now clock fs).after fs out = some d := by
  unfold Command.execIn at h ⊢
  cases he : b.elf with
  | true =>
    rw [he] at h
    simp only [if_true] at h ⊢
    have hmag : ¬ elfMagic <+: file := helf he
    obtain ⟨file', m', d, hi', hm', _, hc, hx⟩ := C80_sign_success h
    cases hi.symm.trans hi'
    cases hm.symm.trans hm'
    rw [decide_eq_false hne] at hc
    refine ⟨d, ?_, hx⟩
    rcases C112_sign M.env M.profile M.acc clock m [] false file hmag with hs | ⟨⟨e, hs⟩, _⟩
    · rw [hs, hc]
    · rw [hc] at hs
      cases hs
  | false =>
    rw [he] at h
    simp only [Bool.false_eq_true, if_false] at h ⊢
    unfold NoElf.exec at h ⊢
    dsimp only at h ⊢
    rw [hm, hi, decide_eq_false hne] at h ⊢
    dsimp only at h ⊢
    have hw : NoElf.cliSign M.env M.profile clock m [] false file ≠ (none, .ok ()) := by
      unfold NoElf.cliSign
      split <;> intro h <;> cases h
    obtain ⟨d, hd, _, hx⟩ := create_status hw h
    refine ⟨d, hd, ?_⟩
    unfold Outcome.after
    rw [hx]
    exact set_same

/-- Modules can be signed with one build and verified with another: a line of any build signs a module with trusted credentials and
exits with 0, other lines are entered in any builds, and a line of any build verifies the output: it exits with 0. (A build with ELF
support takes files that start like ELF files for something else.) -/
theorem C118_sign_then_verify {b b' : Build} {M : Machine} {fs : Fs} {argv argv' : List Arg} {ls : List (Build × Entered)} {verbose : Bool}
    {input out : Path} {file : Bytes} {pos : Nat} {t : Tail} {off s e : Nat} {v2 stamp : CredPaths} {now later : Nat}
    {clock clock' : Option UInt64} {m : ModuleSigner} {rootPath : Option Path} {rootPem : Bytes} {cert : Bytes}
    (hsays : Says argv (.sign input out v2 stamp []) false) (hsays' : Says argv' (.verify out rootPath) verbose) (hi : fs input = some file)
    (helf : b.elf = true → ¬ StartsElf file) (hb' : b'.verify = true)
    (hlen : file.length < 2 ^ 64) (hr : EndRecord file pos t off) (hl : BareLocated file off s e) (hplain : Plain t)
    (hsize : off + 16392 < 2 ^ 32) (hend : pos + 22 + t.comment.length = file.length) (hdir : e = off) (hne : out ≠ input)
    (hsign : (runMainIn b M now clock fs argv).1 = 0)
    (hm : signerFrom M.keys fs v2 stamp = .ok m) (hsound : ∀ c, m.v2 = some c ∨ m.stamp = some c → Sound M.env c)
    (hspare : LeavesAlone (ls.map (·.2)) out)
    (hroot : ∀ q, rootPath = some q → LeavesAlone (ls.map (·.2)) q ∧ q ≠ out ∧ fs q = some rootPem)
    (hnone : rootPath = none → M.builtin = rootPem) (hcert : M.env.pemParse rootPem = some ("CERTIFICATE", cert))
    (ht : ∀ c, m.v2 = some c → Trusted M.env [cert] later c.cert c.chain)
    (ht' : ∀ c, m.stamp = some c → Trusted M.env [cert] later c.cert []) :
    (runMainIn b' M later clock' (mixedSession M ((b, ⟨argv, now, clock⟩) :: ls) fs) argv').1 = 0 := by
  have hlack : ¬ Lacks b argv := by
    intro h
    rw [C118_missing h] at hsign
    cases hsign
  have hlack' : ¬ Lacks b' argv' := by
    rintro ⟨cmd, hmiss, h⟩
    cases hsays' with
    | verify =>
      rcases h with ⟨args, h⟩ | h
      · have : cmd.toList = "verify".toList := (List.cons.inj h).1.symm
        have : cmd = "verify" := by
          have := congrArg String.ofList this
          simpa using this
        subst this
        rcases hmiss with ⟨h1, _⟩ | ⟨_, h1⟩
        · exact absurd h1 (by decide)
        · rw [hb'] at h1; cases h1
      · exact absurd (List.cons.inj h).1 (by decide)
  have hrun : runMainIn b M now clock fs argv = (((Command.sign input out v2 stamp []).execIn b M now clock fs).status,
      ((Command.sign input out v2 stamp []).execIn b M now clock fs).after fs) := by
    unfold runMainIn
    rw [parseArgsIn_has hlack, C116_run.mpr hsays]
  rw [hrun] at hsign
  obtain ⟨d, hd, hout⟩ := sign_written_in hi helf hne hm hsign
  have hver : ∀ root : Option Bytes, root.getD M.builtin = rootPem → cliVerify M.env M.profile M.builtin root later d = .ok () ∧
      NoElf.cliVerify M.env M.profile M.builtin root later d = .ok () := fun root h =>
    C126_accepted hlen hr hl hplain hsize hsound (signerFrom_v2 hm) hd hend hdir (by rw [h]; exact hcert) ht ht'
  have hfirst : mixedSession M ((b, ⟨argv, now, clock⟩) :: ls) fs out = some d := by
    show mixedSession M ls (runMainIn b M now clock fs argv).2 out = _
    rw [mixed_frame hspare, hrun]
    exact hout
  have hrootfile : ∀ q, rootPath = some q → mixedSession M ((b, ⟨argv, now, clock⟩) :: ls) fs q = some rootPem := by
    intro q hq
    obtain ⟨h1, h2, h3⟩ := hroot q hq
    rw [← h3]
    refine mixed_frame (ls := (b, ⟨argv, now, clock⟩) :: ls) fun l hl c v hs => ?_
    rcases List.mem_cons.mp hl with rfl | hl
    · obtain ⟨rfl, _⟩ := (C116_one_meaning hsays).1 hs
      intro h; cases h; exact h2 rfl
    · exact h1 l hl c v hs
  unfold runMainIn
  rw [parseArgsIn_has hlack', C116_run.mpr hsays']
  dsimp only
  generalize mixedSession M ((b, ⟨argv, now, clock⟩) :: ls) fs = fs' at *
  unfold Command.execIn
  cases hbe : b'.elf with
  | true =>
    simp only [if_true]
    unfold Command.exec Outcome.status
    dsimp only
    rw [hfirst]
    cases rootPath with
    | none => dsimp only [Outcome.quiet]; rw [(hver none (hnone rfl)).1]
    | some q => dsimp only; rw [hrootfile q rfl]; dsimp only [Outcome.quiet]; rw [(hver (some rootPem) rfl).1]
  | false =>
    simp only [Bool.false_eq_true, if_false]
    unfold NoElf.exec Outcome.status
    dsimp only
    rw [hfirst]
    cases rootPath with
    | none => dsimp only [Outcome.quiet]; rw [(hver none (hnone rfl)).2]
    | some q => dsimp only; rw [hrootfile q rfl]; dsimp only [Outcome.quiet]; rw [(hver (some rootPem) rfl).2]

/-- The build with all features, and one without ELF support. -/
def allFeatures : Build := ⟨true, true, true⟩

def withoutElfFeature : Build := ⟨true, true, false⟩

set_option maxRecDepth 100000 in
/-- A build without `keystore` refuses to sign and to explain it, and still verifies; one without `verify` only signs and digests. -/
example : Lacks ⟨false, true, true⟩ (["sign", "a", "b"].map String.toList) ∧ Lacks ⟨false, true, true⟩ (["help", "sign"].map String.toList) ∧
    ¬ Lacks ⟨false, true, true⟩ (["verify", "sign"].map String.toList) ∧ Lacks ⟨true, false, false⟩ (["info", "a"].map String.toList) ∧
    ¬ Lacks ⟨true, false, false⟩ (["digest", "a"].map String.toList) := by
  have no : ∀ {b : Build} {argv : List Arg}, parseArgsIn b argv ≠ .usage → ¬ Lacks b argv := fun h hl => h (parseArgsIn_lacks hl)
  exact ⟨⟨"sign", .inl ⟨rfl, rfl⟩, .inl ⟨_, rfl⟩⟩, ⟨"sign", .inl ⟨rfl, rfl⟩, .inr rfl⟩, no (by decide +kernel),
    ⟨"info", .inr ⟨.inr rfl, rfl⟩, .inl ⟨_, rfl⟩⟩, no (by decide +kernel)⟩

set_option maxRecDepth 100000 in
/-- A module is signed without ELF support and verified with it, and the other way round. -/
example : ∀ b b' : Build, (b, b') = (withoutElfFeature, allFeatures) ∨ (b, b') = (allFeatures, withoutElfFeature) →
    (runMainIn b' toyMachine 0 none (mixedSession toyMachine
      [(b, ⟨["sign", "in", "b", "--key", "k", "--cert=c"].map String.toList, 0, some 5⟩)] toyFs) (["verify", "-v", "b"].map String.toList)).1 = 0 := by
  have h1 : Says (["sign", "in", "b", "--key", "k", "--cert=c"].map String.toList) (.sign "in".toList "b".toList toyPaths noPaths []) false :=
    C116_run.mp (by decide +kernel)
  have h2 : Says (["verify", "-v", "b"].map String.toList) (.verify "b".toList none) true := C116_run.mp (by decide +kernel)
  have hno : ¬ OddList toyMachine.profile plainArchive.unsigned := by
    rintro ⟨x, h, _⟩
    have e1 : (NoElf.getSigningBlock toyMachine.profile (Module.new plainArchive.unsigned) plainArchive.unsigned).isOk = false := by decide +kernel
    have e2 : (NoElf.fromReader toyMachine.profile plainArchive.unsigned plainArchive.unsigned.length 0).isOk = false := by decide +kernel
    rcases h with h | h
    · rw [h] at e1; cases e1
    · rw [h] at e2; cases e2
  have hfs : toyFs "in".toList = some plainArchive.unsigned := by decide +kernel
  have hfmt : detectFileFormat plainArchive.unsigned = .ok .module := by decide +kernel
  have main : ∀ b b' : Build, b.keystore = true → b'.verify = true →
    (runMainIn b' toyMachine 0 none (mixedSession toyMachine
      [(b, ⟨["sign", "in", "b", "--key", "k", "--cert=c"].map String.toList, 0, some 5⟩)] toyFs) (["verify", "-v", "b"].map String.toList)).1 = 0 := by
    intro b b' hb hb'
    have hl : ¬ Lacks b (["sign", "in", "b", "--key", "k", "--cert=c"].map String.toList) := by
      rintro ⟨cmd, hm, h⟩
      rcases h with ⟨args, h⟩ | h
      · have := congrArg String.ofList (List.cons.inj h).1
        simp only [String.ofList_toList] at this
        subst this
        rcases hm with ⟨_, h⟩ | ⟨h | h, _⟩
        · rw [hb] at h; cases h
        · exact absurd h (by decide)
        · exact absurd h (by decide)
      · exact absurd (List.cons.inj h).1 (by decide)
    have hs : (runMainIn b toyMachine 0 (some 5) toyFs (["sign", "in", "b", "--key", "k", "--cert=c"].map String.toList)).1 = 0 := by
      rw [(C118_without_elf hl ?_).1]
      · rw [runMain_run (C116_run.mpr h1)]; exact toySign_ok "b".toList (by decide)
      · intro c v f hc hf
        obtain ⟨rfl, _⟩ := (C116_one_meaning h1).1 hc
        cases hfs.symm.trans hf
        refine ⟨hno, ?_⟩
        rintro ⟨rest, h⟩
        rw [← h] at hfmt
        cases hfmt
    exact C118_sign_then_verify (ls := []) (out := "b".toList) h1 h2 (file := plainArchive.unsigned) (m := .v2Only toyConfig) (rootPem := [7]) (cert := [7])
      hfs (fun _ ⟨rest, h⟩ => by rw [← h] at hfmt; cases hfmt) hb' (by decide +kernel) plainArchive_unsigned_record.1
      (bare_of_located plainArchive_unsigned_record.2)
      (plain_no_comment rfl) (by omega) (by decide +kernel) rfl (by decide) hs (by decide +kernel)
      (by rintro c (h | h) <;> cases h; exact toyConfig_sound) (by intro l h; cases h)
      (by intro q h; cases h) (fun _ => rfl) rfl
      (by intro c h; cases h; exact ⟨by simp, .inl (by simp [toyConfig])⟩) (by intro c h; cases h)
  rintro b b' (h | h) <;> cases h <;> exact main _ _ rfl rfl

end Ksusig.Props
