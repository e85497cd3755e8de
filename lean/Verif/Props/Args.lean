import Verif.Proofs.ArgsSay
import Verif.Props.Exit

/-!
# C116: what a command line means
-/

namespace Ksusig.Props

open Ksusig Spec

/-- The program runs a command exactly if the command line says so. -/
theorem C116_run {argv : List Arg} {c : Command} {verbose : Bool} : parseArgs argv = .run c verbose ↔ Says argv c verbose := parseArgs_run

/-- It shows help or the version exactly if the command line asks for it. -/
theorem C116_help {argv : List Arg} : parseArgs argv = .help ↔ Asks argv := parseArgs_help

/-- A command line says at most one thing, and does not ask for help as well. -/
theorem C116_one_meaning {argv : List Arg} {c c' : Command} {v v' : Bool} (h : Says argv c v) :
    (Says argv c' v' → c' = c ∧ v' = v) ∧ ¬ Asks argv := by
  rw [← parseArgs_run] at h
  rw [← parseArgs_run, ← parseArgs_help, h]
  constructor
  · intro h; cases h; exact ⟨rfl, rfl⟩
  · nofun

/-- The exit status and the files after a run of the program: those of the command that the line says; 0 and nothing changes after help;
and 2 and nothing changes if the line says nothing. -/
theorem C116_status {M : Machine} {now : Nat} {clock : Option UInt64} {fs : Fs} {argv : List Arg} :
    (∀ c v, Says argv c v → runMain M now clock fs argv = ((c.exec M now clock fs).status, Run.after M ⟨c, now, clock, .finished⟩ fs)) ∧
    (Asks argv → runMain M now clock fs argv = (0, fs)) ∧
    ((¬ Asks argv ∧ ∀ c v, ¬ Says argv c v) → runMain M now clock fs argv = (2, fs)) ∧
    ((runMain M now clock fs argv).1 = 2 ↔ ¬ Asks argv ∧ ∀ c v, ¬ Says argv c v) ∧
    ((runMain M now clock fs argv).1 = 0 ∨ (runMain M now clock fs argv).1 = 1 ∨ (runMain M now clock fs argv).1 = 2 ∨
      (runMain M now clock fs argv).1 = 101) := by
  have hcases : ∀ o : Outcome, o.status = 0 ∨ o.status = 1 ∨ o.status = 101 := by
    rintro ⟨w, pr, r⟩
    cases r <;> simp [Outcome.status]
  have key : (∀ c v, Says argv c v → parseArgs argv = .run c v) ∧ (Asks argv → parseArgs argv = .help) :=
    ⟨fun _ _ => parseArgs_run.mpr, parseArgs_help.mpr⟩
  cases h : parseArgs argv with
  | usage =>
    have h1 : ¬ Asks argv := fun ha => by rw [key.2 ha] at h; cases h
    have h2 : ∀ c v, ¬ Says argv c v := fun c v ha => by rw [key.1 c v ha] at h; cases h
    have h3 : runMain M now clock fs argv = (2, fs) := by simp only [runMain, h]
    rw [h3]
    exact ⟨fun c v hs => absurd hs (h2 c v), fun ha => absurd ha h1, fun _ => rfl, ⟨fun _ => ⟨h1, h2⟩, fun _ => rfl⟩, .inr (.inr (.inl rfl))⟩
  | help =>
    have h1 : Asks argv := parseArgs_help.mp h
    have h2 : ∀ c v, ¬ Says argv c v := fun c v ha => by rw [key.1 c v ha] at h; cases h
    have h3 : runMain M now clock fs argv = (0, fs) := by simp only [runMain, h]
    rw [h3]
    exact ⟨fun c v hs => absurd hs (h2 c v), fun _ => rfl, fun hn => absurd h1 hn.1, ⟨fun hc => (by cases hc), fun hn => absurd h1 hn.1⟩, .inl rfl⟩
  | run c v =>
    have h1 : ¬ Asks argv := fun ha => by rw [key.2 ha] at h; cases h
    have h2 : Says argv c v := parseArgs_run.mp h
    have h3 : runMain M now clock fs argv = ((c.exec M now clock fs).status, (c.exec M now clock fs).after fs) := by simp only [runMain, h]
    rw [h3]
    refine ⟨fun c' v' hs => ?_, fun ha => absurd ha h1, fun hn => absurd h2 (hn.2 c v), ⟨fun hc => ?_, fun hn => absurd h2 (hn.2 c v)⟩, ?_⟩
    · obtain ⟨rfl, rfl⟩ := (C116_one_meaning h2).1 hs
      rfl
    · rcases hcases (c.exec M now clock fs) with h | h | h <;> rw [h] at hc <;> cases hc
    · rcases hcases (c.exec M now clock fs) with h | h | h
      · exact .inl h
      · exact .inr (.inl h)
      · exact .inr (.inr (.inr h))

/-- Which commands can be given at all: those without empty paths, with text as passwords and no comma in a section name. Only
verification can be verbose. -/
theorem C116_sayable {c : Command} {v : Bool} :
    (∃ argv, Says argv c v) ↔ Sayable c ∧ (v = true → ∃ m root, c = .verify m root) := by
  constructor
  · rintro ⟨argv, h⟩
    cases h with
    | @sign args is more i o names hp hw hi ho hs =>
      have ne : ∀ n, n ∈ ["key", "cert", "p12", "stamp-key", "stamp-cert", "stamp-p12"] → valueOf n is ≠ some [] := by
        intro n hn h
        have := valueOf_allowed hp h
        simp only [List.mem_cons, List.not_mem_nil, or_false] at hn
        rcases hn with rfl | rfl | rfl | rfl | rfl | rfl <;> simp [Spec.Allowed] at this
      have pw : ∀ n, ∀ p, (valueOf n is).map utf8 = some p → ∃ text, p = utf8 text := by
        intro n p h
        obtain ⟨t, _, rfl⟩ := Option.map_eq_some_iff.mp h
        exact ⟨t, rfl⟩
      exact ⟨⟨hi, ho, ⟨ne _ (by decide), ne _ (by decide), ne _ (by decide), pw _⟩, ⟨ne _ (by decide), ne _ (by decide), ne _ (by decide), pw _⟩,
        atCommas_none hs⟩, nofun⟩
    | @verify args is more m v hp hw hm hv =>
      refine ⟨⟨hm, fun h => ?_⟩, fun _ => ⟨_, _, rfl⟩⟩
      have := valueOf_allowed hp h
      simp [Spec.Allowed] at this
    | info hp hw hm => exact ⟨hm, nofun⟩
    | digest hp hw hi hs => exact ⟨⟨hi, atCommas_none hs⟩, nofun⟩
    | @dump args is more i names o hp hw hi hs hb hd =>
      refine ⟨⟨hi, fun h => ?_, atCommas_none hs⟩, nofun⟩
      have := valueOf_allowed hp hd
      simp [Spec.Allowed, h] at this
  · rintro ⟨hc, hv⟩
    have allowed : ∀ n, ∀ v : Option Arg, v ≠ some [] → n ≠ "format" → ∀ i ∈ opt n v, i.Allowed := by
      rintro n (_ | v) h1 h2 i hi
      · cases hi
      · simp only [opt, List.mem_singleton] at hi
        subst hi
        simp only [Item.Allowed, Spec.Allowed, h2, if_false]
        split
        · trivial
        · simpa using h1
    have known : ∀ (S : Syntax) n (v : Option Arg), n ∈ S.values → ∀ i ∈ opt n v, i.Known S := by
      rintro S n (_ | v) h1 i hi
      · cases hi
      · simp only [opt, List.mem_singleton] at hi
        subst hi
        exact h1
    have nolist : ∀ n (v : Option Arg), ∀ i ∈ opt n v, ∀ m vs, i ≠ .list m vs := by
      rintro n (_ | v) i hi m vs
      · cases hi
      · simp only [opt, List.mem_singleton] at hi
        subst hi
        simp
    have oknown : ∀ (S : Syntax) names, "elf-section" ∈ S.lists → ∀ i ∈ opts names, i.Known S := by
      intro S names hn i hi
      simp only [opts, List.mem_map] at hi
      obtain ⟨_, _, rfl⟩ := hi
      exact hn
    have oallowed : ∀ names, ∀ i ∈ opts names, i.Allowed := by
      intro names i hi
      simp only [opts, List.mem_map] at hi
      obtain ⟨_, _, rfl⟩ := hi
      trivial
    have onolist : ∀ names, ∀ i ∈ opts names, ∀ m vs, i ≠ .list m vs := by
      intro names i hi m vs
      simp only [opts, List.mem_map] at hi
      obtain ⟨_, _, rfl⟩ := hi
      simp
    cases c with
    | sign i o v2 st names =>
      obtain ⟨hi, ho, h2, hs, hn⟩ := hc
      have hv : v = false := by
        cases v with
        | false => rfl
        | true => obtain ⟨_, _, h⟩ := hv rfl; cases h
      subst hv
      have text : ∀ c : CredPaths, CredsSayable c → ∃ t : Option Arg, c.password = t.map utf8 := by
        intro c hc
        cases hp : c.password with
        | none => exact ⟨none, rfl⟩
        | some p => obtain ⟨t, rfl⟩ := hc.2.2.2 p hp; exact ⟨some t, rfl⟩
      obtain ⟨t1, ht1⟩ := text v2 h2
      obtain ⟨t2, ht2⟩ := text st hs
      obtain ⟨k1, c1, p1, w1⟩ := v2
      obtain ⟨k2, c2, p2, w2⟩ := st
      obtain ⟨a1, a2, a3, -⟩ := h2
      obtain ⟨b1, b2, b3, -⟩ := hs
      dsimp only at ht1 ht2 a1 a2 a3 b1 b2 b3
      subst ht1 ht2
      let is := opt "key" k1 ++ (opt "cert" c1 ++ (opt "p12" p1 ++ (opt "password" t1 ++ (opt "stamp-key" k2 ++ (opt "stamp-cert" c2 ++
        (opt "stamp-p12" p2 ++ (opt "stamp-password" t2 ++ opts names)))))))
      have val : ∀ n, valueOf n is = ((if "key" = n then k1 else none).or ((if "cert" = n then c1 else none).or
          ((if "p12" = n then p1 else none).or ((if "password" = n then t1 else none).or ((if "stamp-key" = n then k2 else none).or
          ((if "stamp-cert" = n then c2 else none).or ((if "stamp-p12" = n then p2 else none).or
          (if "stamp-password" = n then t2 else none)))))))) := by
        intro n
        simp only [is, valueOf_append, valueOf_opt, opts_value, Option.or_none]
      have hsub : (is.filterMap Item.single).Sublist ["key", "cert", "p12", "password", "stamp-key", "stamp-cert", "stamp-p12", "stamp-password"] := by
        simp only [is, List.filterMap_append, opts_single, List.append_nil]
        exact (single_opt (n := "key")).append ((single_opt (n := "cert")).append ((single_opt (n := "p12")).append
          ((single_opt (n := "password")).append ((single_opt (n := "stamp-key")).append ((single_opt (n := "stamp-cert")).append
          ((single_opt (n := "stamp-p12")).append (single_opt (n := "stamp-password"))))))))
      have hp : Parts signSyntax (is.flatMap Item.args ++ ['-', '-'] :: [i, o]) is [i, o] := by
        refine ⟨.inl rfl, ?_, apart_of ?_, hsub.nodup (by decide), ?_⟩
        · intro i hi
          simp only [is, List.mem_append] at hi
          rcases hi with h | h | h | h | h | h | h | h | h
          all_goals first | exact known signSyntax _ _ (by decide) i h | exact oknown signSyntax _ (by decide) i h
        · intro i hi
          simp only [is, List.mem_append] at hi
          rcases hi with h | h | h | h | h | h | h | h | h
          all_goals first | exact nolist _ _ i h | exact onolist _ i h
        · intro i hi
          simp only [is, List.mem_append] at hi
          rcases hi with h | h | h | h | h | h | h | h | h
          · exact allowed _ _ a1 (by decide) i h
          · exact allowed _ _ a2 (by decide) i h
          · exact allowed _ _ a3 (by decide) i h
          · cases t1 with
            | none => cases h
            | some t => simp only [opt, List.mem_singleton] at h; subst h; simp [Item.Allowed, Spec.Allowed]
          · exact allowed _ _ b1 (by decide) i h
          · exact allowed _ _ b2 (by decide) i h
          · exact allowed _ _ b3 (by decide) i h
          · cases t2 with
            | none => cases h
            | some t => simp only [opt, List.mem_singleton] at h; subst h; simp [Item.Allowed, Spec.Allowed]
          · exact oallowed _ i h
      have hw : words is = [] := by simp only [is, words_append, opt_words, opts_words, List.append_nil]
      have hse : Sections is names := by
        unfold Sections
        simp only [is, sections_append, opt_sections, List.nil_append]
        exact opts_sections hn
      have := Says.sign hp (by rw [hw]; rfl) hi ho hse
      simp only [val] at this
      exact ⟨_, by simpa using this⟩
    | verify m root =>
      obtain ⟨hm, hr⟩ := hc
      let is := opt "root" root ++ (if v then [.switch "verbose"] else [])
      refine ⟨"verify".toList :: (is.flatMap Item.args ++ ['-', '-'] :: [m]), ?_⟩
      have hval : valueOf "root" is = root := by
        simp only [is, valueOf_append, valueOf_opt, if_true]
        cases v <;> simp [valueOf]
      have hp : Parts verifySyntax (is.flatMap Item.args ++ ['-', '-'] :: [m]) is [m] := by
        refine ⟨.inl rfl, ?_, apart_of ?_, ?_, ?_⟩
        · intro i hi
          simp only [is, List.mem_append] at hi
          rcases hi with h | h
          · exact known verifySyntax _ _ (by decide) i h
          · cases v
            · cases h
            · simp at h; subst h; simp [Item.Known, verifySyntax]
        · intro i hi
          simp only [is, List.mem_append] at hi
          rcases hi with h | h
          · exact nolist _ _ i h
          · cases v
            · cases h
            · simp at h; subst h; simp
        · have : (is.filterMap Item.single).Sublist ["root", "verbose"] := by
            simp only [is, List.filterMap_append]
            exact (single_opt (n := "root")).append (l₂ := ["root"]) (r₂ := ["verbose"]) (by cases v <;> simp [Item.single])
          exact this.nodup (by decide)
        · intro i hi
          simp only [is, List.mem_append] at hi
          rcases hi with h | h
          · exact allowed _ _ hr (by decide) i h
          · cases v
            · cases h
            · simp at h; subst h; trivial
      have hw : words is = [] := by
        simp only [is, words_append, opt_words, List.nil_append]
        cases v <;> rfl
      have := Says.verify (verbose := v) hp (by rw [hw]; rfl) hm (by
        simp only [is, given_append, opt_given, false_or]
        cases v <;> simp [Given])
      rwa [hval] at this
    | info m =>
      have hv : v = false := by
        cases v with
        | false => rfl
        | true => obtain ⟨_, _, h⟩ := hv rfl; cases h
      subst hv
      exact ⟨"info".toList :: ["--".toList, m], .info (is := []) (more := [m]) ⟨.inl rfl, by simp, trivial, by simp, by simp⟩ rfl hc⟩
    | digest i sha512 fmt names =>
      have hv : v = false := by
        cases v with
        | false => rfl
        | true => obtain ⟨_, _, h⟩ := hv rfl; cases h
      subst hv
      obtain ⟨hi, hn⟩ := hc
      let f : Option Arg := match fmt with | .hex => none | .base64 => some "base64".toList
      let is := opt "format" f ++ ((if sha512 then [.switch "sha512"] else []) ++ opts names)
      have hp : Parts digestSyntax (is.flatMap Item.args ++ ['-', '-'] :: [i]) is [i] := by
        refine ⟨.inl rfl, ?_, apart_of ?_, ?_, ?_⟩
        · intro i hi
          simp only [is, List.mem_append] at hi
          rcases hi with h | h | h
          · exact known digestSyntax _ _ (by decide) i h
          · cases sha512
            · cases h
            · simp at h; subst h; simp [Item.Known, digestSyntax]
          · exact oknown digestSyntax _ (by decide) i h
        · intro i hi
          simp only [is, List.mem_append] at hi
          rcases hi with h | h | h
          · exact nolist _ _ i h
          · cases sha512
            · cases h
            · simp at h; subst h; simp
          · exact onolist _ i h
        · have : (is.filterMap Item.single).Sublist ["format", "sha512"] := by
            simp only [is, List.filterMap_append, opts_single, List.append_nil]
            exact (single_opt (n := "format")).append (l₂ := ["format"]) (r₂ := ["sha512"]) (by cases sha512 <;> simp [Item.single])
          exact this.nodup (by decide)
        · intro i hi
          simp only [is, List.mem_append] at hi
          rcases hi with h | h | h
          · cases fmt with
            | hex => cases h
            | base64 => simp only [f, opt, List.mem_singleton] at h; subst h; simp [Item.Allowed, Spec.Allowed]
          · cases sha512
            · cases h
            · simp at h; subst h; trivial
          · exact oallowed _ i h
      have hw : words is = [] := by
        simp only [is, words_append, opt_words, opts_words, List.nil_append, List.append_nil]
        cases sha512 <;> rfl
      have hse : Sections is names := by
        unfold Sections
        simp only [is, sections_append, opt_sections, List.nil_append]
        have : sectionValues (if sha512 then [.switch "sha512"] else []) = [] := by cases sha512 <;> rfl
        rw [this, List.nil_append]
        exact opts_sections hn
      have hval : ∀ n, valueOf n is = if "format" = n then f else none := by
        intro n
        simp only [is, valueOf_append, valueOf_opt, opts_value, Option.or_none]
        cases sha512 <;> simp [valueOf]
      refine ⟨_, .digest hp (by rw [hw]; rfl) hi hse ?_ (by rw [hval]; rfl) ?_ ?_⟩
      · simp only [is, given_append, opt_given, opts_given, false_or, or_false]
        rintro ⟨h1, -⟩
        cases sha512 <;> simp [Given] at h1
      · simp only [is, given_append, opt_given, opts_given, false_or, or_false]
        cases sha512 <;> simp [Given]
      · rw [hval, if_pos rfl]
        cases fmt <;> simp [f]
    | dump i o names =>
      have hv : v = false := by
        cases v with
        | false => rfl
        | true => obtain ⟨_, _, h⟩ := hv rfl; cases h
      subst hv
      obtain ⟨hi, ho, hn⟩ := hc
      let is := opt "dump" (some o) ++ opts names
      have hp : Parts digestSyntax (is.flatMap Item.args ++ ['-', '-'] :: [i]) is [i] := by
        refine ⟨.inl rfl, ?_, apart_of ?_, ?_, ?_⟩
        · intro i hi
          simp only [is, List.mem_append] at hi
          rcases hi with h | h
          · exact known digestSyntax _ _ (by decide) i h
          · exact oknown digestSyntax _ (by decide) i h
        · intro i hi
          simp only [is, List.mem_append] at hi
          rcases hi with h | h
          · exact nolist _ _ i h
          · exact onolist _ i h
        · have : (is.filterMap Item.single).Sublist ["dump"] := by
            simp only [is, List.filterMap_append, opts_single, List.append_nil]
            exact single_opt
          exact this.nodup (by decide)
        · intro i hi
          simp only [is, List.mem_append] at hi
          rcases hi with h | h
          · exact allowed _ _ (by simpa using ho) (by decide) i h
          · exact oallowed _ i h
      have hw : words is = [] := by simp only [is, words_append, opt_words, opts_words, List.append_nil]
      have hse : Sections is names := by
        unfold Sections
        simp only [is, sections_append, opt_sections, List.nil_append]
        exact opts_sections hn
      have hval : valueOf "dump" is = some o := by
        simp only [is, valueOf_append, valueOf_opt, opts_value, Option.or_none, if_true]
      refine ⟨_, .dump hp (by rw [hw]; rfl) hi hse ?_ hval⟩
      simp only [is, given_append, opt_given, opts_given, false_or, or_false]
      simp

theorem says_syntax {cmd : String} {S : Syntax} (hS : syntaxOf cmd = some S) {args : List Arg} {c : Command} {v : Bool}
    (h : Says (cmd.toList :: args) c v) : ∃ is more, Parts S args is more ∧ (words is ++ more).length = S.words := by
  obtain ⟨cmd', S', args', is, more, h1, h2, h3, h4⟩ := says_parts h
  obtain ⟨h5, rfl⟩ := List.cons.inj h2
  rw [String.toList_inj] at h5
  subst h5
  rw [hS] at h1
  cases h1
  exact ⟨is, more, h3, h4⟩

theorem syntax_names {cmd : String} {S : Syntax} (hS : syntaxOf cmd = some S) {n : String} (h : n ∈ S.switches ∨ n ∈ S.values ∨ n ∈ S.lists) :
    '=' ∉ n.toList := by
  rcases syntaxOf_cases hS with ⟨-, rfl⟩ | ⟨-, rfl⟩ | ⟨-, rfl⟩ | ⟨-, rfl⟩
  · exact (signAgrees.names n h).2.1
  · exact (verifyAgrees.names n h).2.1
  · exact (infoAgrees.names n h).2.1
  · exact (digestAgrees.names n h).2.1

/-- A command line with an option that the command does not have, alone or with a value attached, says nothing, unless `--` comes before. -/
theorem C116_unknown_option {cmd : String} {S : Syntax} (hS : syntaxOf cmd = some S) {name : Arg} (hne : name ≠ []) (heq : '=' ∉ name)
    (hn : ∀ s ∈ S.switches ++ S.values ++ S.lists, s.toList ≠ name) {pre post : List Arg} (hpre : "--".toList ∉ pre) {t : Arg}
    (ht : t = '-' :: '-' :: name ∨ ∃ w, t = '-' :: '-' :: (name ++ '=' :: w)) {c : Command} {v : Bool} :
    ¬ Says (cmd.toList :: (pre ++ t :: post)) c v := by
  intro h
  obtain ⟨is, more, hp, -⟩ := says_syntax hS h
  have hopt : ¬ NoOption t := by rcases ht with rfl | ⟨w, rfl⟩ <;> exact dashes_option _
  have hdd : t ≠ ['-', '-'] := by
    rcases ht with rfl | ⟨w, rfl⟩
    · simpa using hne
    · simp
  have hlong : ∃ a, longOf t = some (name, a) := by
    rcases ht with rfl | ⟨w, rfl⟩
    · exact ⟨_, longOf_name heq⟩
    · exact ⟨_, longOf_eq heq⟩
  obtain ⟨a, hlong⟩ := hlong
  obtain ⟨is1, i, is2, r, tail, h1, h0, h2, -⟩ := parts_option hp hopt rfl hpre hdd
  have hk : i.Known S := hp.known i (by simp [h1])
  have no : ∀ n : String, n ∈ S.switches ++ S.values ++ S.lists → ∀ b, longOf t ≠ some (n.toList, b) := by
    intro n hm b hc
    rw [hlong] at hc
    simp only [Option.some.injEq, Prod.mk.injEq] at hc
    exact hn n hm hc.1.symm
  cases i with
  | word w => cases h2; exact hopt hk
  | switch n =>
    cases h2
    exact no n (by simp only [List.mem_append]; exact .inl (.inl hk)) _ (longOf_name (syntax_names hS (.inl hk)))
  | short c n =>
    cases h2
    rcases ht with ht | ⟨w, ht⟩
    · simp only [List.cons.injEq, true_and] at ht
      exact hne ht.2.symm
    · simp at ht
  | value n w =>
    cases h2
    exact no n (by simp only [List.mem_append]; exact .inl (.inr hk.1)) _ (longOf_name (syntax_names hS (.inr (.inl hk.1))))
  | valueAt n w =>
    cases h2
    exact no n (by simp only [List.mem_append]; exact .inl (.inr hk)) _ (longOf_eq (syntax_names hS (.inr (.inl hk))))
  | list n ws =>
    cases h2
    exact no n (by simp only [List.mem_append]; exact .inr hk.1) _ (longOf_name (syntax_names hS (.inr (.inr hk.1))))
  | listAt n w =>
    cases h2
    exact no n (by simp only [List.mem_append]; exact .inr hk) _ (longOf_eq (syntax_names hS (.inr (.inr hk))))

/-- The option `--algorithm` of `docs/signing_guide.md` is refused: such a line signs nothing. -/
theorem C116_no_algorithm {pre post : List Arg} (hpre : "--".toList ∉ pre) {c : Command} {v : Bool} :
    ¬ Says ("sign".toList :: (pre ++ "--algorithm".toList :: post)) c v :=
  C116_unknown_option (name := "algorithm".toList) (S := signSyntax) rfl (by decide) (by decide) (by decide) hpre (.inl rfl)

/-- The value of an option must follow, and may not look like an option itself: it is refused, and not taken as a value. With `=`
every value can be given. -/
theorem C116_value_follows {cmd : String} {S : Syntax} (hS : syntaxOf cmd = some S) {name : String} (hn : name ∈ S.values)
    {pre post : List Arg} (hpre : "--".toList ∉ pre) (hpost : ∀ t rest, post = t :: rest → ¬ NoOption t) {c : Command} {v : Bool} :
    ¬ Says (cmd.toList :: (pre ++ ('-' :: '-' :: name.toList) :: post)) c v := by
  intro h
  obtain ⟨is, more, hp, -⟩ := says_syntax hS h
  have heq := syntax_names hS (.inr (.inl hn))
  have hne : name.toList ≠ [] := by
    rcases syntaxOf_cases hS with ⟨-, rfl⟩ | ⟨-, rfl⟩ | ⟨-, rfl⟩ | ⟨-, rfl⟩
    · exact (signAgrees.names name (.inr (.inl hn))).1
    · exact (verifyAgrees.names name (.inr (.inl hn))).1
    · exact (infoAgrees.names name (.inr (.inl hn))).1
    · exact (digestAgrees.names name (.inr (.inl hn))).1
  have hap : name ∉ S.switches ∧ name ∉ S.lists := by
    rcases syntaxOf_cases hS with ⟨-, rfl⟩ | ⟨-, rfl⟩ | ⟨-, rfl⟩ | ⟨-, rfl⟩
    · exact ⟨signAgrees.apart1 _ hn, fun hl => (signAgrees.apart2 _ hl).2 hn⟩
    · exact ⟨verifyAgrees.apart1 _ hn, fun hl => (verifyAgrees.apart2 _ hl).2 hn⟩
    · exact ⟨infoAgrees.apart1 _ hn, fun hl => (infoAgrees.apart2 _ hl).2 hn⟩
    · exact ⟨digestAgrees.apart1 _ hn, fun hl => (digestAgrees.apart2 _ hl).2 hn⟩
  obtain ⟨is1, i, is2, r, tail, h1, h0, h2, h3, -⟩ := parts_option hp (dashes_option _) rfl hpre (by simpa using hne)
  have hk : i.Known S := hp.known i (by simp [h1])
  have long := longOf_name heq
  have same : ∀ n : String, '-' :: '-' :: n.toList = '-' :: '-' :: name.toList → n = name := by
    intro n hc
    simp only [List.cons.injEq, true_and, String.toList_inj] at hc
    exact hc
  cases i with
  | word w => cases h2; exact dashes_option _ hk
  | switch n =>
    obtain rfl := same n (List.cons.inj h2).1
    exact hap.1 hk
  | short c n =>
    simp only [Item.args, List.cons.injEq, true_and] at h2
    exact hne h2.1.2.symm
  | value n w =>
    rw [← (List.cons.inj h2).2] at h3
    exact hpost w _ h3 hk.2
  | valueAt n w =>
    rw [← (List.cons.inj h2).1, longOf_eq (syntax_names hS (.inr (.inl hk)))] at long
    exact absurd (congrArg Prod.snd (Option.some.inj long)) (by simp)
  | list n ws =>
    obtain rfl := same n (List.cons.inj h2).1
    exact hap.2 hk.1
  | listAt n w =>
    rw [← (List.cons.inj h2).1, longOf_eq (syntax_names hS (.inr (.inr hk)))] at long
    exact absurd (congrArg Prod.snd (Option.some.inj long)) (by simp)

theorem words_args {is : List Item} {w : Arg} (h : w ∈ words is) : w ∈ is.flatMap Item.args := by
  simp only [words, List.mem_filterMap] at h
  obtain ⟨i, hi, he⟩ := h
  rw [List.mem_flatMap]
  refine ⟨i, hi, ?_⟩
  cases i <;> simp at he
  subst he
  simp [Item.args]

theorem swallowed {S : Syntax} {pre vs : List Arg} {is : List Item} {more : List Arg}
    (hp : Parts S (pre ++ "--elf-section".toList :: vs) is more) (hpre : "--".toList ∉ pre) (hvs : ∀ w ∈ vs, NoOption w)
    (hsw : "elf-section" ∉ S.switches ∧ "elf-section" ∉ S.values) (heq : ∀ n, n ∈ S.values ∨ n ∈ S.lists → '=' ∉ n.toList) :
    ∀ w ∈ words is ++ more, w ∈ pre := by
  obtain ⟨is1, i, is2, r, tail, h1, h0, h2, h3, h4⟩ := parts_option hp (x := "--elf-section".toList) (dashes_option _) rfl hpre (by decide)
  have hk : i.Known S := hp.known i (by simp [h1])
  have long : longOf "--elf-section".toList = some ("elf-section".toList, none) := by decide
  have hi : ∃ ws, i = .list "elf-section" ws := by
    have same : ∀ n : String, '-' :: '-' :: n.toList = "--elf-section".toList → n = "elf-section" := by
      intro n hc
      have : n.toList = "elf-section".toList := (List.cons.inj (List.cons.inj hc).2).2
      rwa [String.toList_inj] at this
    cases i with
    | word w => cases h2; exact absurd hk (dashes_option _)
    | switch n =>
      obtain rfl := same n (List.cons.inj h2).1
      exact absurd hk hsw.1
    | short c n => exact absurd (congrArg List.length (List.cons.inj h2).1) (by simp)
    | value n w =>
      obtain rfl := same n (List.cons.inj h2).1
      exact absurd hk.1 hsw.2
    | valueAt n w =>
      rw [← (List.cons.inj h2).1, longOf_eq (heq n (.inl hk))] at long
      exact absurd (congrArg Prod.snd (Option.some.inj long)) (by simp)
    | list n ws =>
      obtain rfl := same n (List.cons.inj h2).1
      exact ⟨ws, rfl⟩
    | listAt n w =>
      rw [← (List.cons.inj h2).1, longOf_eq (heq n (.inr hk))] at long
      exact absurd (congrArg Prod.snd (Option.some.inj long)) (by simp)
  obtain ⟨ws, rfl⟩ := hi
  have htail : tail = [] ∧ more = [] := by
    rcases h4 with h4 | h4
    · exact h4
    · exact absurd (hvs ['-', '-'] (by rw [h3, h4]; simp)) (dashes_option [])
  obtain ⟨rfl, rfl⟩ := htail
  have hap : ∀ l : List Item, Apart (l ++ .list "elf-section" ws :: is2) → Apart (.list "elf-section" ws :: is2) := by
    intro l
    induction l with
    | nil => exact id
    | cons j l ih =>
      intro h
      refine ih ?_
      cases j with
      | list n us =>
        cases l with
        | nil => exact h
        | cons k l =>
          cases k with
          | word u => exact absurd h id
          | _ => exact h
      | _ => exact h
  have hap := hap is1 (h1 ▸ hp.apart)
  have his2 : is2 = [] := by
    cases is2 with
    | nil => rfl
    | cons j is2 =>
      have hkj : j.Known S := hp.known j (by simp [h1])
      have first : ∀ a as, j.args = a :: as → NoOption a := by
        intro a as ha
        exact hvs a (by rw [h3]; simp [ha])
      cases j with
      | word u => exact absurd hap id
      | short c n => exact absurd (first _ _ rfl) (by
          rintro (h | h)
          · cases h
          · simp at h)
      | switch n => exact absurd (first _ _ rfl) (dashes_option _)
      | value n u => exact absurd (first _ _ rfl) (dashes_option _)
      | valueAt n u => exact absurd (first _ _ rfl) (dashes_option _)
      | list n us => exact absurd (first _ _ rfl) (dashes_option _)
      | listAt n u => exact absurd (first _ _ rfl) (dashes_option _)
  subst his2
  intro w hw
  rw [List.append_nil, h1, words_append] at hw
  have hw : w ∈ words is1 := by simpa [words] using hw
  rw [h0]
  exact words_args hw

/-- All arguments behind `--elf-section` are section names, up to the next option: a file name there is not taken as one. If nothing but
such arguments follow, the files are named in front. -/
theorem C116_section_takes_all {pre vs : List Arg} (hpre : "--".toList ∉ pre) (hvs : ∀ w ∈ vs, NoOption w) :
    (∀ i o v2 st names v, Says ("sign".toList :: (pre ++ "--elf-section".toList :: vs)) (.sign i o v2 st names) v → i ∈ pre ∧ o ∈ pre) ∧
    (∀ i h f names v, Says ("digest".toList :: (pre ++ "--elf-section".toList :: vs)) (.digest i h f names) v → i ∈ pre) ∧
    (∀ i o names v, Says ("digest".toList :: (pre ++ "--elf-section".toList :: vs)) (.dump i o names) v → i ∈ pre) := by
  refine ⟨fun i o v2 st names v h => ?_, fun i h f names v hs => ?_, fun i o names v hs => ?_⟩
  · generalize ha : "sign".toList :: (pre ++ "--elf-section".toList :: vs) = argv at h
    cases h with
    | sign hp hw =>
      cases (List.cons.inj ha).2
      have := swallowed hp hpre hvs (by decide) (fun n hn => (signAgrees.names n (.inr hn)).2.1)
      rw [hw] at this
      exact ⟨this _ (by simp), this _ (by simp)⟩
  · generalize ha : "digest".toList :: (pre ++ "--elf-section".toList :: vs) = argv at hs
    cases hs with
    | digest hp hw =>
      cases (List.cons.inj ha).2
      have := swallowed hp hpre hvs (by decide) (fun n hn => (digestAgrees.names n (.inr hn)).2.1)
      rw [hw] at this
      exact this _ (by simp)
  · generalize ha : "digest".toList :: (pre ++ "--elf-section".toList :: vs) = argv at hs
    cases hs with
    | dump hp hw =>
      cases (List.cons.inj ha).2
      have := swallowed hp hpre hvs (by decide) (fun n hn => (digestAgrees.names n (.inr hn)).2.1)
      rw [hw] at this
      exact this _ (by simp)

/-- The lines of the README, and lines with options in all forms. -/
example : Says (["verify", "module.zip"].map String.toList) (.verify "module.zip".toList none) false ∧
    Says (["verify", "module.zip", "-v"].map String.toList) (.verify "module.zip".toList none) true ∧
    Says (["verify", "module.zip", "--root", "my_root.pem"].map String.toList) (.verify "module.zip".toList (some "my_root.pem".toList)) false ∧
    Says (["info", "module.zip"].map String.toList) (.info "module.zip".toList) false ∧
    Says (["digest", "a.so", "--elf-section", ".text,.data", ".bss", "--sha512", "--format=base64"].map String.toList)
      (.digest "a.so".toList true .base64 [".text".toList, ".data".toList, ".bss".toList]) false ∧
    Says (["sign", "--p12=k.p12", "--password=--x", "--elf-section", ".text", "--", "a", "-b"].map String.toList)
      (.sign "a".toList "-b".toList ⟨none, none, some "k.p12".toList, some (utf8 "--x".toList)⟩ ⟨none, none, none, none⟩ [".text".toList]) false := by
  simp only [← C116_run]
  decide +kernel

/-- Lines that ask for help, and lines that say nothing. -/
example : Asks (["verify", "-vh"].map String.toList) ∧ Asks (["help", "sign"].map String.toList) ∧ Asks ["--version".toList] ∧
    ¬ Asks [] ∧ (∀ c v, ¬ Says [] c v) ∧
    (∀ c v, ¬ Says (["digest", "--elf-section", ".text", "a.so"].map String.toList) c v) ∧
    (∀ c v, ¬ Says (["digest", "--sha256", "--sha512", "a.so"].map String.toList) c v) ∧
    (∀ c v, ¬ Says (["sign", "a", "b", "--password", "-x"].map String.toList) c v) ∧
    (∀ c v, ¬ Says (["sign", "a", "b", "--key", "k", "--cert", "c", "--algorithm", "ecdsa384"].map String.toList) c v) := by
  have no : ∀ argv, parseArgs argv = .usage → ∀ c v, ¬ Says argv c v := by
    intro argv h c v hs
    rw [← C116_run, h] at hs
    cases hs
  refine ⟨C116_help.mp (by decide +kernel), C116_help.mp (by decide +kernel), C116_help.mp (by decide +kernel),
    fun h => by rw [← C116_help] at h; exact absurd h (by decide +kernel), no _ (by decide +kernel), no _ (by decide +kernel),
    no _ (by decide +kernel), no _ (by decide +kernel), no _ (by decide +kernel)⟩

/-- Commands that can and cannot be given. -/
example : Sayable (.sign "a".toList "b".toList ⟨some "k".toList, none, none, none⟩ ⟨none, none, none, some (utf8 "pw".toList)⟩ [[], ".text".toList]) ∧
    ¬ Sayable (.digest "a".toList true .hex ["a,b".toList]) ∧ ¬ Sayable (.info []) := by
  refine ⟨⟨by decide, by decide, ⟨by decide, by decide, by decide, nofun⟩, ⟨by decide, by decide, by decide, ?_⟩, by decide⟩, ?_, ?_⟩
  · intro p h; cases h; exact ⟨_, rfl⟩
  · rintro ⟨-, h⟩; exact absurd (h "a,b".toList (by simp)) (by decide)
  · intro h; exact h rfl

end Ksusig.Props
