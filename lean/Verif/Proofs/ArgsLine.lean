import Verif.Proofs.ArgsFeed

/-!
# Reading command lines: whole lines
-/

namespace Ksusig

open Spec

theorem scan_parts {d : CmdDef} {S : Syntax} (A : Agrees d S) {args : List Arg} {s : Scan} :
    scan d ⟨[], []⟩ .any args = .done s ↔ ∃ is more, Parts S args is more ∧ s = ⟨is.filterMap gives, Spec.words is ++ more⟩ ∧
      (∀ v ∈ Spec.words is ++ more, v ≠ []) ∧ (Spec.words is ++ more).length ≤ S.words := by
  rw [scan_done A]
  constructor
  · rintro ⟨is, more, s1, hw, hk, ha, hf, hd⟩
    obtain ⟨rfl, h2, -, h4, h5, h6⟩ := (feedAll_some A hk).mp hf
    obtain ⟨rfl, h8, h9⟩ := scanWords_done.mp hd
    refine ⟨is, more, ⟨hw, hk, ha, h2, h4⟩, by simp, ?_, ?_⟩
    · intro v hv
      rcases List.mem_append.mp hv with hv | hv
      · exact h5 v hv
      · exact h8 v hv
    · rw [← A.words]
      simp only [List.nil_append, List.length_nil, Nat.zero_add, List.length_append] at h6 h9 ⊢
      rcases h9 with rfl | h9
      · rcases h6 with h6 | h6
        · simp [h6]
        · simpa using h6
      · exact h9
  · rintro ⟨is, more, ⟨hw, hk, ha, h2, h4⟩, rfl, h5, h6⟩
    rw [← A.words, List.length_append] at h6
    refine ⟨is, more, _, hw, hk, ha, (feedAll_some A hk).mpr ⟨rfl, h2, by simp, h4, fun v hv => h5 v (by simp [hv]), .inr ?_⟩,
      scanWords_done.mpr ⟨by simp, fun v hv => h5 v (by simp [hv]), .inr ?_⟩⟩
    · simp only [List.length_nil, Nat.zero_add]; omega
    · simpa using h6

theorem scan_asks {d : CmdDef} {S : Syntax} (A : Agrees d S) {args : List Arg} :
    scan d ⟨[], []⟩ .any args = .help ↔ AsksHelp S args := by
  have hh : ∀ is : List Item, (∀ i ∈ is, i.Known S) → ∀ n, n ∈ S.switches →
      ((is.filterMap gives).any (·.1 == n.toList) = false ↔ some n ∉ is.map Item.single) := by
    intro is hk n hn
    rw [List.any_eq_false]
    simp only [List.mem_map, List.mem_filterMap, beq_iff_eq]
    constructor
    · rintro h ⟨i, hi, he⟩
      cases i <;> simp only [Item.single, Option.some.injEq, reduceCtorEq] at he <;> subst he <;> exact h _ ⟨_, hi, rfl⟩ rfl
    · rintro h e ⟨i, hi, he⟩ hc
      have hki := hk i hi
      refine h ⟨i, hi, ?_⟩
      cases i <;> simp only [gives, Option.some.injEq, reduceCtorEq] at he <;> subst he <;> dsimp only at hc <;>
        rw [String.toList_inj] at hc <;> subst hc
      · rfl
      · rfl
      · rfl
      · rfl
      · exact absurd hn (A.apart2 _ hki.1).1
      · exact absurd hn (A.apart2 _ hki).1
  rw [scan_help A]
  constructor
  · rintro ⟨is, t, rest, s1, hw, hk, ha, hf, ht⟩
    obtain ⟨rfl, h2, -, h4, h5, h6⟩ := (feedAll_some A hk).mp hf
    refine ⟨is, t, rest, hw, hk, ha, h2, h4, ?_, h5, ?_⟩
    · rw [← A.words]
      rcases h6 with h6 | h6
      · simp [h6]
      · simpa using h6
    · rcases ht with h | h | ⟨c, n, r, h1, h2, h3⟩
      · exact .inl h
      · exact .inr (.inl h)
      · exact .inr (.inr ⟨c, n, r, h1, (hh is hk n (A.shortOk _ _ h1).2.2).mp (by simpa using h2), h3⟩)
  · rintro ⟨is, t, rest, hw, hk, ha, h2, h4, h6, h5, ht⟩
    refine ⟨is, t, rest, _, hw, hk, ha, (feedAll_some A hk).mpr ⟨rfl, h2, by simp, h4, h5, .inr (by simpa [A.words] using h6)⟩, ?_⟩
    rcases ht with h | h | ⟨c, n, r, h1, h2, h3⟩
    · exact .inl h
    · exact .inr (.inl h)
    · exact .inr (.inr ⟨c, n, r, h1, by simpa using (hh is hk n (A.shortOk _ _ h1).2.2).mpr h2, h3⟩)

theorem signArgs_not {s : Scan} : signArgs s ≠ .help := by unfold signArgs; split <;> simp
theorem verifyArgs_not {s : Scan} : verifyArgs s ≠ .help := by unfold verifyArgs; split <;> simp
theorem infoArgs_not {s : Scan} : infoArgs s ≠ .help := by unfold infoArgs; split <;> simp
theorem digestArgs_not {s : Scan} : digestArgs s ≠ .help := by
  unfold digestArgs
  split
  · split
    · simp
    · split <;> simp
  · simp

theorem subcommand_help {d : CmdDef} {S : Syntax} (A : Agrees d S) {line : Scan → Line} (hl : ∀ s, line s ≠ .help) {args : List Arg} :
    subcommand d line args = .help ↔ AsksHelp S args := by
  rw [← scan_asks A]
  unfold subcommand
  cases scan d ⟨[], []⟩ .any args with
  | usage => simp
  | help => simp
  | done s => simp [hl]

theorem subcommand_run {d : CmdDef} {S : Syntax} (A : Agrees d S) {line : Scan → Line} {args : List Arg} {c : Command} {v : Bool} :
    subcommand d line args = .run c v ↔ ∃ is more, Parts S args is more ∧
      (∀ v ∈ Spec.words is ++ more, v ≠ []) ∧ (Spec.words is ++ more).length ≤ S.words ∧
      line ⟨is.filterMap gives, Spec.words is ++ more⟩ = .run c v := by
  have h := @scan_parts d S A args
  unfold subcommand
  cases hs : scan d ⟨[], []⟩ .any args with
  | usage =>
    rw [hs] at h
    simp only [reduceCtorEq, false_iff]
    rintro ⟨is, more, h1, h2, h3, h4⟩
    cases (h (s := _)).mpr ⟨is, more, h1, rfl, h2, h3⟩
  | help =>
    rw [hs] at h
    simp only [reduceCtorEq, false_iff]
    rintro ⟨is, more, h1, h2, h3, h4⟩
    cases (h (s := _)).mpr ⟨is, more, h1, rfl, h2, h3⟩
  | done s =>
    rw [hs] at h
    dsimp only
    constructor
    · intro hl
      obtain ⟨is, more, h1, h2, h3, h4⟩ := h.mp rfl
      exact ⟨is, more, h1, h3, h4, h2 ▸ hl⟩
    · rintro ⟨is, more, h1, h2, h3, h4⟩
      cases h.mpr ⟨is, more, h1, rfl, h2, h3⟩
      exact h4

theorem line_sign {args : List Arg} {c : Command} {v : Bool} :
    subcommand signDef signArgs args = .run c v ↔ Says ("sign".toList :: args) c v := by
  rw [subcommand_run signAgrees]
  constructor
  · rintro ⟨is, more, hp, hne, hlen, hl⟩
    have val : ∀ n, n ∈ signSyntax.values → Scan.one ⟨is.filterMap gives, Spec.words is ++ more⟩ n = valueOf n is :=
      fun n hn => one_valueOf signAgrees hn hp.known
    unfold signArgs at hl
    dsimp only at hl
    split at hl
    · rename_i i o hio
      cases hl
      rw [val _ (by decide), val _ (by decide), val _ (by decide), val _ (by decide), val _ (by decide), val _ (by decide), val _ (by decide),
        val _ (by decide)]
      exact .sign hp hio (hne i (by simp [hio])) (hne o (by simp [hio])) ((many_sections signAgrees (by decide) hp.known).mpr rfl)
    · cases hl
  · intro h
    generalize ha : "sign".toList :: args = argv at h
    cases h with
    | @sign args' is more i o names hp hio hi ho hs =>
      cases (List.cons.inj ha).2
      have val : ∀ n, n ∈ signSyntax.values → Scan.one ⟨is.filterMap gives, Spec.words is ++ more⟩ n = valueOf n is :=
        fun n hn => one_valueOf signAgrees hn hp.known
      refine ⟨is, more, hp, ?_, ?_, ?_⟩
      · rw [hio]; simp [hi, ho]
      · rw [hio]; exact Nat.le_refl _
      · have hs := (many_sections signAgrees (by decide) hp.known (ws := Spec.words is ++ more)).mp hs
        unfold signArgs
        dsimp only
        rw [val _ (by decide), val _ (by decide), val _ (by decide), val _ (by decide), val _ (by decide), val _ (by decide),
          val _ (by decide), val _ (by decide), ← hs, hio]
    | verify => exact absurd (List.cons.inj ha).1 (by decide)
    | info => exact absurd (List.cons.inj ha).1 (by decide)
    | digest => exact absurd (List.cons.inj ha).1 (by decide)
    | dump => exact absurd (List.cons.inj ha).1 (by decide)

theorem line_verify {args : List Arg} {c : Command} {v : Bool} :
    subcommand verifyDef verifyArgs args = .run c v ↔ Says ("verify".toList :: args) c v := by
  rw [subcommand_run verifyAgrees]
  constructor
  · rintro ⟨is, more, hp, hne, hlen, hl⟩
    unfold verifyArgs at hl
    dsimp only at hl
    split at hl
    · rename_i m hio
      cases hl
      rw [one_valueOf verifyAgrees (by decide) hp.known]
      exact .verify hp hio (hne m (by simp [hio])) (has_given verifyAgrees (by decide) hp.known)
    · cases hl
  · intro h
    generalize ha : "verify".toList :: args = argv at h
    cases h with
    | @verify args' is more m verbose hp hio hi hv =>
      cases (List.cons.inj ha).2
      refine ⟨is, more, hp, ?_, ?_, ?_⟩
      · rw [hio]; simp [hi]
      · rw [hio]; exact Nat.le_refl _
      · have : Scan.has ⟨is.filterMap gives, Spec.words is ++ more⟩ "verbose" = v := by
          rw [Bool.eq_iff_iff, hv]
          exact has_given verifyAgrees (by decide) hp.known
        unfold verifyArgs
        dsimp only
        rw [this, one_valueOf verifyAgrees (by decide) hp.known, hio]
    | sign => exact absurd (List.cons.inj ha).1 (by decide)
    | info => exact absurd (List.cons.inj ha).1 (by decide)
    | digest => exact absurd (List.cons.inj ha).1 (by decide)
    | dump => exact absurd (List.cons.inj ha).1 (by decide)

theorem line_info {args : List Arg} {c : Command} {v : Bool} :
    subcommand infoDef infoArgs args = .run c v ↔ Says ("info".toList :: args) c v := by
  rw [subcommand_run infoAgrees]
  constructor
  · rintro ⟨is, more, hp, hne, hlen, hl⟩
    unfold infoArgs at hl
    dsimp only at hl
    split at hl
    · rename_i m hio
      cases hl
      exact .info hp hio (hne m (by simp [hio]))
    · cases hl
  · intro h
    generalize ha : "info".toList :: args = argv at h
    cases h with
    | @info args' is more m hp hio hi =>
      cases (List.cons.inj ha).2
      refine ⟨is, more, hp, ?_, ?_, ?_⟩
      · rw [hio]; simp [hi]
      · rw [hio]; exact Nat.le_refl _
      · unfold infoArgs
        dsimp only
        rw [hio]
    | sign => exact absurd (List.cons.inj ha).1 (by decide)
    | verify => exact absurd (List.cons.inj ha).1 (by decide)
    | digest => exact absurd (List.cons.inj ha).1 (by decide)
    | dump => exact absurd (List.cons.inj ha).1 (by decide)

theorem line_digest {args : List Arg} {c : Command} {v : Bool} :
    subcommand digestDef digestArgs args = .run c v ↔ Says ("digest".toList :: args) c v := by
  rw [subcommand_run digestAgrees]
  constructor
  · rintro ⟨is, more, hp, hne, hlen, hl⟩
    have g1 := has_given digestAgrees (n := "sha256") (by decide) hp.known (ws := Spec.words is ++ more)
    have g2 := has_given digestAgrees (n := "sha512") (by decide) hp.known (ws := Spec.words is ++ more)
    have v1 := one_valueOf digestAgrees (n := "dump") (by decide) hp.known (ws := Spec.words is ++ more)
    have v2 := one_valueOf digestAgrees (n := "format") (by decide) hp.known (ws := Spec.words is ++ more)
    unfold digestArgs at hl
    dsimp only at hl
    split at hl
    · rename_i m hio
      split at hl
      · cases hl
      · rename_i hboth
        rw [Bool.and_eq_true, g1, g2] at hboth
        split at hl
        · rename_i o ho
          cases hl
          exact .dump hp hio (hne m (by simp [hio])) ((many_sections digestAgrees (by decide) hp.known).mpr rfl) hboth (v1 ▸ ho)
        · rename_i ho
          cases hl
          refine .digest hp hio (hne m (by simp [hio])) ((many_sections digestAgrees (by decide) hp.known).mpr rfl) hboth (v1 ▸ ho) g2 ?_
          rw [v2]
          split
          · exact ⟨fun _ => by assumption, fun _ => rfl⟩
          · exact ⟨nofun, fun h => absurd h (by assumption)⟩
    · cases hl
  · intro h
    generalize ha : "digest".toList :: args = argv at h
    cases h with
    | @digest args' is more m names sha512 format hp hio hi hs hboth hd h5 hf =>
      cases (List.cons.inj ha).2
      have g1 := has_given digestAgrees (n := "sha256") (by decide) hp.known (ws := Spec.words is ++ more)
      have g2 := has_given digestAgrees (n := "sha512") (by decide) hp.known (ws := Spec.words is ++ more)
      have v1 := one_valueOf digestAgrees (n := "dump") (by decide) hp.known (ws := Spec.words is ++ more)
      have v2 := one_valueOf digestAgrees (n := "format") (by decide) hp.known (ws := Spec.words is ++ more)
      refine ⟨is, more, hp, ?_, ?_, ?_⟩
      · rw [hio]; simp [hi]
      · rw [hio]; exact Nat.le_refl _
      · have hs := (many_sections digestAgrees (by decide) hp.known (ws := Spec.words is ++ more)).mp hs
        have e5 : Scan.has ⟨is.filterMap gives, Spec.words is ++ more⟩ "sha512" = sha512 := by
          rw [Bool.eq_iff_iff, g2, h5]
        unfold digestArgs
        rw [← g1, ← g2, ← Bool.and_eq_true] at hboth
        dsimp only
        rw [e5, v2, v1, hd, ← hs]
        rw [e5] at hboth
        generalize Spec.words is ++ more = w at hboth hio ⊢
        subst hio
        dsimp only
        rw [if_neg hboth]
        congr 2
        cases format with
        | hex => rw [if_neg (fun h => by cases hf.mpr h)]
        | base64 => rw [if_pos (hf.mp rfl)]
    | @dump args' is more m names o hp hio hi hs hboth hd =>
      cases (List.cons.inj ha).2
      have g1 := has_given digestAgrees (n := "sha256") (by decide) hp.known (ws := Spec.words is ++ more)
      have g2 := has_given digestAgrees (n := "sha512") (by decide) hp.known (ws := Spec.words is ++ more)
      have v1 := one_valueOf digestAgrees (n := "dump") (by decide) hp.known (ws := Spec.words is ++ more)
      refine ⟨is, more, hp, ?_, ?_, ?_⟩
      · rw [hio]; simp [hi]
      · rw [hio]; exact Nat.le_refl _
      · have hs := (many_sections digestAgrees (by decide) hp.known (ws := Spec.words is ++ more)).mp hs
        unfold digestArgs
        rw [← g1, ← g2, ← Bool.and_eq_true] at hboth
        dsimp only
        rw [v1, hd, ← hs]
        generalize Spec.words is ++ more = w at hboth hio ⊢
        subst hio
        dsimp only
        rw [if_neg hboth]
    | sign => exact absurd (List.cons.inj ha).1 (by decide)
    | verify => exact absurd (List.cons.inj ha).1 (by decide)
    | info => exact absurd (List.cons.inj ha).1 (by decide)

theorem says_first {argv : List Arg} {c : Command} {v : Bool} (h : Says argv c v) :
    ∃ args, argv = "sign".toList :: args ∨ argv = "verify".toList :: args ∨ argv = "info".toList :: args ∨ argv = "digest".toList :: args := by
  cases h with
  | sign => exact ⟨_, .inl rfl⟩
  | verify => exact ⟨_, .inr (.inl rfl)⟩
  | info => exact ⟨_, .inr (.inr (.inl rfl))⟩
  | digest => exact ⟨_, .inr (.inr (.inr rfl))⟩
  | dump => exact ⟨_, .inr (.inr (.inr rfl))⟩

theorem parseArgs_run {argv : List Arg} {c : Command} {v : Bool} : parseArgs argv = .run c v ↔ Says argv c v := by
  cases argv with
  | nil =>
    simp only [parseArgs, reduceCtorEq, false_iff]
    intro h
    obtain ⟨_, h | h | h | h⟩ := says_first h <;> cases h
  | cons t ts =>
    unfold parseArgs
    dsimp only
    by_cases h1 : t = "sign".toList
    · rw [if_pos h1, h1]; exact line_sign
    by_cases h2 : t = "verify".toList
    · rw [if_neg h1, if_pos h2, h2]; exact line_verify
    by_cases h3 : t = "info".toList
    · rw [if_neg h1, if_neg h2, if_pos h3, h3]; exact line_info
    by_cases h4 : t = "digest".toList
    · rw [if_neg h1, if_neg h2, if_neg h3, if_pos h4, h4]; exact line_digest
    rw [if_neg h1, if_neg h2, if_neg h3, if_neg h4]
    constructor
    · intro h
      exfalso
      repeat' split at h
      all_goals cases h
    · intro h
      exfalso
      obtain ⟨_, h | h | h | h⟩ := says_first h <;> have h := (List.cons.inj h).1
      · exact h1 h
      · exact h2 h
      · exact h3 h
      · exact h4 h

theorem parseArgs_help {argv : List Arg} : parseArgs argv = .help ↔ Asks argv := by
  cases argv with
  | nil =>
    simp only [parseArgs, reduceCtorEq, false_iff]
    intro h
    cases h
  | cons t ts =>
    unfold parseArgs
    dsimp only
    by_cases h1 : t = "sign".toList
    · subst h1
      rw [if_pos rfl, subcommand_help signAgrees fun _ => signArgs_not]
      constructor
      · exact .sign
      · intro h
        generalize ha : "sign".toList :: ts = argv at h
        cases h with
        | sign h => cases (List.cons.inj ha).2; exact h
        | _ => first | exact absurd (List.cons.inj ha).1 (by decide) | cases (List.cons.inj ha).1
    by_cases h2 : t = "verify".toList
    · subst h2
      rw [if_neg h1, if_pos rfl, subcommand_help verifyAgrees fun _ => verifyArgs_not]
      constructor
      · exact .verify
      · intro h
        generalize ha : "verify".toList :: ts = argv at h
        cases h with
        | verify h => cases (List.cons.inj ha).2; exact h
        | _ => first | exact absurd (List.cons.inj ha).1 (by decide) | cases (List.cons.inj ha).1
    by_cases h3 : t = "info".toList
    · subst h3
      rw [if_neg h1, if_neg h2, if_pos rfl, subcommand_help infoAgrees fun _ => infoArgs_not]
      constructor
      · exact .info
      · intro h
        generalize ha : "info".toList :: ts = argv at h
        cases h with
        | info h => cases (List.cons.inj ha).2; exact h
        | _ => first | exact absurd (List.cons.inj ha).1 (by decide) | cases (List.cons.inj ha).1
    by_cases h4 : t = "digest".toList
    · subst h4
      rw [if_neg h1, if_neg h2, if_neg h3, if_pos rfl, subcommand_help digestAgrees fun _ => digestArgs_not]
      constructor
      · exact .digest
      · intro h
        generalize ha : "digest".toList :: ts = argv at h
        cases h with
        | digest h => cases (List.cons.inj ha).2; exact h
        | _ => first | exact absurd (List.cons.inj ha).1 (by decide) | cases (List.cons.inj ha).1
    rw [if_neg h1, if_neg h2, if_neg h3, if_neg h4]
    constructor
    · intro h
      split at h
      · rename_i ht
        subst ht
        split at h
        · exact .help
        · rename_i n
          split at h
          · rename_i hn
            simp only [subcommands, List.mem_cons, List.not_mem_nil, or_false] at hn
            rcases hn with rfl | rfl | rfl | rfl | rfl
            · exact Asks.helpOn (n := "help") (by decide)
            · exact Asks.helpOn (n := "sign") (by decide)
            · exact Asks.helpOn (n := "verify") (by decide)
            · exact Asks.helpOn (n := "info") (by decide)
            · exact Asks.helpOn (n := "digest") (by decide)
          · cases h
        · cases h
      · split at h
        · rename_i ht
          rcases ht with rfl | rfl
          · exact .long
          · exact .version
        · split at h
          · rename_i c cs hc
            split at h
            · rename_i hcc
              have ht : t = '-' :: c :: cs := by
                unfold shortsOf at hc
                split at hc
                · split at hc
                  · cases hc
                  · cases hc; rfl
                · cases hc
              subst ht
              rcases hcc with rfl | rfl
              · exact .short
              · exact .shortVersion
            · cases h
          · cases h
    · intro h
      generalize ha : t :: ts = argv at h
      cases h with
      | sign => exact absurd (List.cons.inj ha).1 h1
      | verify => exact absurd (List.cons.inj ha).1 h2
      | info => exact absurd (List.cons.inj ha).1 h3
      | digest => exact absurd (List.cons.inj ha).1 h4
      | long => cases ha; rfl
      | version => cases ha; rfl
      | short => cases ha; rfl
      | shortVersion => cases ha; rfl
      | help => cases ha; rfl
      | helpOn hn =>
        cases ha
        simp only [List.mem_cons, List.not_mem_nil, or_false] at hn
        rcases hn with rfl | rfl | rfl | rfl | rfl <;> decide

end Ksusig
