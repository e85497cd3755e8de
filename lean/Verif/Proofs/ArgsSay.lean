import Verif.Proofs.ArgsLine

/-!
# Reading command lines: where options start, and how commands are spelled
-/

namespace Ksusig

open Spec

theorem dashes_option (r : Arg) : ¬ NoOption ('-' :: '-' :: r) := by simp [NoOption]

theorem past_values {x : Arg} (hx : ¬ NoOption x) {rest post : List Arg} : ∀ {as pre : List Arg}, (∀ v ∈ as, NoOption v) →
    as ++ rest = pre ++ x :: post → ∃ pre', pre = as ++ pre' ∧ rest = pre' ++ x :: post := by
  intro as
  induction as with
  | nil => intro pre _ he; exact ⟨pre, rfl, he⟩
  | cons b as ih =>
    intro pre hno he
    cases pre with
    | nil =>
      simp only [List.cons_append, List.nil_append] at he
      exact absurd ((List.cons.inj he).1 ▸ hno b (by simp)) hx
    | cons q pre =>
      simp only [List.cons_append] at he
      obtain ⟨rfl, he2⟩ := List.cons.inj he
      obtain ⟨pre', rfl, h2⟩ := ih (fun v hv => hno v (by simp [hv])) he2
      exact ⟨pre', rfl, h2⟩

/-- An argument that looks like an option is the first of a part. -/
theorem option_starts {S : Syntax} {x : Arg} (hx : ¬ NoOption x) {tail : List Arg} {pre post : List Arg} :
    ∀ {is : List Item}, (∀ i ∈ is, i.Known S) → is.flatMap Item.args ++ tail = pre ++ x :: post →
    (tail = [] ∨ ∃ more, tail = ['-', '-'] :: more ∧ ['-', '-'] ∉ pre ∧ x ≠ ['-', '-']) →
    ∃ is1 i is2 r, is = is1 ++ i :: is2 ∧ pre = is1.flatMap Item.args ∧ i.args = x :: r ∧ post = r ++ (is2.flatMap Item.args ++ tail) := by
  intro is
  induction is generalizing pre with
  | nil =>
    intro _ he ht
    simp only [List.flatMap_nil, List.nil_append] at he
    subst he
    rcases ht with ht | ⟨more, ht, h1, h2⟩
    · simp at ht
    · cases pre with
      | nil => exact absurd (List.cons.inj ht).1 h2
      | cons p pre => exact absurd (by simp [(List.cons.inj ht).1]) h1
  | cons i is ih =>
    intro hk he ht
    have ih := fun {pre} => ih (pre := pre) fun j hj => hk j (by simp [hj])
    have hki := hk i (by simp)
    have go : ∀ {a : Arg} {as : List Arg}, i.args = a :: as → (∀ v ∈ as, NoOption v) →
        ∃ is1 i' is2 r, i :: is = is1 ++ i' :: is2 ∧ pre = is1.flatMap Item.args ∧ i'.args = x :: r ∧ post = r ++ (is2.flatMap Item.args ++ tail) := by
      intro a as ha hno
      rw [List.flatMap_cons, ha] at he
      cases pre with
      | nil =>
        simp only [List.cons_append, List.nil_append, List.append_assoc] at he
        obtain ⟨rfl, rfl⟩ := List.cons.inj he
        exact ⟨[], i, is, as, rfl, rfl, ha, rfl⟩
      | cons p pre =>
        simp only [List.cons_append, List.append_assoc] at he
        obtain ⟨rfl, he2⟩ := List.cons.inj he
        obtain ⟨pre', rfl, h2⟩ := past_values hx hno he2
        obtain ⟨is1, i', is2, r, rfl, h3, h4, h5⟩ := ih h2 (by
          rcases ht with ht | ⟨more, ht, h1, h2⟩
          · exact .inl ht
          · exact .inr ⟨more, ht, fun hm => h1 (by simp [hm]), h2⟩)
        exact ⟨i :: is1, i', is2, r, rfl, by rw [List.flatMap_cons, ha, ← h3]; rfl, h4, h5⟩
    cases i with
    | word v => exact go rfl (by simp)
    | switch n => exact go rfl (by simp)
    | short c n => exact go rfl (by simp)
    | value n v => exact go rfl (by simpa using hki.2)
    | valueAt n v => exact go rfl (by simp)
    | list n vs => exact go rfl hki.2
    | listAt n v => exact go rfl (by simp)

/-- What every line that says something is made of. -/
theorem says_parts {argv : List Arg} {c : Command} {v : Bool} (h : Says argv c v) :
    ∃ cmd S args is more, syntaxOf cmd = some S ∧ argv = cmd.toList :: args ∧ Parts S args is more ∧
      (words is ++ more).length = S.words := by
  cases h with
  | sign hp hw => exact ⟨"sign", _, _, _, _, rfl, rfl, hp, by rw [hw]; rfl⟩
  | verify hp hw => exact ⟨"verify", _, _, _, _, rfl, rfl, hp, by rw [hw]; rfl⟩
  | info hp hw => exact ⟨"info", _, _, _, _, rfl, rfl, hp, by rw [hw]; rfl⟩
  | digest hp hw => exact ⟨"digest", _, _, _, _, rfl, rfl, hp, by rw [hw]; rfl⟩
  | dump hp hw => exact ⟨"digest", _, _, _, _, rfl, rfl, hp, by rw [hw]; rfl⟩

theorem syntaxOf_cases {cmd : String} {S : Syntax} (h : syntaxOf cmd = some S) :
    (cmd = "sign" ∧ S = signSyntax) ∨ (cmd = "verify" ∧ S = verifySyntax) ∨ (cmd = "info" ∧ S = infoSyntax) ∨
      (cmd = "digest" ∧ S = digestSyntax) := by
  unfold syntaxOf at h
  simp only [List.lookup_cons] at h
  split at h
  · rename_i hc; cases h; exact .inl ⟨by simpa using hc, rfl⟩
  · split at h
    · rename_i hc; cases h; exact .inr (.inl ⟨by simpa using hc, rfl⟩)
    · split at h
      · rename_i hc; cases h; exact .inr (.inr (.inl ⟨by simpa using hc, rfl⟩))
      · split at h
        · rename_i hc; cases h; exact .inr (.inr (.inr ⟨by simpa using hc, rfl⟩))
        · cases h

/-- A part that starts with this argument. -/
theorem parts_option {S : Syntax} {args : List Arg} {is : List Item} {more : List Arg} (hp : Parts S args is more) {pre post : List Arg} {x : Arg}
    (hx : ¬ NoOption x) (he : args = pre ++ x :: post) (hpre : ['-', '-'] ∉ pre) (hne : x ≠ ['-', '-']) :
    ∃ is1 i is2 r tail, is = is1 ++ i :: is2 ∧ pre = is1.flatMap Item.args ∧ i.args = x :: r ∧ post = r ++ (is2.flatMap Item.args ++ tail) ∧
      ((tail = [] ∧ more = []) ∨ tail = ['-', '-'] :: more) := by
  rcases hp.written with h | ⟨hm, h⟩
  · obtain ⟨is1, i, is2, r, h1, h0, h2, h3⟩ := option_starts hx hp.known (h.symm.trans he) (.inr ⟨more, rfl, hpre, hne⟩)
    exact ⟨is1, i, is2, r, _, h1, h0, h2, h3, .inr rfl⟩
  · obtain ⟨is1, i, is2, r, h1, h0, h2, h3⟩ := option_starts (tail := []) hx hp.known (by simpa using h.symm.trans he) (.inl rfl)
    exact ⟨is1, i, is2, r, _, h1, h0, h2, h3, .inl ⟨rfl, hm⟩⟩

/-! ## Spelling a command -/

/-- Options for what may be given, with attached values. -/
def opt (n : String) : Option Arg → List Item
  | none => []
  | some v => [.valueAt n v]

theorem valueOf_append {n : String} {a b : List Item} : valueOf n (a ++ b) = (valueOf n a).or (valueOf n b) := by
  simp only [valueOf, List.findSome?_append]

theorem valueOf_opt {n m : String} {v : Option Arg} : valueOf n (opt m v) = if m = n then v else none := by
  cases v with
  | none => simp [opt, valueOf]
  | some v =>
    by_cases h : m = n
    · simp [opt, valueOf, h]
    · simp [opt, valueOf, h]

theorem single_opt {n : String} {v : Option Arg} : ((opt n v).filterMap Item.single).Sublist [n] := by
  cases v <;> simp [opt, Item.single]

theorem apart_of {is : List Item} (h : ∀ i ∈ is, ∀ n vs, i ≠ .list n vs) : Apart is := by
  induction is with
  | nil => trivial
  | cons i is ih =>
    have ih := ih fun j hj => h j (by simp [hj])
    cases i with
    | list n vs => exact absurd rfl (h _ (by simp) n vs)
    | _ => exact ih

theorem valueOf_mem {n : String} {is : List Item} {p : Arg} (h : valueOf n is = some p) : .value n p ∈ is ∨ .valueAt n p ∈ is := by
  unfold valueOf at h
  obtain ⟨i, hi, he⟩ := List.exists_of_findSome?_eq_some h
  cases i <;> simp only [reduceCtorEq, ite_eq_left_iff, Option.ite_none_right_eq_some, Option.some.injEq] at he
  · obtain ⟨rfl, rfl⟩ := he; exact .inl hi
  · obtain ⟨rfl, rfl⟩ := he; exact .inr hi

theorem valueOf_allowed {S : Syntax} {args : List Arg} {is : List Item} {more : List Arg} (hp : Parts S args is more) {n : String} {p : Arg}
    (h : valueOf n is = some p) : Spec.Allowed n p := by
  rcases valueOf_mem h with h | h
  · exact hp.allowed _ h
  · exact hp.allowed _ h

theorem atCommas_none {vs names : List Arg} (h : AtCommas vs names) : ∀ n ∈ names, ',' ∉ n := by
  induction h with
  | nil => simp
  | cons hc _ ih =>
    intro n hn
    rcases List.mem_append.mp hn with hn | hn
    · exact hc.2.1 n hn
    · exact ih n hn

/-- The section names, one by one. -/
def opts (names : List Arg) : List Item := names.map (.listAt "elf-section")

theorem opts_value {n : String} {names : List Arg} : valueOf n (opts names) = none := by
  simp only [valueOf, opts, List.findSome?_eq_none_iff, List.mem_map]
  rintro _ ⟨_, _, rfl⟩
  rfl

theorem opts_words {names : List Arg} : words (opts names) = [] := by
  simp only [words, opts, List.filterMap_eq_nil_iff, List.mem_map]
  rintro _ ⟨_, _, rfl⟩
  rfl

theorem opts_single {names : List Arg} : (opts names).filterMap Item.single = [] := by
  simp only [opts, List.filterMap_eq_nil_iff, List.mem_map]
  rintro _ ⟨_, _, rfl⟩
  rfl

theorem opt_words {n : String} {v : Option Arg} : words (opt n v) = [] := by
  cases v <;> rfl

theorem opt_sections {n : String} {v : Option Arg} : sectionValues (opt n v) = [] := by
  cases v <;> rfl

theorem opts_sections {names : List Arg} (h : ∀ n ∈ names, ',' ∉ n) : AtCommas (sectionValues (opts names)) names := by
  have : sectionValues (opts names) = names := by
    induction names with
    | nil => rfl
    | cons n names ih =>
      have := ih fun m hm => h m (by simp [hm])
      simp only [sectionValues, opts] at this
      simp only [sectionValues, opts, List.map_cons, List.flatMap_cons, if_true, List.singleton_append, this]
  rw [this]
  clear this
  induction names with
  | nil => exact .nil
  | cons n names ih =>
    refine AtCommas.cons (ps := [n]) ⟨by simp, ?_, ?_⟩ (ih fun m hm => h m (by simp [hm]))
    · simpa using h n (by simp)
    · simp [List.intercalate]

theorem words_append {a b : List Item} : words (a ++ b) = words a ++ words b := by simp [words]

theorem sections_append {a b : List Item} : sectionValues (a ++ b) = sectionValues a ++ sectionValues b := by simp [sectionValues]

theorem opt_given {n m : String} {v : Option Arg} : ¬ Given n (opt m v) := by
  rintro ⟨i, hi, h⟩
  cases v with
  | none => simp [opt] at hi
  | some v =>
    simp only [opt, List.mem_singleton] at hi
    subst hi
    simp at h

theorem opts_given {n : String} {names : List Arg} : ¬ Given n (opts names) := by
  rintro ⟨i, hi, h⟩
  simp only [opts, List.mem_map] at hi
  obtain ⟨_, _, rfl⟩ := hi
  simp at h

theorem given_append {n : String} {a b : List Item} : Given n (a ++ b) ↔ Given n a ∨ Given n b := by
  simp only [Given, List.mem_append]
  constructor
  · rintro ⟨i, hi | hi, h⟩
    · exact .inl ⟨i, hi, h⟩
    · exact .inr ⟨i, hi, h⟩
  · rintro (⟨i, hi, h⟩ | ⟨i, hi, h⟩)
    · exact ⟨i, .inl hi, h⟩
    · exact ⟨i, .inr hi, h⟩

end Ksusig
