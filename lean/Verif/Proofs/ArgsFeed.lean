import Verif.Proofs.ArgsLex

/-!
# Reading command lines: what is read
-/

namespace Ksusig

open Spec

/-- What a part adds to the options. -/
def gives : Item → Option (Arg × List Arg)
  | .word _ => none
  | .switch n => some (n.toList, [])
  | .short _ n => some (n.toList, [])
  | .value n v => some (n.toList, [v])
  | .valueAt n v => some (n.toList, [v])
  | .list n vs => some (n.toList, vs.flatMap splitComma)
  | .listAt n v => some (n.toList, [v].flatMap splitComma)

theorem switch_some {s s1 : Scan} {n : Arg} :
    s.switch n = some s1 ↔ (∀ e ∈ s.given, e.1 ≠ n) ∧ s1 = ⟨s.given ++ [(n, [])], s.words⟩ := by
  unfold Scan.switch
  cases h : s.given.any (·.1 == n) with
  | true =>
    simp only [if_true]
    constructor
    · intro h; cases h
    · rintro ⟨h1, _⟩
      obtain ⟨e, he, h2⟩ := List.any_eq_true.mp h
      exact absurd (by simpa using h2) (h1 e he)
  | false =>
    simp only [Bool.false_eq_true, if_false]
    rw [List.any_eq_false] at h
    constructor
    · rintro h2
      cases h2
      exact ⟨fun e he => by simpa using h e he, rfl⟩
    · rintro ⟨_, rfl⟩
      rfl

theorem value_some {s s1 : Scan} {n : Arg} {ok : Arg → Bool} {v : Arg} :
    s.value n ok v = some s1 ↔ (∀ e ∈ s.given, e.1 ≠ n) ∧ ok v = true ∧ s1 = ⟨s.given ++ [(n, [v])], s.words⟩ := by
  unfold Scan.value
  cases h : s.given.any (·.1 == n) with
  | true =>
    simp only [if_true]
    constructor
    · intro h; cases h
    · rintro ⟨h1, _⟩
      obtain ⟨e, he, h2⟩ := List.any_eq_true.mp h
      exact absurd (by simpa using h2) (h1 e he)
  | false =>
    simp only [Bool.false_eq_true, if_false]
    rw [List.any_eq_false] at h
    cases ok v with
    | false => simp
    | true =>
      simp only [if_true]
      constructor
      · rintro h2
        cases h2
        exact ⟨fun e he => by simpa using h e he, trivial, rfl⟩
      · rintro ⟨_, _, rfl⟩
        rfl

theorem word_some {d : CmdDef} {s s1 : Scan} {v : Arg} :
    s.word d v = some s1 ↔ s.words.length < d.words ∧ v ≠ [] ∧ s1 = ⟨s.given, s.words ++ [v]⟩ := by
  unfold Scan.word isPath
  by_cases h1 : s.words.length < d.words
  · cases v with
    | nil => simp
    | cons c v =>
      simp only [h1, List.isEmpty_cons, decide_true, Bool.not_false, Bool.and_self, if_true, Option.some.injEq, ne_eq, reduceCtorEq,
        not_false_eq_true, true_and]
      exact ⟨fun h => h.symm, fun h => h.symm⟩
  · simp [h1]

theorem nodup_cons' {a : α} {l : List α} : (a :: l).Nodup ↔ a ∉ l ∧ l.Nodup := List.nodup_cons

/-- What reading parts gives. -/
theorem feedAll_some {d : CmdDef} {S : Syntax} (A : Agrees d S) {is : List Item} (hk : ∀ i ∈ is, i.Known S) :
    ∀ {s s' : Scan}, feedAll d s is = some s' ↔
      s' = ⟨s.given ++ is.filterMap gives, s.words ++ Spec.words is⟩ ∧ (is.filterMap Item.single).Nodup ∧
      (∀ n ∈ is.filterMap Item.single, ∀ e ∈ s.given, e.1 ≠ n.toList) ∧ (∀ i ∈ is, i.Allowed) ∧ (∀ v ∈ Spec.words is, v ≠ []) ∧
      (Spec.words is = [] ∨ s.words.length + (Spec.words is).length ≤ d.words) := by
  induction is with
  | nil =>
    intro s s'
    simp only [feedAll, Spec.words, List.filterMap_nil, List.append_nil]
    constructor
    · intro h; cases h; simp
    · rintro ⟨rfl, _⟩; rfl
  | cons i is ih =>
    intro s s'
    have ih := fun s s' => @ih (fun j hj => hk j (by simp [hj])) s s'
    have hki := hk i (by simp)
    have hsingle : ∀ n ∈ is.filterMap Item.single, n ∈ S.switches ∨ n ∈ S.values := by
      intro n hn
      obtain ⟨j, hj, he⟩ := List.mem_filterMap.mp hn
      have hkj := hk j (by simp [hj])
      cases j with
      | word v => cases he
      | switch m => cases he; exact .inl hkj
      | short c m => cases he; exact .inl (A.shortOk _ _ hkj).2.2
      | value m v => cases he; exact .inr hkj.1
      | valueAt m v => cases he; exact .inr hkj
      | list m vs => cases he
      | listAt m v => cases he
    rw [feedAll, Option.bind_eq_some_iff]
    have sw : ∀ (n : String) (g : List Arg), (∃ s1, ((∀ e ∈ s.given, e.1 ≠ n.toList) ∧ s1 = ⟨s.given ++ [(n.toList, g)], s.words⟩) ∧
        feedAll d s1 is = some s') ↔
        s' = ⟨s.given ++ (n.toList, g) :: is.filterMap gives, s.words ++ Spec.words is⟩ ∧ (n :: is.filterMap Item.single).Nodup ∧
        (∀ m ∈ n :: is.filterMap Item.single, ∀ e ∈ s.given, e.1 ≠ m.toList) ∧ (∀ i ∈ is, i.Allowed) ∧ (∀ v ∈ Spec.words is, v ≠ []) ∧
        (Spec.words is = [] ∨ s.words.length + (Spec.words is).length ≤ d.words) := by
      intro n g
      constructor
      · rintro ⟨s1, ⟨h1, rfl⟩, h2⟩
        obtain ⟨h3, h4, h5, h6, h7, h8⟩ := (ih _ _).mp h2
        refine ⟨by rw [h3]; simp, List.nodup_cons.mpr ⟨fun hm => ?_, h4⟩, ?_, h6, h7, h8⟩
        · exact h5 n hm (n.toList, g) (by simp) rfl
        · intro m hm e he
          rcases List.mem_cons.mp hm with rfl | hm
          · exact h1 e he
          · exact h5 m hm e (by simp [he])
      · rintro ⟨h3, h4, h5, h6, h7, h8⟩
        refine ⟨_, ⟨h5 n (by simp), rfl⟩, (ih _ _).mpr ⟨by rw [h3]; simp, (List.nodup_cons.mp h4).2, ?_, h6, h7, h8⟩⟩
        intro m hm e he
        rcases List.mem_append.mp he with he | he
        · exact h5 m (by simp [hm]) e he
        · rw [List.mem_singleton] at he
          subst he
          intro hc
          rw [String.toList_inj] at hc
          subst hc
          exact (List.nodup_cons.mp h4).1 hm
    have li : ∀ (n : String) (vs : List Arg), n ∈ S.lists → ((∃ s1, some (s.list n.toList vs) = some s1 ∧ feedAll d s1 is = some s') ↔
        s' = ⟨s.given ++ (n.toList, vs.flatMap splitComma) :: is.filterMap gives, s.words ++ Spec.words is⟩ ∧ (is.filterMap Item.single).Nodup ∧
        (∀ m ∈ is.filterMap Item.single, ∀ e ∈ s.given, e.1 ≠ m.toList) ∧ (∀ i ∈ is, i.Allowed) ∧ (∀ v ∈ Spec.words is, v ≠ []) ∧
        (Spec.words is = [] ∨ s.words.length + (Spec.words is).length ≤ d.words)) := by
      intro n vs hn
      constructor
      · rintro ⟨s1, h1, h2⟩
        cases h1
        obtain ⟨h3, h4, h5, h6, h7, h8⟩ := (ih _ _).mp h2
        refine ⟨by rw [h3]; simp [Scan.list], h4, ?_, h6, h7, h8⟩
        intro m hm e he
        exact h5 m hm e (by simp [Scan.list, he])
      · rintro ⟨h3, h4, h5, h6, h7, h8⟩
        refine ⟨_, rfl, (ih _ _).mpr ⟨by rw [h3]; simp [Scan.list], h4, ?_, h6, h7, h8⟩⟩
        intro m hm e he
        simp only [Scan.list] at he
        rcases List.mem_append.mp he with he | he
        · exact h5 m hm e he
        · rw [List.mem_singleton] at he
          subst he
          intro hc
          rw [String.toList_inj] at hc
          subst hc
          rcases hsingle _ hm with h | h
          · exact (A.apart2 _ hn).1 h
          · exact (A.apart2 _ hn).2 h
    have va : ∀ (n : String) (v : Arg), n ∈ S.values → ((∃ s1, ((d.values.lookup n.toList).bind fun ok => s.value n.toList ok v) = some s1 ∧
        feedAll d s1 is = some s') ↔
        Spec.Allowed n v ∧ ∃ s1, ((∀ e ∈ s.given, e.1 ≠ n.toList) ∧ s1 = ⟨s.given ++ [(n.toList, [v])], s.words⟩) ∧ feedAll d s1 is = some s') := by
      intro n v hn
      cases hl : d.values.lookup n.toList with
      | none => exact absurd ⟨n, hn, rfl⟩ ((A.values _).mp hl)
      | some ok =>
        simp only [Option.bind_some, value_some, A.check n hn ok hl v]
        constructor
        · rintro ⟨s1, ⟨h1, h2, h3⟩, h4⟩; exact ⟨h2, s1, ⟨h1, h3⟩, h4⟩
        · rintro ⟨h2, s1, ⟨h1, h3⟩, h4⟩; exact ⟨s1, ⟨h1, h2, h3⟩, h4⟩
    cases i with
    | word v =>
      simp only [feed, word_some, List.filterMap_cons, gives, Item.single, Spec.words, List.forall_mem_cons, Item.Allowed, true_and]
      constructor
      · rintro ⟨s1, ⟨h1, h2, rfl⟩, h3⟩
        obtain ⟨h4, h5, h6, h7, h8, h9⟩ := (ih _ _).mp h3
        refine ⟨by rw [h4]; simp [Spec.words], h5, h6, h7, ⟨h2, h8⟩, .inr ?_⟩
        rcases h9 with h9 | h9
        · rw [show List.filterMap _ is = Spec.words is from rfl, h9]
          exact h1
        · simp only [List.length_append, List.length_cons, List.length_nil] at h9 ⊢
          rw [show List.filterMap _ is = Spec.words is from rfl]
          omega
      · rintro ⟨h4, h5, h6, h7, ⟨h2, h8⟩, h9⟩
        rcases h9 with h9 | h9
        · cases h9
        · simp only [List.length_cons] at h9
          rw [show List.filterMap _ is = Spec.words is from rfl] at h9
          refine ⟨_, ⟨by omega, h2, rfl⟩, (ih _ _).mpr ⟨by rw [h4]; simp [Spec.words], h5, h6, h7, h8, .inr ?_⟩⟩
          simp only [List.length_append, List.length_cons, List.length_nil]
          omega
    | switch n =>
      simp only [feed, switch_some, List.filterMap_cons, gives, Item.single, Spec.words, List.forall_mem_cons, Item.Allowed, true_and]
      have := sw n []
      simp only [Spec.words, List.forall_mem_cons] at this
      exact this
    | short c n =>
      simp only [feed, switch_some, List.filterMap_cons, gives, Item.single, Spec.words, List.forall_mem_cons, Item.Allowed, true_and]
      have := sw n []
      simp only [Spec.words, List.forall_mem_cons] at this
      exact this
    | value n v =>
      simp only [feed]
      rw [va n v hki.1, sw]
      simp only [List.filterMap_cons, gives, Item.single, Spec.words, List.forall_mem_cons, Item.Allowed]
      constructor
      · rintro ⟨h1, h2, h3, h4, h5, h6⟩; exact ⟨h2, h3, h4, ⟨h1, h5⟩, h6⟩
      · rintro ⟨h2, h3, h4, ⟨h1, h5⟩, h6⟩; exact ⟨h1, h2, h3, h4, h5, h6⟩
    | valueAt n v =>
      simp only [feed]
      rw [va n v hki, sw]
      simp only [List.filterMap_cons, gives, Item.single, Spec.words, List.forall_mem_cons, Item.Allowed]
      constructor
      · rintro ⟨h1, h2, h3, h4, h5, h6⟩; exact ⟨h2, h3, h4, ⟨h1, h5⟩, h6⟩
      · rintro ⟨h2, h3, h4, ⟨h1, h5⟩, h6⟩; exact ⟨h1, h2, h3, h4, h5, h6⟩
    | list n vs =>
      simp only [feed]
      rw [li n vs hki.1]
      simp only [List.filterMap_cons, gives, Item.single, Spec.words, List.forall_mem_cons, Item.Allowed, true_and]
    | listAt n v =>
      simp only [feed]
      rw [li n [v] hki]
      simp only [List.filterMap_cons, gives, Item.single, Spec.words, List.forall_mem_cons, Item.Allowed, true_and]

theorem scanWords_done {d : CmdDef} {more : List Arg} : ∀ {s s' : Scan}, scanWords d s more = .done s' ↔
    s' = ⟨s.given, s.words ++ more⟩ ∧ (∀ v ∈ more, v ≠ []) ∧ (more = [] ∨ s.words.length + more.length ≤ d.words) := by
  induction more with
  | nil =>
    intro s s'
    simp only [scanWords, List.append_nil]
    constructor
    · intro h; cases h; simp
    · rintro ⟨rfl, _⟩; rfl
  | cons t ts ih =>
    intro s s'
    rw [scanWords]
    cases hw : s.word d t with
    | none =>
      simp only [reduceCtorEq, false_iff]
      rintro ⟨h1, h2, h3⟩
      have : s.word d t = some ⟨s.given, s.words ++ [t]⟩ := by
        refine word_some.mpr ⟨?_, h2 t (by simp), rfl⟩
        rcases h3 with h3 | h3
        · cases h3
        · simp only [List.length_cons] at h3; omega
      rw [hw] at this
      cases this
    | some s1 =>
      obtain ⟨h1, h2, rfl⟩ := word_some.mp hw
      dsimp only
      rw [ih]
      simp only [List.append_assoc, List.singleton_append, List.length_append, List.length_cons, List.length_nil, List.forall_mem_cons,
        reduceCtorEq, false_or]
      constructor
      · rintro ⟨h3, h4, h5⟩
        refine ⟨h3, ⟨h2, h4⟩, ?_⟩
        rcases h5 with rfl | h5
        · simp; omega
        · omega
      · rintro ⟨h3, ⟨_, h4⟩, h5⟩
        exact ⟨h3, h4, .inr (by omega)⟩

theorem lookup_none [BEq α] [LawfulBEq α] {l : List (α × β)} {a : α} : l.lookup a = none ↔ ∀ p ∈ l, p.1 ≠ a := by
  rw [List.lookup_eq_none_iff]
  constructor
  · intro h p hp he
    simpa [he] using h p hp
  · intro h p hp
    simpa using fun he => h p hp he.symm

theorem signAgrees : Agrees signDef signSyntax where
  words := rfl
  switches := by simp [signDef, signSyntax]
  shorts := by simp [signDef, signSyntax]
  shortOk := by simp [signSyntax]
  shortOne := by simp [signSyntax]
  values := by
    intro n
    rw [lookup_none]
    simp [signDef, signSyntax]
  check := by
    intro s hs ok hl v
    simp only [signSyntax, List.mem_cons, List.not_mem_nil, or_false] at hs
    rcases hs with rfl | rfl | rfl | rfl | rfl | rfl | rfl | rfl <;>
      simp [signDef, List.lookup] at hl <;> subst hl <;> simp [isPath, anyString, Spec.Allowed]
  lists := by simp [signDef, signSyntax, eq_comm]
  apart1 := by simp [signSyntax]
  apart2 := by simp [signSyntax]
  names := by
    intro s hs
    simp only [signSyntax, List.mem_cons, List.not_mem_nil, or_false, false_or] at hs
    rcases hs with (rfl | rfl | rfl | rfl | rfl | rfl | rfl | rfl) | rfl <;> decide

theorem verifyAgrees : Agrees verifyDef verifySyntax where
  words := rfl
  switches := by simp [verifyDef, verifySyntax, eq_comm]
  shorts := by
    intro c n
    simp only [verifyDef, verifySyntax, List.lookup, List.mem_singleton, Prod.mk.injEq]
    by_cases h : c = 'v'
    · subst h
      simp
    · have : (c == 'v') = false := by simpa using h
      simp [h, this]
  shortOk := by simp [verifySyntax]
  shortOne := by
    intro c s c' s' h h'
    simp only [verifySyntax, List.mem_singleton, Prod.mk.injEq] at h h'
    exact ⟨h.1.trans h'.1.symm, h.2.trans h'.2.symm⟩
  values := by
    intro n
    rw [lookup_none]
    simp [verifyDef, verifySyntax]
  check := by
    intro s hs ok hl v
    simp only [verifySyntax, List.mem_cons, List.not_mem_nil, or_false] at hs
    subst hs
    simp [verifyDef, List.lookup] at hl
    subst hl
    simp [isPath, Spec.Allowed]
  lists := by simp [verifyDef, verifySyntax]
  apart1 := by simp [verifySyntax]
  apart2 := by simp [verifySyntax]
  names := by
    intro s hs
    simp only [verifySyntax, List.mem_cons, List.not_mem_nil, or_false] at hs
    rcases hs with rfl | rfl <;> decide

theorem infoAgrees : Agrees infoDef infoSyntax where
  words := rfl
  switches := by simp [infoDef, infoSyntax]
  shorts := by simp [infoDef, infoSyntax]
  shortOk := by simp [infoSyntax]
  shortOne := by simp [infoSyntax]
  values := by simp [infoDef, infoSyntax]
  check := by simp [infoSyntax]
  lists := by simp [infoDef, infoSyntax]
  apart1 := by simp [infoSyntax]
  apart2 := by simp [infoSyntax]
  names := by simp [infoSyntax]

theorem digestAgrees : Agrees digestDef digestSyntax where
  words := rfl
  switches := by simp [digestDef, digestSyntax, eq_comm]
  shorts := by simp [digestDef, digestSyntax]
  shortOk := by simp [digestSyntax]
  shortOne := by simp [digestSyntax]
  values := by
    intro n
    rw [lookup_none]
    simp [digestDef, digestSyntax]
  check := by
    intro s hs ok hl v
    simp only [digestSyntax, List.mem_cons, List.not_mem_nil, or_false] at hs
    rcases hs with rfl | rfl <;> simp [digestDef, List.lookup] at hl <;> subst hl <;> simp [isPath, isFormat, Spec.Allowed]
  lists := by simp [digestDef, digestSyntax, eq_comm]
  apart1 := by simp [digestSyntax]
  apart2 := by simp [digestSyntax]
  names := by
    intro s hs
    simp only [digestSyntax, List.mem_cons, List.not_mem_nil, or_false] at hs
    rcases hs with (rfl | rfl) | (rfl | rfl) | rfl <;> decide

/-! ## Commas -/

theorem splitComma_ne (v : Arg) : splitComma v ≠ [] := by
  cases v with
  | nil => simp [splitComma]
  | cons c cs =>
    rw [splitComma]
    split
    · simp
    · split <;> simp

theorem splitComma_commas (v : Arg) : Commas v (splitComma v) := by
  refine ⟨splitComma_ne v, ?_⟩
  induction v with
  | nil => simp [splitComma, List.intercalate]
  | cons c cs ih =>
    rw [splitComma]
    by_cases h : c = ','
    · subst h
      rw [if_pos rfl]
      refine ⟨by simpa using ih.1, ?_⟩
      have := ih.2
      cases hs : splitComma cs with
      | nil => exact absurd hs (splitComma_ne cs)
      | cons p ps =>
        rw [hs] at this
        simp [List.intercalate, List.intersperse] at this ⊢
        exact this
    · rw [if_neg h]
      cases hs : splitComma cs with
      | nil => exact absurd hs (splitComma_ne cs)
      | cons p ps =>
        rw [hs] at ih
        obtain ⟨h1, h2⟩ := ih
        refine ⟨?_, ?_⟩
        · intro q hq
          rcases List.mem_cons.mp hq with rfl | hq
          · simp only [List.mem_cons, not_or]
            exact ⟨fun hc => h hc.symm, h1 p (by simp)⟩
          · exact h1 q (by simp [hq])
        · rw [h2]
          cases ps <;> simp [List.intercalate, List.intersperse]

theorem commas_split {v : Arg} {ps : List Arg} (h : Commas v ps) : splitComma v = ps := by
  obtain ⟨h0, h1, h2⟩ := h
  subst h2
  induction ps with
  | nil => exact absurd rfl h0
  | cons p ps ih =>
    have hp : ∀ (p rest : Arg), ',' ∉ p → (rest = [] ∨ ∃ r, rest = ',' :: r) → splitComma (p ++ rest) = p ::
        (match rest with | [] => [] | _ :: r => splitComma r) := by
      intro p rest hp hr
      induction p with
      | nil =>
        rcases hr with rfl | ⟨r, rfl⟩
        · simp [splitComma]
        · simp [splitComma]
      | cons c p ihp =>
        simp only [List.mem_cons, not_or] at hp
        rw [List.cons_append, splitComma, if_neg (fun hc => hp.1 hc.symm), ihp hp.2]
    cases ps with
    | nil =>
      have := hp p [] (h1 p (by simp)) (.inl rfl)
      simpa [List.intercalate, List.intersperse] using this
    | cons q qs =>
      have he : [','].intercalate (p :: q :: qs) = p ++ ',' :: [','].intercalate (q :: qs) := by
        simp [List.intercalate, List.intersperse]
      rw [he, hp p _ (h1 p (by simp)) (.inr ⟨_, rfl⟩)]
      dsimp only
      rw [ih (by simp) (fun r hr => h1 r (by simp [hr]))]

theorem atCommas_iff {vs names : List Arg} : AtCommas vs names ↔ names = vs.flatMap splitComma := by
  constructor
  · intro h
    induction h with
    | nil => rfl
    | cons hc _ ih => rw [List.flatMap_cons, ← ih, commas_split hc]
  · rintro rfl
    induction vs with
    | nil => exact .nil
    | cons v vs ih => rw [List.flatMap_cons]; exact .cons (splitComma_commas v) ih

/-! ## The options -/

theorem gives_name {i : Item} {e : Arg × List Arg} (h : gives i = some e) : ∃ n : String, e.1 = n.toList := by
  cases i <;> simp only [gives, Option.some.injEq, reduceCtorEq] at h <;> subst h <;> exact ⟨_, rfl⟩

/-- The value of an option is what was read. -/
theorem one_valueOf {d : CmdDef} {S : Syntax} (A : Agrees d S) {n : String} (hn : n ∈ S.values) {ws : List Arg} :
    ∀ {is : List Item}, (∀ i ∈ is, i.Known S) → Scan.one ⟨is.filterMap gives, ws⟩ n = valueOf n is := by
  intro is
  induction is with
  | nil => intro _; rfl
  | cons i is ih =>
    intro hk
    have ih := ih fun j hj => hk j (by simp [hj])
    have hki := hk i (by simp)
    have key : ∀ (m : String) (g : List Arg), Scan.one ⟨(m.toList, g) :: is.filterMap gives, ws⟩ n =
        if m = n then g.head? else Scan.one ⟨is.filterMap gives, ws⟩ n := by
      intro m g
      unfold Scan.one
      dsimp only
      rw [List.lookup_cons]
      by_cases h : m = n
      · subst h; simp
      · have : (n.toList == m.toList) = false := by
          simp only [beq_eq_false_iff_ne, ne_eq, String.toList_inj]
          exact fun hc => h hc.symm
        rw [this, if_neg h]
    have ne1 : ∀ m, m ∈ S.switches → m ≠ n := by rintro m hm rfl; exact A.apart1 _ hn hm
    have ne2 : ∀ m, m ∈ S.lists → m ≠ n := by rintro m hm rfl; exact (A.apart2 _ hm).2 hn
    cases i with
    | word v => simp only [List.filterMap_cons, gives, valueOf, List.findSome?_cons]; exact ih
    | switch m => simp only [List.filterMap_cons, gives, valueOf, List.findSome?_cons]; rw [key, if_neg (ne1 m hki)]; exact ih
    | short c m =>
      simp only [List.filterMap_cons, gives, valueOf, List.findSome?_cons]; rw [key, if_neg (ne1 m (A.shortOk _ _ hki).2.2)]; exact ih
    | value m v =>
      simp only [List.filterMap_cons, gives, valueOf, List.findSome?_cons]; rw [key]
      by_cases h : m = n
      · simp [h]
      · simp only [h, if_false]; exact ih
    | valueAt m v =>
      simp only [List.filterMap_cons, gives, valueOf, List.findSome?_cons]; rw [key]
      by_cases h : m = n
      · simp [h]
      · simp only [h, if_false]; exact ih
    | list m vs => simp only [List.filterMap_cons, gives, valueOf, List.findSome?_cons]; rw [key, if_neg (ne2 m hki.1)]; exact ih
    | listAt m v => simp only [List.filterMap_cons, gives, valueOf, List.findSome?_cons]; rw [key, if_neg (ne2 m hki)]; exact ih

/-- A switch is given when it was read. -/
theorem has_given {d : CmdDef} {S : Syntax} (A : Agrees d S) {n : String} (hn : n ∈ S.switches) {ws : List Arg} {is : List Item}
    (hk : ∀ i ∈ is, i.Known S) : Scan.has ⟨is.filterMap gives, ws⟩ n = true ↔ Given n is := by
  unfold Scan.has
  rw [List.any_eq_true]
  simp only [List.mem_filterMap, beq_iff_eq]
  constructor
  · rintro ⟨e, ⟨i, hi, he⟩, h⟩
    refine ⟨i, hi, ?_⟩
    have hki := hk i hi
    cases i <;> simp only [gives, Option.some.injEq, reduceCtorEq] at he <;> subst he <;> dsimp only at h <;> rw [String.toList_inj] at h <;> subst h
    · exact .inl rfl
    · exact .inr ⟨_, rfl⟩
    · exact absurd hn (A.apart1 _ hki.1)
    · exact absurd hn (A.apart1 _ hki)
    · exact absurd hn (A.apart2 _ hki.1).1
    · exact absurd hn (A.apart2 _ hki).1
  · rintro ⟨i, hi, rfl | ⟨c, rfl⟩⟩
    · exact ⟨_, ⟨_, hi, rfl⟩, rfl⟩
    · exact ⟨_, ⟨_, hi, rfl⟩, rfl⟩

/-- The section names are what was read. -/
theorem many_sections {d : CmdDef} {S : Syntax} (A : Agrees d S) (hn : "elf-section" ∈ S.lists) {ws : List Arg} {is : List Item}
    (hk : ∀ i ∈ is, i.Known S) {names : List Arg} : Sections is names ↔ names = Scan.many ⟨is.filterMap gives, ws⟩ "elf-section" := by
  unfold Sections
  rw [atCommas_iff]
  suffices h : (sectionValues is).flatMap splitComma = Scan.many ⟨is.filterMap gives, ws⟩ "elf-section" by rw [h]
  induction is with
  | nil => rfl
  | cons i is ih =>
    have ih := ih fun j hj => hk j (by simp [hj])
    have hki := hk i (by simp)
    have key : ∀ (m : String) (g : List Arg), Scan.many ⟨(m.toList, g) :: is.filterMap gives, ws⟩ "elf-section" =
        (if m = "elf-section" then g else []) ++ Scan.many ⟨is.filterMap gives, ws⟩ "elf-section" := by
      intro m g
      unfold Scan.many
      dsimp only
      rw [List.filter_cons]
      by_cases h : m = "elf-section"
      · subst h; simp
      · have : (m.toList == "elf-section".toList) = false := by
          simp only [beq_eq_false_iff_ne, ne_eq, String.toList_inj]
          exact h
        rw [this, if_neg h]
        simp
    have ne1 : ∀ m, m ∈ S.switches → m ≠ "elf-section" := by rintro m hm rfl; exact (A.apart2 _ hn).1 hm
    have ne2 : ∀ m, m ∈ S.values → m ≠ "elf-section" := by rintro m hm rfl; exact (A.apart2 _ hn).2 hm
    rw [sectionValues, List.flatMap_cons, List.flatMap_append]
    change _ ++ (sectionValues is).flatMap splitComma = _
    rw [ih]
    cases i with
    | word v => simp [List.filterMap_cons, gives]
    | switch m => simp only [List.filterMap_cons, gives]; rw [key, if_neg (ne1 m hki)]; rfl
    | short c m => simp only [List.filterMap_cons, gives]; rw [key, if_neg (ne1 m (A.shortOk _ _ hki).2.2)]; rfl
    | value m v => simp only [List.filterMap_cons, gives]; rw [key, if_neg (ne2 m hki.1)]; rfl
    | valueAt m v => simp only [List.filterMap_cons, gives]; rw [key, if_neg (ne2 m hki)]; rfl
    | list m vs => simp only [List.filterMap_cons, gives]; rw [key]; split <;> simp
    | listAt m v => simp only [List.filterMap_cons, gives]; rw [key]; split <;> simp

end Ksusig
