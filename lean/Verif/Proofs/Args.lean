import Verif.SpecArgs

/-!
# Reading command lines
-/

namespace Ksusig

open Spec

/-- A table of the model and a table of the specification say the same. -/
structure Agrees (d : CmdDef) (S : Syntax) : Prop where
  words : d.words = S.words
  switches : ∀ n : Arg, n ∈ d.switches ↔ ∃ s ∈ S.switches, s.toList = n
  shorts : ∀ c n, d.shorts.lookup c = some n ↔ ∃ s, (c, s) ∈ S.shorts ∧ s.toList = n
  shortOk : ∀ c s, (c, s) ∈ S.shorts → c ≠ '-' ∧ c ≠ 'h' ∧ s ∈ S.switches
  shortOne : ∀ c s c' s', (c, s) ∈ S.shorts → (c', s') ∈ S.shorts → c = c' ∧ s = s'
  values : ∀ n : Arg, d.values.lookup n = none ↔ ¬ ∃ s ∈ S.values, s.toList = n
  check : ∀ s ∈ S.values, ∀ ok, d.values.lookup s.toList = some ok → ∀ v, ok v = true ↔ Spec.Allowed s v
  lists : ∀ n : Arg, n ∈ d.lists ↔ ∃ s ∈ S.lists, s.toList = n
  apart1 : ∀ s ∈ S.values, s ∉ S.switches
  apart2 : ∀ s ∈ S.lists, s ∉ S.switches ∧ s ∉ S.values
  names : ∀ s, s ∈ S.switches ∨ s ∈ S.values ∨ s ∈ S.lists → s.toList ≠ [] ∧ '=' ∉ s.toList ∧ s ≠ "help"

theorem longOf_dash (r : Arg) : longOf ('-' :: '-' :: r) ≠ none := by
  simp only [longOf]
  generalize r.dropWhile (· != '=') = x
  cases x <;> simp

theorem dropWhile_nil {p : α → Bool} {l : List α} : l.dropWhile p = [] ↔ ∀ x ∈ l, p x = true := by
  induction l with
  | nil => simp
  | cons a l ih =>
    rw [List.dropWhile_cons]
    cases h : p a
    · simp [h]
    · simp [h, ih]

theorem noOption_iff {t : Arg} : NoOption t ↔ longOf t = none ∧ shortsOf t = none := by
  unfold NoOption
  match t with
  | [] => simp [longOf, shortsOf]
  | ['-'] => simp [longOf, shortsOf]
  | '-' :: '-' :: r =>
    have : longOf ('-' :: '-' :: r) ≠ none := longOf_dash r
    simp [this]
  | '-' :: c :: r =>
    by_cases h : c = '-'
    · subst h
      have : longOf ('-' :: '-' :: r) ≠ none := longOf_dash r
      simp [this]
    · simp [shortsOf, h]
  | c :: r =>
    by_cases h : c = '-'
    · subst h
      match r with
      | [] => simp [longOf, shortsOf]
      | c :: r =>
        by_cases h : c = '-'
        · subst h
          have : longOf ('-' :: '-' :: r) ≠ none := longOf_dash r
          simp [this]
        · simp [shortsOf, h]
    · have h1 : longOf (c :: r) = none := by
        unfold longOf
        split
        · rename_i heq; exact absurd (List.cons.inj heq).1 h
        · rfl
      have h2 : shortsOf (c :: r) = none := by
        unfold shortsOf
        split
        · rename_i heq; exact absurd (List.cons.inj heq).1 h
        · rfl
      simp [h1, h2, h]

theorem longOf_name {n : Arg} (h : '=' ∉ n) : longOf ('-' :: '-' :: n) = some (n, none) := by
  have h1 : ∀ x ∈ n, (x != '=') = true := by
    intro x hx
    simp only [bne_iff_ne, ne_eq]
    intro he
    exact h (he ▸ hx)
  simp only [longOf, dropWhile_nil.mpr h1]

theorem longOf_eq {n v : Arg} (h : '=' ∉ n) : longOf ('-' :: '-' :: (n ++ '=' :: v)) = some (n, some v) := by
  have h1 : ∀ x ∈ n, (x != '=') = true := by
    intro x hx
    simp only [bne_iff_ne, ne_eq]
    intro he
    exact h (he ▸ hx)
  have h2 : (n ++ '=' :: v).dropWhile (· != '=') = '=' :: v := by
    rw [List.dropWhile_append_of_pos h1]; simp
  have h3 : (n ++ '=' :: v).takeWhile (· != '=') = n := by
    rw [List.takeWhile_append_of_pos h1]; simp
  simp only [longOf, h2, h3]

theorem longOf_none_inv {t n : Arg} (h : longOf t = some (n, none)) : t = '-' :: '-' :: n ∧ '=' ∉ n := by
  unfold longOf at h
  split at h
  · rename_i r
    split at h
    · rename_i h2
      cases h
      refine ⟨rfl, fun hm => ?_⟩
      have := dropWhile_nil.mp h2 _ hm
      simp at this
    · cases h
  · cases h

theorem longOf_some_inv {t n v : Arg} (h : longOf t = some (n, some v)) : t = '-' :: '-' :: (n ++ '=' :: v) ∧ '=' ∉ n := by
  unfold longOf at h
  split at h
  · rename_i r
    split at h
    · cases h
    · rename_i x w h2
      have h3 := List.takeWhile_append_dropWhile (p := (· != '=')) (l := r)
      have hx : x = '=' := by
        have := List.head?_dropWhile_not (p := (· != '=')) r
        rw [h2] at this
        simpa using this
      rw [h2, hx] at h3
      cases h
      refine ⟨by rw [h3], fun hm => ?_⟩
      have := List.all_eq_true.mp (List.all_takeWhile (p := (· != '=')) (l := r)) _ hm
      simp at this
  · cases h

/-- What one part does. -/
def feed (d : CmdDef) (s : Scan) : Item → Option Scan
  | .word v => s.word d v
  | .switch n => s.switch n.toList
  | .short _ n => s.switch n.toList
  | .value n v => (d.values.lookup n.toList).bind fun ok => s.value n.toList ok v
  | .valueAt n v => (d.values.lookup n.toList).bind fun ok => s.value n.toList ok v
  | .list n vs => some (s.list n.toList vs)
  | .listAt n v => some (s.list n.toList [v])

def feedAll (d : CmdDef) : Scan → List Item → Option Scan
  | s, [] => some s
  | s, i :: is => (feed d s i).bind fun s => feedAll d s is

/-- A list ends here. -/
def Stops : List Arg → Prop
  | [] => True
  | t :: _ => ¬ NoOption t

theorem scan_list {d : CmdDef} {s : Scan} {n : Arg} {ws vs rest : List Arg} (h : ∀ v ∈ vs, NoOption v) :
    scan d s (.list n ws) (vs ++ rest) = scan d s (.list n (ws ++ vs)) rest := by
  induction vs generalizing ws with
  | nil => simp
  | cons v vs ih =>
    obtain ⟨h1, h2⟩ := noOption_iff.mp (h v (by simp))
    rw [List.cons_append, scan]
    have hv : v ≠ "--".toList := by
      rintro rfl
      exact absurd h1 (by decide)
    rw [if_neg hv, h1, h2]
    dsimp only
    rw [ih fun v hv => h v (by simp [hv])]
    simp

theorem scan_stop {d : CmdDef} {s : Scan} {n : Arg} {vs rest : List Arg} (h : Stops rest) :
    scan d s (.list n vs) rest = scan d (s.list n vs) .any rest := by
  match rest with
  | [] => rfl
  | t :: ts =>
    rw [scan, scan]
    by_cases ht : t = "--".toList
    · rw [if_pos ht, if_pos ht]; rfl
    · rw [if_neg ht, if_neg ht]
      cases h1 : longOf t with
      | some x => rfl
      | none =>
        cases h2 : shortsOf t with
        | some cs => rfl
        | none => exact absurd (noOption_iff.mpr ⟨h1, h2⟩) h

theorem name_neq {n : Arg} (h : n ≠ []) : '-' :: '-' :: n ≠ "--".toList := by
  intro he
  have : '-' :: '-' :: n = ['-', '-'] := he
  simp only [List.cons.injEq, true_and] at this
  exact h this

/-- One part is read as it should. -/
theorem scan_item {d : CmdDef} {S : Syntax} (A : Agrees d S) {s : Scan} {i : Item} {rest : List Arg} (hk : i.Known S)
    (hs : ∀ n vs, i = .list n vs → Stops rest) :
    scan d s .any (i.args ++ rest) = match feed d s i with | none => .usage | some s' => scan d s' .any rest := by
  have hhelp : ∀ {n : String}, n ≠ "help" → n.toList ≠ "help".toList := fun h he => h (String.toList_inj.mp he)
  cases i with
  | word v =>
    obtain ⟨h1, h2⟩ := noOption_iff.mp hk
    have hv : v ≠ "--".toList := by
      rintro rfl
      exact absurd h1 (by decide)
    simp only [Item.args, List.cons_append, List.nil_append]
    rw [scan, if_neg hv, h1, h2]
    rfl
  | switch n =>
    obtain ⟨h1, h2, h3⟩ := A.names n (.inl hk)
    simp only [Item.args, List.cons_append, List.nil_append]
    rw [scan, if_neg (name_neq h1), longOf_name h2]
    dsimp only [Expect.close]
    rw [if_neg (hhelp h3), if_pos ((A.switches _).mpr ⟨n, hk, rfl⟩)]
    rfl
  | short c n =>
    obtain ⟨h1, h2, h3⟩ := A.shortOk c n hk
    simp only [Item.args, List.cons_append, List.nil_append]
    have hl : longOf ['-', c] = none := by
      unfold longOf
      split
      · rename_i heq
        simp only [List.cons.injEq, true_and] at heq
        exact absurd heq.1 h1
      · rfl
    have hne : (['-', c] : Arg) ≠ "--".toList := by
      intro he
      have : (['-', c] : Arg) = ['-', '-'] := he
      simp only [List.cons.injEq, and_true, true_and] at this
      exact h1 this
    rw [scan, if_neg hne, hl]
    simp only [shortsOf, if_neg h1, Expect.close, scanShorts, if_neg h2, (A.shorts c n.toList).mpr ⟨n, hk, rfl⟩, feed]
    cases s.switch n.toList <;> rfl
  | value n v =>
    obtain ⟨h1, h2, h3⟩ := A.names n (.inr (.inl hk.1))
    obtain ⟨h4, h5⟩ := noOption_iff.mp hk.2
    have hv : v ≠ "--".toList := by
      rintro rfl
      exact absurd h4 (by decide)
    have hsw : n.toList ∉ d.switches := by
      intro h
      obtain ⟨m, hm, he⟩ := (A.switches _).mp h
      rw [String.toList_inj] at he
      exact A.apart1 n hk.1 (he ▸ hm)
    simp only [Item.args, List.cons_append, List.nil_append]
    rw [scan, if_neg (name_neq h1), longOf_name h2]
    dsimp only [Expect.close]
    rw [if_neg (hhelp h3), if_neg hsw]
    cases hl : d.values.lookup n.toList with
    | none => exact absurd ⟨n, hk.1, rfl⟩ ((A.values _).mp hl)
    | some ok =>
      dsimp only
      rw [scan, if_neg hv, h4, h5]
      simp only [feed, hl, Option.bind_some]
      cases s.value n.toList ok v <;> rfl
  | valueAt n v =>
    obtain ⟨h1, h2, h3⟩ := A.names n (.inr (.inl hk))
    have hsw : n.toList ∉ d.switches := by
      intro h
      obtain ⟨m, hm, he⟩ := (A.switches _).mp h
      rw [String.toList_inj] at he
      exact A.apart1 n hk (he ▸ hm)
    simp only [Item.args, List.cons_append, List.nil_append]
    rw [scan, if_neg (name_neq (by simp)), longOf_eq h2]
    dsimp only [Expect.close]
    rw [if_neg (hhelp h3), if_neg hsw]
    cases hl : d.values.lookup n.toList with
    | none => exact absurd ⟨n, hk, rfl⟩ ((A.values _).mp hl)
    | some ok =>
      dsimp only
      simp only [feed, hl, Option.bind_some]
      cases s.value n.toList ok v <;> rfl
  | list n vs =>
    obtain ⟨h1, h2, h3⟩ := A.names n (.inr (.inr hk.1))
    have hsw : n.toList ∉ d.switches := by
      intro h
      obtain ⟨m, hm, he⟩ := (A.switches _).mp h
      rw [String.toList_inj] at he
      exact (A.apart2 n hk.1).1 (he ▸ hm)
    have hl : d.values.lookup n.toList = none := by
      rw [A.values]
      rintro ⟨m, hm, he⟩
      rw [String.toList_inj] at he
      exact (A.apart2 n hk.1).2 (he ▸ hm)
    simp only [Item.args, List.cons_append]
    rw [scan, if_neg (name_neq h1), longOf_name h2]
    dsimp only [Expect.close]
    rw [if_neg (hhelp h3), if_neg hsw, hl]
    dsimp only
    rw [if_pos ((A.lists _).mpr ⟨n, hk.1, rfl⟩), scan_list hk.2, List.nil_append, scan_stop (hs n vs rfl)]
    rfl
  | listAt n v =>
    obtain ⟨h1, h2, h3⟩ := A.names n (.inr (.inr hk))
    have hsw : n.toList ∉ d.switches := by
      intro h
      obtain ⟨m, hm, he⟩ := (A.switches _).mp h
      rw [String.toList_inj] at he
      exact (A.apart2 n hk).1 (he ▸ hm)
    have hl : d.values.lookup n.toList = none := by
      rw [A.values]
      rintro ⟨m, hm, he⟩
      rw [String.toList_inj] at he
      exact (A.apart2 n hk).2 (he ▸ hm)
    simp only [Item.args, List.cons_append, List.nil_append]
    rw [scan, if_neg (name_neq (by simp)), longOf_eq h2]
    dsimp only [Expect.close]
    rw [if_neg (hhelp h3), if_neg hsw, hl]
    dsimp only
    rw [if_pos ((A.lists _).mpr ⟨n, hk, rfl⟩)]
    rfl

/-- Lists end where they should. -/
def Sep : List Item → List Arg → Prop
  | [], _ => True
  | i :: is, rest => (∀ n vs, i = .list n vs → Stops (is.flatMap Item.args ++ rest)) ∧ Sep is rest

theorem scan_items {d : CmdDef} {S : Syntax} (A : Agrees d S) {s : Scan} {is : List Item} {rest : List Arg} (hk : ∀ i ∈ is, i.Known S)
    (hs : Sep is rest) :
    scan d s .any (is.flatMap Item.args ++ rest) = match feedAll d s is with | none => .usage | some s' => scan d s' .any rest := by
  induction is generalizing s with
  | nil => rfl
  | cons i is ih =>
    rw [List.flatMap_cons, List.append_assoc, scan_item A (hk i (by simp)) hs.1, feedAll]
    cases feed d s i with
    | none => rfl
    | some s1 => exact ih (fun j hj => hk j (by simp [hj])) hs.2

theorem item_stops {i : Item} (hw : ∀ v, i ≠ .word v) (rest : List Arg) :
    Stops (i.args ++ rest) := by
  have key : ∀ {t : Arg}, t.head? = some '-' → t ≠ ['-'] → ¬ NoOption t := by
    rintro t h1 h2 (h | h)
    · exact h2 h
    · exact h h1
  cases i with
  | word v => exact absurd rfl (hw v)
  | short c n => exact key rfl (by simp)
  | switch n => exact key rfl (by simp)
  | value n v => exact key rfl (by simp)
  | valueAt n v => exact key rfl (by simp)
  | list n vs => exact key rfl (by simp)
  | listAt n v => exact key rfl (by simp)

theorem sep_of_apart {is : List Item} {rest : List Arg}
    (ha : Apart is) (hr : Stops rest) : Sep is rest := by
  induction is with
  | nil => trivial
  | cons i is ih =>
    have hrest : Apart is := by
      revert ha
      cases i <;> cases is with
        | nil => intro _; trivial
        | cons j js => cases j <;> first | exact fun h => h.elim | exact fun h => h
    refine ⟨?_, ih hrest⟩
    rintro n vs rfl
    cases is with
    | nil => exact hr
    | cons j js =>
      rw [List.flatMap_cons, List.append_assoc]
      refine item_stops ?_ _
      rintro v rfl
      exact ha

theorem apart_of_sep {S : Syntax} {is : List Item} {rest : List Arg} (hk : ∀ i ∈ is, i.Known S) (h : Sep is rest) : Apart is := by
  induction is with
  | nil => trivial
  | cons i is ih =>
    have hi := ih (fun j hj => hk j (by simp [hj])) h.2
    have h1 := h.1
    cases i with
    | list n vs =>
      cases is with
      | nil => exact hi
      | cons j js =>
        cases j with
        | word v => exact absurd (hk (.word v) (by simp)) (h1 n vs rfl)
        | _ => exact hi
    | _ => exact hi

end Ksusig
