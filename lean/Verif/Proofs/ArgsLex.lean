import Verif.Proofs.Args

/-!
# Reading command lines: every command line is parts, and then an end
-/

namespace Ksusig

open Spec

/-- An argument that may ask for help. -/
def MayHelp (S : Syntax) (t : Arg) : Prop :=
  t = "--help".toList ∨ (∃ rest, t = '-' :: 'h' :: rest) ∨ ∃ c n rest, (c, n) ∈ S.shorts ∧ t = '-' :: c :: 'h' :: rest

/-- How the arguments of a command can end. -/
inductive Final (d : CmdDef) (S : Syntax) : List Arg → Prop where
  | nil : Final d S []
  | more : Final d S (['-', '-'] :: more)
  | help : MayHelp S t → Final d S (t :: ts)
  | bad : (∀ s, scan d s .any rest = .usage) → Stops rest → Final d S rest

theorem Final.stops {d : CmdDef} {S : Syntax} {rest : List Arg} (h : Final d S rest) : Stops rest := by
  cases h with
  | nil => trivial
  | more => rintro (h | h) <;> simp at h
  | help h =>
    rcases h with rfl | ⟨r, rfl⟩ | ⟨c, n, r, _, rfl⟩ <;> (rintro (h | h) <;> simp at h)
  | bad _ h => exact h

theorem shortsOf_inv {t : Arg} {cs : List Char} (h : shortsOf t = some cs) : t = '-' :: cs ∧ ∃ c cs', cs = c :: cs' ∧ c ≠ '-' := by
  unfold shortsOf at h
  split at h
  · split at h
    · cases h
    · rename_i c cs' hc
      cases h
      exact ⟨rfl, c, cs', rfl, hc⟩
  · cases h

theorem switch_twice {s s1 : Scan} {n : Arg} (h : s.switch n = some s1) : s1.switch n = none := by
  unfold Scan.switch at h
  split at h
  · cases h
  · cases h
    simp [Scan.switch]

theorem decomp {d : CmdDef} {S : Syntax} (A : Agrees d S) : ∀ (k : Nat) (args : List Arg), args.length ≤ k →
    ∃ is rest, args = is.flatMap Item.args ++ rest ∧ (∀ i ∈ is, i.Known S) ∧ Sep is rest ∧ Final d S rest := by
  intro k
  induction k with
  | zero =>
    intro args h
    cases args with
    | nil => exact ⟨[], [], rfl, by simp, trivial, .nil⟩
    | cons t ts => simp at h
  | succ k ih =>
    intro args hlen
    cases args with
    | nil => exact ⟨[], [], rfl, by simp, trivial, .nil⟩
    | cons t ts =>
      have hts : ts.length ≤ k := by simpa using hlen
      have here : Final d S (t :: ts) → ∃ is rest, t :: ts = is.flatMap Item.args ++ rest ∧ (∀ i ∈ is, i.Known S) ∧ Sep is rest ∧ Final d S rest :=
        fun h => ⟨[], t :: ts, rfl, by simp, trivial, h⟩
      have step : ∀ (i : Item) (ts' : List Arg), t :: ts = i.args ++ ts' → i.Known S → (∀ n vs, i = .list n vs → Stops ts') → ts'.length ≤ k →
          ∃ is rest, t :: ts = is.flatMap Item.args ++ rest ∧ (∀ i ∈ is, i.Known S) ∧ Sep is rest ∧ Final d S rest := by
        intro i ts' he hk hs hl
        obtain ⟨is, rest, h1, h2, h3, h4⟩ := ih ts' hl
        refine ⟨i :: is, rest, ?_, ?_, ⟨?_, h3⟩, h4⟩
        · rw [he, h1, List.flatMap_cons, List.append_assoc]
        · intro j hj
          rcases List.mem_cons.mp hj with rfl | hj
          · exact hk
          · exact h2 j hj
        · intro n vs e
          rw [← h1]
          exact hs n vs e
      by_cases hd : t = "--".toList
      · subst hd
        exact here .more
      · cases hlo : longOf t with
        | some x =>
          obtain ⟨name, att⟩ := x
          have hstop : Stops (t :: ts) := fun hno => by
            rw [(noOption_iff.mp hno).1] at hlo
            cases hlo
          have bad : (∀ s, scan d s .any (t :: ts) = .usage) → _ := fun h => here (.bad h hstop)
          by_cases hhelp : name = "help".toList
          · subst hhelp
            cases att with
            | none =>
              obtain ⟨rfl, _⟩ := longOf_none_inv hlo
              exact here (.help (.inl rfl))
            | some v =>
              refine bad fun s => ?_
              rw [scan, if_neg hd, hlo]
              dsimp only [Expect.close]
              rw [if_pos rfl]
          · by_cases hsw : name ∈ d.switches
            · cases att with
              | none =>
                obtain ⟨rfl, _⟩ := longOf_none_inv hlo
                obtain ⟨n, hn, rfl⟩ := (A.switches _).mp hsw
                exact step (.switch n) ts rfl hn nofun hts
              | some v =>
                refine bad fun s => ?_
                rw [scan, if_neg hd, hlo]
                dsimp only [Expect.close]
                rw [if_neg hhelp, if_pos hsw]
            · cases hv : d.values.lookup name with
              | some ok =>
                have hn : ∃ n ∈ S.values, n.toList = name := by
                  refine Classical.byContradiction fun hc => ?_
                  rw [(A.values name).mpr hc] at hv
                  cases hv
                obtain ⟨n, hn, rfl⟩ := hn
                cases att with
                | some v =>
                  obtain ⟨rfl, _⟩ := longOf_some_inv hlo
                  exact step (.valueAt n v) ts rfl hn nofun hts
                | none =>
                  cases ts with
                  | nil =>
                    refine bad fun s => ?_
                    rw [scan, if_neg hd, hlo]
                    dsimp only [Expect.close]
                    rw [if_neg hhelp, if_neg hsw, hv]
                    rfl
                  | cons v ts' =>
                    by_cases hno : NoOption v
                    · obtain ⟨rfl, _⟩ := longOf_none_inv hlo
                      exact step (.value n v) ts' rfl ⟨hn, hno⟩ nofun (by simp at hts; omega)
                    · refine bad fun s => ?_
                      rw [scan, if_neg hd, hlo]
                      dsimp only [Expect.close]
                      rw [if_neg hhelp, if_neg hsw, hv]
                      dsimp only
                      rw [scan]
                      by_cases hd' : v = "--".toList
                      · rw [if_pos hd']; rfl
                      · rw [if_neg hd']
                        cases h1 : longOf v with
                        | some x => rfl
                        | none =>
                          cases h2 : shortsOf v with
                          | some x => rfl
                          | none => exact absurd (noOption_iff.mpr ⟨h1, h2⟩) hno
              | none =>
                by_cases hli : name ∈ d.lists
                · obtain ⟨n, hn, rfl⟩ := (A.lists _).mp hli
                  cases att with
                  | some v =>
                    obtain ⟨rfl, _⟩ := longOf_some_inv hlo
                    exact step (.listAt n v) ts rfl hn nofun hts
                  | none =>
                    obtain ⟨rfl, _⟩ := longOf_none_inv hlo
                    have hsplit : ∀ l : List Arg, ∃ vs l', l = vs ++ l' ∧ (∀ v ∈ vs, NoOption v) ∧ Stops l' := by
                      intro l
                      induction l with
                      | nil => exact ⟨[], [], rfl, by simp, trivial⟩
                      | cons v l ihl =>
                        by_cases hno : NoOption v
                        · obtain ⟨vs, l', e, h1, h2⟩ := ihl
                          refine ⟨v :: vs, l', by rw [e]; rfl, ?_, h2⟩
                          intro w hw
                          rcases List.mem_cons.mp hw with rfl | hw
                          · exact hno
                          · exact h1 w hw
                        · exact ⟨[], v :: l, rfl, by simp, hno⟩
                    obtain ⟨vs, ts', rfl, h1, h2⟩ := hsplit ts
                    exact step (.list n vs) ts' rfl ⟨hn, h1⟩ (fun _ _ _ => h2) (by simp at hts; omega)
                · refine bad fun s => ?_
                  rw [scan, if_neg hd, hlo]
                  dsimp only [Expect.close]
                  rw [if_neg hhelp, if_neg hsw, hv]
                  dsimp only
                  rw [if_neg hli]
        | none =>
          cases hsh : shortsOf t with
          | some cs =>
            have hstop : Stops (t :: ts) := fun hno => by
              rw [(noOption_iff.mp hno).2] at hsh
              cases hsh
            have bad : (∀ s, scan d s .any (t :: ts) = .usage) → _ := fun h => here (.bad h hstop)
            have hscan : ∀ s, scan d s .any (t :: ts) =
                match scanShorts d s cs with | .done s => scan d s .any ts | .usage => .usage | .help => .help := by
              intro s
              rw [scan, if_neg hd, hlo, hsh]
              dsimp only [Expect.close]
              cases scanShorts d s cs <;> rfl
            obtain ⟨rfl, c, cs', rfl, hc⟩ := shortsOf_inv hsh
            by_cases hh : c = 'h'
            · subst hh
              exact here (.help (.inr (.inl ⟨cs', rfl⟩)))
            · cases hl : d.shorts.lookup c with
              | none =>
                refine bad fun s => ?_
                rw [hscan, scanShorts, if_neg hh, hl]
              | some name =>
                obtain ⟨n, hn, rfl⟩ := (A.shorts _ _).mp hl
                cases cs' with
                | nil => exact step (.short c n) ts rfl hn nofun hts
                | cons c2 cs2 =>
                  by_cases hh2 : c2 = 'h'
                  · subst hh2
                    exact here (.help (.inr (.inr ⟨c, n, cs2, hn, rfl⟩)))
                  · refine bad fun s => ?_
                    rw [hscan, scanShorts, if_neg hh, hl]
                    dsimp only
                    cases hs1 : s.switch n.toList with
                    | none => rfl
                    | some s1 =>
                      dsimp only
                      rw [scanShorts, if_neg hh2]
                      cases hl2 : d.shorts.lookup c2 with
                      | none => rfl
                      | some name2 =>
                        obtain ⟨n2, hn2, rfl⟩ := (A.shorts _ _).mp hl2
                        obtain ⟨_, rfl⟩ := A.shortOne _ _ _ _ hn hn2
                        dsimp only
                        rw [switch_twice hs1]
          | none => exact step (.word t) ts rfl (noOption_iff.mpr ⟨hlo, hsh⟩) nofun hts

theorem scan_dd {d : CmdDef} {s : Scan} {more : List Arg} : scan d s .any (['-', '-'] :: more) = scanWords d s more := by
  rw [scan, if_pos (by decide)]
  rfl

theorem longOf_short {c : Char} {r : Arg} (h : c ≠ '-') : longOf ('-' :: c :: r) = none := by
  unfold longOf
  split
  · rename_i heq
    simp only [List.cons.injEq, true_and] at heq
    exact absurd heq.1 h
  · rfl

/-- When all is read. -/
theorem scan_done {d : CmdDef} {S : Syntax} (A : Agrees d S) {args : List Arg} {s s' : Scan} :
    scan d s .any args = .done s' ↔ ∃ is more s1, (args = is.flatMap Item.args ++ (['-', '-'] :: more) ∨ (more = [] ∧ args = is.flatMap Item.args)) ∧
      (∀ i ∈ is, i.Known S) ∧ Apart is ∧ feedAll d s is = some s1 ∧ scanWords d s1 more = .done s' := by
  constructor
  · intro h
    obtain ⟨is, rest, rfl, hk, hs, hf⟩ := decomp A _ args (Nat.le_refl _)
    rw [scan_items A hk hs] at h
    cases hfe : feedAll d s is with
    | none => rw [hfe] at h; cases h
    | some s1 =>
      rw [hfe] at h
      dsimp only at h
      cases hf with
      | nil =>
        refine ⟨is, [], s1, .inr ⟨rfl, by simp⟩, hk, apart_of_sep hk hs, hfe, h⟩
      | more => exact ⟨is, _, s1, .inl rfl, hk, apart_of_sep hk hs, hfe, scan_dd ▸ h⟩
      | help hh =>
        exfalso
        rename_i t ts
        rcases hh with rfl | ⟨r, rfl⟩ | ⟨c, n, r, hn, rfl⟩
        · rw [scan, if_neg (by decide)] at h
          have : longOf "--help".toList = some ("help".toList, none) := by decide
          rw [this] at h
          cases h
        · rw [scan, if_neg (fun he => by cases (show ('-' :: 'h' :: r : Arg) = ['-', '-'] from he)), longOf_short (by decide)] at h
          simp only [shortsOf, if_neg (show ¬ 'h' = '-' by decide), Expect.close, scanShorts, if_pos] at h
          cases h
        · obtain ⟨h1, h2, _⟩ := A.shortOk _ _ hn
          have hl : longOf ('-' :: c :: 'h' :: r) = none := by
            unfold longOf
            split
            · rename_i heq
              simp only [List.cons.injEq, true_and] at heq
              exact absurd heq.1 h1
            · rfl
          rw [scan, if_neg (fun he => by cases (show ('-' :: c :: 'h' :: r : Arg) = ['-', '-'] from he)), hl] at h
          simp only [shortsOf, if_neg h1, Expect.close, scanShorts, if_neg h2, (A.shorts _ _).mpr ⟨n, hn, rfl⟩, if_pos] at h
          cases hsw : s1.switch n.toList with
          | none => rw [hsw] at h; cases h
          | some s2 => rw [hsw] at h; cases h
      | bad hb _ => rw [hb] at h; cases h
  · rintro ⟨is, more, s1, hw, hk, ha, hfe, hdone⟩
    rcases hw with rfl | ⟨rfl, rfl⟩
    · rw [scan_items A hk (sep_of_apart ha (Final.more (d := d) (S := S)).stops), hfe]
      dsimp only
      rw [scan_dd]
      exact hdone
    · have := scan_items A (s := s) hk (sep_of_apart ha (rest := []) trivial)
      rw [List.append_nil] at this
      rw [this, hfe]
      exact hdone

/-- When help is shown. -/
theorem scan_help {d : CmdDef} {S : Syntax} (A : Agrees d S) {args : List Arg} {s : Scan} :
    scan d s .any args = .help ↔ ∃ is t rest s1, args = is.flatMap Item.args ++ t :: rest ∧
      (∀ i ∈ is, i.Known S) ∧ Apart is ∧ feedAll d s is = some s1 ∧ (t = "--help".toList ∨ (∃ r, t = '-' :: 'h' :: r) ∨
        ∃ c n r, (c, n) ∈ S.shorts ∧ s1.given.any (·.1 == n.toList) = false ∧ t = '-' :: c :: 'h' :: r) := by
  have shape : ∀ (s1 : Scan) t ts, (t = "--help".toList ∨ (∃ r, t = '-' :: 'h' :: r) ∨
        ∃ c n r, (c, n) ∈ S.shorts ∧ s1.given.any (·.1 == n.toList) = false ∧ t = '-' :: c :: 'h' :: r) →
      scan d s1 .any (t :: ts) = .help := by
    rintro s1 t ts (rfl | ⟨r, rfl⟩ | ⟨c, n, r, hn, hg, rfl⟩)
    · rw [scan, if_neg (by decide)]
      have : longOf "--help".toList = some ("help".toList, none) := by decide
      rw [this]
      rfl
    · rw [scan, if_neg (fun he => by cases (show ('-' :: 'h' :: r : Arg) = ['-', '-'] from he)), longOf_short (by decide)]
      simp only [shortsOf, if_neg (show ¬ 'h' = '-' by decide), Expect.close, scanShorts, if_pos]
    · obtain ⟨h1, h2, _⟩ := A.shortOk _ _ hn
      have hl : longOf ('-' :: c :: 'h' :: r) = none := by
        unfold longOf
        split
        · rename_i heq
          simp only [List.cons.injEq, true_and] at heq
          exact absurd heq.1 h1
        · rfl
      rw [scan, if_neg (fun he => by cases (show ('-' :: c :: 'h' :: r : Arg) = ['-', '-'] from he)), hl]
      simp only [shortsOf, if_neg h1, Expect.close, scanShorts, if_neg h2, (A.shorts _ _).mpr ⟨n, hn, rfl⟩, if_pos, Scan.switch, hg,
        Bool.false_eq_true, if_false]
  constructor
  · intro h
    obtain ⟨is, rest, rfl, hk, hs, hf⟩ := decomp A _ args (Nat.le_refl _)
    rw [scan_items A hk hs] at h
    cases hfe : feedAll d s is with
    | none => rw [hfe] at h; cases h
    | some s1 =>
      rw [hfe] at h
      dsimp only at h
      cases hf with
      | nil => cases h
      | more =>
        rename_i more
        rw [scan_dd] at h
        exfalso
        have : ∀ (l : List Arg) s, scanWords d s l ≠ .help := by
          intro l
          induction l with
          | nil => intro s h; cases h
          | cons a l ih =>
            intro s h
            rw [scanWords] at h
            cases hw : s.word d a with
            | none => rw [hw] at h; cases h
            | some s2 => rw [hw] at h; exact ih _ h
        exact this _ _ h
      | help hh =>
        rename_i t ts
        refine ⟨is, t, ts, s1, rfl, hk, apart_of_sep hk hs, hfe, ?_⟩
        rcases hh with rfl | ⟨r, rfl⟩ | ⟨c, n, r, hn, rfl⟩
        · exact .inl rfl
        · exact .inr (.inl ⟨r, rfl⟩)
        · refine .inr (.inr ⟨c, n, r, hn, ?_, rfl⟩)
          obtain ⟨h1, h2, _⟩ := A.shortOk _ _ hn
          have hl : longOf ('-' :: c :: 'h' :: r) = none := by
            unfold longOf
            split
            · rename_i heq
              simp only [List.cons.injEq, true_and] at heq
              exact absurd heq.1 h1
            · rfl
          rw [scan, if_neg (fun he => by cases (show ('-' :: c :: 'h' :: r : Arg) = ['-', '-'] from he)), hl] at h
          simp only [shortsOf, if_neg h1, Expect.close, scanShorts, if_neg h2, (A.shorts _ _).mpr ⟨n, hn, rfl⟩, if_pos] at h
          cases hg : s1.given.any (·.1 == n.toList) with
          | false => rfl
          | true =>
            simp only [Scan.switch, hg, if_true] at h
            cases h
      | bad hb _ => rw [hb] at h; cases h
  · rintro ⟨is, t, rest, s1, rfl, hk, ha, hfe, ht⟩
    have hst : Stops (t :: rest) := by
      rcases ht with rfl | ⟨r, rfl⟩ | ⟨c, n, r, _, _, rfl⟩ <;> (rintro (h | h) <;> simp at h)
    rw [scan_items A hk (sep_of_apart ha hst), hfe]
    exact shape s1 t rest ht

end Ksusig
