import Verif.Model.SignText
import Verif.Proofs.Text
import Verif.Proofs.ElfSelect
import Verif.Props.Out

/-! Lines of the text of the sign command (for C123). -/

namespace Ksusig

open Spec

theorem decimal_inj {m n : Nat} (h : decimal m = decimal n) : m = n := by
  have := congrArg (fun l => Nat.ofDigitChars 10 l 0) h
  simpa [decimal, Nat.ofDigitChars_toDigits] using this

theorem decimal_digit {n : Nat} {c : Char} (h : c ∈ decimal n) : c.isDigit = true := Nat.isDigit_of_mem_toDigits (by decide) (by decide) h

/-- The place of a character that is not in front of it. -/
theorem first_at {c : Char} : ∀ {a b r s : List Char}, c ∉ a → c ∉ b → a ++ c :: r = b ++ c :: s → a = b ∧ r = s
  | [], [], _, _, _, _, h => ⟨rfl, by simpa using h⟩
  | [], x :: b, _, _, _, hb, h => by
    simp only [List.nil_append, List.cons_append, List.cons.injEq] at h
    exact absurd (h.1 ▸ List.mem_cons_self) hb
  | x :: a, [], _, _, ha, _, h => by
    simp only [List.nil_append, List.cons_append, List.cons.injEq] at h
    exact absurd (h.1 ▸ List.mem_cons_self) ha
  | x :: a, y :: b, _, _, ha, hb, h => by
    simp only [List.cons_append, List.cons.injEq] at h
    obtain ⟨h1, h2⟩ := first_at (fun h => ha (List.mem_cons_of_mem _ h)) (fun h => hb (List.mem_cons_of_mem _ h)) h.2
    exact ⟨by rw [h.1, h1], h2⟩

theorem last_at {c : Char} {a b r s : List Char} (hr : c ∉ r) (hs : c ∉ s) (h : a ++ c :: r = b ++ c :: s) : a = b ∧ r = s := by
  have h' := congrArg List.reverse h
  simp only [List.reverse_append, List.reverse_cons, List.append_assoc, List.singleton_append] at h'
  obtain ⟨h1, h2⟩ := first_at (by simpa using hr) (by simpa using hs) h'
  exact ⟨List.reverse_inj.mp h2, List.reverse_inj.mp h1⟩

/-- The line of a region tells the region. -/
theorem region_inj {r r' : DigestRegion} (h : "  - ".toList ++ r.name.toList ++ " @ ".toList ++ decimal r.offset ++ " (".toList ++ decimal r.size ++ " bytes)".toList =
    "  - ".toList ++ r'.name.toList ++ " @ ".toList ++ decimal r'.offset ++ " (".toList ++ decimal r'.size ++ " bytes)".toList) : r = r' := by
  rw [show "  - ".toList = chars!"  - " from String.toList_ofList, show " @ ".toList = chars!" @ " from String.toList_ofList,
    show " (".toList = chars!" (" from String.toList_ofList, show " bytes)".toList = chars!" bytes)" from String.toList_ofList] at h
  have hd : ∀ (n : Nat) (c : Char), c.isDigit = false → c ∉ decimal n := fun n c hc h => by
    rw [decimal_digit h] at hc; cases hc
  have ha : ∀ o n : Nat, '@' ∉ ' ' :: (decimal o ++ ' ' :: '(' :: (decimal n ++ chars!" bytes)")) := by
    intro o n
    simp [hd o '@' (by decide), hd n '@' (by decide)]
  have h1 : (chars!"  - " ++ r.name.toList ++ [' ']) ++ '@' :: ' ' :: (decimal r.offset ++ ' ' :: '(' :: (decimal r.size ++ chars!" bytes)")) =
      (chars!"  - " ++ r'.name.toList ++ [' ']) ++ '@' :: ' ' :: (decimal r'.offset ++ ' ' :: '(' :: (decimal r'.size ++ chars!" bytes)")) := by
    simpa using h
  obtain ⟨h2, h3⟩ := last_at (ha _ _) (ha _ _) h1
  have hn : r.name.toList = r'.name.toList := by simpa using h2
  rw [List.cons.injEq] at h3
  obtain ⟨h4, h5⟩ := first_at (hd _ ' ' (by decide)) (hd _ ' ' (by decide)) h3.2
  rw [List.cons.injEq] at h5
  obtain ⟨h6, -⟩ := first_at (hd _ ' ' (by decide)) (hd _ ' ' (by decide)) h5.2
  cases r; cases r'
  simp only [DigestRegion.mk.injEq]
  exact ⟨String.toList_injective hn, decimal_inj h4, decimal_inj h6⟩

/-- The kinds of lines, by how they begin. -/
def SLine.kind : SLine → Nat
  | .start => 0
  | .v2Key => 3
  | .stampKey => 4
  | .format .module => 5
  | .format .elf => 6
  | .regions => 7
  | .region _ => 8
  | .count _ => 9
  | .calculating => 10
  | .hashing _ => 8
  | .digestsDone => 11
  | .signing => 12
  | .complete _ => 13
  | .writing => 14
  | .success => 15

/-- How they begin; 1, 2 and 16 are the lines with the names of the files. -/
def signStart : List (List Char) :=
  [chars!"Signing module", chars!"Input: ", chars!"Output: ", chars!"✓ V2", chars!"✓ So", chars!"✓ 检测到模", chars!"✓ 检测到 E", chars!"待",
    chars!"  - ", chars!"ℹ", chars!"Calc", chars!"✓ Dig", chars!"Signing...", chars!"✓ Signing c", chars!"Writ", chars!"✓ Signing s",
    chars!"Output f"]

theorem signStart_apart : ∀ i, i < 17 → ∀ j, j < 17 → (signStart.getD i []).isPrefixOf (signStart.getD j []) = true → i = j := by decide +kernel

theorem starts_same {i j : Nat} {s : List Char} (hi : i < 17) (hj : j < 17) (h : signStart.getD i [] <+: s) (h' : signStart.getD j [] <+: s) :
    i = j := by
  rcases List.prefix_or_prefix_of_prefix h h' with h | h
  · exact signStart_apart i hi j hj (List.isPrefixOf_iff_prefix.mpr h)
  · exact (signStart_apart j hj i hi (List.isPrefixOf_iff_prefix.mpr h)).symm

theorem kind_bound (l : SLine) : l.kind < 17 ∧ l.kind ≠ 1 ∧ l.kind ≠ 2 ∧ l.kind ≠ 16 := by
  cases l with
  | format f => cases f <;> decide
  | _ => simp [SLine.kind]

/-- The first line of a text. -/
def SLine.first (input output : List Char) (l : SLine) : List Char := (l.text input output).headD []

theorem pre_lit {s : String} {x l p : List Char} (h : s.toList = l) (hp : p.isPrefixOf (l ++ x) = true) : p <+: s.toList ++ x :=
  h ▸ List.isPrefixOf_iff_prefix.mp hp

theorem pre_lit0 {s : String} {l p : List Char} (h : s.toList = l) (hp : p.isPrefixOf l = true) : p <+: s.toList :=
  h ▸ List.isPrefixOf_iff_prefix.mp hp

theorem text_shape (i o : List Char) (l : SLine) : ∃ rest, l.text i o = l.first i o :: rest ∧ signStart.getD l.kind [] <+: l.first i o ∧
    ∀ s ∈ rest, s = [] ∨ ∃ k, (k = 1 ∨ k = 2 ∨ k = 16) ∧ signStart.getD k [] <+: s := by
  cases l with
  | start =>
    refine ⟨_, rfl, pre_lit0 (l := chars!"Signing module file...") String.toList_ofList rfl, ?_⟩
    intro s hs
    simp only [List.mem_cons, List.not_mem_nil, or_false] at hs
    rcases hs with rfl | rfl | rfl
    · exact .inr ⟨1, .inl rfl, pre_lit (l := chars!"Input: ") String.toList_ofList rfl⟩
    · exact .inr ⟨2, .inr (.inl rfl), pre_lit (l := chars!"Output: ") String.toList_ofList rfl⟩
    · exact .inl rfl
  | success =>
    refine ⟨_, rfl, pre_lit0 (l := chars!"✓ Signing successful!") String.toList_ofList rfl, ?_⟩
    intro s hs
    simp only [List.mem_cons, List.not_mem_nil, or_false] at hs
    subst hs
    exact .inr ⟨16, .inr (.inr rfl), pre_lit (l := chars!"Output file: ") String.toList_ofList rfl⟩
  | v2Key => exact ⟨_, rfl, pre_lit0 (l := chars!"✓ V2 signing key loaded") String.toList_ofList rfl, nofun⟩
  | stampKey => exact ⟨_, rfl, pre_lit0 (l := chars!"✓ Source Stamp key loaded") String.toList_ofList rfl, nofun⟩
  | format f =>
    cases f with
    | module => exact ⟨_, rfl, pre_lit0 (l := chars!"✓ 检测到模块（ZIP）文件") String.toList_ofList rfl, nofun⟩
    | elf => exact ⟨_, rfl, pre_lit0 (l := chars!"✓ 检测到 ELF 文件") String.toList_ofList rfl, nofun⟩
  | regions => exact ⟨_, rfl, pre_lit0 (l := chars!"待签名区域:") String.toList_ofList rfl, nofun⟩
  | region r =>
    refine ⟨_, rfl, ?_, nofun⟩
    show _ <+: _ ++ _ ++ _ ++ _ ++ _ ++ _ ++ _
    simp only [List.append_assoc]
    exact pre_lit (l := chars!"  - ") String.toList_ofList rfl
  | count n =>
    refine ⟨_, rfl, ?_, nofun⟩
    show _ <+: _ ++ _ ++ _
    simp only [List.append_assoc]
    exact pre_lit (l := chars!"ℹ 需要计算 ") String.toList_ofList rfl
  | calculating => exact ⟨_, rfl, pre_lit0 (l := chars!"Calculating digests...") String.toList_ofList rfl, nofun⟩
  | hashing a =>
    refine ⟨_, rfl, ?_, nofun⟩
    show _ <+: _ ++ _ ++ _
    simp only [List.append_assoc]
    exact pre_lit (l := chars!"  - 计算 ") String.toList_ofList rfl
  | digestsDone => exact ⟨_, rfl, pre_lit0 (l := chars!"✓ Digest calculation complete") String.toList_ofList rfl, nofun⟩
  | signing => exact ⟨_, rfl, pre_lit0 (l := chars!"Signing...") String.toList_ofList rfl, nofun⟩
  | complete n =>
    refine ⟨_, rfl, ?_, nofun⟩
    show _ <+: _ ++ _ ++ _
    simp only [List.append_assoc]
    exact pre_lit (l := chars!"✓ Signing complete (signing block size: ") String.toList_ofList rfl
  | writing => exact ⟨_, rfl, pre_lit0 (l := chars!"Writing signed module...") String.toList_ofList rfl, nofun⟩

theorem between_inj {p q : List Char} {m n : Nat} (h : p ++ decimal m ++ q = p ++ decimal n ++ q) : m = n := by
  rw [List.append_assoc, List.append_assoc] at h
  exact decimal_inj (List.append_cancel_right (List.append_cancel_left h))

/-- The first line tells which line it is. -/
theorem first_inj {i o : List Char} {l l' : SLine} (h : l.first i o = l'.first i o) : l = l' := by
  obtain ⟨_, -, h1, -⟩ := text_shape i o l
  obtain ⟨_, -, h2, -⟩ := text_shape i o l'
  have hk := starts_same (kind_bound l).1 (kind_bound l').1 h1 (h ▸ h2)
  have last : ∀ (r : DigestRegion) (a : Algo), (SLine.region r).first i o ≠ (SLine.hashing a).first i o := by
    intro r a he
    have hx : ∀ x y : List Char, x ++ " bytes)".toList ≠ y ++ " digest...".toList := by
      intro x y h
      have := congrArg List.getLast? h
      rw [show " bytes)".toList = chars!" bytes)" from String.toList_ofList,
        show " digest...".toList = chars!" digest..." from String.toList_ofList, List.getLast?_append, List.getLast?_append] at this
      simp at this
    exact hx _ _ he
  clear h1 h2
  cases l with
  | region r =>
    cases l' with
    | region r' => rw [region_inj h]
    | hashing a => exact absurd h (last r a)
    | format f => cases f <;> simp [SLine.kind] at hk
    | _ => simp [SLine.kind] at hk
  | hashing a =>
    cases l' with
    | hashing a' =>
      have h' : "  - 计算 ".toList ++ a.display ++ " digest...".toList = "  - 计算 ".toList ++ a'.display ++ " digest...".toList := h
      rw [List.append_assoc, List.append_assoc] at h'
      rw [(Props.C11_display a).2.2 a' (List.append_cancel_right (List.append_cancel_left h'))]
    | region r => exact absurd h.symm (last r a)
    | format f => cases f <;> simp [SLine.kind] at hk
    | _ => simp [SLine.kind] at hk
  | count n =>
    cases l' with
    | count n' => rw [between_inj (show _ ++ decimal n ++ _ = _ ++ decimal n' ++ _ from h)]
    | format f => cases f <;> simp [SLine.kind] at hk
    | _ => simp [SLine.kind] at hk
  | complete n =>
    cases l' with
    | complete n' => rw [between_inj (show _ ++ decimal n ++ _ = _ ++ decimal n' ++ _ from h)]
    | format f => cases f <;> simp [SLine.kind] at hk
    | _ => simp [SLine.kind] at hk
  | format f =>
    cases l' with
    | format f' => cases f <;> cases f' <;> simp [SLine.kind] at hk <;> rfl
    | _ => cases f <;> simp [SLine.kind] at hk
  | _ =>
    cases l' with
    | format f => cases f <;> simp [SLine.kind] at hk
    | _ => first | rfl | simp [SLine.kind] at hk

/-- The first line of a text is in no other text. -/
theorem first_mem {i o : List Char} {l l' : SLine} (h : l.first i o ∈ l'.text i o) : l = l' := by
  obtain ⟨_, -, h1, -⟩ := text_shape i o l
  obtain ⟨rest, h2, -, h4⟩ := text_shape i o l'
  rw [h2] at h
  rcases List.mem_cons.mp h with h | h
  · exact first_inj h
  · obtain ⟨hb, n1, n2, n3⟩ := kind_bound l
    rcases h4 _ h with h | ⟨k, hk, h⟩
    · rw [h] at h1
      have : signStart.getD l.kind [] = [] := List.prefix_nil.mp h1
      exact absurd this ((show ∀ k, k < 17 → signStart.getD k [] ≠ [] by decide) _ hb)
    · have := starts_same hb (by omega) h1 h
      omega

/-- A list of lines is determined by its text. -/
theorem texts_inj {i o : List Char} : ∀ {a b : List SLine}, a.flatMap (SLine.text i o) = b.flatMap (SLine.text i o) → a = b
  | [], [], _ => rfl
  | [], l :: b, h => by
    obtain ⟨_, h2, -, -⟩ := text_shape i o l
    simp [h2] at h
  | l :: a, [], h => by
    obtain ⟨_, h2, -, -⟩ := text_shape i o l
    simp [h2] at h
  | l :: a, l' :: b, h => by
    have hl : l = l' := by
      obtain ⟨_, h1, -, -⟩ := text_shape i o l
      obtain ⟨_, h2, -, -⟩ := text_shape i o l'
      rw [List.flatMap_cons, List.flatMap_cons, h1, h2, List.cons_append, List.cons_append, List.cons.injEq] at h
      exact first_inj h.1
    subst hl
    rw [List.flatMap_cons, List.flatMap_cons] at h
    rw [texts_inj (List.append_cancel_left h)]

theorem unlines_inj : ∀ {a b : List (List Char)}, (∀ l ∈ a, '\n' ∉ l) → (∀ l ∈ b, '\n' ∉ l) → unlines a = unlines b → a = b
  | [], [], _, _, _ => rfl
  | [], l :: b, _, _, h => by simp [unlines] at h
  | l :: a, [], _, _, h => by simp [unlines] at h
  | l :: a, l' :: b, ha, hb, h => by
    have h' : l ++ '\n' :: unlines a = l' ++ '\n' :: unlines b := by simpa [unlines] using h
    obtain ⟨h1, h2⟩ := first_break (ha l List.mem_cons_self) (hb l' List.mem_cons_self) h'
    rw [h1, unlines_inj (fun x hx => ha x (List.mem_cons_of_mem _ hx)) (fun x hx => hb x (List.mem_cons_of_mem _ hx)) h2]

theorem sline_unbroken {i o : List Char} (hi : '\n' ∉ i) (ho : '\n' ∉ o) {l : SLine} (hr : ∀ r, l = .region r → '\n' ∉ r.name.toList) :
    ∀ s ∈ l.text i o, '\n' ∉ s := by
  have hd : ∀ a : Algo, '\n' ∉ a.display := display_unbroken
  cases l with
  | region r =>
    have := hr r rfl
    simp only [SLine.text, List.forall_mem_singleton]
    unbroken
  | hashing a =>
    have := hd a
    simp only [SLine.text, List.forall_mem_singleton]
    unbroken
  | format f =>
    cases f <;> simp only [SLine.text, List.forall_mem_singleton] <;> unbroken
  | start =>
    simp only [SLine.text, List.forall_mem_cons, List.not_mem_nil, false_implies, implies_true, and_true]
    refine ⟨?_, ?_, ?_, by simp⟩ <;> unbroken
  | success =>
    simp only [SLine.text, List.forall_mem_cons, List.not_mem_nil, false_implies, implies_true, and_true]
    refine ⟨?_, ?_⟩ <;> unbroken
  | _ =>
    simp only [SLine.text, List.forall_mem_singleton]
    unbroken

end Ksusig
