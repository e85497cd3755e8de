import Verif.Model.DigestText
import Verif.Proofs.SignText

/-! Lines of the text of the digest command (for C124). -/

namespace Ksusig

open Spec

theorem DLine.region_inj {r r' : DigestRegion}
    (h : "  - ".toList ++ r.name.toList ++ " @ offset ".toList ++ decimal r.offset ++ " (".toList ++ decimal r.size ++ " bytes)".toList =
      "  - ".toList ++ r'.name.toList ++ " @ offset ".toList ++ decimal r'.offset ++ " (".toList ++ decimal r'.size ++ " bytes)".toList) :
    r = r' := by
  rw [show "  - ".toList = chars!"  - " from String.toList_ofList, show " @ offset ".toList = chars!" @ offset " from String.toList_ofList,
    show " (".toList = chars!" (" from String.toList_ofList, show " bytes)".toList = chars!" bytes)" from String.toList_ofList] at h
  have hd : ∀ (n : Nat) (c : Char), c.isDigit = false → c ∉ decimal n := fun n c hc h => by
    rw [decimal_digit h] at hc; cases hc
  have ha : ∀ o n : Nat, '@' ∉ chars!" offset " ++ (decimal o ++ ' ' :: '(' :: (decimal n ++ chars!" bytes)")) := by
    intro o n
    simp [hd o '@' (by decide), hd n '@' (by decide)]
  have h1 : (chars!"  - " ++ r.name.toList ++ [' ']) ++ '@' :: (chars!" offset " ++ (decimal r.offset ++ ' ' :: '(' :: (decimal r.size ++ chars!" bytes)"))) =
      (chars!"  - " ++ r'.name.toList ++ [' ']) ++ '@' :: (chars!" offset " ++ (decimal r'.offset ++ ' ' :: '(' :: (decimal r'.size ++ chars!" bytes)"))) := by
    simpa using h
  obtain ⟨h2, h3⟩ := last_at (ha _ _) (ha _ _) h1
  have hn : r.name.toList = r'.name.toList := by simpa using h2
  obtain ⟨h4, h5⟩ := first_at (hd _ ' ' (by decide)) (hd _ ' ' (by decide)) (List.append_cancel_left h3)
  rw [List.cons.injEq] at h5
  obtain ⟨h6, -⟩ := first_at (hd _ ' ' (by decide)) (hd _ ' ' (by decide)) h5.2
  cases r; cases r'
  simp only [DigestRegion.mk.injEq]
  exact ⟨String.toList_injective hn, decimal_inj h4, decimal_inj h6⟩

theorem dumped_inj {m n : Nat} {d : List Char} (h : "Dumped ".toList ++ decimal m ++ " bytes to ".toList ++ d =
    "Dumped ".toList ++ decimal n ++ " bytes to ".toList ++ d) : m = n := by
  simp only [List.append_assoc] at h
  have h := List.append_cancel_left h
  rw [← List.append_assoc, ← List.append_assoc] at h
  exact decimal_inj (List.append_cancel_right (List.append_cancel_right h))

/-- The line that tells which line it is: the last but for empty ones. -/
def DLine.tell (input dump : List Char) : DLine → List Char
  | .format .module => "Format: Module (ZIP)".toList
  | .format .elf => "Format: ELF".toList
  | l => (l.errText input dump).headD []

def DLine.kind : DLine → Nat
  | .format .module => 1
  | .format .elf => 2
  | .regions => 3
  | .region _ => 4
  | .total _ => 5
  | .algorithm false => 6
  | .algorithm true => 7
  | .digest _ => 9
  | .dumped _ => 8

/-- How the lines begin; 0 is the line with the name of the file. -/
def digestStart : List (List Char) :=
  [chars!"File: ", chars!"Format: M", chars!"Format: E", chars!"Sign", chars!"  - ", chars!"Tot", chars!"Algorithm: SHA-2",
    chars!"Algorithm: SHA-5", chars!"Dumped "]

theorem digestStart_apart : ∀ i, i < 9 → ∀ j, j < 9 → (digestStart.getD i []).isPrefixOf (digestStart.getD j []) = true → i = j := by
  decide +kernel

theorem dstarts_same {i j : Nat} {s : List Char} (hi : i < 9) (hj : j < 9) (h : digestStart.getD i [] <+: s) (h' : digestStart.getD j [] <+: s) :
    i = j := by
  rcases List.prefix_or_prefix_of_prefix h h' with h | h
  · exact digestStart_apart i hi j hj (List.isPrefixOf_iff_prefix.mpr h)
  · exact (digestStart_apart j hj i hi (List.isPrefixOf_iff_prefix.mpr h)).symm

theorem dkind_bound {l : DLine} (h : ∀ t, l ≠ .digest t) : l.kind < 9 ∧ l.kind ≠ 0 := by
  cases l with
  | format f => cases f <;> decide
  | algorithm b => cases b <;> decide
  | digest t => exact absurd rfl (h t)
  | _ => simp [DLine.kind]

theorem errText_shape (i d : List Char) {l : DLine} (h : ∀ t, l ≠ .digest t) : l.tell i d ∈ l.errText i d ∧
    digestStart.getD l.kind [] <+: l.tell i d ∧ ∀ s ∈ l.errText i d, s = l.tell i d ∨ s = [] ∨ digestStart.getD 0 [] <+: s := by
  have hf : digestStart.getD 0 [] <+: "File: ".toList ++ i := pre_lit (l := chars!"File: ") String.toList_ofList rfl
  cases l with
  | format f =>
    cases f with
    | module =>
      refine ⟨List.mem_cons_of_mem _ List.mem_cons_self, pre_lit0 (l := chars!"Format: Module (ZIP)") String.toList_ofList rfl, fun s hs => ?_⟩
      rcases List.mem_cons.mp hs with rfl | hs
      · exact .inr (.inr hf)
      · exact .inl (List.mem_singleton.mp hs)
    | elf =>
      refine ⟨List.mem_cons_of_mem _ List.mem_cons_self, pre_lit0 (l := chars!"Format: ELF") String.toList_ofList rfl, fun s hs => ?_⟩
      rcases List.mem_cons.mp hs with rfl | hs
      · exact .inr (.inr hf)
      · exact .inl (List.mem_singleton.mp hs)
  | regions =>
    exact ⟨List.mem_cons_self, pre_lit0 (l := chars!"Signable regions:") String.toList_ofList rfl, fun s hs => .inl (List.mem_singleton.mp hs)⟩
  | region r =>
    refine ⟨List.mem_cons_self, ?_, fun s hs => .inl (List.mem_singleton.mp hs)⟩
    show _ <+: _ ++ _ ++ _ ++ _ ++ _ ++ _ ++ _
    simp only [List.append_assoc]
    exact pre_lit (l := chars!"  - ") String.toList_ofList rfl
  | total n =>
    refine ⟨List.mem_cons_self, ?_, fun s hs => ?_⟩
    · show _ <+: _ ++ _ ++ _
      simp only [List.append_assoc]
      exact pre_lit (l := chars!"Total size: ") String.toList_ofList rfl
    · rcases List.mem_cons.mp hs with rfl | hs
      · exact .inl rfl
      · exact .inr (.inl (List.mem_singleton.mp hs))
  | algorithm b =>
    cases b with
    | false =>
      exact ⟨List.mem_cons_self, pre_lit0 (l := chars!"Algorithm: SHA-256") String.toList_ofList rfl, fun s hs => .inl (List.mem_singleton.mp hs)⟩
    | true =>
      exact ⟨List.mem_cons_self, pre_lit0 (l := chars!"Algorithm: SHA-512") String.toList_ofList rfl, fun s hs => .inl (List.mem_singleton.mp hs)⟩
  | digest t => exact absurd rfl (h t)
  | dumped n =>
    refine ⟨List.mem_cons_self, ?_, fun s hs => .inl (List.mem_singleton.mp hs)⟩
    show _ <+: _ ++ _ ++ _ ++ _
    simp only [List.append_assoc]
    exact pre_lit (l := chars!"Dumped ") String.toList_ofList rfl

theorem tell_inj {i d : List Char} {l l' : DLine} (hl : ∀ t, l ≠ .digest t) (hl' : ∀ t, l' ≠ .digest t) (h : l.tell i d = l'.tell i d) :
    l = l' := by
  have h1 := (errText_shape i d hl).2.1
  have h2 := (errText_shape i d hl').2.1
  have hk := dstarts_same (dkind_bound hl).1 (dkind_bound hl').1 h1 (h ▸ h2)
  clear h1 h2
  cases l with
  | region r =>
    cases l' with
    | region r' => rw [DLine.region_inj h]
    | format f => cases f <;> simp [DLine.kind] at hk
    | algorithm f => cases f <;> simp [DLine.kind] at hk
    | _ => simp [DLine.kind] at hk
  | total n =>
    cases l' with
    | total n' => rw [between_inj (show _ ++ decimal n ++ _ = _ ++ decimal n' ++ _ from h)]
    | format f => cases f <;> simp [DLine.kind] at hk
    | algorithm f => cases f <;> simp [DLine.kind] at hk
    | _ => simp [DLine.kind] at hk
  | dumped n =>
    cases l' with
    | dumped n' => rw [dumped_inj h]
    | format f => cases f <;> simp [DLine.kind] at hk
    | algorithm f => cases f <;> simp [DLine.kind] at hk
    | _ => simp [DLine.kind] at hk
  | digest t => exact absurd rfl (hl t)
  | format f =>
    cases l' with
    | format f' => cases f <;> cases f' <;> simp [DLine.kind] at hk <;> rfl
    | algorithm b => cases f <;> cases b <;> simp [DLine.kind] at hk
    | _ => cases f <;> simp [DLine.kind] at hk
  | algorithm b =>
    cases l' with
    | algorithm b' => cases b <;> cases b' <;> simp [DLine.kind] at hk <;> rfl
    | format f => cases f <;> cases b <;> simp [DLine.kind] at hk
    | _ => cases b <;> simp [DLine.kind] at hk
  | regions =>
    cases l' with
    | regions => rfl
    | format f => cases f <;> simp [DLine.kind] at hk
    | algorithm f => cases f <;> simp [DLine.kind] at hk
    | _ => simp [DLine.kind] at hk

theorem tell_mem {i d : List Char} {l l' : DLine} (hl : ∀ t, l ≠ .digest t) (h : l.tell i d ∈ l'.errText i d) : l = l' := by
  have hl' : ∀ t, l' ≠ .digest t := by rintro t rfl; cases h
  have h1 := (errText_shape i d hl).2.1
  have hb := dkind_bound hl
  rcases (errText_shape i d hl').2.2 _ h with h | h | h
  · exact tell_inj hl hl' h
  · rw [h] at h1
    exact absurd (List.prefix_nil.mp h1) ((show ∀ k, k < 9 → digestStart.getD k [] ≠ [] by decide) _ hb.1)
  · exact absurd (dstarts_same hb.1 (by decide) h1 h) hb.2

/-- The line with the name of the file. -/
theorem file_mem {i d n : List Char} {l : DLine} (h : "File: ".toList ++ n ∈ l.errText i d) : n = i ∧ ∃ f, l = .format f := by
  have hl : ∀ t, l ≠ .digest t := by rintro t rfl; cases h
  have hp : digestStart.getD 0 [] <+: "File: ".toList ++ n := pre_lit (l := chars!"File: ") String.toList_ofList rfl
  have h1 := (errText_shape i d hl).2.1
  have hb := dkind_bound hl
  have hne : "File: ".toList ++ n ≠ l.tell i d := fun he => hb.2 (dstarts_same hb.1 (by decide) h1 (he ▸ hp))
  clear h1 hb hp
  have hempty : "File: ".toList ++ n ≠ [] := by
    rw [show "File: ".toList = chars!"File: " from String.toList_ofList]
    exact nofun
  cases l with
  | format f =>
    refine ⟨?_, f, rfl⟩
    cases f with
    | module =>
      rcases List.mem_cons.mp h with h | h
      · exact List.append_cancel_left h
      · exact absurd (List.mem_singleton.mp h) hne
    | elf =>
      rcases List.mem_cons.mp h with h | h
      · exact List.append_cancel_left h
      · exact absurd (List.mem_singleton.mp h) hne
  | total t =>
    rcases List.mem_cons.mp h with h | h
    · exact absurd h hne
    · exact absurd (List.mem_singleton.mp h) hempty
  | algorithm b => cases b <;> exact absurd (List.mem_singleton.mp h) hne
  | digest t => exact absurd rfl (hl t)
  | _ => exact absurd (List.mem_singleton.mp h) hne

theorem dline_unbroken {i d : List Char} (hi : '\n' ∉ i) (hd : '\n' ∉ d) {l : DLine} (hr : ∀ r, l = .region r → '\n' ∉ r.name.toList) :
    ∀ s ∈ l.errText i d, '\n' ∉ s := by
  cases l with
  | region r =>
    have := hr r rfl
    simp only [DLine.errText, List.forall_mem_singleton]
    unbroken
  | format f =>
    cases f <;> simp only [DLine.errText, List.forall_mem_cons, List.not_mem_nil, false_implies, implies_true, and_true] <;>
      refine ⟨?_, ?_⟩ <;> unbroken
  | algorithm b => cases b <;> simp only [DLine.errText, List.forall_mem_singleton] <;> unbroken
  | total n =>
    simp only [DLine.errText, List.forall_mem_cons, List.not_mem_nil, false_implies, implies_true, and_true]
    refine ⟨?_, by simp⟩
    unbroken
  | digest t => nofun
  | _ =>
    simp only [DLine.errText, List.forall_mem_singleton]
    unbroken

theorem isLine_front {s x : List Char} {ls : List (List Char)} (h : s ∈ ls) (hs : '\n' ∉ s) : IsLine s (unlines ls ++ x) := by
  obtain ⟨a, b, rfl⟩ := List.append_of_mem h
  refine ⟨hs, unlines a, unlines b ++ x, by simp [unlines], ?_⟩
  rcases List.eq_nil_or_concat a with rfl | ⟨a', y, rfl⟩
  · exact .inl rfl
  · exact .inr ⟨unlines a' ++ y, by rw [List.concat_eq_append]; simp [unlines]⟩

end Ksusig
