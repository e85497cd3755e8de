import Verif.Model.BlockText
import Verif.SpecBlockText
import Verif.Proofs.SignText

/-! Lines of the text of a signing block (for C127). -/

namespace Ksusig

open Spec Props

/-! ## Numbers -/

theorem hexNat_digit {n : Nat} {c : Char} (h : c ∈ hexNat n) : c.isAlphanum = true := by
  have key : ∀ m, m < 16 → (hexDigit m).isAlphanum = true := by decide
  induction n using Nat.strongRecOn with
  | ind n ih =>
    rw [hexNat] at h
    split at h
    · rename_i hn
      rw [List.mem_singleton.mp h]
      exact key n hn
    · rename_i hn
      rcases List.mem_append.mp h with h | h
      · exact ih (n / 16) (by omega) h
      · rw [List.mem_singleton.mp h]
        exact key _ (by omega)

theorem hexNat8_digit {n : Nat} {c : Char} (h : c ∈ hexNat8 n) : c.isAlphanum = true := by
  rcases List.mem_append.mp h with h | h
  · rw [(List.mem_replicate.mp h).2]; decide
  · exact hexNat_digit h

theorem hexRead_zeros (k : Nat) (l : List Char) : hexRead (List.replicate k '0' ++ l) = hexRead l := by
  induction k with
  | zero => rfl
  | succ k ih =>
    rw [← ih, List.replicate_succ, List.cons_append]
    unfold hexRead
    rw [List.foldl_cons]
    rfl

theorem hexNat8_inj {m n : Nat} (h : hexNat8 m = hexNat8 n) : m = n := by
  have := congrArg hexRead h
  rwa [hexNat8, hexNat8, hexRead_zeros, hexRead_zeros, hexRead_hexNat, hexRead_hexNat] at this

theorem u32_toNat_inj {a b : UInt32} (h : a.toNat = b.toNat) : a = b := UInt32.toNat_inj.mp h

/-! ## The text of a value -/

/-- The text of a value depends on its outline alone. -/
def Spec.Outline.text : Outline → List Char
  | .v2 id n => "V2 Signature (id=0x".toList ++ hexNat8 id.toNat ++ ", ".toList ++ decimal n ++ " signers)".toList
  | .stamp id => "Source Stamp (id=0x".toList ++ hexNat8 id.toNat ++ ")".toList
  | .elf id n => "ELF Section Info (id=0x".toList ++ hexNat8 id.toNat ++ ", ".toList ++ decimal n ++ " sections)".toList
  | .other id n => (if id = paddingBlockId then "Verity Padding".toList else "Unknown".toList) ++ " (id=0x".toList ++
      hexNat8 id.toNat ++ ", ".toList ++ decimal n ++ " bytes)".toList

theorem value_text (v : Value) : v.text = (outline v).text := by cases v <;> rfl

theorem id_inj {x y r s : List Char} {a b : UInt32} (hx : x = y) (h : x ++ hexNat8 a.toNat ++ ',' :: r = y ++ hexNat8 b.toNat ++ ',' :: s) :
    a = b ∧ r = s := by
  subst hx
  rw [List.append_assoc, List.append_assoc] at h
  have hn : ∀ n, ',' ∉ hexNat8 n := fun n h => absurd (hexNat8_digit h) (by decide)
  obtain ⟨h1, h2⟩ := first_at (hn _) (hn _) (List.append_cancel_left h)
  exact ⟨u32_toNat_inj (hexNat8_inj h1), h2⟩

theorem comma_lit : ", ".toList = [',', ' '] := String.toList_ofList

theorem id_count_inj {x q : List Char} {a b : UInt32} {m n : Nat}
    (h : x ++ hexNat8 a.toNat ++ ", ".toList ++ decimal m ++ q = x ++ hexNat8 b.toNat ++ ", ".toList ++ decimal n ++ q) : a = b ∧ m = n := by
  rw [comma_lit] at h
  have h' : x ++ hexNat8 a.toNat ++ ',' :: (' ' :: (decimal m ++ q)) = x ++ hexNat8 b.toNat ++ ',' :: (' ' :: (decimal n ++ q)) := by
    simpa using h
  obtain ⟨h1, h2⟩ := id_inj rfl h'
  rw [List.cons.injEq] at h2
  exact ⟨h1, decimal_inj (List.append_cancel_right h2.2)⟩

/-- How the texts begin. -/
def Spec.Outline.start : Outline → List Char
  | .v2 .. => ['V', '2']
  | .stamp .. => ['S', 'o']
  | .elf .. => ['E', 'L']
  | .other id _ => if id = paddingBlockId then ['V', 'e'] else ['U', 'n']

theorem outline_start (o : Outline) : o.start <+: o.text := by
  cases o with
  | v2 id n =>
    show _ <+: _ ++ _ ++ _ ++ _ ++ _
    simp only [List.append_assoc]
    exact pre_lit (l := chars!"V2 Signature (id=0x") String.toList_ofList rfl
  | stamp id =>
    show _ <+: _ ++ _ ++ _
    simp only [List.append_assoc]
    exact pre_lit (l := chars!"Source Stamp (id=0x") String.toList_ofList rfl
  | elf id n =>
    show _ <+: _ ++ _ ++ _ ++ _ ++ _
    simp only [List.append_assoc]
    exact pre_lit (l := chars!"ELF Section Info (id=0x") String.toList_ofList rfl
  | other id n =>
    by_cases h : id = paddingBlockId
    · have h1 : (Outline.other id n).start = ['V', 'e'] := if_pos h
      have h2 : (Outline.other id n).text = "Verity Padding".toList ++ " (id=0x".toList ++
        hexNat8 id.toNat ++ ", ".toList ++ decimal n ++ " bytes)".toList :=
        congrArg (fun x => x ++ " (id=0x".toList ++ hexNat8 id.toNat ++ ", ".toList ++ decimal n ++ " bytes)".toList) (if_pos h)
      rw [h1, h2]
      simp only [List.append_assoc]
      exact pre_lit (l := chars!"Verity Padding") String.toList_ofList rfl
    · have h1 : (Outline.other id n).start = ['U', 'n'] := if_neg h
      have h2 : (Outline.other id n).text = "Unknown".toList ++ " (id=0x".toList ++
        hexNat8 id.toNat ++ ", ".toList ++ decimal n ++ " bytes)".toList :=
        congrArg (fun x => x ++ " (id=0x".toList ++ hexNat8 id.toNat ++ ", ".toList ++ decimal n ++ " bytes)".toList) (if_neg h)
      rw [h1, h2]
      simp only [List.append_assoc]
      exact pre_lit (l := chars!"Unknown") String.toList_ofList rfl

theorem start_length (o : Outline) : o.start.length = 2 := by
  cases o <;> simp only [Spec.Outline.start] <;> try rfl
  split <;> rfl

theorem outline_text_inj {o o' : Outline} (h : o.text = o'.text) : o = o' := by
  have hs : o.start = o'.start := by
    obtain ⟨r, hr⟩ := outline_start o
    obtain ⟨r', hr'⟩ := outline_start o'
    rw [← hr, ← hr'] at h
    exact (List.append_inj h (by rw [start_length, start_length])).1
  have other : ∀ id n, (Outline.other id n).start ≠ ['V', '2'] ∧ (Outline.other id n).start ≠ ['S', 'o'] ∧
      (Outline.other id n).start ≠ ['E', 'L'] := by
    intro id n
    simp only [Spec.Outline.start]
    split <;> decide
  cases o with
  | v2 id n =>
    cases o' with
    | v2 id' n' =>
      obtain ⟨rfl, rfl⟩ := id_count_inj h
      rfl
    | stamp id' => exact absurd hs (by simp [Spec.Outline.start])
    | elf id' n' => exact absurd hs (by simp [Spec.Outline.start])
    | other id' n' => exact absurd hs.symm (other id' n').1
  | stamp id =>
    cases o' with
    | v2 id' n' => exact absurd hs (by simp [Spec.Outline.start])
    | stamp id' =>
      have := hexNat8_inj (List.append_cancel_left (List.append_cancel_right h))
      rw [u32_toNat_inj this]
    | elf id' n' => exact absurd hs (by simp [Spec.Outline.start])
    | other id' n' => exact absurd hs.symm (other id' n').2.1
  | elf id n =>
    cases o' with
    | v2 id' n' => exact absurd hs (by simp [Spec.Outline.start])
    | stamp id' => exact absurd hs (by simp [Spec.Outline.start])
    | elf id' n' =>
      obtain ⟨rfl, rfl⟩ := id_count_inj h
      rfl
    | other id' n' => exact absurd hs.symm (other id' n').2.2
  | other id n =>
    cases o' with
    | v2 id' n' => exact absurd hs (other id n).1
    | stamp id' => exact absurd hs (other id n).2.1
    | elf id' n' => exact absurd hs (other id n).2.2
    | other id' n' =>
      have hw : id = paddingBlockId ↔ id' = paddingBlockId := by
        have hne : (['V', 'e'] : List Char) ≠ ['U', 'n'] := by decide
        constructor
        · intro h1
          apply Decidable.byContradiction
          intro h2
          rw [show (Outline.other id n).start = ['V', 'e'] from if_pos h1, show (Outline.other id' n').start = ['U', 'n'] from if_neg h2] at hs
          exact hne hs
        · intro h1
          apply Decidable.byContradiction
          intro h2
          rw [show (Outline.other id' n').start = ['V', 'e'] from if_pos h1, show (Outline.other id n).start = ['U', 'n'] from if_neg h2] at hs
          exact hne hs.symm
      unfold Spec.Outline.text at h
      simp only [hw] at h
      obtain ⟨rfl, rfl⟩ := id_count_inj h
      rfl

theorem outline_unbroken (o : Outline) : '\n' ∉ o.text := by
  have hh : ∀ n, '\n' ∉ hexNat8 n := fun n h => absurd (hexNat8_digit h) (by decide)
  have l1 : '\n' ∉ "V2 Signature (id=0x".toList := by decide +kernel
  have l2 : '\n' ∉ " signers)".toList := by decide +kernel
  have l3 : '\n' ∉ "Source Stamp (id=0x".toList := by decide +kernel
  have l4 : '\n' ∉ ")".toList := by decide +kernel
  have l5 : '\n' ∉ "ELF Section Info (id=0x".toList := by decide +kernel
  have l6 : '\n' ∉ " sections)".toList := by decide +kernel
  have l7 : '\n' ∉ "Verity Padding".toList := by decide +kernel
  have l8 : '\n' ∉ "Unknown".toList := by decide +kernel
  have l9 : '\n' ∉ " (id=0x".toList := by decide +kernel
  have l10 : '\n' ∉ " bytes)".toList := by decide +kernel
  have l11 : '\n' ∉ ", ".toList := by decide +kernel
  have app : ∀ {x y : List Char}, '\n' ∉ x → '\n' ∉ y → '\n' ∉ x ++ y := fun hx hy h => (List.mem_append.mp h).elim hx hy
  cases o with
  | v2 id n => exact app (app (app (app l1 (hh _)) l11) (decimal_unbroken _)) l2
  | stamp id => exact app (app l3 (hh _)) l4
  | elf id n => exact app (app (app (app l5 (hh _)) l11) (decimal_unbroken _)) l6
  | other id n =>
    refine app (app (app (app (app ?_ l9) (hh _)) l11) (decimal_unbroken _)) l10
    by_cases h : id = paddingBlockId
    · rw [if_pos h]; exact l7
    · rw [if_neg h]; exact l8

/-! ## The lines -/

theorem block_lit : "  Block ".toList = chars!"  Block " := String.toList_ofList

theorem entry_inj {i j : Nat} {x y : List Char} (h : "  Block ".toList ++ decimal (i + 1) ++ ": ".toList ++ x =
    "  Block ".toList ++ decimal (j + 1) ++ ": ".toList ++ y) : i = j ∧ x = y := by
  rw [show ": ".toList = [':', ' '] from String.toList_ofList] at h
  have h' : decimal (i + 1) ++ ':' :: ' ' :: x = decimal (j + 1) ++ ':' :: ' ' :: y := by
    have : "  Block ".toList ++ (decimal (i + 1) ++ ':' :: ' ' :: x) = "  Block ".toList ++ (decimal (j + 1) ++ ':' :: ' ' :: y) := by
      simpa using h
    exact List.append_cancel_left this
  have hd : ∀ n, ':' ∉ decimal n := fun n h => absurd (decimal_digit h) (by decide)
  obtain ⟨h1, h2⟩ := first_at (hd _) (hd _) h'
  have := decimal_inj h1
  exact ⟨by omega, by simpa using h2⟩

/-- How the lines of a block begin: the first five, and those of the values, by the first digit of the number. -/
def blockStart : List (List Char) :=
  [chars!"KSU", chars!"  F", chars!"  Block s", chars!"  C", chars!"  Blocks", chars!"  Block 0", chars!"  Block 1", chars!"  Block 2",
    chars!"  Block 3", chars!"  Block 4", chars!"  Block 5", chars!"  Block 6", chars!"  Block 7", chars!"  Block 8", chars!"  Block 9"]

theorem blockStart_apart : ∀ i, i < 15 → ∀ j, j < 15 → (blockStart.getD i []).isPrefixOf (blockStart.getD j []) = true → i = j := by
  decide +kernel

theorem blockStart_same {i j : Nat} {s : List Char} (hi : i < 15) (hj : j < 15) (h : blockStart.getD i [] <+: s)
    (h' : blockStart.getD j [] <+: s) : i = j := by
  rcases List.prefix_or_prefix_of_prefix h h' with h | h
  · exact blockStart_apart i hi j hj (List.isPrefixOf_iff_prefix.mpr h)
  · exact (blockStart_apart j hj i hi (List.isPrefixOf_iff_prefix.mpr h)).symm

theorem entry_start (n : Nat) (x : List Char) : ∃ k, 5 ≤ k ∧ k < 15 ∧ blockStart.getD k [] <+: "  Block ".toList ++ decimal n ++ x := by
  have hne : decimal n ≠ [] := by
    intro h
    have : (decimal n).length = 0 := by rw [h]; rfl
    have h2 : 0 < (Nat.toDigits 10 n).length := Nat.length_toDigits_pos
    unfold decimal at this
    omega
  have key : ∀ c : Char, c.isDigit = true → ∃ k, 5 ≤ k ∧ k < 15 ∧ blockStart.getD k [] = chars!"  Block " ++ [c] := by
    intro c hc
    rw [Char.isDigit, Bool.and_eq_true, decide_eq_true_eq, decide_eq_true_eq] at hc
    have h1 : 48 ≤ c.toNat := hc.1
    have h2 : c.toNat ≤ 57 := hc.2
    have h3 : c = Char.ofNat c.toNat := (Char.ofNat_toNat c).symm
    have h4 : ∀ m, 48 ≤ m → m ≤ 57 → blockStart.getD (m - 43) [] = chars!"  Block " ++ [Char.ofNat m] := by
      intro m a b
      have : m = 48 ∨ m = 49 ∨ m = 50 ∨ m = 51 ∨ m = 52 ∨ m = 53 ∨ m = 54 ∨ m = 55 ∨ m = 56 ∨ m = 57 := by omega
      rcases this with rfl | rfl | rfl | rfl | rfl | rfl | rfl | rfl | rfl | rfl <;> rfl
    exact ⟨c.toNat - 43, by omega, by omega, by rw [h4 _ h1 h2, ← h3]⟩
  cases hd : decimal n with
  | nil => exact absurd hd hne
  | cons c cs =>
    obtain ⟨k, h1, h2, h3⟩ := key c (decimal_digit (n := n) (by rw [hd]; exact List.mem_cons_self))
    refine ⟨k, h1, h2, ?_⟩
    rw [h3, block_lit]
    exact ⟨cs ++ x, by simp⟩

theorem head_starts (b : SigningBlock) :
    blockStart.getD 0 [] <+: "KSU Signing Block".toList ∧
    (∀ x, blockStart.getD 1 [] <+: "  File offset: ".toList ++ x) ∧ (∀ x, blockStart.getD 2 [] <+: "  Block size: ".toList ++ x) ∧
    (∀ x, blockStart.getD 3 [] <+: "  Content size: ".toList ++ x) ∧ ∀ x, blockStart.getD 4 [] <+: "  Blocks: ".toList ++ x :=
  ⟨pre_lit0 (l := chars!"KSU Signing Block") String.toList_ofList rfl, fun _ => pre_lit (l := chars!"  File offset: ") String.toList_ofList rfl,
    fun _ => pre_lit (l := chars!"  Block size: ") String.toList_ofList rfl, fun _ => pre_lit (l := chars!"  Content size: ") String.toList_ofList rfl,
    fun _ => pre_lit (l := chars!"  Blocks: ") String.toList_ofList rfl⟩

theorem lines_unbroken (b : SigningBlock) : ∀ l ∈ b.lines, '\n' ∉ l := by
  have app : ∀ {x y : List Char}, '\n' ∉ x → '\n' ∉ y → '\n' ∉ x ++ y := fun hx hy h => (List.mem_append.mp h).elim hx hy
  have l1 : '\n' ∉ "KSU Signing Block".toList := by decide +kernel
  have l2 : '\n' ∉ "  File offset: ".toList := by decide +kernel
  have l3 : '\n' ∉ " - ".toList := by decide +kernel
  have l4 : '\n' ∉ "  Block size: ".toList := by decide +kernel
  have l5 : '\n' ∉ " bytes".toList := by decide +kernel
  have l6 : '\n' ∉ "  Content size: ".toList := by decide +kernel
  have l7 : '\n' ∉ "  Blocks: ".toList := by decide +kernel
  have l8 : '\n' ∉ "  Block ".toList := by decide +kernel
  have l9 : '\n' ∉ ": ".toList := by decide +kernel
  intro l hl
  rcases List.mem_append.mp hl with hl | hl
  · simp only [List.mem_cons, List.not_mem_nil, or_false] at hl
    rcases hl with rfl | rfl | rfl | rfl | rfl
    · exact l1
    · exact app (app (app l2 (decimal_unbroken _)) l3) (decimal_unbroken _)
    · exact app (app l4 (decimal_unbroken _)) l5
    · exact app (app l6 (decimal_unbroken _)) l5
    · exact app l7 (decimal_unbroken _)
  · obtain ⟨i, h, rfl⟩ := List.mem_mapIdx.mp hl
    unfold entryLine
    rw [value_text]
    exact app (app (app l8 (decimal_unbroken _)) l9) (outline_unbroken _)

/-- A line is in the text exactly if it is one of the first five or that of a value. -/
theorem isLine_block {b : SigningBlock} {s : List Char} : IsLine s b.text ↔
    s = "KSU Signing Block".toList ∨ s = "  File offset: ".toList ++ decimal b.fileStart ++ " - ".toList ++ decimal b.fileEnd ∨
    s = "  Block size: ".toList ++ decimal b.sizeStart ++ " bytes".toList ∨
    s = "  Content size: ".toList ++ decimal b.contentSize ++ " bytes".toList ∨ s = "  Blocks: ".toList ++ decimal b.content.length ∨
    ∃ i, ∃ h : i < b.content.length, s = entryLine i b.content[i] := by
  unfold SigningBlock.text
  rw [isLine_unlines (lines_unbroken b), SigningBlock.lines, List.mem_append, List.mem_mapIdx]
  simp only [List.mem_cons, List.not_mem_nil, or_false, or_assoc]
  have : (∃ i, ∃ h : i < b.content.length, entryLine i b.content[i] = s) ↔ ∃ i, ∃ h : i < b.content.length, s = entryLine i b.content[i] :=
    ⟨fun ⟨i, h, e⟩ => ⟨i, h, e.symm⟩, fun ⟨i, h, e⟩ => ⟨i, h, e.symm⟩⟩
  rw [this]

/-- The line of a value is in the text exactly if the value is at this place. -/
theorem isLine_value {b : SigningBlock} {i : Nat} {x : List Char} :
    IsLine ("  Block ".toList ++ decimal (i + 1) ++ ": ".toList ++ x) b.text ↔ ∃ v, b.content[i]? = some v ∧ (outline v).text = x := by
  obtain ⟨h0, h1, h2, h3, h4⟩ := head_starts b
  obtain ⟨k, hk5, hk, hp⟩ := entry_start (i + 1) (": ".toList ++ x)
  rw [← List.append_assoc] at hp
  have no : ∀ {j : Nat} {s : List Char}, j < 5 → blockStart.getD j [] <+: s → "  Block ".toList ++ decimal (i + 1) ++ ": ".toList ++ x ≠ s := by
    intro j s hj hs he
    have := blockStart_same (by omega) hk hs (he ▸ hp)
    omega
  rw [isLine_block]
  constructor
  · rintro (h | h | h | h | h | ⟨j, hj, h⟩)
    · exact absurd h (no (j := 0) (by omega) h0)
    · refine absurd h (no (j := 1) (by omega) ?_)
      rw [List.append_assoc, List.append_assoc]; exact h1 _
    · refine absurd h (no (j := 2) (by omega) ?_)
      rw [List.append_assoc]; exact h2 _
    · refine absurd h (no (j := 3) (by omega) ?_)
      rw [List.append_assoc]; exact h3 _
    · exact absurd h (no (j := 4) (by omega) (h4 _))
    · unfold entryLine at h
      obtain ⟨rfl, h⟩ := entry_inj h
      rw [value_text] at h
      exact ⟨_, List.getElem?_eq_getElem hj, h.symm⟩
  · rintro ⟨v, h, rfl⟩
    refine .inr (.inr (.inr (.inr (.inr ?_))))
    obtain ⟨hi, rfl⟩ := List.getElem?_eq_some_iff.mp h
    exact ⟨i, hi, by unfold entryLine; rw [value_text]⟩

theorem isLine_entry {b : SigningBlock} {i : Nat} {o : Outline} :
    IsLine ("  Block ".toList ++ decimal (i + 1) ++ ": ".toList ++ o.text) b.text ↔ ∃ v, b.content[i]? = some v ∧ outline v = o := by
  rw [isLine_value]
  exact ⟨fun ⟨v, h, e⟩ => ⟨v, h, outline_text_inj e⟩, fun ⟨v, h, e⟩ => ⟨v, h, e ▸ rfl⟩⟩

/-- Which values are called padding, and which unknown. -/
theorem outline_word {o : Outline} {id : UInt32} {n : Nat} :
    (o.text = "Verity Padding".toList ++ " (id=0x".toList ++ hexNat8 id.toNat ++ ", ".toList ++ decimal n ++ " bytes)".toList ↔
      o = .other id n ∧ id = paddingBlockId) ∧
    (o.text = "Unknown".toList ++ " (id=0x".toList ++ hexNat8 id.toNat ++ ", ".toList ++ decimal n ++ " bytes)".toList ↔
      o = .other id n ∧ id ≠ paddingBlockId) := by
  have hs := outline_start o
  have hpad : ∀ i m, i = paddingBlockId → (Outline.other i m).text = "Verity Padding".toList ++ " (id=0x".toList ++
      hexNat8 i.toNat ++ ", ".toList ++ decimal m ++ " bytes)".toList := fun i m h =>
    congrArg (fun x => x ++ " (id=0x".toList ++ hexNat8 i.toNat ++ ", ".toList ++ decimal m ++ " bytes)".toList) (if_pos h)
  have hunk : ∀ i m, i ≠ paddingBlockId → (Outline.other i m).text = "Unknown".toList ++ " (id=0x".toList ++
      hexNat8 i.toNat ++ ", ".toList ++ decimal m ++ " bytes)".toList := fun i m h =>
    congrArg (fun x => x ++ " (id=0x".toList ++ hexNat8 i.toNat ++ ", ".toList ++ decimal m ++ " bytes)".toList) (if_neg h)
  have st : ∀ {p x : List Char}, p.length = 2 → p <+: x → o.text = x → o.start = p := by
    intro p x hp h1 h2
    rw [h2] at hs
    obtain ⟨r, hr⟩ := hs
    obtain ⟨r', hr'⟩ := h1
    exact (List.append_inj (hr.trans hr'.symm) (by rw [start_length, hp])).1
  constructor
  · constructor
    · intro h
      have hst : o.start = ['V', 'e'] := by
        refine st rfl ?_ h
        simp only [List.append_assoc]
        exact pre_lit (l := chars!"Verity Padding") String.toList_ofList rfl
      cases o with
      | v2 _ _ => exact absurd hst (by simp [Spec.Outline.start])
      | stamp _ => exact absurd hst (by simp [Spec.Outline.start])
      | elf _ _ => exact absurd hst (by simp [Spec.Outline.start])
      | other i m =>
        by_cases hi : i = paddingBlockId
        · rw [hpad i m hi] at h
          obtain ⟨rfl, rfl⟩ := id_count_inj h
          exact ⟨rfl, hi⟩
        · rw [show (Outline.other i m).start = ['U', 'n'] from if_neg hi] at hst
          exact absurd hst (by decide)
    · rintro ⟨rfl, h⟩
      exact hpad id n h
  · constructor
    · intro h
      have hst : o.start = ['U', 'n'] := by
        refine st rfl ?_ h
        simp only [List.append_assoc]
        exact pre_lit (l := chars!"Unknown") String.toList_ofList rfl
      cases o with
      | v2 _ _ => exact absurd hst (by simp [Spec.Outline.start])
      | stamp _ => exact absurd hst (by simp [Spec.Outline.start])
      | elf _ _ => exact absurd hst (by simp [Spec.Outline.start])
      | other i m =>
        by_cases hi : i = paddingBlockId
        · rw [show (Outline.other i m).start = ['V', 'e'] from if_pos hi] at hst
          exact absurd hst (by decide)
        · rw [hunk i m hi] at h
          obtain ⟨rfl, rfl⟩ := id_count_inj h
          exact ⟨rfl, hi⟩
    · rintro ⟨rfl, h⟩
      exact hunk id n h

/-- The first lines are as they are. -/
theorem isLine_head {b : SigningBlock} {j : Nat} (hj : j < 5) {s : List Char} (hs : blockStart.getD j [] <+: s) :
    IsLine s b.text ↔ s = b.lines.getD j [] := by
  obtain ⟨h0, h1, h2, h3, h4⟩ := head_starts b
  have same : ∀ {i : Nat}, i < 5 → blockStart.getD i [] <+: s → i = j := fun hi h => blockStart_same (by omega) (by omega) h hs
  have hl : ∀ x, "  File offset: ".toList ++ decimal b.fileStart ++ " - ".toList ++ decimal b.fileEnd = x →
      blockStart.getD 1 [] <+: x := by
    rintro x rfl
    rw [List.append_assoc, List.append_assoc]; exact h1 _
  have hl2 : ∀ x, "  Block size: ".toList ++ decimal b.sizeStart ++ " bytes".toList = x → blockStart.getD 2 [] <+: x := by
    rintro x rfl
    rw [List.append_assoc]; exact h2 _
  have hl3 : ∀ x, "  Content size: ".toList ++ decimal b.contentSize ++ " bytes".toList = x → blockStart.getD 3 [] <+: x := by
    rintro x rfl
    rw [List.append_assoc]; exact h3 _
  rw [isLine_block]
  constructor
  · rintro (h | h | h | h | h | ⟨i, hi, h⟩)
    · rw [← same (i := 0) (by omega) (h ▸ h0)]; exact h
    · rw [← same (i := 1) (by omega) (hl _ h.symm)]; exact h
    · rw [← same (i := 2) (by omega) (hl2 _ h.symm)]; exact h
    · rw [← same (i := 3) (by omega) (hl3 _ h.symm)]; exact h
    · rw [← same (i := 4) (by omega) (h ▸ h4 _)]; exact h
    · obtain ⟨k, hk5, hk, hp⟩ := entry_start (i + 1) (": ".toList ++ b.content[i].text)
      unfold entryLine at h
      rw [← List.append_assoc, ← h] at hp
      have := blockStart_same hk (by omega) hp hs
      omega
  · intro h
    have : j = 0 ∨ j = 1 ∨ j = 2 ∨ j = 3 ∨ j = 4 := by omega
    rcases this with rfl | rfl | rfl | rfl | rfl
    · exact .inl h
    · exact .inr (.inl h)
    · exact .inr (.inr (.inl h))
    · exact .inr (.inr (.inr (.inl h)))
    · exact .inr (.inr (.inr (.inr (.inl h))))

end Ksusig
