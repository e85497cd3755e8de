import Verif.Proofs.ElfReadBack

/-!
# What signing an ELF file leaves as it was
-/

namespace Ksusig

open Spec

/-- A name that was found before is found, and no other, if the names were terminated. -/
theorem strtab_kept {t n : Bytes} (ht : t.getLast? = some 0) (hn : ¬ n <:+ ksuBytes) (off : Nat) :
    strtabGet (t ++ ksuBytes ++ [0]) off = some n ↔ strtabGet t off = some n := by
  by_cases hlt : off < t.length
  · have : strtabGet (t ++ ksuBytes ++ [0]) off = strtabGet t off := by
      unfold strtabGet
      rw [List.append_assoc, List.getElem?_append_left hlt, List.getElem?_eq_getElem hlt]
      dsimp only
      rw [List.drop_append_of_le_length (by omega)]
      have hz : ∀ {l x : Bytes}, l.getLast? = some 0 → (l ++ x).takeWhile (· != 0) = l.takeWhile (· != 0) := by
        intro l x hl
        induction l with
        | nil => cases hl
        | cons a l ih =>
          rw [List.cons_append, List.takeWhile_cons, List.takeWhile_cons]
          split
          · rename_i ha
            cases l with
            | nil =>
              obtain rfl : a = 0 := Option.some.inj hl
              cases ha
            | cons b l => rw [ih (by simpa using hl)]
          · rfl
      rw [hz]
      rw [List.getLast?_drop, if_neg (by omega)]
      exact ht
    rw [this]
  · constructor
    · intro h
      obtain ⟨k, rfl⟩ := Nat.exists_eq_add_of_le (by omega : t.length ≤ off)
      refine absurd ?_ hn
      unfold strtabGet at h
      rw [List.append_assoc, List.getElem?_append_right (by omega), Nat.add_sub_cancel_left] at h
      have htw : ∀ k, k < 10 → ((ksuBytes ++ [0]).drop k).takeWhile (· != 0) = ksuBytes.drop k := by decide
      by_cases hk : k < 10
      · rw [List.getElem?_eq_getElem (by show k < 10; exact hk)] at h
        dsimp only at h
        split at h
        · cases h
        · rw [← List.drop_drop, List.drop_left, htw k hk] at h
          rw [← Option.some.inj h]
          exact List.drop_suffix k ksuBytes
      · rw [List.getElem?_eq_none (by show 10 ≤ k; omega)] at h
        dsimp only at h
        split at h
        · rename_i hc
          simp [← List.append_assoc] at hc
        · cases h
    · intro h
      unfold strtabGet at h
      rw [List.getElem?_eq_none (by omega)] at h
      dsimp only at h
      rw [ht] at h
      simp at h

theorem firstAt_congr {e e' : Elf} {n : Bytes} (h : ∀ (j : Nat) (s : Shdr), e.shdrs[j]? = some s ∧ nameOf e s = some n ↔
    e'.shdrs[j]? = some s ∧ nameOf e' s = some n) (i : Nat) (s : Shdr) : FirstAt e n i s ↔ FirstAt e' n i s := by
  constructor
  · intro hf
    obtain ⟨h1, h2⟩ := (h i s).mp ⟨hf.here, hf.name⟩
    exact ⟨h1, h2, fun j hj x hx hn => hf.first j hj x ((h j x).mpr ⟨hx, hn⟩).1 ((h j x).mpr ⟨hx, hn⟩).2⟩
  · intro hf
    obtain ⟨h1, h2⟩ := (h i s).mpr ⟨hf.here, hf.name⟩
    exact ⟨h1, h2, fun j hj x hx hn => hf.first j hj x ((h j x).mp ⟨hx, hn⟩).1 ((h j x).mp ⟨hx, hn⟩).2⟩

/-- Another signing: every other name stands for the section it stood for. -/
theorem again_other {d blk : Bytes} {e : Elf} {i : Nat} {s : Shdr} (hi : FirstAt e ksuBytes i s) {m : Nat} {body : Bytes}
    {table : List Shdr} (hp : Plan e d blk m body table) (pos : Nat) {n : Bytes} (hn : n ≠ ksuBytes) (j : Nat) (x : Shdr) :
    FirstAt e n j x ↔ FirstAt (newView e pos table e.strtab) n j x := by
  cases hp with
  | first h1 h2 => exact absurd ⟨_, _, hi⟩ h2
  | @again sh' i' s' h1 h2 =>
    obtain ⟨rfl, rfl⟩ := firstAt_unique hi h2
    apply firstAt_congr
    intro k y
    show _ ↔ (e.shdrs.set i (signatureHeader e.is64 s.name (roundUp d.length (blockAlign e.is64)) blk.length))[k]? = some y ∧
      strtabGet e.strtab y.name = some n
    by_cases hk : i = k
    · subst hk
      have hil : i < e.shdrs.length := by
        have := hi.here
        rw [List.getElem?_eq_some_iff] at this
        exact this.1
      rw [List.getElem?_set_self hil, hi.here]
      have hnm : strtabGet e.strtab s.name = some ksuBytes := hi.name
      constructor
      · rintro ⟨h3, h4⟩
        obtain rfl := Option.some.inj h3
        have h4 : strtabGet e.strtab s.name = some n := h4
        rw [hnm] at h4
        exact absurd (Option.some.inj h4).symm hn
      · rintro ⟨h3, h4⟩
        obtain rfl := Option.some.inj h3
        have h4 : strtabGet e.strtab s.name = some n := h4
        rw [hnm] at h4
        exact absurd (Option.some.inj h4).symm hn
    · rw [List.getElem?_set_ne hk]
      exact Iff.rfl

/-- The first signing: a name that is neither that of the section of the names nor an end of `.ksu_sign` stands for the section it
stood for. -/
theorem first_other {d blk : Bytes} {e : Elf} (hv : ElfView d e) (hnn : ¬ ∃ s, FirstNamed e ksuBytes s) {m : Nat} {body : Bytes}
    {table : List Shdr} (hp : Plan e d blk m body table) (hcnt : table.length ≤ 65535) (pos : Nat) {n : Bytes}
    (ht : e.strtab.getLast? = some 0) (hn : ¬ n <:+ ksuBytes)
    (hname : ∀ s, e.shdrs[e.hdr.shstrndx]? = some s → nameOf e s ≠ some n) (j : Nat) (x : Shdr) :
    FirstAt e n j x ↔ FirstAt (newView e pos table (e.strtab ++ ksuBytes ++ [0])) n j x := by
  cases hp with
  | again _ h2 => exact absurd ⟨_, _, h2⟩ hnn
  | @first sh h3 h4 =>
    have hidx := nameTable_index h3
    have hx : e.hdr.shstrndx ≠ 0xffff := by
      rw [List.length_append, List.length_set] at hcnt
      simp only [List.length_cons, List.length_nil] at hcnt
      omega
    have hst := (view_names hv h3 hx).1
    have hsl : e.strtab.length = sh.size := by
      rw [hst]
      unfold sectionBytes
      rw [List.length_take, List.length_drop]
      have := h3.2
      omega
    apply firstAt_congr
    intro k y
    show e.shdrs[k]? = some y ∧ strtabGet e.strtab y.name = some n ↔ (e.shdrs.set e.hdr.shstrndx _ ++ [_])[k]? = some y ∧
      strtabGet (e.strtab ++ ksuBytes ++ [0]) y.name = some n
    rw [strtab_kept ht hn]
    have hown : strtabGet e.strtab sh.name ≠ some n := hname sh h3.1
    by_cases hk : k < e.shdrs.length
    · rw [List.getElem?_append_left (by rw [List.length_set]; exact hk)]
      by_cases hkk : e.hdr.shstrndx = k
      · subst hkk
        rw [List.getElem?_set_self hk, h3.1]
        constructor
        · rintro ⟨h5, h6⟩
          obtain rfl := Option.some.inj h5
          exact absurd h6 hown
        · rintro ⟨h5, h6⟩
          obtain rfl := Option.some.inj h5
          exact absurd h6 hown
      · rw [List.getElem?_set_ne hkk]
    · rw [List.getElem?_append_right (by rw [List.length_set]; omega), List.length_set, List.getElem?_eq_none (by omega)]
      constructor
      · rintro ⟨h5, _⟩
        cases h5
      · rintro ⟨h5, h6⟩
        exfalso
        have hy : y.name = e.strtab.length := by
          obtain ⟨hlt, h5⟩ := List.getElem?_eq_some_iff.mp h5
          simp only [List.length_cons, List.length_nil] at hlt
          have : k - e.shdrs.length = 0 := by omega
          simp only [this, List.getElem_cons_zero] at h5
          rw [← h5, hsl]
          rfl
        rw [hy] at h6
        unfold strtabGet at h6
        rw [List.getElem?_eq_none (by omega)] at h6
        dsimp only at h6
        rw [ht] at h6
        simp at h6

end Ksusig
