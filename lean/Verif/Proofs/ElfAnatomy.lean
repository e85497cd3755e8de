import Verif.SpecElfAnatomy
import Verif.Proofs.ElfSelect
import Verif.Proofs.Utf8
import Verif.Props.ElfInfo

/-!
# Reading ELF files, byte by byte
-/

namespace Ksusig

open Spec Props

theorem getD_of_lt {d : Bytes} {pos : Nat} (h : pos < d.length) : d.getD pos 0 = d[pos] := by
  rw [List.getD_eq_getElem?_getD, List.getElem?_eq_getElem h]
  rfl

theorem littleAt_eq {d : Bytes} : ∀ {w pos : Nat}, pos + w ≤ d.length → leNat ((d.drop pos).take w) = littleAt d pos w
  | 0, _, _ => by simp [leNat, littleAt]
  | w + 1, pos, h => by
    have hp : pos < d.length := by omega
    rw [List.drop_eq_getElem_cons hp, List.take_succ_cons, leNat, littleAt_eq (by omega), littleAt, byteAt, getD_of_lt hp]

theorem bigAt_eq {d : Bytes} : ∀ {w pos : Nat}, pos + w ≤ d.length → leNat ((d.drop pos).take w).reverse = bigAt d pos w
  | 0, _, _ => by simp [leNat, bigAt]
  | w + 1, pos, h => by
    have hp : w < (d.drop pos).length := by rw [List.length_drop]; omega
    rw [List.take_succ_eq_append_getElem hp, List.reverse_append, List.reverse_singleton, List.singleton_append, leNat,
      bigAt_eq (by omega), bigAt, byteAt, getD_of_lt (by omega), List.getElem_drop]
    omega

theorem numAt_eq {le : Bool} {d : Bytes} {pos w : Nat} (h : pos + w ≤ d.length) : intVal le ((d.drop pos).take w) = numAt le d pos w := by
  unfold intVal numAt
  cases le
  · exact bigAt_eq h
  · exact littleAt_eq h

/-- Consecutive fields from a position on. -/
def fieldsAt (le : Bool) (d : Bytes) : Nat → List Nat → List Nat
  | _, [] => []
  | pos, w :: ws => numAt le d pos w :: fieldsAt le d (pos + w) ws

theorem readFields_at {le : Bool} {d : Bytes} : ∀ {ws : List Nat} {pos : Nat}, pos + ws.sum ≤ d.length →
    readFields le ws (d.drop pos) = some (fieldsAt le d pos ws, d.drop (pos + ws.sum))
  | [], pos, _ => by simp [readFields, fieldsAt]
  | w :: ws, pos, h => by
    rw [List.sum_cons] at h
    unfold readFields fieldsAt
    rw [if_neg (by rw [List.length_drop]; omega), List.drop_drop, readFields_at (by omega), numAt_eq (by omega), List.sum_cons,
      Nat.add_assoc]

theorem readFields_short {le : Bool} : ∀ {ws : List Nat} {d : Bytes}, d.length < ws.sum → readFields le ws d = none
  | [], _, h => by simp at h
  | w :: ws, d, h => by
    unfold readFields
    by_cases hw : d.length < w
    · rw [if_pos hw]
    · rw [if_neg hw, readFields_short (by rw [List.length_drop]; rw [List.sum_cons] at h; omega)]

theorem readShdr_at {is64 le : Bool} {d : Bytes} {pos : Nat} (h : pos + entryLength is64 ≤ d.length) :
    readShdr is64 le (d.drop pos) = some (shdrAt is64 le d pos, d.drop (pos + entryLength is64)) := by
  unfold readShdr
  have hs : (shdrWidths is64).sum = entryLength is64 := by cases is64 <;> rfl
  rw [readFields_at (by rw [hs]; exact h), hs]
  cases is64 <;> simp [shdrWidths, fieldsAt, Shdr.ofFields, shdrAt, Nat.add_assoc]

theorem readShdr_short {is64 le : Bool} {d : Bytes} {pos : Nat} (h : d.length < pos + entryLength is64) :
    readShdr is64 le (d.drop pos) = none := by
  unfold readShdr
  have hs : (shdrWidths is64).sum = entryLength is64 := by cases is64 <;> rfl
  have hp : 0 < entryLength is64 := by cases is64 <;> decide
  rw [readFields_short (by rw [hs, List.length_drop]; omega)]
  rfl

theorem readShdrs_at {is64 le : Bool} {d : Bytes} : ∀ {n pos : Nat}, pos + entryLength is64 * n ≤ d.length →
    readShdrs is64 le n (d.drop pos) = some ((List.range n).map fun i => shdrAt is64 le d (pos + entryLength is64 * i))
  | 0, _, _ => by simp [readShdrs]
  | n + 1, pos, h => by
    rw [Nat.mul_add, Nat.mul_one] at h
    unfold readShdrs
    rw [readShdr_at (by omega)]
    simp only [Option.bind_eq_bind, Option.bind_some]
    rw [readShdrs_at (by omega)]
    simp only [Option.bind_some, List.range_succ_eq_map, List.map_cons, List.map_map, Nat.mul_zero, Nat.add_zero]
    congr 2
    refine List.map_congr_left fun i _ => ?_
    simp only [Function.comp, Nat.succ_eq_add_one, Nat.mul_add, Nat.mul_one]
    congr 1
    omega

theorem readShdrs_short {is64 le : Bool} {d : Bytes} : ∀ {n pos : Nat}, 0 < n → d.length < pos + entryLength is64 * n →
    readShdrs is64 le n (d.drop pos) = none
  | n + 1, pos, _, h => by
    unfold readShdrs
    by_cases h1 : d.length < pos + entryLength is64
    · rw [readShdr_short h1]; rfl
    · rw [readShdr_at (by omega)]
      simp only [Option.bind_eq_bind, Option.bind_some]
      rw [Nat.mul_add, Nat.mul_one] at h
      rw [readShdrs_short (by rcases Nat.eq_zero_or_pos n with rfl | hn; · omega
                              · exact hn) (by omega)]
      rfl

theorem parseShdrs_iff {is64 le : Bool} {d : Bytes} {off num : Nat} {l : List Shdr} :
    parseShdrs is64 le d off num = some l ↔ off + entryLength is64 * headerCount is64 le d off num ≤ d.length ∧
      l = (List.range (headerCount is64 le d off num)).map fun i => shdrAt is64 le d (off + entryLength is64 * i) := by
  have hp : 0 < entryLength is64 := by cases is64 <;> decide
  have hsz : shdrSize is64 = entryLength is64 := rfl
  unfold parseShdrs headerCount
  by_cases h0 : off = 0
  · subst h0
    simp [eq_comm]
  · rw [if_neg h0, if_neg h0]
    by_cases h1 : d.length < off + entryLength is64
    · rw [readShdr_short h1]
      simp only [Option.bind_eq_bind, Option.bind_none, reduceCtorEq, false_iff]
      rintro ⟨h2, _⟩
      have : entryLength is64 * 1 ≤ entryLength is64 * max 1 (if num = 0 then (shdrAt is64 le d off).size else num) :=
        Nat.mul_le_mul_left _ (by omega)
      omega
    · rw [readShdr_at (by omega)]
      simp only [Option.bind_eq_bind, Option.bind_some]
      generalize (if num = 0 then (shdrAt is64 le d off).size else num) = n
      have hmax : max 1 n = (n - 1) + 1 := by omega
      rw [hmax, hsz]
      have hmul : entryLength is64 * (n - 1 + 1) = entryLength is64 * (n - 1) + entryLength is64 := by rw [Nat.mul_add, Nat.mul_one]
      by_cases h2 : off + entryLength is64 * (n - 1 + 1) ≤ d.length
      · have h3 : ¬ n > d.length / entryLength is64 := by
          have : n - 1 + 1 ≤ d.length / entryLength is64 := by
            rw [Nat.le_div_iff_mul_le hp, Nat.mul_comm]; omega
          omega
        rw [if_neg h3, readShdrs_at (by omega)]
        simp only [Option.bind_some, Option.some.injEq]
        have : (List.range (n - 1 + 1)).map (fun i => shdrAt is64 le d (off + entryLength is64 * i)) =
            shdrAt is64 le d off :: (List.range (n - 1)).map fun i => shdrAt is64 le d (off + entryLength is64 + entryLength is64 * i) := by
          rw [List.range_succ_eq_map, List.map_cons, List.map_map, Nat.mul_zero, Nat.add_zero]
          congr 1
          refine List.map_congr_left fun i _ => ?_
          simp only [Function.comp, Nat.succ_eq_add_one, Nat.mul_add, Nat.mul_one]
          congr 1
          omega
        rw [this]
        exact ⟨fun h => ⟨h2, h.symm⟩, fun h => h.2.symm⟩
      · have hn : 0 < n - 1 := by
          rcases Nat.eq_zero_or_pos (n - 1) with h | h
          · rw [h] at h2; omega
          · exact h
        split
        · simp only [reduceCtorEq, false_iff]
          exact fun h => h2 h.1
        · rw [readShdrs_short hn (by omega)]
          simp only [Option.bind_none, reduceCtorEq, false_iff]
          exact fun h => h2 h.1

theorem valid_iff {t : Bytes} : validUtf8 t = true ↔ Utf8 t :=
  ⟨fun h => utf8_of_valid (Nat.le_refl _) h, fun ⟨s, h⟩ => h ▸ validUtf8_utf8 s⟩

theorem slice?_some {d t : Bytes} {a n : Nat} : slice? d a (a + n) = some t ↔ a + n ≤ d.length ∧ t = (d.drop a).take n := by
  unfold slice?
  by_cases h : a + n ≤ d.length
  · rw [if_pos ⟨by omega, h⟩, Nat.add_sub_cancel_left, Option.some.injEq, eq_comm]
    exact ⟨fun e => ⟨h, e⟩, fun e => e.2⟩
  · rw [if_neg fun c => h c.2]
    simp [h]

theorem parseStrtab_iff {d t : Bytes} {l : List Shdr} {ndx k : Nat}
    (hk : k = if ndx = 0xffff then (l.head?.map Shdr.link).getD 0 else ndx) : parseStrtab d l ndx = some t ↔
    (l[k]? = none ∧ t = []) ∨ ∃ s, l[k]? = some s ∧ s.offset + s.size ≤ d.length ∧ t = (d.drop s.offset).take s.size ∧ Utf8 t ∧
      (s.type = 8 ∨ s.size = 0 ∨ s.addr + s.size < 2 ^ 64) := by
  unfold parseStrtab
  cases l with
  | nil => simp [eq_comm]
  | cons s0 l =>
    dsimp only
    have hk' : k = if ndx = 0xffff then s0.link else ndx := by simpa using hk
    rw [← hk']
    cases hs : (s0 :: l)[k]? with
    | none => simp [eq_comm]
    | some s =>
      simp only [reduceCtorEq, false_and, false_or, Option.some.injEq, exists_eq_left']
      have hc : s.checkSize d.length = true ↔ s.type = 8 ∨ s.size = 0 ∨ (s.offset + s.size ≤ d.length ∧ s.addr + s.size < 2 ^ 64) := by
        unfold Shdr.checkSize shtNobits
        simp [or_assoc]
      split
      · rename_i h1
        rw [hc] at h1
        cases hsl : slice? d s.offset (s.offset + s.size) with
        | none =>
          simp only [reduceCtorEq, false_iff]
          rintro ⟨h2, h3, _⟩
          rw [slice?_some.mpr ⟨h2, rfl⟩] at hsl
          cases hsl
        | some u =>
          obtain ⟨h2, rfl⟩ := slice?_some.mp hsl
          dsimp only
          split
          · rename_i hv
            constructor
            · intro h
              cases h
              exact ⟨h2, rfl, valid_iff.mp hv, h1.imp id fun h => h.imp id fun h => h.2⟩
            · rintro ⟨_, rfl, _⟩
              rfl
          · rename_i hv
            simp only [reduceCtorEq, false_iff]
            rintro ⟨_, rfl, hu, _⟩
            exact hv (valid_iff.mpr hu)
      · rename_i h1
        rw [hc] at h1
        simp only [reduceCtorEq, false_iff]
        rintro ⟨h2, _, _, h3⟩
        exact h1 (h3.imp id fun h => h.imp id fun h => ⟨h2, h⟩)

theorem headers_iff {l : List Shdr} {n : Nat} {g : Nat → Shdr} :
    l = (List.range n).map g ↔ l.length = n ∧ ∀ i, i < l.length → l[i]? = some (g i) := by
  constructor
  · rintro rfl
    refine ⟨by simp, fun i hi => ?_⟩
    have hi : i < n := by simpa using hi
    simp [hi]
  · rintro ⟨hl, h⟩
    refine List.ext_getElem? fun i => ?_
    by_cases hi : i < l.length
    · rw [h i hi]
      have hi : i < n := hl ▸ hi
      simp [hi]
    · rw [List.getElem?_eq_none (by omega), List.getElem?_eq_none (by simp; omega)]

theorem decodeElf_iff {d : Bytes} {e : Elf} : decodeElf d = some e ↔ ElfView d e := by
  have hsum : ∀ b, (ehdrWidths b).sum + 16 = headerLength b := by intro b; cases b <;> rfl
  have hge : ∀ b, 52 ≤ headerLength b := by intro b; cases b <;> decide
  have hd0 : ∀ {i : Nat} {x : UInt8}, x ≠ 0 → (d.getD i 0 = x ↔ d[i]? = some x) := by
    intro i x hx
    rw [List.getD_eq_getElem?_getD]
    cases d[i]? with
    | none => simp [hx.symm]
    | some y => simp
  have hfield : ∀ b le, Ehdr.ofFields (fieldsAt le d 16 (ehdrWidths b)) = some (ehdrAt b le d) := by
    intro b le
    cases b <;> rfl
  unfold decodeElf
  by_cases h1 : d.length < 16
  · rw [if_pos h1]
    simp only [reduceCtorEq, false_iff]
    intro h
    have := h.room
    have := hge e.is64
    omega
  rw [if_neg h1]
  by_cases h2 : d.take 4 ≠ [0x7f, 0x45, 0x4c, 0x46]
  · rw [if_pos h2]
    simp only [reduceCtorEq, false_iff]
    exact fun h => h2 h.magic
  rw [if_neg h2]
  have h2 : d.take 4 = [0x7f, 0x45, 0x4c, 0x46] := by simpa using h2
  dsimp only
  by_cases h3 : d.getD 4 0 ≠ 1 ∧ d.getD 4 0 ≠ 2
  · rw [if_pos h3]
    simp only [reduceCtorEq, false_iff]
    intro h
    have hc := h.cls
    cases hb : e.is64 with
    | true => rw [hb] at hc; exact h3.2 ((hd0 (by decide)).mpr hc)
    | false => rw [hb] at hc; exact h3.1 ((hd0 (by decide)).mpr hc)
  rw [if_neg h3]
  by_cases h4 : d.getD 5 0 ≠ 1 ∧ d.getD 5 0 ≠ 2
  · rw [if_pos h4]
    simp only [reduceCtorEq, false_iff]
    intro h
    have hc := h.order
    cases hb : e.le with
    | true => rw [hb] at hc; exact h4.1 ((hd0 (by decide)).mpr hc)
    | false => rw [hb] at hc; exact h4.2 ((hd0 (by decide)).mpr hc)
  rw [if_neg h4]
  have hcls : ∀ b : Bool, d[4]? = some (if b then 2 else 1) ↔ (d.getD 4 0 == 2) = b := by
    intro b
    cases b with
    | true => rw [if_pos rfl, ← hd0 (by decide)]; simp
    | false =>
      rw [if_neg (by decide), ← hd0 (by decide)]
      generalize d.getD 4 0 = c at h3
      constructor
      · rintro rfl; rfl
      · intro h
        have h : c ≠ 2 := by simpa using h
        false_or_by_contra
        rename_i h'
        exact h3 ⟨h', h⟩
  have hord : ∀ b : Bool, d[5]? = some (if b then 1 else 2) ↔ (d.getD 5 0 == 1) = b := by
    intro b
    cases b with
    | true => rw [if_pos rfl, ← hd0 (by decide)]; simp
    | false =>
      rw [if_neg (by decide), ← hd0 (by decide)]
      generalize d.getD 5 0 = c at h4
      constructor
      · rintro rfl; rfl
      · intro h
        have h : c ≠ 1 := by simpa using h
        false_or_by_contra
        rename_i h'
        exact h4 ⟨h, h'⟩
  generalize hw : (d.getD 4 0 == 2) = w at hcls
  generalize ho : (d.getD 5 0 == 1) = o at hord
  by_cases h5 : headerLength w ≤ d.length
  · rw [readFields_at (by have := hsum w; omega)]
    dsimp only
    rw [hfield]
    dsimp only
    constructor
    · intro h
      split at h
      · cases h
      · rename_i l hl
        split at h
        · cases h
        · rename_i t ht
          cases h
          obtain ⟨i1, i2⟩ := parseShdrs_iff.mp hl
          obtain ⟨i3, i4⟩ := headers_iff.mp i2
          exact ⟨h2, (hcls _).mpr rfl, (hord _).mpr rfl, h5, rfl, rfl, by dsimp only; rw [i3]; exact i1, i3, i4,
            (parseStrtab_iff rfl).mp ht⟩
    · intro h
      have e1 : w = e.is64 := (hcls _).mp h.cls
      have e2 : o = e.le := (hord _).mp h.order
      subst e1
      subst e2
      have hh := h.hdr
      rw [← hh]
      rw [parseShdrs_iff.mpr ⟨by rw [← h.count]; exact h.inside, headers_iff.mpr ⟨h.count, h.headers⟩⟩]
      dsimp only
      rw [(parseStrtab_iff rfl).mpr h.names]
      dsimp only
      rw [← h.ident]
  · rw [readFields_short (by rw [List.length_drop]; have := hsum w; omega)]
    simp only [reduceCtorEq, false_iff]
    intro h
    have e1 : w = e.is64 := (hcls _).mp h.cls
    exact h5 (e1 ▸ h.room)

theorem ElfView.unique {d : Bytes} {e e' : Elf} (h : ElfView d e) (h' : ElfView d e') : e = e' :=
  Option.some.inj ((decodeElf_iff.mpr h).symm.trans (decodeElf_iff.mpr h'))

/-! ### Sorting -/

theorem insertByOffset_filter (x : Resolved) (o : Nat) : ∀ l : List Resolved,
    (insertByOffset x l).filter (fun y => y.2.1 = o) = (x :: l).filter fun y => y.2.1 = o
  | [] => rfl
  | y :: ys => by
    unfold insertByOffset
    split
    · rfl
    · rename_i h
      rw [List.filter_cons, insertByOffset_filter x o ys]
      simp only [List.filter_cons, decide_eq_true_eq]
      by_cases hx : x.2.1 = o
      · rw [if_pos hx, if_neg (by omega), if_pos hx, if_neg (by omega)]
      · rw [if_neg hx, if_neg hx]

theorem sortByOffset_filter (o : Nat) : ∀ l : List Resolved,
    (sortByOffset l).filter (fun y => y.2.1 = o) = l.filter fun y => y.2.1 = o
  | [] => rfl
  | x :: xs => by
    unfold sortByOffset
    rw [insertByOffset_filter, List.filter_cons, List.filter_cons, sortByOffset_filter o xs]

/-- Sorting is determined by its result being sorted and keeping the order of what is equal. -/
theorem stablySorted_unique : ∀ {l l' : List Resolved}, l.Pairwise (fun x y => x.2.1 ≤ y.2.1) → l'.Pairwise (fun x y => x.2.1 ≤ y.2.1) →
    (∀ o, l.filter (fun x => x.2.1 = o) = l'.filter fun x => x.2.1 = o) → l = l'
  | [], [], _, _, _ => rfl
  | [], y :: l', _, _, h => by
    have := h y.2.1
    simp at this
  | x :: l, [], _, _, h => by
    have := h x.2.1
    simp at this
  | x :: l, y :: l', hs, hs', h => by
    rw [List.pairwise_cons] at hs hs'
    have hmem : ∀ {a b : List Resolved} {z : Resolved}, (∀ o, a.filter (fun x => x.2.1 = o) = b.filter fun x => x.2.1 = o) → z ∈ a → z ∈ b := by
      intro a b z hab hz
      have : z ∈ a.filter fun x => x.2.1 = z.2.1 := by simp [hz]
      rw [hab] at this
      exact (List.mem_filter.mp this).1
    have hle : x.2.1 = y.2.1 := by
      have h1 : y.2.1 ≤ x.2.1 := by
        rcases List.mem_cons.mp (hmem h (List.mem_cons_self)) with e | e
        · rw [e]; exact Nat.le_refl _
        · exact hs'.1 _ e
      have h2 : x.2.1 ≤ y.2.1 := by
        rcases List.mem_cons.mp (hmem (fun o => (h o).symm) (List.mem_cons_self)) with e | e
        · rw [e]; exact Nat.le_refl _
        · exact hs.1 _ e
      omega
    have hxy := h x.2.1
    rw [List.filter_cons, List.filter_cons, if_pos (by simp), if_pos (by simp [hle])] at hxy
    injection hxy with hxy _
    subst hxy
    rw [stablySorted_unique hs.2 hs'.2 fun o => ?_]
    have := h o
    rw [List.filter_cons, List.filter_cons] at this
    split at this
    · injection this
    · exact this

theorem stablySorted_iff {l0 l : List Resolved} : StablySorted l0 l ↔ l = sortByOffset l0 := by
  constructor
  · rintro ⟨h1, h2⟩
    exact stablySorted_unique h1 (sortByOffset_sorted l0) fun o => (h2 o).trans (sortByOffset_filter o l0).symm
  · rintro rfl
    exact ⟨sortByOffset_sorted l0, fun o => sortByOffset_filter o l0⟩

theorem selected_iff {e : Elf} {names : List (List Char)} {l : List Resolved} :
    Selected e names l ↔ ∃ l0 : List Resolved, names.map e.lookup = l0.map some ∧ l = sortByOffset l0 := by
  unfold Selected
  refine exists_congr fun l0 => ?_
  rw [stablySorted_iff, ← and_assoc]
  refine and_congr_left fun _ => ?_
  constructor
  · rintro ⟨rfl, h⟩
    rw [List.map_map]
    refine List.map_congr_left fun x hx => ?_
    obtain ⟨s, h1, h2, h3⟩ := h x hx
    refine lookup_some.mpr ⟨s, h1, h2, ?_⟩
    rw [← h3]
  · intro h
    refine ⟨map_some_names h, fun x hx => ?_⟩
    have : some x ∈ names.map e.lookup := by rw [h]; exact List.mem_map_of_mem hx
    obtain ⟨n, _, hn⟩ := List.mem_map.mp this
    obtain ⟨s, h1, h2, rfl⟩ := lookup_some.mp hn
    exact ⟨s, h1, h2, rfl⟩

theorem resolved_iff {acc : Bytes → Bool} {f : ElfFile} {l : List Resolved} : f.resolvedSections acc = .ok l ↔
    acc f.data = true ∧ ∃ e, ElfView f.data e ∧ Selected e f.sections l := by
  rw [resolved_ok]
  constructor
  · rintro ⟨e, l0, h1, h2, h3, h4⟩
    exact ⟨h2, e, decodeElf_iff.mp h1, selected_iff.mpr ⟨l0, h3, h4⟩⟩
  · rintro ⟨h2, e, h1, h3⟩
    obtain ⟨l0, h3, h4⟩ := selected_iff.mp h3
    exact ⟨e, l0, decodeElf_iff.mpr h1, h2, h3, h4⟩

end Ksusig
