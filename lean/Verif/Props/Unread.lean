import Verif.SpecUnread
import Verif.Props.ElfKept

/-! # C133: what the signature of an ELF file does not cover -/

namespace Ksusig.Props

open Ksusig Spec

theorem byteAt_same {d d' : Bytes} {i : Nat} (h : d'[i]? = d[i]?) : byteAt d' i = byteAt d i := by
  unfold byteAt
  rw [List.getD_eq_getElem?_getD, List.getD_eq_getElem?_getD, h]

theorem littleAt_same {d d' : Bytes} : ∀ {w pos : Nat}, (∀ i, Within pos w i → d'[i]? = d[i]?) → littleAt d' pos w = littleAt d pos w
  | 0, _, _ => rfl
  | w + 1, pos, h => by
    unfold littleAt
    rw [byteAt_same (h pos ⟨by omega, by omega⟩), littleAt_same fun i hi => h i ⟨by have := hi.1; omega, by have := hi.2; omega⟩]

theorem bigAt_same {d d' : Bytes} : ∀ {w pos : Nat}, (∀ i, Within pos w i → d'[i]? = d[i]?) → bigAt d' pos w = bigAt d pos w
  | 0, _, _ => rfl
  | w + 1, pos, h => by
    unfold bigAt
    rw [byteAt_same (h (pos + w) ⟨by omega, by omega⟩), bigAt_same fun i hi => h i ⟨hi.1, by have := hi.2; omega⟩]

theorem numAt_same {le : Bool} {d d' : Bytes} {pos w : Nat} (h : ∀ i, Within pos w i → d'[i]? = d[i]?) :
    numAt le d' pos w = numAt le d pos w := by
  unfold numAt
  rw [littleAt_same h, bigAt_same h]

theorem shdrAt_same {is64 le : Bool} {d d' : Bytes} {pos : Nat} (h : ∀ i, Within pos (entryLength is64) i → d'[i]? = d[i]?) :
    shdrAt is64 le d' pos = shdrAt is64 le d pos := by
  have key : ∀ off w, off + w ≤ entryLength is64 → numAt le d' (pos + off) w = numAt le d (pos + off) w := fun off w hw =>
    numAt_same fun i hi => h i ⟨by have := hi.1; omega, by have := hi.2; omega⟩
  unfold shdrAt
  cases is64
  · have key : ∀ off w, off + w ≤ 40 → numAt le d' (pos + off) w = numAt le d (pos + off) w := key
    simp only [Bool.false_eq_true, if_false, key 0 4 (by decide), key 4 4 (by decide), key 8 4 (by decide), key 12 4 (by decide),
      key 16 4 (by decide), key 20 4 (by decide), key 24 4 (by decide), key 28 4 (by decide), key 32 4 (by decide), key 36 4 (by decide)]
  · have key : ∀ off w, off + w ≤ 64 → numAt le d' (pos + off) w = numAt le d (pos + off) w := key
    simp only [if_true, key 0 4 (by decide), key 4 4 (by decide), key 8 8 (by decide), key 16 8 (by decide),
      key 24 8 (by decide), key 32 8 (by decide), key 40 4 (by decide), key 44 4 (by decide), key 48 8 (by decide), key 56 8 (by decide)]

theorem slice_same {d d' : Bytes} {pos n : Nat} (h : ∀ i, Within pos n i → d'[i]? = d[i]?) :
    (d'.drop pos).take n = (d.drop pos).take n := take_drop_kept fun i h1 h2 => h i ⟨h1, h2⟩

/-- What the changed file says: the same, except for the header. -/
theorem view_same {d d' : Bytes} {e : Elf} {l : List Resolved} (hv : ElfView d e) (hlen : d.length ≤ d'.length)
    (h : ∀ i, Looked e l i → d'[i]? = d[i]?) :
    ∃ e', ElfView d' e' ∧ e'.shdrs = e.shdrs ∧ e'.strtab = e.strtab ∧ e'.is64 = e.is64 ∧ e'.le = e.le ∧
      e'.hdr.shoff = e.hdr.shoff ∧ e'.hdr.shstrndx = e.hdr.shstrndx := by
  have hoff : (ehdrAt e.is64 e.le d').shoff = e.hdr.shoff := by
    rw [hv.hdr]
    have hp := fun i hi => h i (.place hi)
    unfold ehdrAt
    cases hb : e.is64
    · rw [hb] at hp
      exact numAt_same (pos := 32) (w := 4) hp
    · rw [hb] at hp
      exact numAt_same (pos := 40) (w := 8) hp
  have hcnt : (ehdrAt e.is64 e.le d').shnum = e.hdr.shnum := by
    rw [hv.hdr]
    have hp := fun i hi => h i (.count hi)
    unfold ehdrAt
    cases hb : e.is64
    · rw [hb] at hp
      exact numAt_same (pos := 48) (w := 2) fun i hi => hp i ⟨hi.1, by have := hi.2; simp only [Bool.false_eq_true, if_false]; omega⟩
    · rw [hb] at hp
      exact numAt_same (pos := 60) (w := 2) fun i hi => hp i ⟨hi.1, by have := hi.2; simp only [if_true]; omega⟩
  have hidx : (ehdrAt e.is64 e.le d').shstrndx = e.hdr.shstrndx := by
    rw [hv.hdr]
    have hp := fun i hi => h i (.count hi)
    unfold ehdrAt
    cases hb : e.is64
    · rw [hb] at hp
      exact numAt_same (pos := 50) (w := 2) fun i hi => hp i ⟨by have := hi.1; simp only [Bool.false_eq_true, if_false]; omega,
        by have := hi.2; simp only [Bool.false_eq_true, if_false]; omega⟩
    · rw [hb] at hp
      exact numAt_same (pos := 62) (w := 2) fun i hi => hp i ⟨by have := hi.1; simp only [if_true]; omega,
        by have := hi.2; simp only [if_true]; omega⟩
  have hpos := entryLength_pos e.is64
  have hhd : ∀ i, i < e.shdrs.length →
      shdrAt e.is64 e.le d' (e.hdr.shoff + entryLength e.is64 * i) = shdrAt e.is64 e.le d (e.hdr.shoff + entryLength e.is64 * i) := by
    intro i hi
    refine shdrAt_same fun k hk => h k (.headers ⟨by have := hk.1; omega, ?_⟩)
    have : entryLength e.is64 * (i + 1) ≤ entryLength e.is64 * e.shdrs.length := Nat.mul_le_mul_left _ hi
    have := hk.2
    rw [Nat.mul_add] at *
    omega
  refine ⟨⟨d'.take 16, e.is64, e.le, ehdrAt e.is64 e.le d', e.shdrs, e.strtab⟩, ?_, rfl, rfl, rfl, rfl, hoff, hidx⟩
  constructor
  · rw [← hv.magic]
    have := slice_same (d := d) (d' := d') (pos := 0) (n := 4) fun i hi => h i (.ident (by have := hi.2; omega))
    simpa using this
  · rw [h 4 (.ident (by decide))]; exact hv.cls
  · rw [h 5 (.ident (by decide))]; exact hv.order
  · exact Nat.le_trans hv.room hlen
  · rfl
  · rfl
  · simp only [hoff]; exact Nat.le_trans hv.inside hlen
  · simp only [hoff, hcnt]
    rw [hv.count]
    unfold headerCount
    split
    · rfl
    · rename_i h0
      split
      · rename_i h1
        have := hhd 0 (by rw [hv.count]; unfold headerCount; rw [if_neg h0]; omega)
        rw [Nat.mul_zero, Nat.add_zero] at this
        rw [this]
      · rfl
  · intro i hi
    simp only [hoff]
    rw [hhd i hi]
    exact hv.headers i hi
  · have hni : nameIndex ⟨d'.take 16, e.is64, e.le, ehdrAt e.is64 e.le d', e.shdrs, e.strtab⟩ = nameIndex e := by
      unfold nameIndex
      simp only [hidx]
    rw [hni]
    refine hv.names.imp id fun ⟨s, h1, h2, h3, h4⟩ => ⟨s, h1, Nat.le_trans h2 hlen, ?_, h4⟩
    rw [slice_same fun i hi => h i (.names h1 hi)]
    exact h3

theorem firstAt_same {e e' : Elf} (h1 : e'.shdrs = e.shdrs) (h2 : e'.strtab = e.strtab) (n : Bytes) (i : Nat) (s : Shdr) :
    FirstAt e' n i s ↔ FirstAt e n i s := by
  have hn : ∀ x, nameOf e' x = nameOf e x := fun x => by unfold nameOf; rw [h2]
  constructor
  · rintro ⟨a, b, c⟩
    exact ⟨by rw [← h1]; exact a, by rw [← hn]; exact b, fun j hj x hx => by rw [← hn]; exact c j hj x (by rw [h1]; exact hx)⟩
  · rintro ⟨a, b, c⟩
    exact ⟨by rw [h1]; exact a, by rw [hn]; exact b, fun j hj x hx => by rw [hn]; exact c j hj x (by rw [← h1]; exact hx)⟩

theorem firstNamed_same {e e' : Elf} (h1 : e'.shdrs = e.shdrs) (h2 : e'.strtab = e.strtab) (n : Bytes) (s : Shdr) :
    FirstNamed e' n s ↔ FirstNamed e n s := by
  unfold FirstNamed
  exact exists_congr fun i => firstAt_same h1 h2 n i s

/-- C133: a file may be changed at will outside the places of `Looked`, and be lengthened: if it can still be opened, then its block,
the chosen sections and all digests are the same. -/
theorem C133_rest_is_free {acc : Bytes → Bool} {d d' : Bytes} {e : Elf} {names : List (List Char)} {l : List Resolved}
    (hlen : d.length ≤ d'.length) (hbig : d'.length < 2 ^ 63) (hacc' : acc d' = true) (hv : ElfView d e)
    (hl : Selected e names l) (h : ∀ i, Looked e l i → d'[i]? = d[i]?) :
    (∀ p r, (⟨d, names⟩ : ElfFile).getSigningBlock p acc = .ok r → (⟨d', names⟩ : ElfFile).getSigningBlock p acc = .ok r) ∧
    (⟨d', names⟩ : ElfFile).resolvedSections acc = .ok l ∧
    ∀ E algo, (⟨d', names⟩ : ElfFile).digest E acc algo = .ok (treeDigest (algo.hash E) (l.map fun x => (d.drop x.2.1).take x.2.2)) := by
  obtain ⟨e', hv', h1, h2, _⟩ := view_same hv hlen h
  have hf := firstNamed_same h1 h2
  have hl' : Selected e' names l := by
    obtain ⟨l0, a, b, c⟩ := hl
    exact ⟨l0, a, fun x hx => by
      obtain ⟨s, hs, k⟩ := b x hx
      exact ⟨s, (hf _ _).mpr hs, k⟩, c⟩
  refine ⟨fun p r hr => ?_, (C97_sections _ _ _).mpr ⟨hacc', e', hv', hl'⟩, fun E algo => ?_⟩
  · cases r with
    | none =>
      obtain ⟨_, e1, hv1, hc⟩ := (C97_unsigned _ _ _).mp hr
      obtain rfl := C97_unique hv hv1
      refine (C97_unsigned _ _ _).mpr ⟨hacc', e', hv', ?_⟩
      simpa only [hf] using hc
    | some b =>
      obtain ⟨_, e1, s, hv1, hs, hs0, hsi, hb⟩ := (C97_block _ _ _ _ (Nat.lt_of_le_of_lt hlen hbig)).mp hr
      obtain rfl := C97_unique hv hv1
      refine (C97_block _ _ _ _ hbig).mpr ⟨hacc', e', s, hv', (hf _ _).mpr hs, hs0, Nat.le_trans hsi hlen, ?_⟩
      unfold sectionBytes at hb ⊢
      show HoldsBlock ((d'.drop s.offset).take s.size) b
      rw [slice_same fun i hi => h i (.block hs hi)]
      exact hb
  · refine (C97_digest _ _ _ _ _).mpr ⟨hacc', e', l, hv', hl', ?_⟩
    congr 1
    exact List.map_congr_left fun x hx => (slice_same fun i hi => h i (.chosen hx hi)).symm

/-- C133: in particular the place where the program starts (`e_entry`) can be changed at will in every file the section headers and
sections of which lie behind the ELF header. -/
theorem C133_entry_point {acc : Bytes → Bool} {d d' : Bytes} {e : Elf} {names : List (List Char)} {l : List Resolved}
    (hlen : d'.length = d.length) (hbig : d.length < 2 ^ 63) (hacc' : acc d' = true) (hv : ElfView d e) (hl : Selected e names l)
    (htab : headerLength e.is64 ≤ e.hdr.shoff) (hsec : ∀ s ∈ e.shdrs, s.size = 0 ∨ headerLength e.is64 ≤ s.offset)
    (h : ∀ i, ¬ Within 24 (if e.is64 then 8 else 4) i → d'[i]? = d[i]?) :
    (∀ p r, (⟨d, names⟩ : ElfFile).getSigningBlock p acc = .ok r → (⟨d', names⟩ : ElfFile).getSigningBlock p acc = .ok r) ∧
    (⟨d', names⟩ : ElfFile).resolvedSections acc = .ok l ∧
    ∀ E algo, (⟨d', names⟩ : ElfFile).digest E acc algo = .ok (treeDigest (algo.hash E) (l.map fun x => (d.drop x.2.1).take x.2.2)) := by
  refine C133_rest_is_free (by omega) (by omega) hacc' hv hl fun i hi => h i ?_
  have hh : 32 ≤ headerLength e.is64 := by cases e.is64 <;> decide
  have hw : 24 + (if e.is64 then 8 else 4) ≤ 32 := by cases e.is64 <;> decide
  have sec : ∀ s ∈ e.shdrs, Within s.offset s.size i → 32 ≤ i := fun s hs hi => by
    rcases hsec s hs with h0 | h0
    · have := hi.1; have := hi.2; omega
    · have := hi.1; omega
  have key : i < 24 ∨ 24 + (if e.is64 then 8 else 4) ≤ i := by
    cases hi with
    | ident hi => left; omega
    | place hi =>
      right
      have := hi.1
      cases hb : e.is64 <;> rw [hb] at this <;> simp only [Bool.false_eq_true, if_false, if_true] at this ⊢ <;> omega
    | count hi =>
      right
      have := hi.1
      cases hb : e.is64 <;> rw [hb] at this <;> simp only [Bool.false_eq_true, if_false, if_true] at this ⊢ <;> omega
    | headers hi => right; have := hi.1; omega
    | names hs hi => right; have := sec _ (List.mem_of_getElem? hs) hi; omega
    | block hs hi =>
      obtain ⟨j, hj⟩ := hs
      right; have := sec _ (List.mem_of_getElem? hj.here) hi; omega
    | @chosen x hx hi =>
      right
      obtain ⟨l0, _, a, _, b⟩ := hl
      have hx0 : x ∈ l0 := by
        have : x ∈ l.filter fun y => y.2.1 = x.2.1 := List.mem_filter.mpr ⟨hx, by simp⟩
        rw [b] at this
        exact (List.mem_filter.mp this).1
      obtain ⟨s, ⟨j, hj⟩, _, hs⟩ := a x hx0
      rw [hs] at hi
      have := sec _ (List.mem_of_getElem? hj.here) hi
      omega
  rintro ⟨k1, k2⟩
  omega

set_option maxRecDepth 100000 in
/-- The signed sample meets these conditions; with another entry point it still has its block, and the digest stored in it. -/
example (p : Profile) (b : SigningBlock) (h : (⟨signTiny elf64, defaultSections⟩ : ElfFile).getSigningBlock p anyElf = .ok (some b)) :
    (⟨(signTiny elf64).set 24 72, defaultSections⟩ : ElfFile).getSigningBlock p anyElf = .ok (some b) := by
  have hd : ∃ e, decodeElf (signTiny elf64) = some e ∧ (decide (headerLength e.is64 ≤ e.hdr.shoff) &&
      e.shdrs.all fun s => decide (s.size = 0 ∨ headerLength e.is64 ≤ s.offset)) = true := exists_elf (by decide +kernel)
  obtain ⟨e, he, hd⟩ := hd
  simp only [Bool.and_eq_true, decide_eq_true_eq, List.all_eq_true] at hd
  have hr : ∃ l, (⟨signTiny elf64, defaultSections⟩ : ElfFile).resolvedSections anyElf = .ok l := Res.exists_of_isOk (by decide +kernel)
  obtain ⟨l, hr⟩ := hr
  obtain ⟨_, e1, hv1, hl⟩ := (C97_sections _ _ _).mp hr
  obtain rfl := C97_unique (decodeElf_iff.mp he) hv1
  refine (C133_entry_point (d := signTiny elf64) List.length_set (by decide +kernel) rfl hv1 hl hd.1 hd.2 fun i hi => ?_).1 p _ h
  rw [List.getElem?_set_ne]
  rintro rfl
  exact hi ⟨by omega, by cases e.is64 <;> decide⟩

end Ksusig.Props
