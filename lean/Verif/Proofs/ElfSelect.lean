import Verif.Proofs.ElfFind

/-! # Selecting and sorting sections -/

namespace Ksusig

open Spec

theorem isWhite_iff {c : Char} : isWhite c = true ↔ White c := by
  unfold isWhite White whitePoints
  simp only [Bool.or_eq_true, Bool.and_eq_true, decide_eq_true_eq, beq_iff_eq, List.mem_cons, List.not_mem_nil, or_false]
  omega

theorem dropWhile_split {q : Char → Bool} (l : List Char) : ∃ a, l = a ++ l.dropWhile q ∧ ∀ c ∈ a, q c = true :=
  ⟨l.takeWhile q, (List.takeWhile_append_dropWhile).symm, fun c hc => by
    have := List.all_takeWhile (p := q) (l := l)
    rw [List.all_eq_true] at this
    exact this c hc⟩

theorem head?_dropWhile {q : Char → Bool} {l : List Char} {c : Char} (h : (l.dropWhile q).head? = some c) : q c = false := by
  have := List.head?_dropWhile_not q l
  rw [h] at this
  simpa using this

theorem trim_trims (n : List Char) : Trims n (trim n) := by
  unfold trim
  obtain ⟨a, ha, hwa⟩ := dropWhile_split (q := isWhite) n
  obtain ⟨b, hb, hwb⟩ := dropWhile_split (q := isWhite) (n.dropWhile isWhite).reverse
  have hb' : n.dropWhile isWhite = ((n.dropWhile isWhite).reverse.dropWhile isWhite).reverse ++ b.reverse := by
    have := congrArg List.reverse hb
    rwa [List.reverse_reverse, List.reverse_append] at this
  refine ⟨⟨a, b.reverse, ?_, ?_, ?_⟩, ?_, ?_⟩
  · rw [List.append_assoc, ← hb']; exact ha
  · intro c hc; exact isWhite_iff.mp (hwa c hc)
  · intro c hc; exact isWhite_iff.mp (hwb c (by simpa using hc))
  · intro c hc
    have : (n.dropWhile isWhite).head? = some c := by
      rw [hb']
      rw [List.head?_append, hc]; rfl
    rw [← isWhite_iff, head?_dropWhile this]; decide
  · intro c hc
    rw [List.getLast?_reverse] at hc
    rw [← isWhite_iff, head?_dropWhile hc]; decide

theorem trims_prefix {a t a' t' : List Char} (h : a ++ t = a' ++ t') (ha : ∀ c ∈ a, White c) (ha' : ∀ c ∈ a', White c)
    (ht : ∀ c, t.head? = some c → ¬ White c) (ht' : ∀ c, t'.head? = some c → ¬ White c) (hne : t ≠ []) (hne' : t' ≠ []) :
    a = a' ∧ t = t' := by
  rcases List.append_eq_append_iff.mp h with ⟨x, rfl, rfl⟩ | ⟨x, rfl, rfl⟩
  · cases x with
    | nil => simp
    | cons c x => exact absurd (ha' c (by simp)) (ht c rfl)
  · cases x with
    | nil => simp
    | cons c x => exact absurd (ha c (by simp)) (ht' c rfl)

theorem trims_nil {n t : List Char} (h : Trims n t) : t = [] ↔ ∀ c ∈ n, White c := by
  obtain ⟨⟨a, b, rfl, ha, hb⟩, h1, h2⟩ := h
  constructor
  · rintro rfl c hc
    simp only [List.append_nil, List.mem_append] at hc
    rcases hc with hc | hc
    · exact ha c hc
    · exact hb c hc
  · intro hw
    cases t with
    | nil => rfl
    | cons c t => exact absurd (hw c (by simp)) (h1 c rfl)

theorem trims_unique {n t t' : List Char} (h : Trims n t) (h' : Trims n t') : t = t' := by
  by_cases ht : t = []
  · rw [ht, (trims_nil h').mpr ((trims_nil h).mp ht)]
  have ht' : t' ≠ [] := fun e => ht ((trims_nil h).mpr ((trims_nil h').mp e))
  obtain ⟨⟨a, b, rfl, ha, hb⟩, h1, h2⟩ := h
  obtain ⟨⟨a', b', he, ha', hb'⟩, h1', h2'⟩ := h'
  have hh : ∀ {t b : List Char} (_ : t ≠ []) {c}, (t ++ b).head? = some c → t.head? = some c := by
    intro t b ht c hc
    cases t with
    | nil => exact absurd rfl ht
    | cons x t => simpa using hc
  rw [List.append_assoc, List.append_assoc] at he
  have he' := (trims_prefix he ha ha' (fun c hc => h1 c (hh ht hc)) (fun c hc => h1' c (hh ht' hc))
    (by simp [ht]) (by simp [ht'])).2
  have hr := congrArg List.reverse he'
  rw [List.reverse_append, List.reverse_append] at hr
  have := (trims_prefix hr (by simpa using hb) (by simpa using hb') (by simpa using h2) (by simpa using h2')
    (by simpa using ht) (by simpa using ht')).2
  simpa using this

theorem asciiLower_eq (c : Char) : asciiLower c = c.toLower := by
  unfold asciiLower Char.toLower
  by_cases h : 'A' ≤ c ∧ c ≤ 'Z'
  · have h' : c.val ≥ 'A'.val ∧ c.val ≤ 'Z'.val := h
    rw [if_pos h, dif_pos h']
    apply Char.ext
    have h1 : c.val.toNat ≤ 90 := UInt32.le_iff_toNat_le.mp h.2
    rw [Char.ofNat, dif_pos (by left; show c.val.toNat + 32 < _; omega)]
    apply UInt32.toNat_inj.mp
    show c.val.toNat + 32 = _
    rw [UInt32.toNat_add]
    show _ = (c.val.toNat + 32) % _
    omega
  · have h' : ¬ (c.val ≥ 'A'.val ∧ c.val ≤ 'Z'.val) := h
    rw [if_neg h, dif_neg h']

theorem isKsuName_iff {n : List Char} : eqIgnoreCase n ksuSection = true ↔ IsKsuName n := by
  unfold eqIgnoreCase IsKsuName
  rw [beq_iff_eq]
  have h : n.map asciiLower = n.map Char.toLower := List.map_congr_left (fun c _ => asciiLower_eq c)
  have h2 : ksuSection.map asciiLower = ".ksu_sign".toList := by decide +kernel
  rw [h, h2]

/-! ## UTF-8 -/

theorem utf8_toByteArray (l : List Char) : (utf8 l).toByteArray = l.utf8Encode := rfl

theorem toByteArray_inj {a b : Bytes} (h : a.toByteArray = b.toByteArray) : a = b := by
  have := congrArg (fun x : ByteArray => x.data.toList) h
  simpa [List.data_toByteArray] using this

theorem utf8_inj {a b : List Char} (h : utf8 a = utf8 b) : a = b := by
  have h' : a.utf8Encode = b.utf8Encode := by rw [← utf8_toByteArray, ← utf8_toByteArray, h]
  have ha := List.utf8Decode?_utf8Encode (l := a)
  rw [h', List.utf8Decode?_utf8Encode] at ha
  simpa using ha.symm

theorem utf8_ne_ksu {n : List Char} (h : ¬ IsKsuName n) : utf8 n ≠ ksuName := by
  rw [← utf8_ksu]
  intro h'
  apply h
  rw [utf8_inj h', ← isKsuName_iff]
  decide +kernel

/-! ## Sorting -/

theorem insertByOffset_perm (x : Resolved) : ∀ l, List.Perm (insertByOffset x l) (x :: l)
  | [] => .refl _
  | y :: ys => by
    unfold insertByOffset
    split
    · exact .refl _
    · exact ((insertByOffset_perm x ys).cons y).trans (.swap x y ys)

theorem sortByOffset_perm : ∀ l, List.Perm (sortByOffset l) l
  | [] => .refl _
  | x :: xs => (insertByOffset_perm x _).trans ((sortByOffset_perm xs).cons x)

theorem insertByOffset_sorted (x : Resolved) : ∀ {l : List Resolved}, l.Pairwise (fun a b => a.2.1 ≤ b.2.1) →
    (insertByOffset x l).Pairwise (fun a b => a.2.1 ≤ b.2.1)
  | [], _ => by simp [insertByOffset]
  | y :: ys, h => by
    unfold insertByOffset
    rw [List.pairwise_cons] at h
    split
    · rename_i hxy
      refine List.pairwise_cons.mpr ⟨?_, List.pairwise_cons.mpr h⟩
      intro z hz
      rcases List.mem_cons.mp hz with rfl | hz
      · exact hxy
      · exact Nat.le_trans hxy (h.1 z hz)
    · rename_i hxy
      refine List.pairwise_cons.mpr ⟨?_, insertByOffset_sorted x h.2⟩
      intro z hz
      rcases List.mem_cons.mp ((insertByOffset_perm x ys).mem_iff.mp hz) with rfl | hz
      · omega
      · exact h.1 z hz

theorem sortByOffset_sorted : ∀ l, (sortByOffset l).Pairwise (fun a b => a.2.1 ≤ b.2.1)
  | [] => .nil
  | x :: xs => insertByOffset_sorted x (sortByOffset_sorted xs)

/-- With distinct offsets there is only one sorted arrangement. -/
theorem sorted_unique : ∀ {l l' : List Resolved}, List.Perm l l' → l.Pairwise (fun a b => a.2.1 ≤ b.2.1) →
    l'.Pairwise (fun a b => a.2.1 ≤ b.2.1) → (l.map fun x => x.2.1).Nodup → l = l'
  | [], l', hp, _, _, _ => by rw [List.Perm.nil_eq hp]
  | x :: l, [], hp, _, _, _ => by have := hp.length_eq; simp at this
  | x :: l, y :: l', hp, hs, hs', hn => by
    rw [List.pairwise_cons] at hs hs'
    rw [List.map_cons, List.nodup_cons] at hn
    have hxy : x = y := by
      rcases List.mem_cons.mp (hp.mem_iff.mp (List.mem_cons_self ..)) with h | h
      · exact h
      · rcases List.mem_cons.mp (hp.mem_iff.mpr (List.mem_cons_self ..)) with h' | h'
        · exact h'.symm
        · have h1 := hs'.1 x h
          have h2 := hs.1 y h'
          exact absurd (List.mem_map.mpr ⟨y, h', by omega⟩) hn.1
    subst hxy
    rw [sorted_unique (List.Perm.cons_inv hp) hs.2 hs'.2 hn.2]

/-! ## Looking up -/

theorem firstNamed_iff {e : Elf} {n : Bytes} {s : Shdr} : e.findSection n = some s ↔ FirstNamed e n s := by
  unfold Elf.findSection FirstNamed
  rw [List.find?_eq_some_iff_getElem]
  constructor
  · rintro ⟨h, i, hi, rfl, hn⟩
    refine ⟨i, List.getElem?_eq_getElem hi, named_iff.mp h, fun j hj x hx => named_false.mp ?_⟩
    rw [List.getElem?_eq_getElem (by omega)] at hx
    cases hx
    simpa using hn j hj
  · rintro ⟨i, h1, h2, h3⟩
    obtain ⟨hi, hs⟩ := List.getElem?_eq_some_iff.mp h1
    refine ⟨named_iff.mpr h2, i, hi, hs, fun j hj => ?_⟩
    rw [named_false.mpr (h3 j hj _ (List.getElem?_eq_getElem (by omega)))]; rfl

/-- What looking up one name gives. -/
def Elf.lookup (e : Elf) (n : List Char) : Option Resolved :=
  match e.findSection (utf8 n) with
  | none => none
  | some s => if s.type = shtNobits then none else if s.size = 0 then none else some (n, s.offset, s.size)

theorem lookup_some {e : Elf} {n : List Char} {x : Resolved} : e.lookup n = some x ↔
    ∃ s, FirstNamed e (utf8 n) s ∧ HasBytes s ∧ x = (n, s.offset, s.size) := by
  unfold Elf.lookup
  constructor
  · intro h
    split at h
    · cases h
    · rename_i s hs
      split at h
      · cases h
      · rename_i h1
        split at h
        · cases h
        · rename_i h2
          injection h with h
          exact ⟨s, firstNamed_iff.mp hs, ⟨h1, h2⟩, h.symm⟩
  · rintro ⟨s, hs, ⟨h1, h2⟩, rfl⟩
    rw [firstNamed_iff.mpr hs]
    dsimp only
    rw [if_neg (show ¬ s.type = shtNobits from h1), if_neg h2]

theorem lookupAll_cons (e : Elf) (n : List Char) (ns : List (List Char)) : e.lookupAll (n :: ns) =
    match e.lookup n with
    | none => .err .elf
    | some x => (e.lookupAll ns).bind fun rest => Res.ok (x :: rest) := by
  rw [Elf.lookupAll]
  unfold Elf.lookup
  cases e.findSection (utf8 n) with
  | none => rfl
  | some s =>
    dsimp only
    by_cases h1 : s.type = shtNobits
    · rw [if_pos h1, if_pos h1]
    · rw [if_neg h1, if_neg h1]
      by_cases h2 : s.size = 0
      · rw [if_pos h2, if_pos h2]
      · rw [if_neg h2, if_neg h2]; rfl

theorem lookupAll_eq {e : Elf} : ∀ {ns : List (List Char)}, e.lookupAll ns =
    match ns.mapM e.lookup with
    | some l => .ok l
    | none => .err .elf
  | [] => rfl
  | n :: ns => by
    rw [List.mapM_cons, lookupAll_cons, lookupAll_eq]
    cases e.lookup n with
    | none => rfl
    | some x =>
      cases h : ns.mapM e.lookup with
      | none => rfl
      | some l => rfl

theorem mapM_some_map {α β : Type} {g : α → Option β} : ∀ {ns : List α} {l : List β}, ns.mapM g = some l →
    ns.map g = l.map some
  | [], l, h => by simp at h; subst h; rfl
  | n :: ns, l, h => by
    rw [List.mapM_cons] at h
    cases h1 : g n with
    | none => rw [h1] at h; cases h
    | some x =>
      rw [h1] at h
      cases h2 : ns.mapM g with
      | none => rw [h2] at h; cases h
      | some r =>
        rw [h2] at h
        cases h
        simp [h1, mapM_some_map h2]

theorem mapM_of_map {α β : Type} {g : α → Option β} : ∀ {ns : List α} {l : List β}, ns.map g = l.map some →
    ns.mapM g = some l
  | [], l, h => by simp at h; subst h; rfl
  | n :: ns, [], h => by simp at h
  | n :: ns, x :: l, h => by
    simp only [List.map_cons, List.cons.injEq] at h
    rw [List.mapM_cons, h.1, mapM_of_map h.2]; rfl

theorem lookupAll_ok {e : Elf} {ns : List (List Char)} {l : List Resolved} : e.lookupAll ns = .ok l ↔
    ns.map e.lookup = l.map some := by
  rw [lookupAll_eq]
  constructor
  · intro h
    split at h
    · rename_i h'; cases h; exact mapM_some_map h'
    · cases h
  · intro h
    rw [mapM_of_map h]

theorem map_some_names {e : Elf} : ∀ {ns : List (List Char)} {l : List Resolved}, ns.map e.lookup = l.map some →
    l.map (fun x => x.1) = ns
  | [], [], _ => rfl
  | [], _ :: _, h => by simp at h
  | _ :: _, [], h => by simp at h
  | n :: ns, x :: l, h => by
    simp only [List.map_cons, List.cons.injEq] at h
    obtain ⟨s, _, _, rfl⟩ := lookup_some.mp h.1
    simp [map_some_names h.2]

theorem exists_map_some {α β : Type} {g : α → Option β} : ∀ {ns : List α}, (∀ n ∈ ns, ∃ x, g n = some x) →
    ∃ l : List β, ns.map g = l.map some
  | [], _ => ⟨[], rfl⟩
  | n :: ns, h => by
    obtain ⟨x, hx⟩ := h n (by simp)
    obtain ⟨l, hl⟩ := exists_map_some (ns := ns) (fun m hm => h m (by simp [hm]))
    exact ⟨x :: l, by simp [hx, hl]⟩

theorem parseElf_ok {acc : Bytes → Bool} {data : Bytes} {e : Elf} : parseElf acc data = .ok e ↔
    decodeElf data = some e ∧ acc data = true := by
  unfold parseElf
  cases decodeElf data with
  | none => simp
  | some x =>
    dsimp only
    by_cases h : acc data = true
    · rw [if_pos h]; simp [h]
    · rw [if_neg h]; simp [h]

theorem resolved_ok {acc : Bytes → Bool} {f : ElfFile} {l : List Resolved} : f.resolvedSections acc = .ok l ↔
    ∃ e l0, decodeElf f.data = some e ∧ acc f.data = true ∧ f.sections.map e.lookup = l0.map some ∧ l = sortByOffset l0 := by
  unfold ElfFile.resolvedSections
  rw [Res.bind_eq_ok]
  constructor
  · rintro ⟨e, he, h⟩
    unfold Elf.collectSections at h
    obtain ⟨l0, h0, h⟩ := Res.bind_eq_ok.mp h
    cases h
    exact ⟨e, l0, (parseElf_ok.mp he).1, (parseElf_ok.mp he).2, lookupAll_ok.mp h0, rfl⟩
  · rintro ⟨e, l0, h1, h2, h3, rfl⟩
    refine ⟨e, parseElf_ok.mpr ⟨h1, h2⟩, ?_⟩
    unfold Elf.collectSections
    rw [lookupAll_ok.mpr h3]; rfl

end Ksusig
