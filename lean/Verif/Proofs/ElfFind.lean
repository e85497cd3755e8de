import Verif.Proofs.ElfWrite

/-! # Sections of a written ELF file -/

namespace Ksusig

open Spec

theorem find?_set_other {q q' : Shdr → Bool} {x : Shdr} (hx : q' x = false) : ∀ {l : List Shdr} {i : Nat},
    (∀ s ∈ l, q' s = q s) → (∀ s, l[i]? = some s → q s = false) → (l.set i x).find? q' = l.find? q
  | [], _, _, _ => rfl
  | y :: l, 0, hq, hi => by
    have hy : q y = false := hi y rfl
    simp only [List.set_cons_zero, List.find?_cons, hx, hy]
    have : ∀ l : List Shdr, (∀ s ∈ l, q' s = q s) → l.find? q' = l.find? q := by
      intro l
      induction l with
      | nil => intro _; rfl
      | cons z l ih =>
        intro h
        rw [List.find?_cons, List.find?_cons, h z (by simp), ih (fun s hs => h s (by simp [hs]))]
    exact this l (fun s hs => hq s (by simp [hs]))
  | y :: l, i + 1, hq, hi => by
    simp only [List.set_cons_succ, List.find?_cons, hq y (by simp)]
    rw [find?_set_other hx (fun s hs => hq s (by simp [hs])) (fun s hs => hi s (by simpa using hs))]

theorem find?_set_first {q : Shdr → Bool} {x : Shdr} (hx : q x = true) : ∀ {l : List Shdr} {i : Nat}, i < l.length →
    (∀ j s, j < i → l[j]? = some s → q s = false) → (l.set i x).find? q = some x
  | [], _, h, _ => by simp at h
  | y :: l, 0, _, _ => by simp [hx]
  | y :: l, i + 1, hi, hj => by
    have hy : q y = false := hj 0 y (by omega) rfl
    simp only [List.set_cons_succ, List.find?_cons, hy]
    exact find?_set_first hx (by simpa using hi) (fun j s h hs => hj (j + 1) s (by omega) (by simpa using hs))

/-- Names of the sections that were there before are the same afterwards. -/
theorem nameOf_written {e : Elf} (hok : ElfOk e) {off : Nat} {table : List Shdr} {s s' : Shdr} (hs : s ∈ e.shdrs)
    (hn : s'.name = s.name) : nameOf (written e off table) s' = nameOf e s := by
  unfold nameOf written newStrtab
  dsimp only
  rw [hn]
  split
  · rfl
  · rw [List.append_assoc]; exact strtabGet_append (hok.names s hs) hok.term

theorem named_iff {e : Elf} {n : Bytes} {s : Shdr} : e.named n s = true ↔ nameOf e s = some n := by
  unfold Elf.named nameOf; exact beq_iff_eq

theorem named_false {e : Elf} {n : Bytes} {s : Shdr} : e.named n s = false ↔ nameOf e s ≠ some n := by
  rw [← Bool.not_eq_true, named_iff]

theorem nameOf_ksu {data : Bytes} {e : Elf} {rest : Bytes} {b : SigningBlock} {out : Bytes} {table : List Shdr}
    {pad1 mid pad3 : Bytes} {ksu sh : Shdr} (hd : Decoded data e rest)
    (hw : Written data e rest b out table pad1 mid pad3 ksu) (hok : ElfOk e)
    (hsh : e.shdrs[e.hdr.shstrndx]? = some sh) (hx : e.hdr.shstrndx ≠ 0xffff) (off : Nat) :
    nameOf (written e off table) ksu = some ksuName := by
  rcases hw.cases with ⟨i, s, hi, his, hn, _, hkn, _, rfl⟩ | ⟨hnf, hni, sh', t, pad2, hsh', ht, hkn, _, _, rfl⟩
  · rw [nameOf_written hok (List.mem_of_getElem? his) hkn]
    exact named_iff.mp hn
  · rw [hsh] at hsh'
    cases hsh'
    rw [(strtab_of hd hsh hx).2.1] at ht
    cases ht
    unfold nameOf written newStrtab
    dsimp only
    rw [hni, hkn]
    exact strtabGet_at (by decide) (by intro x hx; cases hx; rfl) (by decide)

theorem not_xindex {e : Elf} {n : Nat} {sh : Shdr} (hsh : e.shdrs[e.hdr.shstrndx]? = some sh) (h : e.shdrs.length ≤ n)
    (hn : n ≤ 65535) : e.hdr.shstrndx ≠ 0xffff := by
  have hidx : e.hdr.shstrndx < e.shdrs.length := by
    rw [List.getElem?_eq_some_iff] at hsh; exact hsh.1
  omega

theorem Written.length_le {data : Bytes} {e : Elf} {rest : Bytes} {b : SigningBlock} {out : Bytes} {table : List Shdr}
    {pad1 mid pad3 : Bytes} {ksu : Shdr} (hw : Written data e rest b out table pad1 mid pad3 ksu) :
    table.length = e.shdrs.length + (if (e.findIndex ksuName).isSome then 0 else 1) := by
  rcases hw.cases with ⟨i, s, hi, _, _, _, _, _, rfl⟩ | ⟨_, hni, sh', t, pad2, _, _, _, _, _, rfl⟩
  · simp [hi]
  · simp [hni]

/-- The signature section of the written file is the one just added. -/
theorem find_ksu {data : Bytes} {e : Elf} {rest : Bytes} {b : SigningBlock} {out : Bytes} {table : List Shdr}
    {pad1 mid pad3 : Bytes} {ksu sh : Shdr} (hd : Decoded data e rest)
    (hw : Written data e rest b out table pad1 mid pad3 ksu) (hok : ElfOk e)
    (hsh : e.shdrs[e.hdr.shstrndx]? = some sh) (off : Nat) :
    (written e off table).findSection ksuName = some ksu := by
  have hx := not_xindex hsh (n := table.length) (by rw [hw.length_le]; omega) hw.count
  have hk : (written e off table).named ksuName ksu = true := named_iff.mpr (nameOf_ksu hd hw hok hsh hx off)
  have hsame : ∀ s ∈ e.shdrs, (written e off table).named ksuName s = e.named ksuName s := by
    intro s hs
    rw [Bool.eq_iff_iff, named_iff, named_iff, nameOf_written hok hs rfl]
  unfold Elf.findSection
  show table.find? _ = _
  rcases hw.cases with ⟨i, s, hi, his, hn, hmin, hkn, _, htab⟩ | ⟨hnf, hni, sh', t, pad2, hsh', ht, hkn, _, _, htab⟩
  · conv => lhs; rw [htab]
    refine find?_set_first hk (by rw [List.getElem?_eq_some_iff] at his; exact his.1) ?_
    intro j s' hj hs'
    rw [hsame s' (List.mem_of_getElem? hs')]
    exact hmin j s' hj hs'
  · rw [hsh] at hsh'
    cases hsh'
    have hsn : e.named ksuName sh = false := by
      rw [List.find?_eq_none] at hnf
      simpa using hnf sh (List.mem_of_getElem? hsh)
    have hmv : ∀ a c, (written e off table).named ksuName { sh with offset := a, size := c } = false := by
      intro a c
      rw [named_false, nameOf_written (s' := { sh with offset := a, size := c }) hok (List.mem_of_getElem? hsh) rfl]
      exact named_false.mp hsn
    generalize (written e off table).named ksuName = q at hk hsame hmv ⊢
    rw [htab, List.find?_append, find?_set_other (q := e.named ksuName) (q' := q) (hmv _ _) hsame ?_, hnf]
    · show List.find? _ [ksu] = _
      rw [List.find?_cons, hk]
    · intro s hs
      rw [hsh] at hs; cases hs; exact hsn

/-- Any other section is found where it was, unless it is the name table. -/
theorem find_other {data : Bytes} {e : Elf} {rest : Bytes} {b : SigningBlock} {out : Bytes} {table : List Shdr}
    {pad1 mid pad3 : Bytes} {ksu sh : Shdr} (hd : Decoded data e rest)
    (hw : Written data e rest b out table pad1 mid pad3 ksu) (hok : ElfOk e)
    (hsh : e.shdrs[e.hdr.shstrndx]? = some sh) (off : Nat) {n : Bytes} (hn : n ≠ ksuName) (hns : nameOf e sh ≠ some n) :
    (written e off table).findSection n = e.findSection n := by
  have hx := not_xindex hsh (n := table.length) (by rw [hw.length_le]; omega) hw.count
  have hk : (written e off table).named n ksu = false := by
    rw [named_false, nameOf_ksu hd hw hok hsh hx off]; intro h; cases h; exact hn rfl
  have hsame : ∀ s ∈ e.shdrs, (written e off table).named n s = e.named n s := by
    intro s hs
    rw [Bool.eq_iff_iff, named_iff, named_iff, nameOf_written hok hs rfl]
  unfold Elf.findSection
  show table.find? _ = _
  rcases hw.cases with ⟨i, s, hi, his, hnm, hmin, hkn, _, htab⟩ | ⟨hnf, hni, sh', t, pad2, hsh', ht, hkn, _, _, htab⟩
  · conv => lhs; rw [htab]
    refine find?_set_other hk hsame ?_
    intro s' hs'
    rw [his] at hs'
    cases hs'
    rw [named_false, named_iff.mp hnm]
    intro h; cases h; exact hn rfl
  · rw [hsh] at hsh'
    cases hsh'
    have hmv : ∀ a c, (written e off table).named n { sh with offset := a, size := c } = false := by
      intro a c
      rw [named_false, nameOf_written (s' := { sh with offset := a, size := c }) hok (List.mem_of_getElem? hsh) rfl]
      exact hns
    generalize (written e off table).named n = q at hk hsame hmv ⊢
    rw [htab, List.find?_append, find?_set_other (q := e.named n) (q' := q) (hmv _ _) hsame ?_]
    · show Option.or _ (List.find? _ [ksu]) = _
      rw [List.find?_cons, hk]
      simp
    · intro s hs
      rw [hsh] at hs; cases hs; rw [named_false]; exact hns

/-- The written file is again ordinary. -/
theorem written_ok {data : Bytes} {e : Elf} {rest : Bytes} {b : SigningBlock} {out : Bytes} {table : List Shdr}
    {pad1 mid pad3 : Bytes} {ksu sh : Shdr} (hd : Decoded data e rest)
    (hw : Written data e rest b out table pad1 mid pad3 ksu) (hok : ElfOk e)
    (hsh : e.shdrs[e.hdr.shstrndx]? = some sh) (off : Nat) : ElfOk (written e off table) := by
  have hx := not_xindex hsh (n := table.length) (by rw [hw.length_le]; omega) hw.count
  have hdl : ehdrSize e.is64 ≤ data.length := by
    conv => rhs; rw [hd.file]
    rw [List.length_append, Elf.hdrBytes_length hd.ident]; omega
  have hsl := (strtab_of hd hsh hx).2.1
  have hssz := slice?_length hsl
  have hidx : e.hdr.shstrndx < e.shdrs.length := by
    rw [List.getElem?_eq_some_iff] at hsh; exact hsh.1
  have hcase : (e.strtab.length ≤ (newStrtab e).length ∧ (newStrtab e).getLast? = some 0 ∧ ksu.name < (newStrtab e).length) ∧
      (∀ s ∈ table, s = ksu ∨ ∃ s0 ∈ e.shdrs, s.name = s0.name) ∧
      ∃ s', table[e.hdr.shstrndx]? = some s' ∧ s'.name = sh.name ∧ s'.addr = sh.addr ∧
        ehdrSize e.is64 ≤ s'.offset := by
    rcases hw.cases with ⟨i, s, hi, his, hn, hmin, hkn, _, rfl⟩ | ⟨hnf, hni, sh', t, pad2, hsh', ht, hkn, _, _, rfl⟩
    · have : newStrtab e = e.strtab := by unfold newStrtab; rw [hi]; rfl
      refine ⟨⟨by rw [this]; omega, by rw [this]; exact hok.term, by rw [this, hkn]; exact hok.names s (List.mem_of_getElem? his)⟩,
        ?_, sh, ?_, rfl, rfl, hok.place sh hsh⟩
      · intro x hx
        rcases List.mem_or_eq_of_mem_set hx with hx | rfl
        · exact .inr ⟨x, hx, rfl⟩
        · exact .inl rfl
      · rw [List.getElem?_set]
        have hne : i ≠ e.hdr.shstrndx := by
          intro h
          subst h
          rw [hsh] at his
          cases his
          exact hok.own sh hsh (named_iff.mp hn)
        rw [if_neg hne, hsh]
    · rw [hsh] at hsh'
      cases hsh'
      rw [hsl] at ht
      cases ht
      have hnt : newStrtab e = e.strtab ++ ksuName ++ [0] := by unfold newStrtab; rw [hni]; rfl
      refine ⟨⟨by rw [hnt]; simp only [List.length_append]; omega, by rw [hnt]; simp,
        by rw [hnt, hkn]; simp only [List.length_append, List.length_cons]; omega⟩, ?_,
        { sh with offset := (data ++ pad1 ++ b.toU8 ++ pad2).length, size := e.strtab.length + 10 }, ?_, rfl, rfl, ?_⟩
      · intro x hx
        rcases List.mem_append.mp hx with hx | hx
        · rcases List.mem_or_eq_of_mem_set hx with hx | rfl
          · exact .inr ⟨x, hx, rfl⟩
          · exact .inr ⟨sh, List.mem_of_getElem? hsh, rfl⟩
        · rw [List.mem_singleton] at hx; exact .inl hx
      · rw [List.getElem?_append_left (by simpa using hidx), List.getElem?_set_self hidx]
      · simp only [List.length_append]; omega
  obtain ⟨⟨h1, h2, h3⟩, h4, s', h5, h6, h7, h9⟩ := hcase
  refine ⟨h2, ?_, ?_, ?_, ?_⟩
  · intro s hs
    show s.name < (newStrtab e).length
    rcases h4 s hs with rfl | ⟨s0, hs0, hn⟩
    · exact h3
    · have := hok.names s0 hs0; omega
  · intro s hs
    have hs' : table[e.hdr.shstrndx]? = some s := hs
    rw [h5] at hs'; cases hs'
    rw [nameOf_written hok (List.mem_of_getElem? hsh) h6]
    exact hok.own sh hsh
  · intro s hs
    have hs' : table[e.hdr.shstrndx]? = some s := hs
    rw [h5] at hs'; cases hs'
    rw [h7]; exact hok.addr sh hsh
  · intro s hs
    have hs' : table[e.hdr.shstrndx]? = some s := hs
    rw [h5] at hs'; cases hs'
    exact h9

end Ksusig
