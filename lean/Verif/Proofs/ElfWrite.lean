import Verif.Proofs.Elf
import Verif.SpecElf

/-! # What an ELF file written by `write_with_signature` decodes to -/

namespace Ksusig

open Spec

theorem ksuName_eq : ksuName = ksuBytes := rfl

/-- A piece behind the header is untouched by replacing the header and appending. -/
theorem slice?_replace {h h' r x : Bytes} {a b : Nat} {t : Bytes} (hl : h'.length = h.length) (ha : h.length ≤ a)
    (hs : slice? (h ++ r) a b = some t) : slice? (h' ++ (r ++ x)) a b = some t := by
  obtain ⟨h1, h2, rfl⟩ := slice?_iff.mp hs
  rw [List.length_append] at h2
  refine slice?_iff.mpr ⟨h1, by simp only [List.length_append]; omega, ?_⟩
  rw [List.drop_append, List.drop_append, hl, List.drop_eq_nil_of_le ha, List.drop_eq_nil_of_le (by omega : h'.length ≤ a),
    List.nil_append, List.nil_append, List.drop_append_of_le_length (by omega), List.take_append_of_le_length]
  rw [List.length_drop]; omega

theorem strtab_of {data : Bytes} {e : Elf} {rest : Bytes} (hd : Decoded data e rest) {sh : Shdr}
    (hsh : e.shdrs[e.hdr.shstrndx]? = some sh) (hx : e.hdr.shstrndx ≠ 0xffff) :
    sh.checkSize data.length = true ∧ slice? data sh.offset (sh.offset + sh.size) = some e.strtab ∧
      validUtf8 e.strtab = true := by
  have h := hd.strtab
  unfold parseStrtab at h
  split at h
  · rename_i hnil; rw [hnil] at hsh; simp at hsh
  · rename_i s0 l hl
    rw [if_neg hx, hsh] at h
    dsimp only at h
    split at h
    · rename_i hc
      cases hs : slice? data sh.offset (sh.offset + sh.size) with
      | none => rw [hs] at h; cases h
      | some t =>
        rw [hs] at h
        dsimp only at h
        split at h
        · rename_i hv
          injection h with h
          subst h
          exact ⟨hc, rfl, hv⟩
        · cases h
    · cases h

theorem parseStrtab_of {data : Bytes} {l : List Shdr} {ndx : Nat} {sh : Shdr} {t : Bytes} (hsh : l[ndx]? = some sh)
    (hx : ndx ≠ 0xffff) (hc : sh.checkSize data.length = true) (hs : slice? data sh.offset (sh.offset + sh.size) = some t)
    (hv : validUtf8 t = true) : parseStrtab data l ndx = some t := by
  unfold parseStrtab
  cases l with
  | nil => simp at hsh
  | cons s0 l =>
    dsimp only
    rw [if_neg hx, hsh]
    dsimp only
    rw [if_pos hc, hs]
    dsimp only
    rw [if_pos hv]

theorem fit_of_bounds {is64 : Bool} {s : Shdr} (h1 : s.name < 2 ^ 32) (h2 : s.type < 2 ^ 32) (h3 : s.link < 2 ^ 32)
    (h4 : s.info < 2 ^ 32) (h5 : ∀ v ∈ [s.flags, s.addr, s.offset, s.size, s.addralign, s.entsize], v < 2 ^ (if is64 then 64 else 32)) :
    s.Fit is64 := by
  simp only [List.mem_cons, List.not_mem_nil, or_false, forall_eq_or_imp, forall_eq] at h5
  obtain ⟨a, b, c, d, f, g⟩ := h5
  cases is64 <;> simp [Shdr.Fit, Fits, shdrWidths, Shdr.fields] at * <;> omega

theorem bounds_of_fit {is64 : Bool} {s : Shdr} (h : s.Fit is64) : s.name < 2 ^ 32 ∧ s.type < 2 ^ 32 ∧ s.link < 2 ^ 32 ∧
    s.info < 2 ^ 32 ∧ ∀ v ∈ [s.flags, s.addr, s.offset, s.size, s.addralign, s.entsize], v < 2 ^ (if is64 then 64 else 32) := by
  simp only [List.mem_cons, List.not_mem_nil, or_false, forall_eq_or_imp, forall_eq]
  cases is64 <;> simp [Shdr.Fit, Fits, shdrWidths, Shdr.fields] at * <;> omega

/-- The name table after writing. -/
def newStrtab (e : Elf) : Bytes := if (e.findIndex ksuName).isSome then e.strtab else e.strtab ++ ksuName ++ [0]

/-- What the written file decodes to. -/
def written (e : Elf) (tableOffset : Nat) (table : List Shdr) : Elf :=
  { e with
    hdr := { e.hdr with shoff := tableOffset, shnum := table.length, shentsize := shdrSize e.is64 }
    shdrs := table
    strtab := newStrtab e }

theorem getLast?_ne_nil {t : Bytes} {x : UInt8} (h : t.getLast? = some x) : t ≠ [] := by
  intro h'; subst h'; cases h

theorem written_decoded {data : Bytes} {e : Elf} {rest : Bytes} {b : SigningBlock} {out : Bytes} {table : List Shdr}
    {pad1 mid pad3 : Bytes} {ksu sh : Shdr} (hd : Decoded data e rest)
    (hw : Written data e rest b out table pad1 mid pad3 ksu) (hok : ElfOk e) (h32 : e.is64 = false → out.length < 2 ^ 32)
    (hsh : e.shdrs[e.hdr.shstrndx]? = some sh) :
    Decoded out (written e (data ++ pad1 ++ b.toU8 ++ mid ++ pad3).length table)
      (rest ++ pad1 ++ b.toU8 ++ mid ++ pad3 ++ table.flatMap (Shdr.bytes e.is64 e.le)) := by
  have hhl : e.hdrBytes.length = ehdrSize e.is64 := Elf.hdrBytes_length hd.ident
  have hhl' : (written e (data ++ pad1 ++ b.toU8 ++ mid ++ pad3).length table).hdrBytes.length = ehdrSize e.is64 :=
    Elf.hdrBytes_length hd.ident
  have hdl : data.length = ehdrSize e.is64 + rest.length := by
    conv => lhs; rw [hd.file]
    rw [List.length_append, hhl]
  have hol : out.length = (data ++ pad1 ++ b.toU8 ++ mid ++ pad3).length + shdrSize e.is64 * table.length := by
    rw [hw.file, List.length_append]
    have : ({ e with hdr := { e.hdr with
      shoff := (data ++ pad1 ++ b.toU8 ++ mid ++ pad3).length
      shnum := table.length
      shentsize := shdrSize e.is64 } } : Elf).hdrBytes.length = ehdrSize e.is64 := Elf.hdrBytes_length hd.ident
    rw [this]
    simp only [List.length_append, flatMap_bytes_length]
    omega
  have hsz := hw.size
  have hlim : out.length < 2 ^ (if e.is64 then 64 else 32) := by
    cases h : e.is64
    · exact h32 h
    · exact Nat.lt_trans hsz (by decide)
  have hidx : e.hdr.shstrndx < e.shdrs.length := by
    rw [List.getElem?_eq_some_iff] at hsh; exact hsh.1
  have htl : e.shdrs.length ≤ table.length := by
    rcases hw.cases with ⟨i, s, _, _, _, _, _, _, rfl⟩ | ⟨_, _, sh', t, pad2, _, _, _, _, _, rfl⟩
    · simp
    · simp
  have hcnt := hw.count
  have hxffff : e.hdr.shstrndx ≠ 0xffff := by omega
  obtain ⟨hchk, hsl, hutf⟩ := strtab_of hd hsh hxffff
  have hfit : ∀ s ∈ e.shdrs, s.Fit e.is64 := parseShdrs_ok hd.shdrs
  have hksu : ksu.Fit e.is64 := by
    have hb : (data ++ pad1).length + b.toU8.length ≤ out.length := by
      rw [hol]; simp only [List.length_append]; omega
    have h0 : 0 < 2 ^ (if e.is64 then 64 else 32) := by cases e.is64 <;> decide
    have hal : alignForContainer e.is64 < 2 ^ (if e.is64 then 64 else 32) := by cases e.is64 <;> decide
    have h := hw.header
    have e1 : ksu.type = 1 := by rw [h]; rfl
    have e2 : ksu.link = 0 := by rw [h]; rfl
    have e3 : ksu.info = 0 := by rw [h]; rfl
    have e4 : ksu.flags = 0 := by rw [h]; rfl
    have e5 : ksu.addr = 0 := by rw [h]; rfl
    have e6 : ksu.offset = (data ++ pad1).length := by rw [h]; rfl
    have e7 : ksu.size = b.toU8.length := by rw [h]; rfl
    have e8 : ksu.addralign = alignForContainer e.is64 := by rw [h]; rfl
    have e9 : ksu.entsize = 0 := by rw [h]; rfl
    refine fit_of_bounds hw.name (by rw [e1]; decide) (by rw [e2]; decide) (by rw [e3]; decide) ?_
    simp only [List.mem_cons, List.not_mem_nil, or_false, forall_eq_or_imp, forall_eq, e4, e5, e6, e7, e8, e9]
    exact ⟨h0, h0, by omega, by omega, hal, h0⟩
  have htab : (∀ s ∈ table, s.Fit e.is64) ∧
      ∃ s', table[e.hdr.shstrndx]? = some s' ∧ s'.checkSize out.length = true ∧
        slice? out s'.offset (s'.offset + s'.size) = some (newStrtab e) := by
    rcases hw.cases with ⟨i, s, hi, his, hn, _, _, hmid, rfl⟩ | ⟨hnf, hni, sh', t, pad2, hsh', ht, _, hmid, _, rfl⟩
    · refine ⟨?_, sh, ?_, ?_, ?_⟩
      · intro x hx
        rcases List.mem_or_eq_of_mem_set hx with hx | rfl
        · exact hfit x hx
        · exact hksu
      · rw [List.getElem?_set]
        have hne : i ≠ e.hdr.shstrndx := by
          intro h
          subst h
          rw [hsh] at his
          cases his
          refine hok.own sh hsh ?_
          have := eq_of_beq hn
          exact this
        rw [if_neg hne, hsh]
      · unfold Shdr.checkSize at hchk ⊢
        have hge : data.length ≤ out.length := by rw [hol]; simp only [List.length_append]; omega
        simp only [Bool.or_eq_true, Bool.and_eq_true, decide_eq_true_eq, beq_iff_eq] at hchk ⊢
        rcases hchk with h | ⟨h1, h2⟩
        · exact .inl h
        · exact .inr ⟨by omega, h2⟩
      · have : newStrtab e = e.strtab := by unfold newStrtab; rw [hi]; rfl
        rw [this, hw.file]
        rw [hd.file] at hsl
        have hp := hok.place sh hsh
        have := slice?_replace (x := pad1 ++ b.toU8 ++ mid ++ pad3 ++ (e.shdrs.set i ksu).flatMap (Shdr.bytes e.is64 e.le))
          (h' := ({ e with hdr := { e.hdr with
            shoff := (data ++ pad1 ++ b.toU8 ++ mid ++ pad3).length
            shnum := (e.shdrs.set i ksu).length
            shentsize := shdrSize e.is64 } } : Elf).hdrBytes) (hl := by rw [hhl]; exact Elf.hdrBytes_length hd.ident)
          (ha := by rw [hhl]; exact hp) hsl
        simpa only [List.append_assoc] using this
    · rw [hsh] at hsh'
      cases hsh'
      rw [hsl] at ht
      cases ht
      have hmem : sh ∈ e.shdrs := List.mem_of_getElem? hsh
      obtain ⟨b1, b2, b3, b4, b5⟩ := bounds_of_fit (hfit sh hmem)
      simp only [List.mem_cons, List.not_mem_nil, or_false, forall_eq_or_imp, forall_eq] at b5
      have hend : (data ++ pad1 ++ b.toU8 ++ pad2).length + (e.strtab.length + 10) ≤ out.length := by
        rw [hol, hmid]
        simp only [List.length_append, List.length_cons, List.length_nil, ksuName]; omega
      have hssz := slice?_length hsl
      refine ⟨?_, { sh with offset := (data ++ pad1 ++ b.toU8 ++ pad2).length, size := e.strtab.length + 10 }, ?_, ?_, ?_⟩
      · intro x hx
        rcases List.mem_append.mp hx with hx | hx
        · rcases List.mem_or_eq_of_mem_set hx with hx | rfl
          · exact hfit x hx
          · refine fit_of_bounds b1 b2 b3 b4 ?_
            simp only [List.mem_cons, List.not_mem_nil, or_false, forall_eq_or_imp, forall_eq]
            exact ⟨b5.1, b5.2.1, by omega, by omega, b5.2.2.2.2.1, b5.2.2.2.2.2⟩
        · rw [List.mem_singleton] at hx; rw [hx]; exact hksu
      · rw [List.getElem?_append_left (by simpa using hidx), List.getElem?_set_self hidx]
      · have ha := hok.addr sh hsh
        unfold Shdr.checkSize
        simp only [Bool.or_eq_true, Bool.and_eq_true, decide_eq_true_eq, beq_iff_eq]
        exact .inr ⟨hend, by omega⟩
      · have hnt : newStrtab e = e.strtab ++ ksuName ++ [0] := by unfold newStrtab; rw [hni]; rfl
        rw [hnt, hw.file]
        refine slice?_mid (pre := ({ e with hdr := { e.hdr with
            shoff := (data ++ pad1 ++ b.toU8 ++ mid ++ pad3).length
            shnum := (e.shdrs.set e.hdr.shstrndx { sh with
              offset := (data ++ pad1 ++ b.toU8 ++ pad2).length, size := e.strtab.length + 10 } ++ [ksu]).length
            shentsize := shdrSize e.is64 } } : Elf).hdrBytes ++ (rest ++ pad1 ++ b.toU8 ++ pad2))
          (post := pad3 ++ (e.shdrs.set e.hdr.shstrndx { sh with
              offset := (data ++ pad1 ++ b.toU8 ++ pad2).length, size := e.strtab.length + 10 } ++ [ksu]).flatMap
                (Shdr.bytes e.is64 e.le)) ?_ ?_ ?_
        · rw [hmid]; simp only [List.append_assoc]
        · rw [List.length_append]
          have : ∀ h, ({ e with hdr := h } : Elf).hdrBytes.length = ehdrSize e.is64 := fun h => Elf.hdrBytes_length hd.ident
          rw [this]
          simp only [List.length_append, hdl]; omega
        · rw [List.length_append]
          have : ∀ h, ({ e with hdr := h } : Elf).hdrBytes.length = ehdrSize e.is64 := fun h => Elf.hdrBytes_length hd.ident
          rw [this]
          simp only [List.length_append, hdl, ksuName, List.length_cons, List.length_nil]; omega
  obtain ⟨htf, s', hs1, hs2, hs3⟩ := htab
  have hpre : (data ++ pad1 ++ b.toU8 ++ mid ++ pad3).length ≠ 0 := by
    simp only [List.length_append, hdl]
    have : 0 < ehdrSize e.is64 := by cases e.is64 <;> decide
    omega
  refine ⟨hw.file, hd.ident, hd.magic, hd.cls, hd.enc, ?_, ?_, ?_⟩
  · have hf := hd.fits
    have ho : (data ++ pad1 ++ b.toU8 ++ mid ++ pad3).length < 2 ^ (if e.is64 then 64 else 32) := by omega
    show Fits (ehdrWidths e.is64) _
    have hs : shdrSize e.is64 < 65536 := by cases e.is64 <;> decide
    revert hf ho hs
    simp only [written, Ehdr.fields]
    generalize shdrSize e.is64 = S
    generalize (data ++ pad1 ++ b.toU8 ++ mid ++ pad3).length = N
    cases e.is64 <;> simp [Fits, ehdrWidths] <;> omega
  · show parseShdrs e.is64 e.le out (data ++ pad1 ++ b.toU8 ++ mid ++ pad3).length table.length = some table
    have hne : table ≠ [] := by
      intro h; rw [h] at htl; simp at htl; rw [htl] at hidx; simp at hidx
    have hl1 : ∀ h, (({ e with hdr := h } : Elf).hdrBytes ++ (rest ++ pad1 ++ b.toU8 ++ mid ++ pad3)).length =
        (data ++ pad1 ++ b.toU8 ++ mid ++ pad3).length := by
      intro h
      rw [List.length_append]
      have : ({ e with hdr := h } : Elf).hdrBytes.length = ehdrSize e.is64 := Elf.hdrBytes_length hd.ident
      rw [this]
      simp only [List.length_append, hdl]; omega
    rw [← hl1 { e.hdr with
            shoff := (data ++ pad1 ++ b.toU8 ++ mid ++ pad3).length
            shnum := table.length
            shentsize := shdrSize e.is64 }]
    rw [hw.file]
    have := parseShdrs_table (is64 := e.is64) (le := e.le) (pre := ({ e with hdr := { e.hdr with
            shoff := (data ++ pad1 ++ b.toU8 ++ mid ++ pad3).length
            shnum := table.length
            shentsize := shdrSize e.is64 } } : Elf).hdrBytes ++ (rest ++ pad1 ++ b.toU8 ++ mid ++ pad3)) (post := []) (l := table)
      (by rw [hl1]; exact hpre) hne htf
    rw [List.append_nil, List.append_assoc] at this
    exact this
  · show parseStrtab out table e.hdr.shstrndx = some (newStrtab e)
    refine parseStrtab_of hs1 hxffff hs2 hs3 ?_
    unfold newStrtab
    split
    · exact hutf
    · rw [List.append_assoc, validUtf8_append hutf]; decide

end Ksusig
