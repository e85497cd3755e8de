import Verif.Props.Elf
import Verif.Props.SignVerify

/-! # Writing a signature into an ELF file: C46, C47 -/

namespace Ksusig.Props

open Ksusig Spec

theorem write_parts {acc : Bytes → Bool} {f : ElfFile} {b : SigningBlock} {out : Bytes}
    (h : f.writeWithSignature acc b = .ok out) : ∃ e rest, decodeElf f.data = some e ∧ acc f.data = true ∧
      Decoded f.data e rest ∧ (∃ sh, e.shdrs[e.hdr.shstrndx]? = some sh) ∧
      ∃ table pad1 mid pad3 ksu, Written f.data e rest b out table pad1 mid pad3 ksu := by
  have h' := h
  unfold ElfFile.writeWithSignature at h'
  obtain ⟨e, he, _⟩ := Res.bind_eq_ok.mp h'
  obtain ⟨hd, ha⟩ := parseElf_ok.mp he
  obtain ⟨rest, hdec⟩ := decodeElf_some hd
  obtain ⟨_, ⟨sh, hsh, _⟩, hw⟩ := write_ok hdec h
  exact ⟨e, rest, hd, ha, hdec, ⟨sh, hsh⟩, hw⟩

theorem is64_of {data : Bytes} {e : Elf} {rest : Bytes} (hd : Decoded data e rest) : is64File data = e.is64 := by
  have h := hd.cls
  have hl : 4 < e.ident.length := by rw [hd.ident]; omega
  have h4 : data[4]? = e.ident[4]? := by
    rw [hd.file]
    unfold Elf.hdrBytes
    rw [List.append_assoc, List.getElem?_append_left hl]
  unfold is64File
  rw [h4]
  rw [List.getD_eq_getElem?_getD] at h
  rw [List.getElem?_eq_getElem hl] at h ⊢
  simp only [Option.getD_some] at h
  rw [h]
  cases e.is64 <;> decide

theorem if_same {α : Type} {c : Prop} [Decidable c] {a a' b b' : α} (h1 : c → a = a') (h2 : ¬ c → b = b') :
    (if c then a else b) = if c then a' else b' := by
  by_cases h : c
  · rw [if_pos h, if_pos h, h1 h]
  · rw [if_neg h, if_neg h, h2 h]

/-- The ELF header differs only where it says where the section headers are. -/
theorem hdrBytes_places {e : Elf} (hi : e.ident.length = 16) (a b c : Nat) {i : Nat} (hn : i ∉ tablePlaces e.is64) :
    ({ e with hdr := { e.hdr with shoff := a, shnum := b, shentsize := c } } : Elf).hdrBytes[i]? = e.hdrBytes[i]? := by
  revert hn
  unfold Elf.hdrBytes
  simp only [Ehdr.fields, ehdrWidths, writeFields, tablePlaces]
  cases e.is64 <;>
  · intro hn
    simp only [Bool.false_eq_true, if_true, if_false, List.mem_cons, List.not_mem_nil, or_false, not_or] at hn
    simp only [Bool.false_eq_true, if_true, if_false, List.getElem?_append, intBytes_length, hi]
    refine if_same (fun _ => rfl) (fun h0 => ?_)
    refine if_same (fun _ => rfl) (fun h1 => ?_)
    refine if_same (fun _ => rfl) (fun h2 => ?_)
    refine if_same (fun _ => rfl) (fun h3 => ?_)
    refine if_same (fun _ => rfl) (fun h4 => ?_)
    refine if_same (fun _ => rfl) (fun h5 => ?_)
    refine if_same (fun h => absurd h (by omega)) (fun h6 => ?_)
    refine if_same (fun _ => rfl) (fun h7 => ?_)
    refine if_same (fun _ => rfl) (fun h8 => ?_)
    refine if_same (fun _ => rfl) (fun h9 => ?_)
    refine if_same (fun _ => rfl) (fun h10 => ?_)
    refine if_same (fun h => absurd h (by omega)) (fun h11 => ?_)
    refine if_same (fun h => absurd h (by omega)) (fun h12 => ?_)
    rfl

/-- C46: signing only appends; of the bytes of the original file only those of the ELF header that say where the section
headers are may change. -/
theorem C46_bytes_kept {acc : Bytes → Bool} {f : ElfFile} {b : SigningBlock} {out : Bytes}
    (h : f.writeWithSignature acc b = .ok out) : f.data.length ≤ out.length ∧
      ∀ i, i < f.data.length → i ∉ tablePlaces (is64File f.data) → out[i]? = f.data[i]? := by
  obtain ⟨e, rest, _, _, hd, _, table, pad1, mid, pad3, ksu, hw⟩ := write_parts h
  have hhl : ∀ hdr, ({ e with hdr := hdr } : Elf).hdrBytes.length = ehdrSize e.is64 := fun hdr => Elf.hdrBytes_length hd.ident
  have hdl : f.data.length = ehdrSize e.is64 + rest.length := by
    conv => lhs; rw [hd.file]
    rw [List.length_append, Elf.hdrBytes_length hd.ident]
  refine ⟨?_, ?_⟩
  · rw [hw.file, List.length_append, hhl, hdl]; simp only [List.length_append]; omega
  · intro i hi hn
    rw [is64_of hd] at hn
    conv => rhs; rw [hd.file, List.getElem?_append, Elf.hdrBytes_length hd.ident]
    rw [hw.file, List.getElem?_append, hhl]
    refine if_same (fun _ => hdrBytes_places hd.ident _ _ _ hn) (fun hge => ?_)
    simp only [List.append_assoc]
    rw [List.getElem?_append_left (by omega)]

/-- C46: in particular nothing outside the ELF header changes. -/
theorem C46_outside_header {acc : Bytes → Bool} {f : ElfFile} {b : SigningBlock} {out : Bytes}
    (h : f.writeWithSignature acc b = .ok out) {i : Nat} (hi : i < f.data.length)
    (hh : (if is64File f.data then 64 else 52) ≤ i) : out[i]? = f.data[i]? := by
  refine (C46_bytes_kept h).2 i hi ?_
  revert hh
  unfold tablePlaces
  cases is64File f.data <;> simp <;> omega

/-- What is known about the file after writing. -/
theorem written_facts {acc : Bytes → Bool} {f : ElfFile} {b : SigningBlock} {out : Bytes} {e : Elf}
    (hd : decodeElf f.data = some e) (hok : ElfOk e) (h32 : e.is64 = false → out.length < 2 ^ 32)
    (h : f.writeWithSignature acc b = .ok out) : ∃ rest table pad1 mid pad3 ksu sh off,
      Decoded f.data e rest ∧ Written f.data e rest b out table pad1 mid pad3 ksu ∧
      e.shdrs[e.hdr.shstrndx]? = some sh ∧ decodeElf out = some (written e off table) ∧ ElfOk (written e off table) := by
  obtain ⟨e', rest, hd', _, hdec, ⟨sh, hsh⟩, table, pad1, mid, pad3, ksu, hw⟩ := write_parts h
  rw [hd] at hd'
  cases hd'
  exact ⟨rest, table, pad1, mid, pad3, ksu, sh, _, hdec, hw, hsh, (written_decoded hdec hw hok h32 hsh).decode,
    written_ok hdec hw hok hsh _⟩

theorem ksu_bytes {data : Bytes} {e : Elf} {rest : Bytes} {b : SigningBlock} {out : Bytes} {table : List Shdr}
    {pad1 mid pad3 : Bytes} {ksu : Shdr} (hd : Decoded data e rest) (hw : Written data e rest b out table pad1 mid pad3 ksu) :
    slice? out ksu.offset (ksu.offset + ksu.size) = some b.toU8 := by
  have e6 : ksu.offset = (data ++ pad1).length := by rw [hw.header]; rfl
  have e7 : ksu.size = b.toU8.length := by rw [hw.header]; rfl
  have hhl : ∀ hdr, ({ e with hdr := hdr } : Elf).hdrBytes.length = ehdrSize e.is64 := fun hdr => Elf.hdrBytes_length hd.ident
  have hdl : data.length = ehdrSize e.is64 + rest.length := by
    conv => lhs; rw [hd.file]
    rw [List.length_append, Elf.hdrBytes_length hd.ident]
  rw [e6, e7, hw.file]
  refine slice?_mid (pre := ({ e with hdr := { e.hdr with
      shoff := (data ++ pad1 ++ b.toU8 ++ mid ++ pad3).length
      shnum := table.length
      shentsize := shdrSize e.is64 } } : Elf).hdrBytes ++ (rest ++ pad1))
    (post := mid ++ pad3 ++ table.flatMap (Shdr.bytes e.is64 e.le)) ?_ ?_ ?_
  · simp only [List.append_assoc]
  · rw [List.length_append, hhl]; simp only [List.length_append, hdl]; omega
  · rw [List.length_append, hhl]; simp only [List.length_append, hdl]; omega

/-- C47: after signing an ordinary ELF file its `.ksu_sign` section holds exactly the serialised block. -/
theorem C47_section_holds_block_partial {acc : Bytes → Bool} {f : ElfFile} {b : SigningBlock} {out : Bytes} {e : Elf}
    (hd : decodeElf f.data = some e) (hok : ElfOk e) (h32 : e.is64 = false → out.length < 2 ^ 32)
    (h : f.writeWithSignature acc b = .ok out) : ∃ e' s, decodeElf out = some e' ∧ ElfOk e' ∧ FirstNamed e' ksuBytes s ∧
      slice? out s.offset (s.offset + s.size) = some b.toU8 := by
  obtain ⟨rest, table, pad1, mid, pad3, ksu, sh, off, hdec, hw, hsh, hd', hok'⟩ := written_facts hd hok h32 h
  exact ⟨_, ksu, hd', hok', firstNamed_iff.mp (find_ksu hdec hw hok hsh off), ksu_bytes hdec hw⟩

/-- C47: reading the block of a just signed ordinary ELF file gives that block, for every block that can be read at all. -/
theorem C47_reads_back_partial {acc : Bytes → Bool} {f : ElfFile} {b : SigningBlock} {out : Bytes} {e : Elf} {p : Profile}
    (hd : decodeElf f.data = some e) (hok : ElfOk e) (h32 : e.is64 = false → out.length < 2 ^ 32)
    (hb : SigningBlock.fromU8 p b.toU8 = .ok b) (hacc : acc out = true)
    (h : f.writeWithSignature acc b = .ok out) (secs : List (List Char)) :
    (⟨out, secs⟩ : ElfFile).getSigningBlock p acc = .ok (some b) := by
  obtain ⟨rest, table, pad1, mid, pad3, ksu, sh, off, hdec, hw, hsh, hd', hok'⟩ := written_facts hd hok h32 h
  have hsl := ksu_bytes hdec hw
  obtain ⟨h1, h2, _⟩ := slice?_iff.mp hsl
  have e7 : ksu.size = b.toU8.length := by rw [hw.header]; rfl
  have hpos : b.toU8.length ≠ 0 := by
    unfold SigningBlock.toU8
    simp
  unfold ElfFile.getSigningBlock
  dsimp only
  rw [parseElf_ok.mpr ⟨hd', hacc⟩, Res.ok_bind, utf8_ksu, find_ksu hdec hw hok hsh off]
  dsimp only
  rw [if_neg (by have := hw.size; omega), if_neg (by omega), hsl]
  dsimp only [Res.ofOption]
  rw [Res.ok_bind, hb]
  rfl

/-- What one signing does to the section headers. -/
theorem write_step {acc : Bytes → Bool} {f : ElfFile} {b : SigningBlock} {out : Bytes} {e : Elf}
    (hd : decodeElf f.data = some e) (hok : ElfOk e) (h32 : e.is64 = false → out.length < 2 ^ 32)
    (h : f.writeWithSignature acc b = .ok out) : ∃ e', decodeElf out = some e' ∧ ElfOk e' ∧ e'.is64 = e.is64 ∧
      e'.hdr.shstrndx = e.hdr.shstrndx ∧
      (∃ s, FirstNamed e' ksuBytes s ∧ slice? out s.offset (s.offset + s.size) = some b.toU8) ∧
      (∀ i s, e.shdrs[i]? = some s → ∃ s', e'.shdrs[i]? = some s' ∧ nameOf e' s' = nameOf e s ∧
        (¬ FirstAt e ksuBytes i s → s' = s ∨ i = e.hdr.shstrndx ∧ SameButPlace s s')) ∧
      ((∃ s, FirstNamed e ksuBytes s) → e'.shdrs.length = e.shdrs.length) ∧
      ((¬ ∃ s, FirstNamed e ksuBytes s) → e'.shdrs.length = e.shdrs.length + 1) := by
  obtain ⟨rest, table, pad1, mid, pad3, ksu, sh, off, hdec, hw, hsh, hd', hok'⟩ := written_facts hd hok h32 h
  refine ⟨_, hd', hok', rfl, rfl, ⟨ksu, firstNamed_iff.mp (find_ksu hdec hw hok hsh off), ksu_bytes hdec hw⟩, ?_, ?_⟩
  · intro i s hs
    have hil : i < e.shdrs.length := by rw [List.getElem?_eq_some_iff] at hs; exact hs.1
    show ∃ s', table[i]? = some s' ∧ _
    rcases hw.cases with ⟨j, t, hj, hjt, hnm, hmin, hkn, _, htab⟩ | ⟨_, _, sh', t, pad2, hsh', _, _, _, _, htab⟩
    · by_cases hij : j = i
      · subst hij
        rw [hs] at hjt
        cases hjt
        refine ⟨ksu, by rw [htab, List.getElem?_set_self hil], nameOf_written hok (List.mem_of_getElem? hs) hkn, fun hn => ?_⟩
        exact absurd ⟨hs, named_iff.mp hnm, fun k hk x hx => named_false.mp (hmin k x hk hx)⟩ hn
      · refine ⟨s, ?_, nameOf_written hok (List.mem_of_getElem? hs) rfl, fun _ => .inl rfl⟩
        rw [htab, List.getElem?_set, if_neg hij, hs]
    · rw [hsh] at hsh'
      cases hsh'
      by_cases hi : e.hdr.shstrndx = i
      · subst hi
        rw [hsh] at hs
        cases hs
        refine ⟨{ sh with offset := (f.data ++ pad1 ++ b.toU8 ++ pad2).length, size := t.length + 10 }, ?_,
          nameOf_written hok (List.mem_of_getElem? hsh) rfl, fun _ => .inr ⟨rfl, rfl⟩⟩
        rw [htab, List.getElem?_append_left (by simpa using hil), List.getElem?_set_self hil]
      · refine ⟨s, ?_, nameOf_written hok (List.mem_of_getElem? hs) rfl, fun _ => .inl rfl⟩
        rw [htab, List.getElem?_append_left (by simpa using hil), List.getElem?_set, if_neg hi, hs]
  · have hl := hw.length_le
    show (_ → table.length = _) ∧ (_ → table.length = _)
    have hiff : (e.findIndex ksuName).isSome = true ↔ ∃ s, FirstNamed e ksuBytes s := by
      constructor
      · intro hi
        rcases hw.cases with ⟨j, t, hj, hjt, hnm, hmin, _, _, htab⟩ | ⟨_, hni, _⟩
        · exact ⟨t, j, hjt, named_iff.mp hnm, fun k hk x hx => named_false.mp (hmin k x hk hx)⟩
        · rw [hni] at hi; cases hi
      · rintro ⟨s, i, h1, h2, _⟩
        unfold Elf.findIndex
        rw [List.findIdx?_isSome, List.any_eq_true]
        exact ⟨s, List.mem_of_getElem? h1, named_iff.mpr h2⟩
    constructor
    · intro hs; rw [hl, if_pos (hiff.mpr hs)]; rfl
    · intro hs; rw [hl, if_neg (fun hc => hs (hiff.mp hc))]

/-- C47: every header that was there is still there at the same index and has the same name; it is unchanged unless it is the
signature section, or moved if it is the section name table. -/
theorem C47_other_headers_partial {acc : Bytes → Bool} {f : ElfFile} {b : SigningBlock} {out : Bytes} {e : Elf}
    (hd : decodeElf f.data = some e) (hok : ElfOk e) (h32 : e.is64 = false → out.length < 2 ^ 32)
    (h : f.writeWithSignature acc b = .ok out) : ∃ e', decodeElf out = some e' ∧
      ∀ i s, e.shdrs[i]? = some s → ∃ s', e'.shdrs[i]? = some s' ∧ nameOf e' s' = nameOf e s ∧
        (¬ FirstAt e ksuBytes i s → s' = s ∨ i = e.hdr.shstrndx ∧ SameButPlace s s') := by
  obtain ⟨e', h1, _, _, _, _, h2, _⟩ := write_step hd hok h32 h
  exact ⟨e', h1, h2⟩

/-- C47: there is one more section after signing if there was no signature section, and none more if there was one. -/
theorem C47_section_count_partial {acc : Bytes → Bool} {f : ElfFile} {b : SigningBlock} {out : Bytes} {e : Elf}
    (hd : decodeElf f.data = some e) (hok : ElfOk e) (h32 : e.is64 = false → out.length < 2 ^ 32)
    (h : f.writeWithSignature acc b = .ok out) : ∃ e', decodeElf out = some e' ∧
      ((∃ s, FirstNamed e ksuBytes s) → e'.shdrs.length = e.shdrs.length) ∧
      ((¬ ∃ s, FirstNamed e ksuBytes s) → e'.shdrs.length = e.shdrs.length + 1) := by
  obtain ⟨e', h1, _, _, _, _, _, h2⟩ := write_step hd hok h32 h
  exact ⟨e', h1, h2⟩

theorem rewritten_length {acc : Bytes → Bool} {data out : Bytes} {bs : List SigningBlock} (h : Rewritten acc data bs out) :
    data.length ≤ out.length := by
  induction h with
  | start => exact Nat.le_refl _
  | sign secs _ hw ih => exact Nat.le_trans ih (C46_bytes_kept hw).1

/-- C47, all histories: however often an ordinary ELF file is signed, its signature section holds the last block, it has at most
one section more than at first, and all other headers are as at first except for the place of the section name table. -/
theorem C47_history_partial {acc : Bytes → Bool} {data out : Bytes} {bs : List SigningBlock} {e : Elf}
    (hd : decodeElf data = some e) (hok : ElfOk e) (h : Rewritten acc data bs out) (h32 : e.is64 = false → out.length < 2 ^ 32)
    (hne : bs ≠ []) : ∃ e', decodeElf out = some e' ∧ ElfOk e' ∧ e'.is64 = e.is64 ∧ e'.hdr.shstrndx = e.hdr.shstrndx ∧
      (∃ s, FirstNamed e' ksuBytes s ∧ slice? out s.offset (s.offset + s.size) = some (bs.getLast hne).toU8) ∧
      (∀ i s, e.shdrs[i]? = some s → ∃ s', e'.shdrs[i]? = some s' ∧ nameOf e' s' = nameOf e s ∧
        (¬ FirstAt e ksuBytes i s → s' = s ∨ i = e.hdr.shstrndx ∧ SameButPlace s s')) ∧
      ((∃ s, FirstNamed e ksuBytes s) → e'.shdrs.length = e.shdrs.length) ∧
      ((¬ ∃ s, FirstNamed e ksuBytes s) → e'.shdrs.length = e.shdrs.length + 1) := by
  induction h with
  | start => exact absurd rfl hne
  | sign secs hr hw ih =>
    rename_i mid out bs b
    have hlen := (C46_bytes_kept hw).1
    by_cases hbs : bs = []
    · obtain rfl : mid = data := by
        generalize bs = l at hr hbs
        cases hr with
        | start => rfl
        | sign => simp at hbs
      subst hbs
      exact write_step (f := ⟨mid, secs⟩) hd hok h32 hw
    · obtain ⟨e1, a1, a2, a3, a4, ⟨s1, a5, _⟩, a6, a7, a8⟩ := ih (fun h => by have := h32 h; dsimp only at hlen; omega) hbs
      obtain ⟨e2, b1, b2, b3, b4, b5, b6, b7, b8⟩ := write_step (f := ⟨mid, secs⟩) a1 a2 (by rw [a3]; exact h32) hw
      refine ⟨e2, b1, b2, b3.trans a3, b4.trans a4, ?_, ?_, ?_, ?_⟩
      · simpa using b5
      · intro i s hs
        obtain ⟨s', c1, c2, c3⟩ := a6 i s hs
        obtain ⟨s'', d1, d2, d3⟩ := b6 i s' c1
        refine ⟨s'', d1, d2.trans c2, fun hn => ?_⟩
        have hn' : ¬ FirstAt e1 ksuBytes i s' := by
          rintro ⟨_, g2, g3⟩
          refine hn ⟨hs, c2 ▸ g2, ?_⟩
          intro j hj x hx
          obtain ⟨x', y1, y2, _⟩ := a6 j x hx
          rw [← y2]
          exact g3 j hj x' y1
        rcases c3 hn with rfl | ⟨hi, hp⟩
        · rcases d3 hn' with rfl | ⟨hi, hp⟩
          · exact .inl rfl
          · exact .inr ⟨by rw [hi, a4], hp⟩
        · refine .inr ⟨hi, ?_⟩
          rcases d3 hn' with rfl | ⟨_, hp'⟩
          · exact hp
          · unfold SameButPlace at hp hp' ⊢
            rw [hp', hp]
      · intro hs; rw [b7 ⟨s1, a5⟩, a7 hs]
      · intro hs; rw [b7 ⟨s1, a5⟩, a8 hs]

end Ksusig.Props
