import Verif.Proofs.ElfExact

/-!
# Reading back what was written into an ELF file
-/

namespace Ksusig

open Spec

/-- Decoding, when only the names are not known. -/
theorem decode_of {data : Bytes} {e : Elf} {rest : Bytes} (hf : data = e.hdrBytes ++ rest) (hi : e.ident.length = 16)
    (hm : e.ident.take 4 = [0x7f, 0x45, 0x4c, 0x46]) (hc : e.ident.getD 4 0 = if e.is64 then 2 else 1)
    (he : e.ident.getD 5 0 = if e.le then 1 else 2) (hfit : Fits (ehdrWidths e.is64) e.hdr.fields)
    (hs : parseShdrs e.is64 e.le data e.hdr.shoff e.hdr.shnum = some e.shdrs) :
    decodeElf data = (parseStrtab data e.shdrs e.hdr.shstrndx).map fun t => { e with strtab := t } := by
  have hlen : 16 ≤ data.length := by rw [hf, Elf.hdrBytes]; simp only [List.length_append, hi]; omega
  have hid : data.take 16 = e.ident := by
    rw [hf, Elf.hdrBytes, List.append_assoc]; exact List.take_left' hi
  have hdr : data.drop 16 = writeFields e.le (ehdrWidths e.is64) e.hdr.fields ++ rest := by
    rw [hf, Elf.hdrBytes, List.append_assoc]; exact List.drop_left' hi
  have h4 : data.getD 4 0 = if e.is64 then 2 else 1 := by rw [← hc, ← hid, getD_take (by omega)]
  have h5 : data.getD 5 0 = if e.le then 1 else 2 := by rw [← he, ← hid, getD_take (by omega)]
  have hm : data.take 4 = [0x7f, 0x45, 0x4c, 0x46] := by rw [← hm, ← hid, List.take_take]; rfl
  unfold decodeElf
  rw [if_neg (by omega), if_neg (by simp [hm])]
  dsimp only
  rw [h4, h5, hdr, hid]
  have c1 : ((if e.is64 then (2 : UInt8) else 1) == 2) = e.is64 := by cases e.is64 <;> rfl
  have c2 : ((if e.le then (1 : UInt8) else 2) == 1) = e.le := by cases e.le <;> rfl
  rw [if_neg (by cases e.is64 <;> decide), if_neg (by cases e.le <;> decide), c1, c2, readFields_write hfit]
  simp only [Ehdr.ofFields_fields, hs]
  cases parseStrtab data e.shdrs e.hdr.shstrndx <;> rfl

/-- What a file says after the section headers were written. -/
def newView (e : Elf) (pos : Nat) (table : List Shdr) (t : Bytes) : Elf :=
  { e with
    hdr := { e.hdr with shoff := pos, shnum := table.length, shentsize := shdrSize e.is64 }
    shdrs := table
    strtab := t }

theorem withTable_shape {d rest : Bytes} {e : Elf} (hd : Decoded d e rest) {body y : Bytes} (hb : body = d ++ y) (table : List Shdr) :
    withTable e body table = (newView e (roundUp body.length (entryLength e.is64)) table e.strtab).hdrBytes ++
      (padTo (entryLength e.is64) body ++ table.flatMap (entryBytes e.is64 e.le)).drop (ehdrSize e.is64) := by
  rw [← withTable_eq hd hb]
  have hm : max (shdrSize e.is64) 8 = entryLength e.is64 := by unfold shdrSize entryLength; cases e.is64 <;> rfl
  have hp : 0 < entryLength e.is64 := by unfold entryLength; cases e.is64 <;> decide
  rw [hm, alignTo_eq hp]
  simp only [entryBytes_eq]
  rfl

/-- Behind the ELF header the file is what was put together. -/
theorem withTable_drop {d rest : Bytes} {e : Elf} (hd : Decoded d e rest) {body y : Bytes} (hb : body = d ++ y) (table : List Shdr)
    {k : Nat} (hk : headerLength e.is64 ≤ k) : (withTable e body table).drop k =
      (padTo (entryLength e.is64) body ++ table.flatMap (entryBytes e.is64 e.le)).drop k := by
  have hl : (newView e (roundUp body.length (entryLength e.is64)) table e.strtab).hdrBytes.length = ehdrSize e.is64 :=
    Elf.hdrBytes_length hd.ident
  have hk' : ehdrSize e.is64 ≤ k := hk
  rw [withTable_shape hd hb]
  obtain ⟨m, rfl⟩ := Nat.exists_eq_add_of_le hk'
  rw [← List.drop_drop, List.drop_left' hl, List.drop_drop]

theorem withTable_decode {d rest : Bytes} {e : Elf} (hd : Decoded d e rest) {body y : Bytes} (hb : body = d ++ y) {table : List Shdr}
    (hne : table ≠ []) (hcnt : table.length ≤ 65535) (hfit : ∀ s ∈ table, s.Fit e.is64)
    (hpos : roundUp body.length (entryLength e.is64) < 2 ^ (if e.is64 then 64 else 32)) :
    decodeElf (withTable e body table) = (parseStrtab (withTable e body table) table e.hdr.shstrndx).map
      (newView e (roundUp body.length (entryLength e.is64)) table) := by
  have hp : 0 < entryLength e.is64 := by unfold entryLength; cases e.is64 <;> decide
  have hhl := Elf.hdrBytes_length hd.ident
  have hdl : d.length = ehdrSize e.is64 + rest.length := by
    conv => lhs; rw [hd.file]
    rw [List.length_append, hhl]
  have hge := roundUp_ge (n := body.length) hp
  have hbl : d.length ≤ body.length := by rw [hb, List.length_append]; omega
  have hpl := padTo_length hp body
  have hsplit : (padTo (entryLength e.is64) body ++ table.flatMap (entryBytes e.is64 e.le)).drop (ehdrSize e.is64) =
      (padTo (entryLength e.is64) body).drop (ehdrSize e.is64) ++ table.flatMap (entryBytes e.is64 e.le) :=
    List.drop_append_of_le_length (by omega)
  have hshape := withTable_shape hd hb table
  have h := decode_of (e := newView e (roundUp body.length (entryLength e.is64)) table e.strtab) hshape hd.ident hd.magic hd.cls hd.enc
    ?_ ?_
  · rw [h]
    rfl
  · have hf := hd.fits
    have hs : shdrSize e.is64 < 65536 := by cases e.is64 <;> decide
    show Fits (ehdrWidths e.is64) _
    revert hf hpos hs
    simp only [newView, Ehdr.fields]
    generalize shdrSize e.is64 = S
    generalize roundUp body.length (entryLength e.is64) = N
    cases e.is64 <;> simp [Fits, ehdrWidths] <;> omega
  · show parseShdrs e.is64 e.le (withTable e body table) (roundUp body.length (entryLength e.is64)) table.length = some table
    rw [hshape, hsplit, ← List.append_assoc]
    have hl : ((newView e (roundUp body.length (entryLength e.is64)) table e.strtab).hdrBytes ++
        (padTo (entryLength e.is64) body).drop (ehdrSize e.is64)).length = roundUp body.length (entryLength e.is64) := by
      rw [List.length_append, List.length_drop, hpl]
      have : (newView e (roundUp body.length (entryLength e.is64)) table e.strtab).hdrBytes.length = ehdrSize e.is64 :=
        Elf.hdrBytes_length hd.ident
      omega
    have := parseShdrs_table (is64 := e.is64) (le := e.le)
      (pre := (newView e (roundUp body.length (entryLength e.is64)) table e.strtab).hdrBytes ++
        (padTo (entryLength e.is64) body).drop (ehdrSize e.is64)) (post := []) (l := table)
      (by rw [hl]; have : 0 < ehdrSize e.is64 := by cases e.is64 <;> decide
          omega) hne hfit
    rw [List.append_nil, hl] at this
    have he : table.flatMap (entryBytes e.is64 e.le) = table.flatMap (Shdr.bytes e.is64 e.le) := by
      congr 1
      funext s
      exact (entryBytes_eq _ _ _).symm
    rw [he]
    exact this

/-- The name `.ksu_sign` in a name table to which it was appended. -/
theorem strtab_ksu {t : Bytes} {off : Nat} (h : strtabGet t off ≠ some ksuBytes) :
    strtabGet (t ++ ksuBytes ++ [0]) off = some ksuBytes ↔ off = t.length := by
  constructor
  · intro h2
    apply Decidable.byContradiction
    intro hne
    by_cases hlt : off < t.length
    · unfold strtabGet at h h2
      rw [List.append_assoc, List.getElem?_append_left hlt, List.getElem?_eq_getElem hlt] at h2
      rw [List.getElem?_eq_getElem hlt] at h
      dsimp only at h h2
      split at h2
      · cases h2
      · rename_i hc
        rw [if_neg hc] at h
        rw [List.drop_append_of_le_length (by omega)] at h2
        have h2 := Option.some.inj h2
        by_cases hz : ∀ x ∈ t.drop off, (x != 0) = true
        · rw [List.takeWhile_append_of_pos hz] at h2
          have := congrArg List.length h2
          rw [List.length_append, List.length_drop] at this
          have hk : ((ksuBytes ++ [0]).takeWhile (· != 0)).length = ksuBytes.length := by decide
          omega
        · have : (t.drop off ++ (ksuBytes ++ [0])).takeWhile (· != 0) = (t.drop off).takeWhile (· != 0) := by
            generalize t.drop off = l at hz
            induction l with
            | nil => exact absurd (fun x hx => by cases hx) hz
            | cons a l ih =>
              rw [List.cons_append, List.takeWhile_cons, List.takeWhile_cons]
              split
              · rename_i ha
                rw [ih]
                intro hall
                exact hz fun x hx => by
                  rcases List.mem_cons.mp hx with rfl | hx
                  · exact ha
                  · exact hall x hx
              · rfl
          rw [this] at h2
          exact h (by rw [h2])
    · obtain ⟨k, rfl⟩ := Nat.exists_eq_add_of_lt (by omega : t.length < off)
      unfold strtabGet at h2
      rw [List.append_assoc, List.getElem?_append_right (by omega)] at h2
      have hk : t.length + k + 1 - t.length = k + 1 := by omega
      rw [hk] at h2
      split at h2
      · split at h2
        · cases h2
        · rw [List.drop_append, List.drop_eq_nil_of_le (by omega), List.nil_append, hk] at h2
          have h3 := congrArg List.length (Option.some.inj h2)
          have h4 : (((ksuBytes ++ [0]).drop (k + 1)).takeWhile (· != 0)).length ≤ ((ksuBytes ++ [0]).drop (k + 1)).length :=
            (List.takeWhile_sublist _).length_le
          rw [List.length_drop, h3] at h4
          have h5 : (ksuBytes ++ [0]).length = ksuBytes.length + 1 := rfl
          have : ksuBytes.length = 9 := rfl
          rcases k with _ | k
          · have : ((ksuBytes ++ [0]).drop 1).takeWhile (· != 0) ≠ ksuBytes := by decide
            exact this (Option.some.inj h2)
          · omega
      · split at h2 <;> cases h2
  · rintro rfl
    unfold strtabGet
    rw [List.append_assoc, List.getElem?_append_right (Nat.le_refl _), Nat.sub_self]
    rw [List.drop_left]
    rfl

theorem blockAlign_pos (is64 : Bool) : 0 < blockAlign is64 := by cases is64 <;> decide

theorem entryLength_pos (is64 : Bool) : 0 < entryLength is64 := by cases is64 <;> decide

/-- The bytes of the file at a place behind the old file. -/
theorem withTable_piece {d rest : Bytes} {e : Elf} (hd : Decoded d e rest) {pre x z body : Bytes} (hb : body = pre ++ (x ++ z))
    {y : Bytes} (hy : pre = d ++ y) (table : List Shdr) :
    ((withTable e body table).drop pre.length).take x.length = x := by
  have hhl := Elf.hdrBytes_length hd.ident
  have hdl : d.length = ehdrSize e.is64 + rest.length := by
    conv => lhs; rw [hd.file]
    rw [List.length_append, hhl]
  have hk : headerLength e.is64 ≤ pre.length := by
    rw [hy, List.length_append]
    have : headerLength e.is64 = ehdrSize e.is64 := rfl
    omega
  rw [withTable_drop hd (y := y ++ (x ++ z)) (by rw [hb, hy, List.append_assoc]) table hk, hb]
  unfold padTo
  simp only [List.append_assoc]
  rw [List.drop_left, List.take_left]

/-- A piece of the old file behind its ELF header is still there. -/
theorem withTable_old {d rest : Bytes} {e : Elf} (hd : Decoded d e rest) {body y : Bytes} (hb : body = d ++ y) (table : List Shdr)
    {o n : Nat} (ho : headerLength e.is64 ≤ o) (hn : o + n ≤ d.length) :
    ((withTable e body table).drop o).take n = (d.drop o).take n := by
  rw [withTable_drop hd hb table ho, hb]
  unfold padTo
  simp only [List.append_assoc]
  rw [List.drop_append_of_le_length (by omega), List.take_append_of_le_length (by rw [List.length_drop]; omega)]

theorem header_fit {is64 : Bool} {n o s : Nat} (hn : n < 2 ^ 32) (ho : o < 2 ^ (if is64 then 64 else 32))
    (hs : s < 2 ^ (if is64 then 64 else 32)) : (signatureHeader is64 n o s).Fit is64 := by
  have h0 : 0 < 2 ^ (if is64 then 64 else 32) := by cases is64 <;> decide
  have hal : blockAlign is64 < 2 ^ (if is64 then 64 else 32) := by cases is64 <;> decide
  refine fit_of_bounds hn (by show (1 : Nat) < _; decide) (by show (0 : Nat) < _; decide) (by show (0 : Nat) < _; decide) ?_
  simp only [List.mem_cons, List.not_mem_nil, or_false, forall_eq_or_imp, forall_eq, signatureHeader]
  exact ⟨h0, h0, ho, hs, hal, h0⟩

/-- The names of the file are in its name table. -/
theorem view_names {d : Bytes} {e : Elf} (hv : ElfView d e) {sh : Shdr} (hnt : NameTable e d sh) (hx : e.hdr.shstrndx ≠ 0xffff) :
    e.strtab = sectionBytes d sh ∧ Utf8 e.strtab ∧ (sh.type = 8 ∨ sh.size = 0 ∨ sh.addr + sh.size < 2 ^ 64) := by
  have hi : nameIndex e = e.hdr.shstrndx := by unfold nameIndex; rw [if_neg hx]
  have := hv.names
  rw [hi, hnt.1] at this
  rcases this with ⟨h, _⟩ | ⟨s, h, _, h2, h3, h4⟩
  · cases h
  · obtain rfl := Option.some.inj h
    exact ⟨h2, h3, h4⟩

theorem nameTable_index {d : Bytes} {e : Elf} {sh : Shdr} (hnt : NameTable e d sh) : e.hdr.shstrndx < e.shdrs.length := by
  have := hnt.1
  rw [List.getElem?_eq_some_iff] at this
  exact this.1

theorem utf8_append_ksu {t : Bytes} (h : Utf8 t) : Utf8 (t ++ ksuBytes ++ [0]) := by
  rw [← valid_iff] at h ⊢
  rw [List.append_assoc, validUtf8_append h]
  decide

/-- What a file says after its first signing. -/
theorem first_view {d blk : Bytes} {e : Elf} {sh : Shdr} (hv : ElfView d e) (hnt : NameTable e d sh)
    (hnn : ¬ ∃ s, FirstNamed e ksuBytes s) {n : Nat} {body : Bytes} {table : List Shdr} (hp : Plan e d blk n body table)
    (hn : n < 2 ^ 32) (hcnt : table.length ≤ 65535)
    (hlim : (withTable e body table).length < 2 ^ (if e.is64 then 64 else 32)) (e' : Elf) :
    ElfView (withTable e body table) e' ↔ (sh.type = 8 ∨ sh.addr + sh.size + 10 < 2 ^ 64) ∧
      e' = newView e (roundUp body.length (entryLength e.is64)) table (e.strtab ++ ksuBytes ++ [0]) := by
  obtain ⟨rest, hd⟩ := decodeElf_some (decodeElf_iff.mpr hv)
  obtain ⟨y, hy⟩ := hp.body
  have hlen := withTable_length hv hy table
  have hge := roundUp_ge (n := body.length) (entryLength_pos e.is64)
  have hfit : ∀ s ∈ e.shdrs, s.Fit e.is64 := parseShdrs_ok hd.shdrs
  have hidx := nameTable_index hnt
  have hq := hp
  cases hq with
  | again h1 h2 => exact absurd ⟨_, _, h2⟩ hnn
  | @first sh' h1 h2 =>
    obtain rfl : sh = sh' := by
      have := h1.1
      rw [hnt.1] at this
      exact Option.some.inj this
    have hcnt' := hcnt
    rw [List.length_append, List.length_set, List.length_singleton] at hcnt'
    have hx : e.hdr.shstrndx ≠ 0xffff := by omega
    obtain ⟨hst, hutf, _⟩ := view_names hv hnt hx
    have hsl : (sectionBytes d sh).length = sh.size := by
      unfold sectionBytes
      rw [List.length_take, List.length_drop]
      have := hnt.2
      omega
    have hap := blockAlign_pos e.is64
    have hmx : 0 < max 1 sh.addralign := by omega
    generalize hpre : padTo (max 1 sh.addralign) (padTo (blockAlign e.is64) d ++ blk) = pre at *
    generalize hnames : sectionBytes d sh ++ ksuBytes ++ [0] = names at *
    have hprelen : pre.length = roundUp (padTo (blockAlign e.is64) d ++ blk).length (max 1 sh.addralign) := by
      rw [← hpre, padTo_length hmx]
    have hnl : names.length = sh.size + 10 := by
      rw [← hnames, List.length_append, List.length_append, hsl]; rfl
    have hpre1 : (padTo (blockAlign e.is64) d ++ blk).length ≤ pre.length := by
      rw [hprelen]; exact roundUp_ge hmx
    rw [← hprelen] at hp hcnt hlim hlen ⊢
    have hpd : ∃ y', pre = d ++ y' := ⟨_, by rw [← hpre]; simp only [padTo, List.append_assoc]; rfl⟩
    obtain ⟨y', hy'⟩ := hpd
    rw [List.length_append, padTo_length hap] at hpre1
    have hbl : (pre ++ names).length = pre.length + sh.size + 10 := by rw [List.length_append, hnl]; omega
    obtain ⟨b1, b2, b3, b4, b5⟩ := bounds_of_fit (hfit sh (List.mem_of_getElem? hnt.1))
    simp only [List.mem_cons, List.not_mem_nil, or_false, forall_eq_or_imp, forall_eq] at b5
    have htf : ∀ s ∈ e.shdrs.set e.hdr.shstrndx { sh with offset := pre.length, size := sh.size + 10 } ++
        [signatureHeader e.is64 sh.size (roundUp d.length (blockAlign e.is64)) blk.length], s.Fit e.is64 := by
      intro x hx
      rcases List.mem_append.mp hx with hx | hx
      · rcases List.mem_or_eq_of_mem_set hx with hx | rfl
        · exact hfit x hx
        · refine fit_of_bounds b1 b2 b3 b4 ?_
          simp only [List.mem_cons, List.not_mem_nil, or_false, forall_eq_or_imp, forall_eq]
          exact ⟨b5.1, b5.2.1, by omega, by omega, b5.2.2.2.2.1, b5.2.2.2.2.2⟩
      · rw [List.mem_singleton.mp hx]
        exact header_fit hn (by omega) (by omega)
    have hdec := withTable_decode hd hy (table := e.shdrs.set e.hdr.shstrndx { sh with offset := pre.length, size := sh.size + 10 } ++
        [signatureHeader e.is64 sh.size (roundUp d.length (blockAlign e.is64)) blk.length]) (by simp) hcnt htf (by omega)
    rw [← decodeElf_iff, hdec]
    have hget : (e.shdrs.set e.hdr.shstrndx { sh with offset := pre.length, size := sh.size + 10 } ++
        [signatureHeader e.is64 sh.size (roundUp d.length (blockAlign e.is64)) blk.length])[e.hdr.shstrndx]? =
        some { sh with offset := pre.length, size := sh.size + 10 } := by
      rw [List.getElem?_append_left (by simpa using hidx), List.getElem?_set_self hidx]
    have hpiece := withTable_piece hd (pre := pre) (x := names) (z := []) (body := pre ++ names) (by rw [List.append_nil]) hy'
      (e.shdrs.set e.hdr.shstrndx { sh with offset := pre.length, size := sh.size + 10 } ++
        [signatureHeader e.is64 sh.size (roundUp d.length (blockAlign e.is64)) blk.length])
    rw [hnl] at hpiece
    have hst' : e.strtab ++ ksuBytes ++ [0] = names := by rw [hst]; exact hnames
    constructor
    · intro h
      obtain ⟨t, ht, hn'⟩ := Option.map_eq_some_iff.mp h
      rcases (parseStrtab_iff (by rw [if_neg hx])).mp ht with ⟨h1, _⟩ | ⟨s, h1, h2, h3, h4, h5⟩
      · rw [hget] at h1; cases h1
      · rw [hget] at h1
        obtain rfl := Option.some.inj h1
        dsimp only at h3 h5
        rw [hpiece] at h3
        refine ⟨by omega, ?_⟩
        rw [← hn', h3, hst']
    · rintro ⟨h, rfl⟩
      rw [Option.map_eq_some_iff]
      refine ⟨names, ?_, by rw [hst']⟩
      rw [parseStrtab_iff (by rw [if_neg hx])]
      refine .inr ⟨_, hget, ?_, ?_, ?_, ?_⟩
      · dsimp only; omega
      · dsimp only; rw [hpiece]
      · rw [← hst']; exact utf8_append_ksu hutf
      · dsimp only; omega

/-- What a file says after another signing. -/
theorem again_view {d blk : Bytes} {e : Elf} {sh : Shdr} {i : Nat} {s : Shdr} (hv : ElfView d e) (hnt : NameTable e d sh)
    (hi : FirstAt e ksuBytes i s) (hne : i ≠ e.hdr.shstrndx) (hpl : headerLength e.is64 ≤ sh.offset) {n : Nat} {body : Bytes}
    {table : List Shdr} (hp : Plan e d blk n body table) (hn : n < 2 ^ 32) (hcnt : table.length ≤ 65535)
    (hlim : (withTable e body table).length < 2 ^ (if e.is64 then 64 else 32)) :
    ElfView (withTable e body table) (newView e (roundUp body.length (entryLength e.is64)) table e.strtab) := by
  obtain ⟨rest, hd⟩ := decodeElf_some (decodeElf_iff.mpr hv)
  obtain ⟨y, hy⟩ := hp.body
  have hlen := withTable_length hv hy table
  have hge := roundUp_ge (n := body.length) (entryLength_pos e.is64)
  have hfit : ∀ s ∈ e.shdrs, s.Fit e.is64 := parseShdrs_ok hd.shdrs
  have hidx := nameTable_index hnt
  have hq := hp
  cases hq with
  | first h1 h2 => exact absurd ⟨_, _, hi⟩ h2
  | @again sh' i' s' h1 h2 =>
    obtain ⟨rfl, rfl⟩ := firstAt_unique hi h2
    have hcnt' := hcnt
    rw [List.length_set] at hcnt'
    have hx : e.hdr.shstrndx ≠ 0xffff := by omega
    obtain ⟨hst, hutf, hsz⟩ := view_names hv hnt hx
    have hap := blockAlign_pos e.is64
    have hbl : (padTo (blockAlign e.is64) d ++ blk).length = roundUp d.length (blockAlign e.is64) + blk.length := by
      rw [List.length_append, padTo_length hap]
    have hdb := roundUp_ge (n := d.length) hap
    have htf : ∀ x ∈ e.shdrs.set i (signatureHeader e.is64 s.name (roundUp d.length (blockAlign e.is64)) blk.length),
        x.Fit e.is64 := by
      intro x hx
      rcases List.mem_or_eq_of_mem_set hx with hx | rfl
      · exact hfit x hx
      · exact header_fit hn (by omega) (by omega)
    have hdec := withTable_decode hd hy (table := e.shdrs.set i
      (signatureHeader e.is64 s.name (roundUp d.length (blockAlign e.is64)) blk.length))
      (by intro h; have := congrArg List.length h; rw [List.length_set, List.length_nil] at this; omega) hcnt htf (by omega)
    rw [← decodeElf_iff, hdec, Option.map_eq_some_iff]
    refine ⟨e.strtab, ?_, rfl⟩
    rw [parseStrtab_iff (by rw [if_neg hx])]
    refine .inr ⟨sh, ?_, ?_, ?_, hutf, hsz⟩
    · rw [List.getElem?_set_ne hne, hnt.1]
    · have := hnt.2
      omega
    · rw [withTable_old hd hy _ hpl hnt.2, hst]
      rfl

/-- The block is found where it was written. -/
theorem plan_block {d blk : Bytes} {e : Elf} (hv : ElfView d e) {n : Nat} {body : Bytes} {table : List Shdr}
    (hp : Plan e d blk n body table) :
    sectionBytes (withTable e body table) (signatureHeader e.is64 n (roundUp d.length (blockAlign e.is64)) blk.length) = blk ∧
      roundUp d.length (blockAlign e.is64) + blk.length ≤ (withTable e body table).length := by
  obtain ⟨rest, hd⟩ := decodeElf_some (decodeElf_iff.mpr hv)
  have hap := blockAlign_pos e.is64
  have hb : ∃ z, body = padTo (blockAlign e.is64) d ++ (blk ++ z) := by
    cases hp with
    | again _ _ => exact ⟨[], by rw [List.append_nil]⟩
    | first _ _ => exact ⟨_, by simp only [padTo, List.append_assoc]; rfl⟩
  obtain ⟨z, hz⟩ := hb
  have hpd : padTo (blockAlign e.is64) d = d ++ List.replicate (roundUp d.length (blockAlign e.is64) - d.length) 0 := rfl
  have := withTable_piece hd hz hpd table
  rw [padTo_length hap] at this
  refine ⟨this, ?_⟩
  have hl := congrArg List.length this
  rw [List.length_take, List.length_drop] at hl
  have h1 := withTable_length hv (body := body) (y := List.replicate (roundUp d.length (blockAlign e.is64) - d.length) 0 ++ (blk ++ z))
    (by rw [hz, hpd, List.append_assoc]) table
  have h2 := roundUp_ge (n := body.length) (entryLength_pos e.is64)
  have h3 : body.length = roundUp d.length (blockAlign e.is64) + (blk.length + z.length) := by
    rw [hz, List.length_append, padTo_length hap, List.length_append]
  omega

/-- The new section is the one that is found, exactly if no other claims its name. -/
theorem first_found {d blk : Bytes} {e : Elf} {sh : Shdr} (hv : ElfView d e) (hnt : NameTable e d sh)
    (hnn : ¬ ∃ s, FirstNamed e ksuBytes s) {n : Nat} {body : Bytes} {table : List Shdr} (hp : Plan e d blk n body table)
    (hcnt : table.length ≤ 65535) (pos : Nat) :
    FirstAt (newView e pos table (e.strtab ++ ksuBytes ++ [0])) ksuBytes e.shdrs.length
      (signatureHeader e.is64 n (roundUp d.length (blockAlign e.is64)) blk.length) ↔ ∀ s ∈ e.shdrs, s.name ≠ sh.size := by
  have hidx := nameTable_index hnt
  have hq := hp
  cases hq with
  | again h1 h2 => exact absurd ⟨_, _, h2⟩ hnn
  | @first sh' h1 h2 =>
    obtain rfl : sh = sh' := by
      have := h1.1
      rw [hnt.1] at this
      exact Option.some.inj this
    rw [List.length_append, List.length_set, List.length_singleton] at hcnt
    have hx : e.hdr.shstrndx ≠ 0xffff := by omega
    obtain ⟨hst, hutf, _⟩ := view_names hv hnt hx
    have hsl : e.strtab.length = sh.size := by
      rw [hst]
      unfold sectionBytes
      rw [List.length_take, List.length_drop]
      have := hnt.2
      omega
    have hnot : ∀ (off : Nat), (∃ s ∈ e.shdrs, s.name = off) → strtabGet e.strtab off ≠ some ksuBytes := by
      rintro off ⟨s, hs, rfl⟩ hc
      refine hnn ?_
      have : (e.shdrs.find? (e.named ksuBytes)).isSome = true := by
        rw [List.find?_isSome]
        exact ⟨s, hs, by unfold Elf.named; rw [hc]; simp⟩
      obtain ⟨x, hx⟩ := Option.isSome_iff_exists.mp this
      exact ⟨x, firstNamed_iff.mp hx⟩
    generalize hk : ({ sh with offset := roundUp (padTo (blockAlign e.is64) d ++ blk).length (max 1 sh.addralign), size := sh.size + 10 } : Shdr) = k
    have hkn : k.name = sh.name := by rw [← hk]
    have hold : ∀ j x, j < e.shdrs.length → (e.shdrs.set e.hdr.shstrndx k ++
        [signatureHeader e.is64 sh.size (roundUp d.length (blockAlign e.is64)) blk.length])[j]? = some x →
        ∃ s, e.shdrs[j]? = some s ∧ x.name = s.name := by
      intro j x hj hjx
      rw [List.getElem?_append_left (by simpa using hj), List.getElem?_set] at hjx
      split at hjx
      · rename_i hij
        obtain rfl := Option.some.inj hjx
        exact ⟨sh, by rw [← hij]; exact hnt.1, hkn⟩
      · exact ⟨x, hjx, rfl⟩
    constructor
    · intro h s hs hc
      obtain ⟨j, hj, hjs⟩ := List.getElem_of_mem hs
      have hjx : ∃ x, (e.shdrs.set e.hdr.shstrndx k ++
        [signatureHeader e.is64 sh.size (roundUp d.length (blockAlign e.is64)) blk.length])[j]? = some x :=
        ⟨_, List.getElem?_eq_getElem (by simp; omega)⟩
      obtain ⟨x, hjx⟩ := hjx
      obtain ⟨s', hs', hxn⟩ := hold j x hj hjx
      rw [List.getElem?_eq_getElem hj, hjs] at hs'
      obtain rfl := Option.some.inj hs'
      refine h.first j hj x hjx ?_
      show strtabGet (e.strtab ++ ksuBytes ++ [0]) x.name = some ksuBytes
      rw [strtab_ksu (hnot _ ⟨s, hs, hxn.symm⟩), hsl, hxn, hc]
    · intro h
      refine ⟨?_, ?_, ?_⟩
      · show (e.shdrs.set e.hdr.shstrndx k ++
          [signatureHeader e.is64 sh.size (roundUp d.length (blockAlign e.is64)) blk.length])[e.shdrs.length]? = _
        rw [List.getElem?_append_right (by simp)]
        simp
      · show strtabGet (e.strtab ++ ksuBytes ++ [0]) sh.size = some ksuBytes
        unfold strtabGet
        rw [List.append_assoc, ← hsl, List.getElem?_append_right (Nat.le_refl _), Nat.sub_self, List.drop_left]
        rfl
      · intro j hj x hjx hc
        obtain ⟨s', hs', hxn⟩ := hold j x hj hjx
        have hmem := List.mem_of_getElem? hs'
        have hc : strtabGet (e.strtab ++ ksuBytes ++ [0]) x.name = some ksuBytes := hc
        rw [strtab_ksu (hnot _ ⟨s', hmem, hxn.symm⟩), hsl, hxn] at hc
        exact h s' hmem hc

/-- The replaced section is the one that is found. -/
theorem again_found {d blk : Bytes} {e : Elf} {i : Nat} {s : Shdr} (hi : FirstAt e ksuBytes i s) {n : Nat} {body : Bytes}
    {table : List Shdr} (hp : Plan e d blk n body table) (pos : Nat) :
    FirstAt (newView e pos table e.strtab) ksuBytes i
      (signatureHeader e.is64 n (roundUp d.length (blockAlign e.is64)) blk.length) := by
  cases hp with
  | first h1 h2 => exact absurd ⟨_, _, hi⟩ h2
  | @again sh' i' s' h1 h2 =>
    obtain ⟨rfl, rfl⟩ := firstAt_unique hi h2
    have hil : i < e.shdrs.length := by
      have := hi.here
      rw [List.getElem?_eq_some_iff] at this
      exact this.1
    refine ⟨List.getElem?_set_self hil, hi.name, ?_⟩
    intro j hj x hx
    have hx : (e.shdrs.set i (signatureHeader e.is64 s.name (roundUp d.length (blockAlign e.is64)) blk.length))[j]? = some x := hx
    rw [List.getElem?_set_ne (by omega)] at hx
    exact hi.first j hj x hx

end Ksusig
