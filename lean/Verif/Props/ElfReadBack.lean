import Verif.Proofs.ElfReadBack
import Verif.Props.ElfExact
import Verif.Props.ElfAnatomy

/-!
# When a signed ELF file can be read back
-/

namespace Ksusig.Props

open Ksusig Spec

theorem limit_of {d out : Bytes} {e : Elf} (h63 : out.length < 2 ^ 63) (h32 : e.is64 = false → out.length < 2 ^ 32) :
    out.length < 2 ^ (if e.is64 then 64 else 32) := by
  cases h : e.is64
  · exact h32 h
  · exact Nat.lt_trans h63 (by decide)

/-- C99. After the first signing of a file it can be opened exactly if its section of names, which has grown, still ends within the
address space. -/
theorem C99_first_opens {acc : Bytes → Bool} {f : ElfFile} {b : SigningBlock} {out : Bytes} {e : Elf} {sh : Shdr}
    (hlen : f.data.length < 2 ^ 63) (h : f.writeWithSignature acc b = .ok out) (hv : ElfView f.data e) (hnt : NameTable e f.data sh)
    (hnn : ¬ ∃ s, FirstNamed e ksuBytes s) (h32 : e.is64 = false → out.length < 2 ^ 32) :
    (∃ e', ElfView out e') ↔ sh.type = 8 ∨ sh.addr + sh.size + 10 < 2 ^ 64 := by
  obtain ⟨_, e0, n, body, table, hv0, hp, hn, hcnt, rfl, h63⟩ := (C98_written acc f b out hlen).mp h
  obtain rfl := C97_unique hv hv0
  constructor
  · rintro ⟨e', h'⟩
    exact ((first_view hv hnt hnn hp hn hcnt (limit_of (d := f.data) h63 h32) e').mp h').1
  · intro hc
    exact ⟨_, (first_view hv hnt hnn hp hn hcnt (limit_of (d := f.data) h63 h32) _).mpr ⟨hc, rfl⟩⟩

/-- C99. After the first signing of a file the new section is the one found by its name exactly if the file can be opened and no
section claims that its name begins at the end of the old names. -/
theorem C99_first_found {acc : Bytes → Bool} {f : ElfFile} {b : SigningBlock} {out : Bytes} {e : Elf} {sh : Shdr}
    (hlen : f.data.length < 2 ^ 63) (h : f.writeWithSignature acc b = .ok out) (hv : ElfView f.data e) (hnt : NameTable e f.data sh)
    (hnn : ¬ ∃ s, FirstNamed e ksuBytes s) (h32 : e.is64 = false → out.length < 2 ^ 32) :
    (∃ e' s, ElfView out e' ∧ FirstAt e' ksuBytes e.shdrs.length s) ↔
      (sh.type = 8 ∨ sh.addr + sh.size + 10 < 2 ^ 64) ∧ ∀ s ∈ e.shdrs, s.name ≠ sh.size := by
  obtain ⟨_, e0, n, body, table, hv0, hp, hn, hcnt, rfl, h63⟩ := (C98_written acc f b out hlen).mp h
  obtain rfl := C97_unique hv hv0
  have hlim := limit_of (d := f.data) h63 h32
  constructor
  · rintro ⟨e', s, h', hs⟩
    obtain ⟨h1, rfl⟩ := (first_view hv hnt hnn hp hn hcnt hlim e').mp h'
    refine ⟨h1, (first_found hv hnt hnn hp hcnt (roundUp body.length (entryLength e.is64))).mp ?_⟩
    have hlast : table[e.shdrs.length]? =
        some (signatureHeader e.is64 n (roundUp f.data.length (blockAlign e.is64)) b.toU8.length) := by
      cases hp with
      | again _ h2 => exact absurd ⟨_, _, h2⟩ hnn
      | first _ _ => rw [List.getElem?_append_right (by simp)]; simp
    have := hs.here
    have this' : table[e.shdrs.length]? = some s := this
    rw [hlast] at this'
    rw [Option.some.inj this']
    exact hs
  · rintro ⟨h1, h2⟩
    exact ⟨_, _, (first_view hv hnt hnn hp hn hcnt hlim _).mpr ⟨h1, rfl⟩, (first_found hv hnt hnn hp hcnt _).mpr h2⟩

/-- What signing a file does to it, if the block is to be found again. -/
theorem signable_step {acc : Bytes → Bool} {f : ElfFile} {b : SigningBlock} {out : Bytes} {e : Elf}
    (hlen : f.data.length < 2 ^ 63) (h : f.writeWithSignature acc b = .ok out) (hv : ElfView f.data e) (hs : SignableElf f.data e)
    (h32 : e.is64 = false → out.length < 2 ^ 32) : ∃ e' s, ElfView out e' ∧ e'.is64 = e.is64 ∧ SignableElf out e' ∧
      FirstNamed e' ksuBytes s ∧ sectionBytes out s = b.toU8 ∧ s.size = b.toU8.length ∧ s.offset + s.size ≤ out.length := by
  obtain ⟨_, e0, n, body, table, hv0, hp, hn, hcnt, rfl, h63⟩ := (C98_written acc f b out hlen).mp h
  obtain rfl := C97_unique hv hv0
  have hlim := limit_of (d := f.data) h63 h32
  obtain ⟨hblk, hend⟩ := plan_block hv hp
  obtain ⟨y, hy⟩ := hp.body
  have hol := withTable_length hv hy table
  have hge := roundUp_ge (n := body.length) (entryLength_pos e.is64)
  have hbl : f.data.length ≤ body.length := by rw [hy, List.length_append]; omega
  obtain ⟨sh, hnt, ⟨i, s, hi, hne, hpl⟩ | ⟨hnn, h1, h2⟩⟩ := hs
  · have hv' := again_view hv hnt hi hne hpl hp hn hcnt hlim
    have hf' := again_found (d := f.data) (blk := b.toU8) hi hp (roundUp body.length (entryLength e.is64))
    refine ⟨_, _, hv', rfl, ⟨sh, ⟨?_, ?_⟩, .inl ⟨i, _, hf', hne, hpl⟩⟩, ⟨i, hf'⟩, hblk, rfl, hend⟩
    · show table[e.hdr.shstrndx]? = some sh
      cases hp with
      | again h3 h4 =>
        obtain ⟨rfl, rfl⟩ := firstAt_unique hi h4
        rw [List.getElem?_set_ne hne, hnt.1]
      | first h3 h4 => exact absurd ⟨_, _, hi⟩ h4
    · have := hnt.2
      omega
  · have hv' := (first_view hv hnt hnn hp hn hcnt hlim _).mpr ⟨h1, rfl⟩
    have hf' := (first_found hv hnt hnn hp hcnt (roundUp body.length (entryLength e.is64))).mpr h2
    have hidx := nameTable_index hnt
    refine ⟨_, _, hv', rfl, ?_, ⟨_, hf'⟩, hblk, rfl, hend⟩
    have hroom := hv.room
    cases hp with
    | again _ h2 => exact absurd ⟨_, _, h2⟩ hnn
    | @first sh' h3 h4 =>
      obtain rfl : sh = sh' := by
        have := h3.1
        rw [hnt.1] at this
        exact Option.some.inj this
      have hmx : 0 < max 1 sh.addralign := by omega
      have hap := blockAlign_pos e.is64
      have hd1 := roundUp_ge (n := f.data.length) hap
      have hd2 := roundUp_ge (n := (padTo (blockAlign e.is64) f.data ++ b.toU8).length) hmx
      have hsl : (sectionBytes f.data sh).length = sh.size := by
        unfold sectionBytes
        rw [List.length_take, List.length_drop]
        have := hnt.2
        omega
      have hbody : (padTo (max 1 sh.addralign) (padTo (blockAlign e.is64) f.data ++ b.toU8) ++
          (sectionBytes f.data sh ++ ksuBytes ++ [0])).length =
          roundUp (padTo (blockAlign e.is64) f.data ++ b.toU8).length (max 1 sh.addralign) + (sh.size + 10) := by
        rw [List.length_append, padTo_length hmx, List.length_append (as := sectionBytes f.data sh ++ ksuBytes),
          List.length_append (as := sectionBytes f.data sh), hsl]
        rfl
      have hd3 : roundUp f.data.length (blockAlign e.is64) ≤ (padTo (blockAlign e.is64) f.data ++ b.toU8).length := by
        rw [List.length_append, padTo_length hap]; omega
      refine ⟨{ sh with
          offset := roundUp (padTo (blockAlign e.is64) f.data ++ b.toU8).length (max 1 sh.addralign), size := sh.size + 10 },
        ⟨?_, ?_⟩, .inl ⟨e.shdrs.length, _, hf', ?_, ?_⟩⟩
      · show (e.shdrs.set e.hdr.shstrndx _ ++ [_])[e.hdr.shstrndx]? = _
        rw [List.getElem?_append_left (by simpa using hidx), List.getElem?_set_self hidx]
      · dsimp only
        omega
      · show e.shdrs.length ≠ e.hdr.shstrndx
        omega
      · show headerLength e.is64 ≤ _
        dsimp only
        omega

/-- C99. A block written into such a file is read back, for every block that can be read at all; the file can be signed again. -/
theorem C99_reads_back {acc : Bytes → Bool} {f : ElfFile} {b : SigningBlock} {out : Bytes} {e : Elf} {p : Profile}
    (hlen : f.data.length < 2 ^ 63) (h : f.writeWithSignature acc b = .ok out) (hv : ElfView f.data e) (hs : SignableElf f.data e)
    (h32 : e.is64 = false → out.length < 2 ^ 32) (hb : SigningBlock.fromU8 p b.toU8 = .ok b) (hacc : acc out = true)
    (secs : List (List Char)) :
    (⟨out, secs⟩ : ElfFile).getSigningBlock p acc = .ok (some b) ∧ ∃ e', ElfView out e' ∧ SignableElf out e' := by
  have h63 : out.length < 2 ^ 63 := by
    obtain ⟨_, _, _, _, _, _, _, _, _, _, h⟩ := (C98_written acc f b out hlen).mp h
    exact h
  obtain ⟨e', s, hv', _, hs', hf, hblk, hsz, hend⟩ := signable_step hlen h hv hs h32
  refine ⟨?_, e', hv', hs'⟩
  rw [C97_block p acc ⟨out, secs⟩ b h63]
  refine ⟨hacc, e', s, hv', hf, ?_, hend, ?_⟩
  · rw [hsz]
    intro h0
    rw [List.length_eq_zero_iff.mp h0] at hb
    revert hb
    cases p <;> (intro hb; revert hb; exact fun hb => by cases hb)
  · show HoldsBlock (sectionBytes out s) b
    rw [hblk]
    exact (C88_from_u8 p _ b).mp hb

/-- C99. However often such a file is signed, the last block is read back. -/
theorem C99_history {acc : Bytes → Bool} {data out : Bytes} {bs : List SigningBlock} {e : Elf} (hv : ElfView data e)
    (hs : SignableElf data e) (h : Rewritten acc data bs out) (hlen : out.length < 2 ^ 63)
    (h32 : e.is64 = false → out.length < 2 ^ 32) : ∃ e', ElfView out e' ∧ e'.is64 = e.is64 ∧ SignableElf out e' ∧
      ∀ b, bs.getLast? = some b → ∃ s, FirstNamed e' ksuBytes s ∧ sectionBytes out s = b.toU8 := by
  induction h with
  | start => exact ⟨e, hv, rfl, hs, fun b hb => by cases hb⟩
  | @sign mid out bs b secs hr hw ih =>
    have hmid : mid.length ≤ out.length := (C46_bytes_kept hw).1
    obtain ⟨e1, hv1, hc1, hs1, _⟩ := ih (by omega) (fun hc => by have := h32 hc; omega)
    obtain ⟨e', s, hv', hc', hs', hf, hblk, _⟩ := signable_step (f := ⟨mid, secs⟩) (by show mid.length < _; omega) hw hv1 hs1
      (fun hc => h32 (by rw [← hc1]; exact hc))
    refine ⟨e', hv', by rw [hc', hc1], hs', ?_⟩
    intro b' hb'
    rw [List.getLast?_concat] at hb'
    obtain rfl := Option.some.inj hb'
    exact ⟨s, hf, hblk⟩

/-- C99. Ordinary files, as in C47, are such files. -/
theorem C99_ordinary {d : Bytes} {e : Elf} {sh : Shdr} (hv : ElfView d e) (hok : ElfOk e) (hnt : NameTable e d sh)
    (hn : e.shdrs.length ≤ 65535) (hlen : d.length < 2 ^ 62) : SignableElf d e := by
  have hidx := nameTable_index hnt
  obtain ⟨hst, _, _⟩ := view_names hv hnt (by omega)
  have hsl : e.strtab.length = sh.size := by
    rw [hst]
    unfold sectionBytes
    rw [List.length_take, List.length_drop]
    have := hnt.2
    omega
  refine ⟨sh, hnt, ?_⟩
  by_cases h : ∃ s, FirstNamed e ksuBytes s
  · obtain ⟨s, i, hi⟩ := h
    refine .inl ⟨i, s, hi, ?_, hok.place sh hnt.1⟩
    rintro rfl
    have := hi.here
    rw [hnt.1] at this
    obtain rfl := Option.some.inj this
    exact hok.own _ hnt.1 hi.name
  · refine .inr ⟨h, .inr ?_, ?_⟩
    · have := hok.addr sh hnt.1
      have := hnt.2
      omega
    · intro s hs
      have := hok.names s hs
      omega

set_option maxRecDepth 100000 in
/-- C99: a file that can be opened and signed, and cannot be opened afterwards. -/
theorem C99_signing_can_make_unreadable : ∃ d out, (⟨d, defaultSections⟩ : ElfFile).getSigningBlock .release anyElf = .ok none ∧
    (⟨d, defaultSections⟩ : ElfFile).writeWithSignature anyElf tinyBlock = .ok out ∧ ¬ ∃ e', ElfView out e' := by
  have h : (match (⟨patch elf64 312 [0xE2, 0xFF, 0xFF, 0xFF, 0xFF, 0xFF, 0xFF, 0xFF], defaultSections⟩ : ElfFile).writeWithSignature
      anyElf tinyBlock with
    | .ok out => (decodeElf out).isNone
    | _ => false) = true := by decide +kernel
  split at h
  · rename_i out hout
    refine ⟨_, out, ?_, hout, ?_⟩
    · decide +kernel
    · rintro ⟨e', h'⟩
      rw [decodeElf_iff.mpr h'] at h
      cases h
  · cases h

set_option maxRecDepth 100000 in
/-- C99: a file that can be signed and opened again, in which another section is then taken for the signature section. -/
theorem C99_another_section_found : ∃ d out, (⟨d, defaultSections⟩ : ElfFile).getSigningBlock .release anyElf = .ok none ∧
    (⟨d, defaultSections⟩ : ElfFile).writeWithSignature anyElf tinyBlock = .ok out ∧ (∃ e', ElfView out e') ∧
    (⟨out, defaultSections⟩ : ElfFile).getSigningBlock .release anyElf = .err .elf := by
  have h : (match (⟨patch elf64 168 [25], defaultSections⟩ : ElfFile).writeWithSignature anyElf tinyBlock with
    | .ok out => (decodeElf out).isSome && decide ((⟨out, defaultSections⟩ : ElfFile).getSigningBlock .release anyElf = .err .elf)
    | _ => false) = true := by decide +kernel
  split at h
  · rename_i out hout
    rw [Bool.and_eq_true, decide_eq_true_eq] at h
    obtain ⟨e', h'⟩ := Option.isSome_iff_exists.mp h.1
    exact ⟨_, out, by decide +kernel, hout, ⟨e', decodeElf_iff.mp h'⟩, h.2⟩
  · cases h

set_option maxRecDepth 100000 in
/-- The sample file is such a file, before and after signing. -/
example : ∃ e e', ElfView elf64 e ∧ SignableElf elf64 e ∧ (⟨elf64, defaultSections⟩ : ElfFile).writeWithSignature anyElf tinyBlock =
    .ok (signTiny elf64) ∧ SigningBlock.fromU8 .release tinyBlock.toU8 = .ok tinyBlock ∧
    ElfView (signTiny elf64) e' ∧ SignableElf (signTiny elf64) e' := by
  have h : (match decodeElf elf64 with
    | some e => decide (ElfOk e) && (e.shdrs[e.hdr.shstrndx]?.any fun s => decide (s.offset + s.size ≤ elf64.length)) &&
      decide (e.shdrs.length ≤ 65535) && e.is64
    | none => false) = true := by decide +kernel
  split at h
  · rename_i e he
    simp only [Bool.and_eq_true, decide_eq_true_eq, Option.any_eq_true] at h
    obtain ⟨⟨⟨h1, sh, h2, h3⟩, h4⟩, h5⟩ := h
    have hv := decodeElf_iff.mp he
    have hs := C99_ordinary hv h1 ⟨h2, h3⟩ h4 (by decide +kernel)
    obtain ⟨e', _, hv', _, hs', _⟩ := signable_step (f := ⟨elf64, defaultSections⟩) (by decide +kernel) signTiny_64 hv hs
      (fun hc => by rw [h5] at hc; cases hc)
    exact ⟨e, e', hv, hs, signTiny_64, by decide +kernel, hv', hs'⟩
  · cases h

end Ksusig.Props
