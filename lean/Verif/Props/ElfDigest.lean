import Verif.Props.ElfSign

/-! # Digests before and after signing an ELF file, and files for which signing goes wrong: C46, C47, C48, C61 -/

namespace Ksusig.Props

open Ksusig Spec

theorem take_drop_kept {data out : Bytes} {a n : Nat} (h : ∀ i, a ≤ i → i < a + n → out[i]? = data[i]?) :
    (out.drop a).take n = (data.drop a).take n := by
  apply List.ext_getElem?
  intro i
  rw [List.getElem?_take, List.getElem?_take]
  refine if_same (fun hi => ?_) (fun _ => rfl)
  rw [List.getElem?_drop, List.getElem?_drop]
  exact h _ (by omega) (by omega)

/-- C46: the sections chosen from an ordinary ELF file resolve to the same places after signing, and their digest is the same,
when they lie between the ELF header and the end of the file and the section name table is not one of them. -/
theorem C46_digest_partial {acc : Bytes → Bool} {f : ElfFile} {b : SigningBlock} {out : Bytes} {e : Elf} {l : List Resolved}
    (hf : OpenElf acc f) (hd : decodeElf f.data = some e) (hok : ElfOk e) (h32 : e.is64 = false → out.length < 2 ^ 32)
    (hacc : acc out = true) (hl : f.resolvedSections acc = .ok l)
    (hin : ∀ x ∈ l, (if e.is64 then 64 else 52) ≤ x.2.1 ∧ x.2.1 + x.2.2 ≤ f.data.length)
    (hname : ∀ s, e.shdrs[e.hdr.shstrndx]? = some s → ∀ n ∈ f.sections, nameOf e s ≠ some (utf8 n))
    (h : f.writeWithSignature acc b = .ok out) :
    (⟨out, f.sections⟩ : ElfFile).resolvedSections acc = .ok l ∧
      ∀ (E : Env) (algo : Algo), (⟨out, f.sections⟩ : ElfFile).digest E acc algo = f.digest E acc algo := by
  obtain ⟨rest, table, pad1, mid, pad3, ksu, sh, off, hdec, hw, hsh, hd', hok'⟩ := written_facts hd hok h32 h
  obtain ⟨e1, l0, hd1, _, hm, hs⟩ := resolved_ok.mp hl
  rw [hd] at hd1
  cases hd1
  have hres : (⟨out, f.sections⟩ : ElfFile).resolvedSections acc = .ok l := by
    refine resolved_ok.mpr ⟨_, l0, hd', hacc, ?_, hs⟩
    rw [← hm]
    apply List.map_congr_left
    intro n hn
    unfold Elf.lookup
    rw [find_other hdec hw hok hsh off (utf8_ne_ksu ((C45_selection hf).2 n hn).2.2) (hname sh hsh n hn)]
  refine ⟨hres, ?_⟩
  intro E algo
  unfold ElfFile.digest
  rw [hres, hl, Res.ok_bind, Res.ok_bind]
  unfold digestElfSections
  have key : ∀ x ∈ l, (out.drop x.2.1).take x.2.2 = (f.data.drop x.2.1).take x.2.2 := by
    intro x hx
    obtain ⟨h1, h2⟩ := hin x hx
    refine take_drop_kept fun i hi hi' => C46_outside_header h (by omega) ?_
    rw [is64_of hdec]; omega
  congr 2
  have : ∀ (l : List Resolved) (g g' : Resolved → List Bytes), (∀ x ∈ l, g x = g' x) → l.flatMap g = l.flatMap g' := by
    intro l g g' hg
    induction l with
    | nil => rfl
    | cons y l ih => rw [List.flatMap_cons, List.flatMap_cons, hg y (by simp), ih (fun x hx => hg x (by simp [hx]))]
  apply this
  intro x hx
  dsimp only
  rw [key x hx]

/-- A block with one pair, for the examples. -/
def tinyBlock : SigningBlock := ⟨0, 48, 40, 16, [.raw ⟨8, 5, [1, 2, 3, 4]⟩], 40, magic⟩

set_option maxRecDepth 100000 in
theorem tinyBlock_reads (p : Profile) : SigningBlock.fromU8 p tinyBlock.toU8 = .ok tinyBlock := by
  cases p <;> decide +kernel

/-- What signing with `tinyBlock` makes of a file. -/
def signTiny (data : Bytes) : Bytes :=
  match (⟨data, defaultSections⟩ : ElfFile).writeWithSignature anyElf tinyBlock with
  | .ok out => out
  | _ => []

set_option maxRecDepth 100000 in
theorem signTiny_64 : (⟨elf64, defaultSections⟩ : ElfFile).writeWithSignature anyElf tinyBlock = .ok (signTiny elf64) := by
  decide +kernel

set_option maxRecDepth 100000 in
theorem signTiny_32 : (⟨elf32, defaultSections⟩ : ElfFile).writeWithSignature anyElf tinyBlock = .ok (signTiny elf32) := by
  decide +kernel

theorem exists_elf {data : Bytes} {P : Elf → Bool} (h : ((decodeElf data).map P) = some true) :
    ∃ e, decodeElf data = some e ∧ P e = true := by
  cases hd : decodeElf data with
  | none => rw [hd] at h; cases h
  | some e => rw [hd] at h; exact ⟨e, rfl, by simpa using h⟩

set_option maxRecDepth 100000 in
/-- Both sample files are ordinary. -/
theorem samples_ok : (∃ e, decodeElf elf64 = some e ∧ decide (ElfOk e ∧ (¬ ∃ s ∈ e.shdrs, nameOf e s = some ksuBytes) ∧
      e.shdrs.length = 4 ∧ ∀ s ∈ e.shdrs[e.hdr.shstrndx]?, ∀ n ∈ defaultSections, nameOf e s ≠ some (utf8 n)) = true) ∧
    ∃ e, decodeElf elf32 = some e ∧ decide (ElfOk e ∧ (¬ ∃ s ∈ e.shdrs, nameOf e s = some ksuBytes) ∧
      e.shdrs.length = 4 ∧ ∀ s ∈ e.shdrs[e.hdr.shstrndx]?, ∀ n ∈ defaultSections, nameOf e s ≠ some (utf8 n)) = true :=
  ⟨exists_elf (by decide +kernel), exists_elf (by decide +kernel)⟩

set_option maxRecDepth 100000 in
theorem samples_open : OpenElf anyElf ⟨elf64, defaultSections⟩ ∧ OpenElf anyElf ⟨elf32, defaultSections⟩ :=
  ⟨.opened (data := elf64) (by decide +kernel), .opened (data := elf32) (by decide +kernel)⟩

set_option maxRecDepth 100000 in
/-- All conditions of C46 hold for both sample files. -/
example : (∃ d, (⟨signTiny elf64, defaultSections⟩ : ElfFile).digest toyEnv anyElf .p256 = .ok d) ∧
    (⟨signTiny elf64, defaultSections⟩ : ElfFile).digest toyEnv anyElf .p256 =
      (⟨elf64, defaultSections⟩ : ElfFile).digest toyEnv anyElf .p256 ∧
    (⟨signTiny elf32, defaultSections⟩ : ElfFile).digest toyEnv anyElf .p384 =
      (⟨elf32, defaultSections⟩ : ElfFile).digest toyEnv anyElf .p384 := by
  obtain ⟨⟨e, he, h⟩, e', he', h'⟩ := samples_ok
  have h := of_decide_eq_true h
  have h' := of_decide_eq_true h'
  have hb : (decodeElf elf64).map (·.is64) = some true := by decide +kernel
  have hb' : (decodeElf elf32).map (·.is64) = some false := by decide +kernel
  rw [he] at hb
  rw [he'] at hb'
  have hb : e.is64 = true := by simpa using hb
  have hb' : e'.is64 = false := by simpa using hb'
  refine ⟨Res.exists_of_isOk (by decide +kernel), ?_, ?_⟩
  · exact (C46_digest_partial (f := ⟨elf64, defaultSections⟩) (l := [(".text".toList, 64, 8), (".rodata".toList, 72, 4)])
      samples_open.1 he h.1 (by simp [hb]) rfl (by decide +kernel) (by rw [hb]; decide +kernel)
      (fun s hs n hn => h.2.2.2 s hs n hn) signTiny_64).2 _ _
  · exact (C46_digest_partial (f := ⟨elf32, defaultSections⟩) (l := [(".text".toList, 52, 3), (".rodata".toList, 55, 2)])
      samples_open.2 he' h'.1 (fun _ => by decide +kernel) rfl (by decide +kernel) (by rw [hb']; decide +kernel)
      (fun s hs n hn => h'.2.2.2 s hs n hn) signTiny_32).2 _ _

/-- All conditions of C47 hold for the sample files. -/
example (p : Profile) : (⟨signTiny elf64, []⟩ : ElfFile).getSigningBlock p anyElf = .ok (some tinyBlock) := by
  obtain ⟨⟨e, he, h⟩, _⟩ := samples_ok
  have hb : (decodeElf elf64).map (·.is64) = some true := by decide +kernel
  rw [he] at hb
  have hb : e.is64 = true := by simpa using hb
  exact C47_reads_back_partial (f := ⟨elf64, defaultSections⟩) he (of_decide_eq_true h).1 (by simp [hb]) (tinyBlock_reads p) rfl
    signTiny_64 []

set_option maxRecDepth 100000 in
example : ∃ out, Rewritten anyElf elf32 [tinyBlock, { tinyBlock with fileEnd := 0 }] out ∧ out.length < 2 ^ 32 := by
  have h : ∃ out, (⟨signTiny elf32, []⟩ : ElfFile).writeWithSignature anyElf { tinyBlock with fileEnd := 0 } = .ok out :=
    Res.exists_of_isOk (by decide +kernel)
  obtain ⟨out, h⟩ := h
  refine ⟨out, .sign (bs := [tinyBlock]) [] (.sign (bs := []) defaultSections (.start _) signTiny_32) h, ?_⟩
  have : (match (⟨signTiny elf32, []⟩ : ElfFile).writeWithSignature anyElf { tinyBlock with fileEnd := 0 } with
    | .ok out => decide (out.length < 2 ^ 32)
    | _ => false) = true := by decide +kernel
  rw [h] at this
  exact of_decide_eq_true this

/-! ### Where C46 and C47 fail -/

set_option maxRecDepth 100000 in
/-- C46 fails when the section name table is chosen: it moves, and gets longer. -/
theorem C46_name_table_digest_changes :
    (⟨elf64, [".shstrtab".toList]⟩ : ElfFile).writeWithSignature anyElf tinyBlock = .ok (signTiny elf64) ∧
    ∃ d d', (⟨elf64, [".shstrtab".toList]⟩ : ElfFile).digest toyEnv anyElf .p256 = .ok d ∧
      (⟨signTiny elf64, [".shstrtab".toList]⟩ : ElfFile).digest toyEnv anyElf .p256 = .ok d' ∧ d ≠ d' := by
  refine ⟨by decide +kernel, ?_⟩
  have h : ((⟨elf64, [".shstrtab".toList]⟩ : ElfFile).digest toyEnv anyElf .p256).isOk = true ∧
      ((⟨signTiny elf64, [".shstrtab".toList]⟩ : ElfFile).digest toyEnv anyElf .p256).isOk = true ∧
      (⟨elf64, [".shstrtab".toList]⟩ : ElfFile).digest toyEnv anyElf .p256 ≠
        (⟨signTiny elf64, [".shstrtab".toList]⟩ : ElfFile).digest toyEnv anyElf .p256 := by
    decide +kernel
  obtain ⟨d, hd⟩ := Res.exists_of_isOk h.1
  obtain ⟨d', hd'⟩ := Res.exists_of_isOk h.2.1
  refine ⟨d, d', hd, hd', fun hc => h.2.2 ?_⟩
  rw [hd, hd', hc]

set_option maxRecDepth 100000 in
/-- C46 fails for a section that is said to reach beyond the end of the file: after signing it includes what was appended. -/
theorem C46_section_past_end_digest_changes :
    (⟨elfPastEnd, defaultSections⟩ : ElfFile).writeWithSignature anyElf tinyBlock = .ok (signTiny elfPastEnd) ∧
    ∃ d d', (⟨elfPastEnd, defaultSections⟩ : ElfFile).digest toyEnv anyElf .p256 = .ok d ∧
      (⟨signTiny elfPastEnd, defaultSections⟩ : ElfFile).digest toyEnv anyElf .p256 = .ok d' ∧ d ≠ d' := by
  refine ⟨by decide +kernel, ?_⟩
  have h : ((⟨elfPastEnd, defaultSections⟩ : ElfFile).digest toyEnv anyElf .p256).isOk = true ∧
      ((⟨signTiny elfPastEnd, defaultSections⟩ : ElfFile).digest toyEnv anyElf .p256).isOk = true ∧
      (⟨elfPastEnd, defaultSections⟩ : ElfFile).digest toyEnv anyElf .p256 ≠
        (⟨signTiny elfPastEnd, defaultSections⟩ : ElfFile).digest toyEnv anyElf .p256 := by
    decide +kernel
  obtain ⟨d, hd⟩ := Res.exists_of_isOk h.1
  obtain ⟨d', hd'⟩ := Res.exists_of_isOk h.2.1
  refine ⟨d, d', hd, hd', fun hc => h.2.2 ?_⟩
  rw [hd, hd', hc]

set_option maxRecDepth 100000 in
/-- C47 fails when a section's name offset points just behind the section name table: signing puts `.ksu_sign` there, and that
section is then taken for the signature. -/
theorem C47_dangling_name (p : Profile) :
    (⟨elfDangling, []⟩ : ElfFile).writeWithSignature anyElf tinyBlock = .ok (signTiny elfDangling) ∧
    (⟨signTiny elfDangling, []⟩ : ElfFile).getSigningBlock p anyElf = .err .elf := by
  cases p <;> constructor <;> decide +kernel

set_option maxRecDepth 100000 in
/-- C47 fails when the section name table does not end with NUL: signing renames the section with the last name. -/
theorem C47_open_table_renames :
    (⟨elfOpenTable, []⟩ : ElfFile).writeWithSignature anyElf tinyBlock = .ok (signTiny elfOpenTable) ∧
    (⟨elfOpenTable, [".shstrtab".toList]⟩ : ElfFile).resolvedSections anyElf ≠ .err .elf ∧
    (⟨signTiny elfOpenTable, [".shstrtab".toList]⟩ : ElfFile).resolvedSections anyElf = .err .elf := by
  refine ⟨?_, ?_, ?_⟩ <;> decide +kernel

set_option maxRecDepth 100000 in
/-- C47 fails when the section name table is itself called `.ksu_sign`: signing replaces it by the signature, and no section
is found any more. -/
theorem C47_name_table_replaced (p : Profile) :
    (⟨elfSelfNamed, []⟩ : ElfFile).writeWithSignature anyElf tinyBlock = .ok (signTiny elfSelfNamed) ∧
    (⟨signTiny elfSelfNamed, []⟩ : ElfFile).getSigningBlock p anyElf ≠ .ok (some tinyBlock) ∧
    (⟨elfSelfNamed, defaultSections⟩ : ElfFile).resolvedSections anyElf ≠ .err .elf ∧
    (⟨signTiny elfSelfNamed, defaultSections⟩ : ElfFile).resolvedSections anyElf = .err .elf := by
  cases p <;> refine ⟨?_, ?_, ?_, ?_⟩ <;> decide +kernel

set_option maxRecDepth 100000 in
/-- C47 fails when the section name table has an address just below 2^64: the signed file cannot be read any more. -/
theorem C47_address_overflow (p : Profile) :
    (⟨elfHighAddr, []⟩ : ElfFile).writeWithSignature anyElf tinyBlock = .ok (signTiny elfHighAddr) ∧
    (⟨elfHighAddr, []⟩ : ElfFile).getSigningBlock p anyElf = .ok none ∧
    (⟨signTiny elfHighAddr, []⟩ : ElfFile).getSigningBlock p anyElf = .err .elf := by
  cases p <;> refine ⟨?_, ?_, ?_⟩ <;> decide +kernel

end Ksusig.Props
