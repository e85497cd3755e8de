import Verif.Props.Robust
import Verif.Props.Raw
import Verif.Props.ElfDigest

/-! # C85: what `is_signed` tells -/

namespace Ksusig.Props

open Ksusig Spec

/-- C85, modules: a module, however it was opened and whatever was done with it, counts as signed exactly if its signing
block can be read. -/
theorem C85_module (p : Profile) (m : Module) (file : Bytes) :
    (m.isSigned p file = .ok true ↔ ∃ b, m.getSigningBlock p file = .ok b) ∧
    (m.isSigned p file = .ok false ↔ ∃ e, m.getSigningBlock p file = .err e) ∧
    (m.isSigned p file = .panic ↔ m.getSigningBlock p file = .panic) ∧
    ∀ e, m.isSigned p file ≠ .err e := by
  unfold Module.isSigned Module.signingBlock?
  cases m.getSigningBlock p file with
  | ok b => simp
  | panic => simp
  | err e =>
    dsimp only
    cases e.isMissing <;> simp

/-- C85, ELF files: an ELF file counts as signed exactly if its signature section holds a readable block. -/
theorem C85_elf (p : Profile) (acc : Bytes → Bool) (f : ElfFile) :
    (f.isSigned p acc = .ok true ↔ ∃ b, f.getSigningBlock p acc = .ok (some b)) ∧
    (f.isSigned p acc = .ok false ↔ f.getSigningBlock p acc = .ok none ∨ ∃ e, f.getSigningBlock p acc = .err e) ∧
    (f.isSigned p acc = .panic ↔ f.getSigningBlock p acc = .panic) ∧
    ∀ e, f.isSigned p acc ≠ .err e := by
  unfold ElfFile.isSigned
  cases f.getSigningBlock p acc with
  | ok b => cases b <;> simp
  | panic => simp
  | err e => simp

/-- C85: the module written for any block that was built counts as signed; the module that was signed did not; and after
stripping the signature it does not any more. -/
theorem C85_sign_and_strip {p p' : Profile} {a : Archive} {b : SigningBlock} (hb : Built p' b)
    (hs : Signable a b.toU8.length) (hno : a.NoMagic) :
    (Module.new a.unsigned).isSigned p a.unsigned = .ok false ∧
    ∃ out, (Module.new a.unsigned).signableWrite p a.unsigned b = (out, .ok ()) ∧
      (Module.new out).isSigned p out = .ok true ∧
      ∃ raw, (Module.new out).getRawModule p out = .ok raw ∧ (Module.new raw).isSigned p raw = .ok false := by
  have h0 := (C15_unsigned_partial (p := p) hs.comment hs.cleanOld hs.sizeOld hno).2.1
  refine ⟨h0, a.signed b.toU8, signableWrite_unsigned p hs.comment hs.cleanOld hs.sizeOld hs.sizeBlock hno, ?_,
    a.unsigned, getRawModule_signed p hb.wf hs.comment hs.cleanNew hs.size, h0⟩
  exact (C85_module p _ _).1.mpr ⟨_, getSigningBlock_signed p hb.wf hs.comment hs.cleanNew hs.size⟩

example : (Module.new sampleArchive.unsigned).isSigned .dev sampleArchive.unsigned = .ok false :=
  (C85_sign_and_strip (p := .dev) (sampleBlock_built .dev) sampleArchive_signable sampleArchive_noMagic).1

/-- C85: an ordinary ELF file counts as signed after a readable block was written into it. -/
theorem C85_elf_signed {acc : Bytes → Bool} {f : ElfFile} {b : SigningBlock} {out : Bytes} {e : Elf} {p : Profile}
    (hd : decodeElf f.data = some e) (hok : ElfOk e) (h32 : e.is64 = false → out.length < 2 ^ 32)
    (hb : SigningBlock.fromU8 p b.toU8 = .ok b) (hacc : acc out = true)
    (h : f.writeWithSignature acc b = .ok out) (secs : List (List Char)) :
    (⟨out, secs⟩ : ElfFile).isSigned p acc = .ok true :=
  (C85_elf p acc _).1.mpr ⟨b, C47_reads_back_partial hd hok h32 hb hacc h secs⟩

/-- C85: an ELF file without a signature section does not count as signed. -/
theorem C85_elf_unsigned {acc : Bytes → Bool} {f : ElfFile} {e : Elf} {p : Profile}
    (hd : decodeElf f.data = some e) (hno : ¬ ∃ s, FirstNamed e ksuBytes s) : f.isSigned p acc = .ok false := by
  rw [(C85_elf p acc f).2.1]
  unfold ElfFile.getSigningBlock
  cases ha : acc f.data with
  | false =>
    right
    have : parseElf acc f.data = .err .elf := by unfold parseElf; rw [hd]; simp [ha]
    rw [this]
    exact ⟨_, rfl⟩
  | true =>
    left
    rw [parseElf_ok.mpr ⟨hd, ha⟩, Res.ok_bind]
    cases hf : e.findSection (utf8 ksuSection) with
    | none => rfl
    | some s => exact absurd ⟨s, firstNamed_iff.mp hf⟩ hno

set_option maxRecDepth 100000 in
example : (⟨elf64, defaultSections⟩ : ElfFile).isSigned .dev anyElf = .ok false ∧
    (⟨signTiny elf64, defaultSections⟩ : ElfFile).isSigned .dev anyElf = .ok true := by
  obtain ⟨⟨e, he, h⟩, _⟩ := samples_ok
  obtain ⟨h1, h2, h3⟩ := of_decide_eq_true h
  refine ⟨C85_elf_unsigned he fun ⟨s, hs⟩ => h2 ⟨s, ?_⟩, C85_elf_signed (f := ⟨elf64, defaultSections⟩) he h1 ?_
    (tinyBlock_reads .dev) rfl signTiny_64 _⟩
  · obtain ⟨i, hi, hn, _⟩ := hs
    exact ⟨List.mem_of_getElem? hi, hn⟩
  · have hb : (decodeElf elf64).map (·.is64) = some true := by decide +kernel
    rw [he] at hb
    have hb : e.is64 = true := by simpa using hb
    simp [hb]

/-- C85: a module opened as raw does not count as signed, whatever the file contains; `sign_v2` changes that, and leaves the
bytes to be shipped unsigned available. -/
theorem C85_raw (p : Profile) (file : Bytes) :
    (Module.newRaw file).isSigned p file = .ok false ∧ (Module.newRaw file).getRawModule p file = .ok file ∧
    ∀ E algo cert key m, (Module.newRaw file).signV2 E p file algo cert key = .ok m →
      m.isSigned p file = .ok true ∧ m.getRawModule p file = .ok file := by
  refine ⟨(C85_module _ _ _).2.1.mpr ⟨.moduleIsRaw, rfl⟩, rfl, ?_⟩
  intro E algo cert key m h
  obtain ⟨d, b, e, _, _, _, rfl⟩ := signV2_ok h
  exact ⟨(C85_module _ _ _).1.mpr ⟨_, rfl⟩, rfl⟩

/-- C85, finding: `is_signed` does not tell a damaged block from no block. A module with the magic before its directory whose
block cannot be read counts as unsigned, but it cannot be signed, digested or stripped. -/
theorem C85_damaged_counts_as_unsigned {p : Profile} {file : Bytes} {e : Eocd} {u : Nat}
    (h1 : findEocd file file.length = .ok e) (h2 : MagicAtPos file u)
    (h3 : u + 16 ≤ min file.length e.cdOffset.toNat)
    (h4 : min file.length e.cdOffset.toNat - min (min file.length e.cdOffset.toNat) 16777216 + 8 ≤ u)
    (hbad : ∀ b, (Module.new file).getSigningBlock p file ≠ .ok b) :
    ((Module.new file).isSigned p file = .ok false ∨ p = .dev ∧ (Module.new file).isSigned p file = .panic) ∧
    (∀ o, (Module.new file).signingBlock? p file ≠ .ok o) ∧
    (∀ b, ((Module.new file).signableWrite p file b).1 = [] ∧
      ((Module.new file).signableWrite p file b).2 ≠ .ok ()) ∧
    (∀ E algo d, (Module.new file).digest E p file algo ≠ .ok d) ∧
    ∀ r, (Module.new file).getRawModule p file ≠ .ok r := by
  obtain ⟨c1, _, c2, c3, _⟩ := C52_corrupted_refused_partial h1 h2 h3 h4 hbad
  cases h : (Module.new file).getSigningBlock p file with
  | ok b => exact absurd h (hbad b)
  | panic =>
    have hp : p = .dev := by
      cases p with
      | dev => rfl
      | release => exact absurd h (getSigningBlock_release file)
    refine ⟨.inr ⟨hp, (C85_module _ _ _).2.2.1.mpr h⟩, ?_, c3, c1, c2⟩
    intro o
    unfold Module.signingBlock?
    rw [h]
    simp
  | err err =>
    refine ⟨.inl ((C85_module _ _ _).2.1.mpr ⟨err, h⟩), ?_, c3, c1, c2⟩
    intro o
    unfold Module.signingBlock?
    rw [h]
    dsimp only
    rw [getSigningBlock_seen h1 h2 h3 h4 h]
    simp

example : (Module.new damagedFile).isSigned .release damagedFile = .ok false ∧
    (Module.new damagedFile).getSigningBlock .release damagedFile = .err .blockExceedsFile := by
  constructor <;> decide +kernel

end Ksusig.Props
