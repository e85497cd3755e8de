import Verif.Proofs.Messages
import Verif.Props.Program

/-!
# C119: the words that decide whether a module is unsigned or damaged

`get_signing_block` returns errors as text, and the text decides: "Magic not found" and "Module is raw" mean that there is no
signature, everything else that there is one and it cannot be read.
-/

namespace Ksusig.Props

open Ksusig Spec

/-- The word occurs in the text. -/
def Within (word : String) (msg : List Char) : Prop := ∃ before after, msg = before ++ word.toList ++ after

/-- The test of the code (`file_formats/module/mod.rs:284`, `signable.rs:392`). -/
def ReadsUnsigned (msg : List Char) : Prop := Within "Magic not found" msg ∨ Within "Module is raw" msg

theorem within_mem {c : Char} {word : String} {msg : List Char} (hc : c ∈ word.toList) (h : Within word msg) : c ∈ msg := by
  obtain ⟨a, b, rfl⟩ := h
  simp [hc]

/-- Whatever the file, every text an error of `get_signing_block` can have reads "unsigned" exactly if the check that failed is
the search for the magic or the module was opened as raw. No size or position in a file can make it read otherwise. -/
theorem C119_words {p : Profile} {m : Module} {f1 f2 : Bytes} {e : Err} (h : m.getSigningBlockT p f1 f2 = .err e) :
    (∃ msg, e.Says msg) ∧ ∀ msg, e.Says msg → (ReadsUnsigned msg ↔ e = .magicNotFound ∨ e = .moduleIsRaw) := by
  refine ⟨says_exists (block_among h), ?_⟩
  rintro msg ⟨t, ht, hf⟩
  cases hm : e.isMissing with
  | false =>
    have hM : 'M' ∉ msg := filled_lacks (by decide) (lacks_M hm t ht) hf
    constructor
    · rintro (hw | hw)
      · exact absurd (within_mem (by decide) hw) hM
      · exact absurd (within_mem (by decide) hw) hM
    · rintro (rfl | rfl) <;> cases hm
  | true =>
    have he : e = .magicNotFound ∨ e = .moduleIsRaw := by
      cases e <;> first | exact Or.inl rfl | exact Or.inr rfl | cases hm
    refine ⟨fun _ => he, fun _ => ?_⟩
    rcases he with rfl | rfl
    · left
      have hx : ∃ rest, magicText.toList = "Magic not found".toList ++ rest := ⟨magicText.toList.drop 15, by decide +kernel⟩
      obtain ⟨rest, hx⟩ := hx
      simp only [Err.texts, List.mem_cons, List.not_mem_nil, or_false] at ht
      rcases ht with rfl | rfl
      · obtain ⟨r1, h1, r2, h2, h3⟩ := hf
        have h3 : r2 = [] := h3
        refine ⟨"from_reader(): ".toList, rest, ?_⟩
        rw [h1, h2, h3, hx, List.append_nil, List.append_assoc]
      · obtain ⟨r1, h1, r2, h2, r3, h3, h4⟩ := hf
        have h4 : r3 = [] := h4
        refine ⟨"Error parsing full block: ".toList ++ "parse_full_block(): ".toList, rest, ?_⟩
        rw [h1, h2, h3, h4, hx, List.append_nil, List.append_assoc, List.append_assoc]
    · right
      simp only [Err.texts, List.mem_singleton] at ht
      subst ht
      obtain ⟨_, rfl, rfl⟩ := hf
      exact ⟨[], [], by simp⟩

/-- For a module file whose end record gives the directory offset `off`: the text reads "unsigned" exactly if no magic is in the place where
signatures are looked for. A damaged block never reads so. -/
theorem C119_unsigned {p : Profile} {file : Bytes} {r : Eocd} {e : Err} (hr : (Module.new file).findEocd file = .ok r)
    (h : (Module.new file).getSigningBlock p file = .err e) {msg : List Char} (hs : e.Says msg) :
    ReadsUnsigned msg ↔ Unsigned file (min file.length r.cdOffset.toNat) := by
  rw [(C119_words h).2 msg hs, ← fromReader_missing (p := p)]
  have h' : SigningBlock.fromReader p file file.length (file.length - r.cdOffset.toNat) = .err e := by
    unfold Module.getSigningBlock Module.getSigningBlockT at h
    simp only [Module.new] at h hr
    rw [hr] at h
    exact h
  rw [h']
  constructor
  · rintro (rfl | rfl)
    · exact ⟨_, rfl, rfl⟩
    · exact ⟨_, rfl, rfl⟩
  · rintro ⟨e', he, hm⟩
    cases he
    cases e <;> first | exact Or.inl rfl | exact Or.inr rfl | cases hm

/-- A module opened as raw always reads "unsigned". -/
theorem C119_raw {p : Profile} {file f1 f2 : Bytes} :
    (Module.newRaw file).getSigningBlockT p f1 f2 = .err .moduleIsRaw ∧ ∀ msg, Err.moduleIsRaw.Says msg → msg = "Module is raw".toList := by
  refine ⟨rfl, ?_⟩
  rintro msg ⟨t, ht, hf⟩
  simp only [Err.texts, List.mem_singleton] at ht
  subst ht
  obtain ⟨_, rfl, rfl⟩ := hf
  simp

/-- An unsigned archive, and what it is told. -/
example : (Module.new plainArchive.unsigned).getSigningBlock .release plainArchive.unsigned = .err .magicNotFound := by decide +kernel

set_option maxRecDepth 100000 in
example : Err.magicNotFound.Says
    "from_reader(): Magic not found\nMAGIC is '[75, 83, 85, 32, 83, 105, 103, 32, 66, 108, 111, 99, 107, 32, 52, 50]' (as [u8]) or 'KSU Sig Block 42' (as string)".toList :=
  ⟨[.lit "from_reader(): ", .lit magicText], by decide, magicText.toList, by decide +kernel, [], by simp, rfl⟩

/-- An archive with a block in it whose first size field was zeroed. -/
def damagedArchive : Archive := { plainArchive with body := leBytes 8 0 ++ leBytes 8 24 ++ Ksusig.magic }

/-- It has an end record and is not called unsigned; the text of the error has numbers in it. -/
example : ∃ r, (Module.new damagedArchive.unsigned).findEocd damagedArchive.unsigned = .ok r ∧
    (Module.new damagedArchive.unsigned).getSigningBlock .release damagedArchive.unsigned = .err .sizeMismatch ∧
    ¬ Unsigned damagedArchive.unsigned (min damagedArchive.unsigned.length r.cdOffset.toNat) := by
  obtain ⟨r, hr⟩ : ∃ r, (Module.new damagedArchive.unsigned).findEocd damagedArchive.unsigned = .ok r := by
    have : ((Module.new damagedArchive.unsigned).findEocd damagedArchive.unsigned).isOk = true := by decide +kernel
    cases h : (Module.new damagedArchive.unsigned).findEocd damagedArchive.unsigned with
    | ok r => exact ⟨r, rfl⟩
    | err e => rw [h] at this; cases this
    | panic => rw [h] at this; cases this
  have hb : (Module.new damagedArchive.unsigned).getSigningBlock .release damagedArchive.unsigned = .err .sizeMismatch := by decide +kernel
  obtain ⟨msg, hm⟩ := (C119_words hb).1
  refine ⟨r, hr, hb, fun h => ?_⟩
  have := ((C119_words hb).2 msg hm).mp ((C119_unsigned hr hb hm).mpr h)
  rcases this with h | h <;> cases h

example : Err.sizeMismatch.Says "Error parsing full block: Error: start_block_size 0 is different from end_block_size 24".toList :=
  ⟨[fullBlockText, .lit "Error: start_block_size ", .num, .lit " is different from end_block_size ", .num], by decide,
    _, by simp; rfl, _, by simp; rfl, ['0'], " is different from end_block_size 24".toList, by decide, by decide, by decide +kernel,
    ['2', '4'], by decide +kernel, ['2', '4'], [], by decide, by decide, rfl, rfl⟩

end Ksusig.Props
