import Verif.SpecSign
import Verif.Model.Elf

/-!
# Specification vocabulary for ELF files

`Elf` is what goblin says about a file: header, section headers and section name table.
-/

namespace Ksusig.Spec

open Ksusig

/-- The name `.ksu_sign` as it is stored in a file. -/
def ksuBytes : Bytes := [0x2e, 0x6b, 0x73, 0x75, 0x5f, 0x73, 0x69, 0x67, 0x6e]

/-- The name of a section as goblin reports it. -/
def nameOf (e : Elf) (s : Shdr) : Option Bytes := strtabGet e.strtab s.name

/-- An ordinary section table: the name table is terminated, does not lie in the ELF header, is not itself called `.ksu_sign`,
has no absurd address, and holds the names of all sections. -/
structure ElfOk (e : Elf) : Prop where
  term : e.strtab.getLast? = some 0
  names : ∀ s ∈ e.shdrs, s.name < e.strtab.length
  own : ∀ s, e.shdrs[e.hdr.shstrndx]? = some s → nameOf e s ≠ some ksuBytes
  addr : ∀ s, e.shdrs[e.hdr.shstrndx]? = some s → s.addr < 2 ^ 63
  place : ∀ s, e.shdrs[e.hdr.shstrndx]? = some s → ehdrSize e.is64 ≤ s.offset

instance (e : Elf) : Decidable (ElfOk e) :=
  decidable_of_iff (e.strtab.getLast? = some 0 ∧ (∀ s ∈ e.shdrs, s.name < e.strtab.length) ∧
    (∀ s ∈ e.shdrs[e.hdr.shstrndx]?, nameOf e s ≠ some ksuBytes ∧ s.addr < 2 ^ 63 ∧ ehdrSize e.is64 ≤ s.offset))
    ⟨fun h => ⟨h.1, h.2.1, fun s hs => (h.2.2 s hs).1, fun s hs => (h.2.2 s hs).2.1, fun s hs => (h.2.2 s hs).2.2⟩,
      fun h => ⟨h.term, h.names, fun s hs => ⟨h.own s hs, h.addr s hs, h.place s hs⟩⟩⟩

/-! ## Selecting sections -/

/-- The code points with the Unicode property `White_Space`. -/
def whitePoints : List Nat :=
  [0x9, 0xA, 0xB, 0xC, 0xD, 0x20, 0x85, 0xA0, 0x1680, 0x2000, 0x2001, 0x2002, 0x2003, 0x2004, 0x2005, 0x2006, 0x2007, 0x2008,
    0x2009, 0x200A, 0x2028, 0x2029, 0x202F, 0x205F, 0x3000]

/-- White space. -/
def White (c : Char) : Prop := c.toNat ∈ whitePoints

/-- `t` is `n` without the white space at both ends. -/
structure Trims (n t : List Char) : Prop where
  parts : ∃ a b, n = a ++ t ++ b ∧ (∀ c ∈ a, White c) ∧ ∀ c ∈ b, White c
  front : ∀ c, t.head? = some c → ¬ White c
  back : ∀ c, t.getLast? = some c → ¬ White c

/-- Is this `.ksu_sign`, in any mixture of upper and lower case? -/
def IsKsuName (n : List Char) : Prop := n.map Char.toLower = ".ksu_sign".toList

/-- The ELF files a program can hold: opened, then any calls that select sections, successful or not. -/
inductive OpenElf (acc : Bytes → Bool) : ElfFile → Prop
  | opened {data : Bytes} {f : ElfFile} : ElfFile.new acc data = .ok f → OpenElf acc f
  | select {f : ElfFile} (names : List (List Char)) : OpenElf acc f → OpenElf acc (f.setSignedSections names).1

/-- `s`, at index `i`, is the first section called `n`. -/
structure FirstAt (e : Elf) (n : Bytes) (i : Nat) (s : Shdr) : Prop where
  here : e.shdrs[i]? = some s
  name : nameOf e s = some n
  first : ∀ j, j < i → ∀ x, e.shdrs[j]? = some x → nameOf e x ≠ some n

/-- `s` is the first section called `n`. -/
def FirstNamed (e : Elf) (n : Bytes) (s : Shdr) : Prop := ∃ i, FirstAt e n i s

/-- A section that can be signed: it has bytes in the file. -/
def HasBytes (s : Shdr) : Prop := s.type ≠ 8 ∧ s.size ≠ 0

/-! ## Writing -/

/-- The places in the ELF header that say where the section headers are: `e_shoff`, `e_shentsize` and `e_shnum`. -/
def tablePlaces (is64 : Bool) : List Nat :=
  if is64 then [40, 41, 42, 43, 44, 45, 46, 47, 58, 59, 60, 61] else [32, 33, 34, 35, 46, 47, 48, 49]

/-- Is this a 64-bit file? -/
def is64File (data : Bytes) : Bool := data[4]? == some 2

/-- Signing a file again and again, each time with another block. -/
inductive Rewritten (acc : Bytes → Bool) : Bytes → List SigningBlock → Bytes → Prop
  | start (data : Bytes) : Rewritten acc data [] data
  | sign {data mid out : Bytes} {bs : List SigningBlock} {b : SigningBlock} (secs : List (List Char)) :
      Rewritten acc data bs mid → (⟨mid, secs⟩ : ElfFile).writeWithSignature acc b = .ok out → Rewritten acc data (bs ++ [b]) out

/-- A section header that is the same except for place and size of its contents. -/
def SameButPlace (s s' : Shdr) : Prop := s' = { s with offset := s'.offset, size := s'.size }

end Ksusig.Spec
