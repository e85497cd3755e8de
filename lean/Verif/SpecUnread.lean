import Verif.SpecElfAnatomy

/-!
# The bytes of an ELF file that its signature depends on
-/

namespace Ksusig.Spec

open Ksusig

/-- The position lies in the `n` bytes from `start` on. -/
def Within (start n i : Nat) : Prop := start ≤ i ∧ i < start + n

/-- The bytes of a file that says `e` which finding the block and the selected sections `l`, and hashing these, depends on: the
identification as far as byte order, the place (`e_shoff`) and number (`e_shnum`) of the section headers and the index of the
section of the names (`e_shstrndx`), the section headers, the names, the section with the block, and the selected sections. -/
inductive Looked (e : Elf) (l : List Resolved) (i : Nat) : Prop where
  | ident : i < 6 → Looked e l i
  | place : Within (if e.is64 then 40 else 32) (if e.is64 then 8 else 4) i → Looked e l i
  | count : Within (if e.is64 then 60 else 48) 4 i → Looked e l i
  | headers : Within e.hdr.shoff (entryLength e.is64 * e.shdrs.length) i → Looked e l i
  | names {s : Shdr} : e.shdrs[nameIndex e]? = some s → Within s.offset s.size i → Looked e l i
  | block {s : Shdr} : FirstNamed e ksuBytes s → Within s.offset s.size i → Looked e l i
  | chosen {x : Resolved} : x ∈ l → Within x.2.1 x.2.2 i → Looked e l i

end Ksusig.Spec
