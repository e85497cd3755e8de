import Verif.SpecElf
import Verif.SpecAnatomy

/-!
# The anatomy of an ELF file

Where the header fields, the section headers, the section names, the signed sections and the signing block of an ELF file are, in
terms of its bytes only (System V ABI, chapter 4). Nothing here refers to the functions of the model; `Elf`, `Ehdr` and `Shdr` are
records of numbers.
-/

namespace Ksusig.Spec

open Ksusig

/-- The byte at this position (0 behind the end). -/
def byteAt (d : Bytes) (pos : Nat) : Nat := (d.getD pos 0).toNat

/-- The number in the `w` bytes at `pos`, least significant byte first. -/
def littleAt (d : Bytes) (pos : Nat) : Nat → Nat
  | 0 => 0
  | w + 1 => byteAt d pos + 256 * littleAt d (pos + 1) w

/-- The number in the `w` bytes at `pos`, most significant byte first. -/
def bigAt (d : Bytes) (pos : Nat) : Nat → Nat
  | 0 => 0
  | w + 1 => 256 * bigAt d pos w + byteAt d (pos + w)

/-- The number in the `w` bytes at `pos`. -/
def numAt (le : Bool) (d : Bytes) (pos w : Nat) : Nat := if le then littleAt d pos w else bigAt d pos w

/-- The ELF header after its first 16 bytes. -/
def ehdrAt (is64 le : Bool) (d : Bytes) : Ehdr :=
  let n := numAt le d
  if is64 then ⟨n 16 2, n 18 2, n 20 4, n 24 8, n 32 8, n 40 8, n 48 4, n 52 2, n 54 2, n 56 2, n 58 2, n 60 2, n 62 2⟩
  else ⟨n 16 2, n 18 2, n 20 4, n 24 4, n 28 4, n 32 4, n 36 4, n 40 2, n 42 2, n 44 2, n 46 2, n 48 2, n 50 2⟩

/-- The section header at `pos`. -/
def shdrAt (is64 le : Bool) (d : Bytes) (pos : Nat) : Shdr :=
  let n := fun off w => numAt le d (pos + off) w
  if is64 then ⟨n 0 4, n 4 4, n 8 8, n 16 8, n 24 8, n 32 8, n 40 4, n 44 4, n 48 8, n 56 8⟩
  else ⟨n 0 4, n 4 4, n 8 4, n 12 4, n 16 4, n 20 4, n 24 4, n 28 4, n 32 4, n 36 4⟩

/-- The size of the ELF header. -/
def headerLength (is64 : Bool) : Nat := if is64 then 64 else 52

/-- The size of a section header. -/
def entryLength (is64 : Bool) : Nat := if is64 then 64 else 40

/-- How many section headers there are: none without a table, otherwise the number in the header, or, if that is 0, the number in
the size field of the first one, which is always there. -/
def headerCount (is64 le : Bool) (d : Bytes) (shoff shnum : Nat) : Nat :=
  if shoff = 0 then 0 else max 1 (if shnum = 0 then (shdrAt is64 le d shoff).size else shnum)

/-- The index of the section that holds the names: the one in the header, or, if that is 0xffff, the link of the first section. -/
def nameIndex (e : Elf) : Nat := if e.hdr.shstrndx = 0xffff then (e.shdrs.head?.map Shdr.link).getD 0 else e.hdr.shstrndx

/-- Text. -/
def Utf8 (t : Bytes) : Prop := ∃ s : List Char, utf8 s = t

/-- `e` is what the bytes of the file say. The section names are all text, and missing if there is no such section. -/
structure ElfView (d : Bytes) (e : Elf) : Prop where
  magic : d.take 4 = [0x7f, 0x45, 0x4c, 0x46]
  cls : d[4]? = some (if e.is64 then 2 else 1)
  order : d[5]? = some (if e.le then 1 else 2)
  room : headerLength e.is64 ≤ d.length
  ident : e.ident = d.take 16
  hdr : e.hdr = ehdrAt e.is64 e.le d
  inside : e.hdr.shoff + entryLength e.is64 * e.shdrs.length ≤ d.length
  count : e.shdrs.length = headerCount e.is64 e.le d e.hdr.shoff e.hdr.shnum
  headers : ∀ i, i < e.shdrs.length → e.shdrs[i]? = some (shdrAt e.is64 e.le d (e.hdr.shoff + entryLength e.is64 * i))
  names : (e.shdrs[nameIndex e]? = none ∧ e.strtab = []) ∨
    ∃ s, e.shdrs[nameIndex e]? = some s ∧ s.offset + s.size ≤ d.length ∧ e.strtab = (d.drop s.offset).take s.size ∧
      Utf8 e.strtab ∧ (s.type = 8 ∨ s.size = 0 ∨ s.addr + s.size < 2 ^ 64)

/-- The bytes of a section, as far as they are in the file. -/
def sectionBytes (d : Bytes) (s : Shdr) : Bytes := (d.drop s.offset).take s.size

/-- A block as `SigningBlock::from_u8` finds it (C88): a framed content in `bytes`, at most 16 KiB large, without a later magic. -/
def HoldsBlock (bytes : Bytes) (b : SigningBlock) : Prop :=
  ∃ pre pairs post, bytes = pre ++ wireFrame pairs ++ post ∧ pairs.length + 24 ≤ 16384 ∧ IsContent pairs b.content ∧
    (∀ u, MagicAtPos bytes u → u ≤ pre.length + pairs.length + 16) ∧
    b = ⟨0, pairs.length + 32, pairs.length + 24, pairs.length, b.content, pairs.length + 24, Ksusig.magic⟩

/-- `l` is `l0` sorted by offset; sections at the same offset stay in their order. -/
def StablySorted (l0 l : List Resolved) : Prop :=
  l.Pairwise (fun x y => x.2.1 ≤ y.2.1) ∧ ∀ o, l.filter (fun x => x.2.1 = o) = l0.filter fun x => x.2.1 = o

/-- The selected sections: for every name the first section called so, which has bytes in the file, sorted by offset. -/
def Selected (e : Elf) (names : List (List Char)) (l : List Resolved) : Prop :=
  ∃ l0 : List Resolved, l0.map (fun x => x.1) = names ∧
    (∀ x ∈ l0, ∃ s, FirstNamed e (utf8 x.1) s ∧ HasBytes s ∧ x.2 = (s.offset, s.size)) ∧ StablySorted l0 l

/-! ## Writing -/

/-- The first multiple of `a` that is not below `n`. -/
def roundUp (n a : Nat) : Nat := (n + a - 1) / a * a

/-- `d`, filled up with zeros to a multiple of `a`. -/
def padTo (a : Nat) (d : Bytes) : Bytes := d ++ List.replicate (roundUp d.length a - d.length) 0

/-- A number in `w` bytes. -/
def numBytes (le : Bool) (w v : Nat) : Bytes := if le then leBytes w v else (leBytes w v).reverse

/-- The bytes of a section header. -/
def entryBytes (is64 le : Bool) (s : Shdr) : Bytes :=
  let n := numBytes le
  let w := if is64 then 8 else 4
  n 4 s.name ++ n 4 s.type ++ n w s.flags ++ n w s.addr ++ n w s.offset ++ n w s.size ++ n 4 s.link ++ n 4 s.info ++ n w s.addralign ++
    n w s.entsize

/-- `d` with the bytes from `pos` on replaced by `x`. -/
def patch (d : Bytes) (pos : Nat) (x : Bytes) : Bytes := d.take pos ++ x ++ d.drop (pos + x.length)

/-- How a block is aligned. -/
def blockAlign (is64 : Bool) : Nat := if is64 then 8 else 4

/-- The section header of a block: `SHT_PROGBITS`, no flags, no address. -/
def signatureHeader (is64 : Bool) (name offset size : Nat) : Shdr := ⟨name, 1, 0, 0, offset, size, 0, 0, blockAlign is64, 0⟩

/-- `s` is the section of the names, and it lies in the file. -/
def NameTable (e : Elf) (d : Bytes) (s : Shdr) : Prop := e.shdrs[e.hdr.shstrndx]? = some s ∧ s.offset + s.size ≤ d.length

/-- What is put into a file `d` that says `e`, to sign it with `blk`: the offset of the name `.ksu_sign` in the name table, what
stands before the new section headers, and these. -/
inductive Plan (e : Elf) (d blk : Bytes) : Nat → Bytes → List Shdr → Prop
  /-- There is a signature section: its header is replaced. -/
  | again {sh : Shdr} {i : Nat} {s : Shdr} : NameTable e d sh → FirstAt e ksuBytes i s →
    Plan e d blk s.name (padTo (blockAlign e.is64) d ++ blk)
      (e.shdrs.set i (signatureHeader e.is64 s.name (roundUp d.length (blockAlign e.is64)) blk.length))
  /-- There is none: a copy of the names, with the new one at the end, takes the place of the name table, and a header is added. -/
  | first {sh : Shdr} : NameTable e d sh → (¬ ∃ s, FirstNamed e ksuBytes s) →
    Plan e d blk sh.size
      (padTo (max 1 sh.addralign) (padTo (blockAlign e.is64) d ++ blk) ++ (sectionBytes d sh ++ ksuBytes ++ [0]))
      (e.shdrs.set e.hdr.shstrndx { sh with
          offset := roundUp (padTo (blockAlign e.is64) d ++ blk).length (max 1 sh.addralign), size := sh.size + 10 } ++
        [signatureHeader e.is64 sh.size (roundUp d.length (blockAlign e.is64)) blk.length])

/-- The whole file: behind `body`, at a multiple of their size, the section headers; in the ELF header their place, size and number
(`e_shoff`, `e_shentsize`, `e_shnum`). -/
def withTable (e : Elf) (body : Bytes) (table : List Shdr) : Bytes :=
  let file := padTo (entryLength e.is64) body ++ table.flatMap (entryBytes e.is64 e.le)
  let n := numBytes e.le
  let pos := roundUp body.length (entryLength e.is64)
  if e.is64 then patch (patch file 40 (n 8 pos)) 58 (n 2 64 ++ n 2 table.length)
  else patch (patch file 32 (n 4 pos)) 46 (n 2 40 ++ n 2 table.length)

/-- A file in which a block written by signing is found again: if it has a signature section, that is not the section of the names,
which does not lie in the ELF header; if it has none, then the section of the names does not reach the end of the address space
when it grows, and no section claims that its name begins at the end of the names. -/
def SignableElf (d : Bytes) (e : Elf) : Prop :=
  ∃ sh, NameTable e d sh ∧
    ((∃ i s, FirstAt e ksuBytes i s ∧ i ≠ e.hdr.shstrndx ∧ headerLength e.is64 ≤ sh.offset) ∨
      (¬ ∃ s, FirstNamed e ksuBytes s) ∧ (sh.type = 8 ∨ sh.addr + sh.size + 10 < 2 ^ 64) ∧ ∀ s ∈ e.shdrs, s.name ≠ sh.size)

/-- These names stand for the same sections after signing: the file has a signature section already, or its names are terminated, and
these are neither the name of the section of the names nor an end of `.ksu_sign`. -/
def KeepsNames (e : Elf) (names : List (List Char)) : Prop :=
  (∃ s, FirstNamed e ksuBytes s) ∨ e.strtab.getLast? = some 0 ∧ ∀ n ∈ names, ¬ utf8 n <:+ ksuBytes ∧
    ∀ s, e.shdrs[e.hdr.shstrndx]? = some s → nameOf e s ≠ some (utf8 n)

end Ksusig.Spec
