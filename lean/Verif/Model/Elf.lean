import Verif.Model.Signable
import Verif.Model.Cli

/-!
# `/repo/src/file_formats/elf/{mod,digest}.rs`, the ELF half of `/repo/src/signable.rs`, and `/repo/src/cli/sign.rs`

`goblin::elf::Elf::parse` and the writing of headers are modelled after the ELF specification and goblin's documented
behaviour (its source is not available here): the ELF header, the section header table and the section name table are decoded
as below. Everything else `Elf::parse` looks at (program headers, interpreter, symbols, dynamic section, relocations,
versions) only matters for whether it fails; that is the parameter `acc`: `acc data = true` when none of these parts makes
goblin reject `data`. All errors are the one error `elf`.

Section names and their selection are text on the command line (`List Char`), and bytes in the file.
-/

namespace Ksusig

/-! ## goblin -/

/-- `to_le_bytes`/`to_be_bytes` of a `w`-byte integer. -/
def intBytes (le : Bool) (w v : Nat) : Bytes := if le then leBytes w v else (leBytes w v).reverse

/-- `from_le_bytes`/`from_be_bytes`. -/
def intVal (le : Bool) (bs : Bytes) : Nat := leNat (if le then bs else bs.reverse)

/-- Reading consecutive integer fields of the given widths: the values and what follows. -/
def readFields (le : Bool) : List Nat → Bytes → Option (List Nat × Bytes)
  | [], d => some ([], d)
  | w :: ws, d =>
    if d.length < w then none
    else match readFields le ws (d.drop w) with
      | some (vs, r) => some (intVal le (d.take w) :: vs, r)
      | none => none

/-- Writing consecutive integer fields; a value too large for its field is truncated. -/
def writeFields (le : Bool) : List Nat → List Nat → Bytes
  | w :: ws, v :: vs => intBytes le w v ++ writeFields le ws vs
  | _, _ => []

/-- The fields of the ELF header after `e_ident`, in file order. -/
structure Ehdr where
  type : Nat
  machine : Nat
  version : Nat
  entry : Nat
  phoff : Nat
  shoff : Nat
  flags : Nat
  ehsize : Nat
  phentsize : Nat
  phnum : Nat
  shentsize : Nat
  shnum : Nat
  shstrndx : Nat
  deriving DecidableEq, Repr

/-- Field widths of `Elf64_Ehdr` and `Elf32_Ehdr` after `e_ident`. -/
def ehdrWidths (is64 : Bool) : List Nat :=
  let w := if is64 then 8 else 4
  [2, 2, 4, w, w, w, 4, 2, 2, 2, 2, 2, 2]

/-- The header as a list of field values. -/
def Ehdr.fields (h : Ehdr) : List Nat :=
  [h.type, h.machine, h.version, h.entry, h.phoff, h.shoff, h.flags, h.ehsize, h.phentsize, h.phnum, h.shentsize, h.shnum,
    h.shstrndx]

/-- The header from a list of field values. -/
def Ehdr.ofFields : List Nat → Option Ehdr
  | [a, b, c, d, e, f, g, h, i, j, k, l, m] => some ⟨a, b, c, d, e, f, g, h, i, j, k, l, m⟩
  | _ => none

/-- `Header::size_with`. -/
def ehdrSize (is64 : Bool) : Nat := if is64 then 64 else 52

/-- A section header; the order of the fields is the same in both classes. -/
structure Shdr where
  name : Nat
  type : Nat
  flags : Nat
  addr : Nat
  offset : Nat
  size : Nat
  link : Nat
  info : Nat
  addralign : Nat
  entsize : Nat
  deriving DecidableEq, Repr

/-- Field widths of `Elf64_Shdr` and `Elf32_Shdr`. -/
def shdrWidths (is64 : Bool) : List Nat :=
  if is64 then [4, 4, 8, 8, 8, 8, 4, 4, 8, 8] else [4, 4, 4, 4, 4, 4, 4, 4, 4, 4]

/-- The section header as a list of field values. -/
def Shdr.fields (s : Shdr) : List Nat :=
  [s.name, s.type, s.flags, s.addr, s.offset, s.size, s.link, s.info, s.addralign, s.entsize]

/-- The section header from a list of field values. -/
def Shdr.ofFields : List Nat → Option Shdr
  | [a, b, c, d, e, f, g, h, i, j] => some ⟨a, b, c, d, e, f, g, h, i, j⟩
  | _ => none

/-- `SectionHeader::size`. -/
def shdrSize (is64 : Bool) : Nat := if is64 then 64 else 40

/-- `SHT_NOBITS`. -/
def shtNobits : Nat := 8

/-- `SHT_PROGBITS`. -/
def shtProgbits : Nat := 1

/-- Reading one section header. -/
def readShdr (is64 le : Bool) (d : Bytes) : Option (Shdr × Bytes) := do
  let (vs, r) ← readFields le (shdrWidths is64) d
  let s ← Shdr.ofFields vs
  some (s, r)

/-- Reading `n` section headers. -/
def readShdrs (is64 le : Bool) : Nat → Bytes → Option (List Shdr)
  | 0, _ => some []
  | n + 1, d => do
    let (s, r) ← readShdr is64 le d
    let rest ← readShdrs is64 le n r
    some (s :: rest)

/-- `SectionHeader::parse`: offset 0 means no table, count 0 means that the count is the size of the first header (which is
read in any case), and a count that cannot fit the file is rejected. `e_shentsize` is not used. -/
def parseShdrs (is64 le : Bool) (data : Bytes) (off count : Nat) : Option (List Shdr) :=
  if off = 0 then some []
  else do
    let (s0, r) ← readShdr is64 le (data.drop off)
    let n := if count = 0 then s0.size else count
    if n > data.length / shdrSize is64 then none
    else do
      let rest ← readShdrs is64 le (n - 1) r
      some (s0 :: rest)

/-- `SectionHeader::check_size`. -/
def Shdr.checkSize (s : Shdr) (len : Nat) : Bool :=
  s.type == shtNobits || s.size == 0 || (s.offset + s.size ≤ len && s.addr + s.size < 2 ^ 64)

/-- The section name table (`Strtab::parse` of the section `e_shstrndx`, or `sh_link` of section 0 for `SHN_XINDEX`): missing
tables are empty, and every string of the table must be UTF-8, which is the same as the whole table being UTF-8. -/
def parseStrtab (data : Bytes) (shdrs : List Shdr) (ndx : Nat) : Option Bytes :=
  match shdrs with
  | [] => some []
  | s0 :: _ =>
    match shdrs[if ndx = 0xffff then s0.link else ndx]? with
    | none => some []
    | some s =>
      if s.checkSize data.length then
        match slice? data s.offset (s.offset + s.size) with
        | none => none
        | some t => if validUtf8 t then some t else none
      else none

/-- `Strtab::get_at`: the string from this offset up to the next NUL, if the offset is a character boundary; just behind a last
string without NUL it is the empty string. -/
def strtabGet (t : Bytes) (off : Nat) : Option Bytes :=
  match t[off]? with
  | some b => if inRange 0x80 0xBF b then none else some ((t.drop off).takeWhile (· != 0))
  | none => if off = t.length && t.getLast? != none && t.getLast? != some 0 then some [] else none

/-- What goblin's `Elf` says about a file, as far as it is used. -/
structure Elf where
  ident : Bytes
  is64 : Bool
  le : Bool
  hdr : Ehdr
  shdrs : List Shdr
  strtab : Bytes
  deriving DecidableEq, Repr

/-- The decoding part of `Elf::parse`. -/
def decodeElf (data : Bytes) : Option Elf :=
  if data.length < 16 then none
  else if data.take 4 ≠ [0x7f, 0x45, 0x4c, 0x46] then none
  else
    let cls := data.getD 4 0
    let enc := data.getD 5 0
    if cls ≠ 1 ∧ cls ≠ 2 then none
    else if enc ≠ 1 ∧ enc ≠ 2 then none
    else
      let is64 := cls == 2
      let le := enc == 1
      match readFields le (ehdrWidths is64) (data.drop 16) with
      | none => none
      | some (vs, _) =>
        match Ehdr.ofFields vs with
        | none => none
        | some h =>
          match parseShdrs is64 le data h.shoff h.shnum with
          | none => none
          | some shdrs =>
            match parseStrtab data shdrs h.shstrndx with
            | none => none
            | some t => some ⟨data.take 16, is64, le, h, shdrs, t⟩

/-- `Elf::parse`. -/
def parseElf (acc : Bytes → Bool) (data : Bytes) : Res Elf :=
  match decodeElf data with
  | some e => if acc data then .ok e else .err .elf
  | none => .err .elf

/-! ## `elf/mod.rs` -/

/-- Text as UTF-8 bytes. -/
def utf8 (s : List Char) : Bytes := s.flatMap String.utf8EncodeChar

/-- `KSU_SIGN_SECTION` (`elf/mod.rs:28`). -/
def ksuSection : List Char := ['.', 'k', 's', 'u', '_', 's', 'i', 'g', 'n']

/-- `DEFAULT_SIGNED_SECTIONS` (`elf/mod.rs:25`). -/
def defaultSections : List (List Char) := [['.', 't', 'e', 'x', 't'], ['.', 'r', 'o', 'd', 'a', 't', 'a']]

/-- `ElfFile` (`elf/mod.rs:73-80`), without the path. -/
structure ElfFile where
  data : Bytes
  sections : List (List Char)
  deriving DecidableEq, Repr

/-- `ElfFile::new` (`elf/mod.rs:87-99`). -/
def ElfFile.new (acc : Bytes → Bool) (data : Bytes) : Res ElfFile := do
  let _ ← parseElf acc data
  .ok ⟨data, defaultSections⟩

/-- `char::is_whitespace` (the Unicode property `White_Space`). -/
def isWhite (c : Char) : Bool :=
  let n := c.toNat
  (9 ≤ n && n ≤ 13) || n == 0x20 || n == 0x85 || n == 0xA0 || n == 0x1680 || (0x2000 ≤ n && n ≤ 0x200A) ||
    n == 0x2028 || n == 0x2029 || n == 0x202F || n == 0x205F || n == 0x3000

/-- `str::trim`. -/
def trim (s : List Char) : List Char := ((s.dropWhile isWhite).reverse.dropWhile isWhite).reverse

/-- `char::to_ascii_lowercase`. -/
def asciiLower (c : Char) : Char := if 'A' ≤ c ∧ c ≤ 'Z' then Char.ofNat (c.toNat + 32) else c

/-- `str::eq_ignore_ascii_case`. -/
def eqIgnoreCase (a b : List Char) : Bool := a.map asciiLower == b.map asciiLower

/-- `ElfFile::set_signed_sections` (`elf/mod.rs:105-129`): the new state of the file and how the call ended. -/
def ElfFile.setSignedSections (f : ElfFile) (sections : List (List Char)) : ElfFile × Res Unit :=
  let filtered := (sections.map trim).filter fun s => !s.isEmpty
  if filtered.isEmpty then (f, .err .elf)
  else if filtered.any fun s => eqIgnoreCase s ksuSection then (f, .err .elf)
  else ({ f with sections := filtered }, .ok ())

/-- Does this section header have this name (`elf/mod.rs:396-400,405-409,414-418`)? -/
def Elf.named (e : Elf) (name : Bytes) (s : Shdr) : Bool := strtabGet e.strtab s.name == some name

/-- `find_section` (`elf/mod.rs:395-401`). -/
def Elf.findSection (e : Elf) (name : Bytes) : Option Shdr := e.shdrs.find? (e.named name)

/-- `find_section_index` (`elf/mod.rs:404-410`). -/
def Elf.findIndex (e : Elf) (name : Bytes) : Option Nat := e.shdrs.findIdx? (e.named name)

/-- `existing_name_offset` (`elf/mod.rs:413-419`). -/
def Elf.nameOffset (e : Elf) (name : Bytes) : Option Nat := (e.shdrs.find? (e.named name)).map Shdr.name

/-- A resolved section: name, offset, size. -/
abbrev Resolved := List Char × Nat × Nat

/-- The stable insertion used for sorting by offset. -/
def insertByOffset (x : Resolved) : List Resolved → List Resolved
  | [] => [x]
  | y :: ys => if x.2.1 ≤ y.2.1 then x :: y :: ys else y :: insertByOffset x ys

/-- `sort_by_key` on the offset (`elf/mod.rs:334`), a stable sort. -/
def sortByOffset : List Resolved → List Resolved
  | [] => []
  | x :: xs => insertByOffset x (sortByOffset xs)

/-- The loop of `collect_sections` (`elf/mod.rs:317-333`). -/
def Elf.lookupAll (e : Elf) : List (List Char) → Res (List Resolved)
  | [] => .ok []
  | n :: ns =>
    match e.findSection (utf8 n) with
    | none => .err .elf
    | some s =>
      if s.type = shtNobits then .err .elf
      else if s.size = 0 then .err .elf
      else do
        let rest ← e.lookupAll ns
        .ok ((n, s.offset, s.size) :: rest)

/-- `collect_sections` (`elf/mod.rs:315-336`). -/
def Elf.collectSections (e : Elf) (names : List (List Char)) : Res (List Resolved) := do
  let l ← e.lookupAll names
  .ok (sortByOffset l)

/-- `resolved_sections` (`elf/mod.rs:135-138`). -/
def ElfFile.resolvedSections (acc : Bytes → Bool) (f : ElfFile) : Res (List Resolved) := do
  let e ← parseElf acc f.data
  e.collectSections f.sections

/-- `digest_regions` (`elf/mod.rs:144-150`). -/
def ElfFile.digestRegions (acc : Bytes → Bool) (f : ElfFile) : Res (List DigestRegion) := do
  let l ← f.resolvedSections acc
  .ok (l.map fun x => ⟨String.ofList x.1, x.2.1, x.2.2⟩)

/-- `digest_chunk` (`elf/digest.rs:19-25`). -/
def elfDigestChunk (E : Env) (algo : Algo) (chunk : Bytes) : Bytes :=
  algo.hash E (0xa5 :: (leBytes 4 chunk.length ++ chunk))

/-- `digest_final` (`elf/digest.rs:28-33`). -/
def elfDigestFinal (E : Env) (chunks : List Bytes) (algo : Algo) : Bytes :=
  algo.hash E (0x5a :: (leBytes 4 chunks.length ++ chunks.flatten))

/-- `digest_elf_sections` (`elf/digest.rs:47-78`) on a `Cursor`, which always delivers what was asked for; a section that does
not end within the file is read up to the end of the file. -/
def digestElfSections (E : Env) (data : Bytes) (sections : List Resolved) (algo : Algo) : Bytes :=
  elfDigestFinal E (sections.flatMap fun x =>
    let d := (data.drop x.2.1).take x.2.2
    (chunksBy fullReads d.length 0 d).map (elfDigestChunk E algo)) algo

/-- `ElfFile::digest` (`elf/mod.rs:156-160`). -/
def ElfFile.digest (E : Env) (acc : Bytes → Bool) (f : ElfFile) (algo : Algo) : Res Bytes := do
  let l ← f.resolvedSections acc
  .ok (digestElfSections E f.data l algo)

/-- `ElfFile::get_signing_block` (`elf/mod.rs:166-185`). -/
def ElfFile.getSigningBlock (p : Profile) (acc : Bytes → Bool) (f : ElfFile) : Res (Option SigningBlock) := do
  let e ← parseElf acc f.data
  match e.findSection (utf8 ksuSection) with
  | none => .ok none
  | some s =>
    if s.offset + s.size ≥ 2 ^ 64 then .err .elf
    else if s.size = 0 then .ok none
    else do
      let bytes ← Res.ofOption .elf (slice? f.data s.offset (s.offset + s.size))
      let b ← (SigningBlock.fromU8 p bytes).mapErr fun _ => .elf
      .ok (some b)

/-- `align_to` (`elf/mod.rs:340-350`). The sum cannot overflow: it is `align` or at most twice `value`. -/
def alignTo (value align : Nat) : Nat :=
  if align = 0 then value
  else
    let rem := value % align
    if rem = 0 then value else value + (align - rem)

/-- `append_aligned` (`elf/mod.rs:353-361`): the new buffer and the start offset. A `Vec` cannot hold `isize::MAX` bytes or more
("capacity overflow"); running out of memory before that is not modelled. -/
def appendAligned (target data : Bytes) (align : Nat) : Res (Bytes × Nat) :=
  let offset := alignTo target.length (max align 1)
  if offset + data.length ≥ 2 ^ 63 then .panic
  else .ok (target ++ List.replicate (offset - target.length) 0 ++ data, offset)

/-- `align_for_container` (`elf/mod.rs:367-372`). -/
def alignForContainer (is64 : Bool) : Nat := if is64 then 8 else 4

/-- `load_shstrtab` (`elf/mod.rs:378-392`). -/
def loadShstrtab (e : Elf) (data : Bytes) : Res Bytes :=
  match e.shdrs[e.hdr.shstrndx]? with
  | none => .err .elf
  | some s =>
    if s.offset + s.size ≥ 2 ^ 64 then .err .elf
    else Res.ofOption .elf (slice? data s.offset (s.offset + s.size))

/-- The section header of the signature (`elf/mod.rs:242-252,254-266`). -/
def ksuHeader (nameOffset offset size align : Nat) : Shdr :=
  ⟨nameOffset, shtProgbits, 0, 0, offset, size, 0, 0, align, 0⟩

/-- `ElfFile::write_with_signature` (`elf/mod.rs:191-301`): everything is written at the end, in one go. The section headers
are written one after the other into the space made for them (`elf/mod.rs:274-283`), here as one byte string. -/
def ElfFile.writeWithSignature (acc : Bytes → Bool) (f : ElfFile) (b : SigningBlock) : Res Bytes := do
  let e ← parseElf acc f.data
  let strtab ← loadShstrtab e f.data
  let blockBytes := b.toU8
  let align := alignForContainer e.is64
  let (out1, signingOffset) ← appendAligned f.data blockBytes align
  let nameOffset := (e.nameOffset (utf8 ksuSection)).getD strtab.length
  let strtab' := if (e.nameOffset (utf8 ksuSection)).isNone then strtab ++ utf8 ksuSection ++ [0] else strtab
  let sh ← Res.ofOption .elf e.shdrs[e.hdr.shstrndx]?
  let (out2, shdrs2) ←
    if strtab'.length ≠ sh.size then do
      let (o, newOffset) ← appendAligned out1 strtab' (max sh.addralign 1)
      .ok (o, e.shdrs.set e.hdr.shstrndx { sh with offset := newOffset, size := strtab'.length })
    else .ok (out1, e.shdrs)
  if nameOffset ≥ 2 ^ 32 then .err .elf
  else do
    let ksu := ksuHeader nameOffset signingOffset blockBytes.length align
    let shdrs3 := match e.findIndex (utf8 ksuSection) with
      | some i => shdrs2.set i ksu
      | none => shdrs2 ++ [ksu]
    let entry := shdrSize e.is64
    let tableOffset := alignTo out2.length (max entry 8)
    if tableOffset + entry * shdrs3.length ≥ 2 ^ 63 then .panic
    else if shdrs3.length > 65535 then .err .elf
    else do
      let out3 := out2 ++ List.replicate (tableOffset - out2.length) 0 ++
        shdrs3.flatMap fun s => writeFields e.le (shdrWidths e.is64) s.fields
      let hdr := { e.hdr with shoff := tableOffset, shnum := shdrs3.length, shentsize := entry }
      .ok (e.ident ++ writeFields e.le (ehdrWidths e.is64) hdr.fields ++ out3.drop (ehdrSize e.is64))

/-- `<ElfFile as Signable>::is_signed` (`signable.rs:230-235,415-417`). -/
def ElfFile.isSigned (p : Profile) (acc : Bytes → Bool) (f : ElfFile) : Res Bool :=
  match f.getSigningBlock p acc with
  | .ok b => .ok b.isSome
  | .err _ => .ok false
  | .panic => .panic

/-! ## `SignableFile` and the sign command -/

/-- `SignableFile` (`signable.rs:81-87`). -/
inductive SignableFile where
  | module (m : Module) (file : Bytes)
  | elf (f : ElfFile)
  deriving DecidableEq, Repr

/-- `SignableFile::open` (`signable.rs:94-105`). -/
def SignableFile.open (acc : Bytes → Bool) (file : Bytes) : Res SignableFile := do
  match ← detectFileFormat file with
  | .module => .ok (.module (Module.new file) file)
  | .elf => do
    let f ← ElfFile.new acc file
    .ok (.elf f)

/-- `SignableFile::set_elf_sections` (`signable.rs:122-131`). -/
def SignableFile.setElfSections (s : SignableFile) (sections : List (List Char)) : SignableFile × Res Unit :=
  match s with
  | .elf f =>
    let r := f.setSignedSections sections
    (.elf r.1, r.2)
  | .module m file => (.module m file, .err .unknownFormat)

/-- The digests of an ELF file (`cli/sign.rs:161-175`). -/
def cliElfDigests (E : Env) (acc : Bytes → Bool) (f : ElfFile) : List Algo → Res (List (Algo × Bytes))
  | [] => .ok []
  | a :: as => do
    let d ← f.digest E acc a
    let rest ← cliElfDigests E acc f as
    .ok ((a, d) :: rest)

/-- The block the sign command writes for an ELF file (`cli/sign.rs:151-196`). -/
def cliElfBlock (E : Env) (p : Profile) (acc : Bytes → Bool) (clock : Option UInt64) (signer : ModuleSigner) (f : ElfFile) :
    Res SigningBlock := do
  let _ ← f.digestRegions acc
  let pairs ← cliElfDigests E acc f signer.requiredAlgorithms
  let b ← signer.sign E p clock (Digests.new (pairs.map fun x => Digest.new x.1 x.2))
  let l ← f.resolvedSections acc
  let info := ElfSectionInfo.fromTuples (l.map fun x => (utf8 x.1, UInt64.ofNat x.2.1, UInt64.ofNat x.2.2))
  .ok (SigningBlock.recalculateSize { b with content := b.content ++ [.elf info] })

/-- The selection given with `--elf-section` (`cli/sign.rs:135-138`), for an ELF file. -/
def cliElfSelect (f : ElfFile) (sections : List (List Char)) : Res ElfFile :=
  if sections.isEmpty then .ok f
  else match f.setSignedSections sections with
    | (f', .ok _) => .ok f'
    | (_, .err e) => .err e
    | (_, .panic) => .panic

/-- `execute` of the sign command (`cli/sign.rs:132-212`), after the credentials are loaded; see `cliSignModule` for the
result. An ELF file is in memory before the output is created, so it does not matter whether the output is the input. -/
def cliSign (E : Env) (p : Profile) (acc : Bytes → Bool) (clock : Option UInt64) (signer : ModuleSigner)
    (sections : List (List Char)) (inPlace : Bool) (file : Bytes) : Option Bytes × Res Unit :=
  match SignableFile.open acc file with
  | .err e => (none, .err e)
  | .panic => (none, .panic)
  | .ok (.module _ _) =>
    if sections.isEmpty then cliSignModule E p clock signer inPlace file else (none, .err .unknownFormat)
  | .ok (.elf f) =>
    match (do
      let f ← cliElfSelect f sections
      let b ← cliElfBlock E p acc clock signer f
      .ok (f, b) : Res (ElfFile × SigningBlock)) with
    | .err e => (none, .err e)
    | .panic => (none, .panic)
    | .ok (f, b) =>
      match f.writeWithSignature acc b with
      | .ok out => (some out, .ok ())
      | .err e => (some [], .err e)
      | .panic => (some [], .panic)

end Ksusig
