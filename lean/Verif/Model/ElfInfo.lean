import Verif.Model.Common

/-!
# `/repo/src/signing_block/elf_section_info.rs`
-/

namespace Ksusig

/-- `ELF_SECTION_INFO_BLOCK_ID` (`elf_section_info.rs:15`). -/
def elfInfoBlockId : UInt32 := 0x4c45534b

/-- Is `b` a UTF-8 continuation byte in the range `lo..=hi`? -/
def inRange (lo hi : UInt8) (b : UInt8) : Bool := lo ≤ b && b ≤ hi

/-- `String::from_utf8` accepts exactly these byte strings (RFC 3629 table of well-formed sequences,
as implemented by Rust's `core::str::from_utf8`). -/
def validUtf8 : Bytes → Bool
  | [] => true
  | b0 :: rest =>
    if b0 < 0x80 then validUtf8 rest
    else if inRange 0xC2 0xDF b0 then
      match rest with
      | b1 :: rest' => inRange 0x80 0xBF b1 && validUtf8 rest'
      | _ => false
    else if inRange 0xE0 0xEF b0 then
      match rest with
      | b1 :: b2 :: rest' =>
        inRange (if b0 = 0xE0 then 0xA0 else 0x80) (if b0 = 0xED then 0x9F else 0xBF) b1
          && inRange 0x80 0xBF b2 && validUtf8 rest'
      | _ => false
    else if inRange 0xF0 0xF4 b0 then
      match rest with
      | b1 :: b2 :: b3 :: rest' =>
        inRange (if b0 = 0xF0 then 0x90 else 0x80) (if b0 = 0xF4 then 0x8F else 0xBF) b1
          && inRange 0x80 0xBF b2 && inRange 0x80 0xBF b3 && validUtf8 rest'
      | _ => false
    else false

/-- `SectionEntry` (`elf_section_info.rs:20-29`). The Rust `String` is its UTF-8 bytes. -/
structure SectionEntry where
  nameLen : UInt16
  name : Bytes
  offset : UInt64
  size : UInt64
  deriving DecidableEq, Repr

/-- `SectionEntry::new` (`elf_section_info.rs:34-42`): `name.len() as u16` truncates. -/
def SectionEntry.new (name : Bytes) (offset size : UInt64) : SectionEntry :=
  ⟨UInt16.ofNat name.length, name, offset, size⟩

/-- `SectionEntry::to_u8` (`elf_section_info.rs:45-52`). -/
def SectionEntry.toU8 (e : SectionEntry) : Bytes :=
  leBytes 2 e.nameLen.toNat ++ e.name ++ leBytes 8 e.offset.toNat ++ leBytes 8 e.size.toNat

/-- `SectionEntry::parse` (`elf_section_info.rs:57-70`). -/
def SectionEntry.parse : P SectionEntry := do
  let n ← P.readU16
  let name ← P.getTo n.toNat
  if validUtf8 name then
    let off ← P.readU64
    let sz ← P.readU64
    return ⟨n, name, off, sz⟩
  else P.fail .invalidUtf8

/-- `SectionEntry::byte_size` (`elf_section_info.rs:73-78`). -/
def SectionEntry.byteSize (e : SectionEntry) : Nat := 2 + e.name.length + 8 + 8

/-- `ElfSectionInfo` (`elf_section_info.rs:84-93`). -/
structure ElfSectionInfo where
  size : Nat
  id : UInt32
  count : UInt32
  sections : List SectionEntry
  deriving DecidableEq, Repr

/-- `ElfSectionInfo::new` (`elf_section_info.rs:97-108`). -/
def ElfSectionInfo.new (ss : List SectionEntry) : ElfSectionInfo :=
  ⟨4 + 4 + (ss.map SectionEntry.byteSize).sum, elfInfoBlockId, UInt32.ofNat ss.length, ss⟩

/-- `ElfSectionInfo::from_tuples` (`elf_section_info.rs:111-117`). -/
def ElfSectionInfo.fromTuples (es : List (Bytes × UInt64 × UInt64)) : ElfSectionInfo :=
  ElfSectionInfo.new (es.map fun (n, o, s) => SectionEntry.new n o s)

/-- `ElfSectionInfo::to_u8` (`elf_section_info.rs:120-128`): no padding. -/
def ElfSectionInfo.toU8 (e : ElfSectionInfo) : Bytes :=
  leBytes 8 e.size ++ (leBytes 4 e.id.toNat ++ leBytes 4 e.count.toNat ++ e.sections.flatMap SectionEntry.toU8)

/-- `ElfSectionInfo::parse` (`elf_section_info.rs:133-145`). The capacity reserved on line 135 is modelled
separately (`ElfSectionInfo.reserved`). -/
def ElfSectionInfo.parse (size : Nat) (id : UInt32) : P ElfSectionInfo := do
  let c ← P.readU32
  let ss ← P.repeatN SectionEntry.parse c.toNat
  return ⟨size, id, c, ss⟩

/-- Number of entries `ElfSectionInfo::parse` reserves memory for before reading any of them
(`elf_section_info.rs:134-135`), given the value bytes of the pair. -/
def ElfSectionInfo.reserved (value : Bytes) : Res Nat :=
  match P.readU32 (Reader.new value) with
  | .ok (c, _) => .ok c.toNat
  | .err e => .err e
  | .panic => .panic

end Ksusig
