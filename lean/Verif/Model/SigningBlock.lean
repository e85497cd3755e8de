import Verif.Model.SchemeV2
import Verif.Model.SourceStamp
import Verif.Model.ElfInfo

/-!
# `/repo/src/signing_block/mod.rs` (all features enabled)
-/

namespace Ksusig

/-- `MAGIC` (`signing_block/mod.rs:27`), `b"KSU Sig Block 42"`. -/
def magic : Bytes :=
  [0x4B, 0x53, 0x55, 0x20, 0x53, 0x69, 0x67, 0x20, 0x42, 0x6C, 0x6F, 0x63, 0x6B, 0x20, 0x34, 0x32]

/-- `VERITY_PADDING_BLOCK_ID` (`signing_block/mod.rs:33`). -/
def paddingBlockId : UInt32 := 0x42726577

/-- `MAX_SIGNING_BLOCK_SIZE` (`signing_block/mod.rs:40`). -/
def maxBlockSize : Nat := 16 * 1024

/-- `MAX_PAIR_SIZE` (`signing_block/mod.rs:43`). -/
def maxPairSize : Nat := 16 * 1024

/-- `MAX_WINDOW_SIZE` (`signing_block/mod.rs:356`). -/
def maxWindow : Nat := 16 * 1024 * 1024

/-- `RawData` (`signing_block/mod.rs:48-58`). -/
structure RawData where
  size : Nat
  id : UInt32
  data : Bytes
  deriving DecidableEq, Repr

/-- `RawData::new` (`signing_block/mod.rs:62-65`). -/
def RawData.new (id : UInt32) (d : Bytes) : RawData := ⟨4 + d.length, id, d⟩

/-- `RawData::to_u8` (`signing_block/mod.rs:68-75`). -/
def RawData.toU8 (r : RawData) : Bytes := leBytes 8 r.size ++ leBytes 4 r.id.toNat ++ r.data

/-- `ValueSigningBlock` (`signing_block/mod.rs:81-94`). -/
inductive Value where
  | raw (r : RawData)
  | v2 (s : SchemeV2)
  | stamp (s : SourceStamp)
  | elf (e : ElfSectionInfo)
  deriving DecidableEq, Repr

/-- `ValueSigningBlock::id` (`signing_block/mod.rs:108-116`). -/
def Value.id : Value → UInt32
  | .raw r => r.id
  | .v2 s => s.id
  | .stamp s => s.id
  | .elf e => e.id

/-- `ValueSigningBlock::inner_size` (`signing_block/mod.rs:119-127`). -/
def Value.innerSize : Value → Nat
  | .raw r => r.size
  | .v2 s => s.size
  | .stamp s => s.size
  | .elf e => e.size

/-- `ValueSigningBlock::size` (`signing_block/mod.rs:130-133`). -/
def Value.size (v : Value) : Nat := v.innerSize + 8

/-- The `match pair_id` of `ValueSigningBlock::parse` (`signing_block/mod.rs:162-180`), run on the
pair's own sub-reader. -/
def Value.parseBody (pairSize : Nat) (pairId : UInt32) (value : Reader) : P Value :=
  if pairId = v2BlockId then do
    let s ← P.on value (SchemeV2.parse pairSize pairId)
    return .v2 s
  else if pairId = stampBlockId then do
    let s ← P.on value (SourceStamp.parse pairSize pairId)
    return .stamp s
  else if pairId = elfInfoBlockId then do
    let e ← P.on value (ElfSectionInfo.parse pairSize pairId)
    return .elf e
  else
    return .raw ⟨pairSize, pairId, value.data⟩

/-- `ValueSigningBlock::parse` (`signing_block/mod.rs:138-182`). -/
def Value.parse : P Value := do
  let pairSize ← P.readSizeU64
  if pairSize > maxPairSize then
    P.fail .pairTooLarge
  else
    let pairId ← P.readU32
    if pairSize < 4 then
      P.fail .pairTooSmall
    else
      let value ← P.asSlice (pairSize - 4)
      Value.parseBody pairSize pairId value

/-- `ValueSigningBlock::to_u8` (`signing_block/mod.rs:185-193`). -/
def Value.toU8 : Value → Bytes
  | .raw r => r.toU8
  | .v2 s => s.toU8
  | .stamp s => s.toU8
  | .elf e => e.toU8

/-- `ValueSigningBlock::new_v2` (`signing_block/mod.rs:98-100`). -/
def Value.newV2 (s : SignersV2) : Value := .v2 (SchemeV2.new s)

/-- `ValueSigningBlock::new_source_stamp` (`signing_block/mod.rs:103-105`). -/
def Value.newSourceStamp (b : StampBlock) : Value := .stamp (SourceStamp.new b)

/-- `SigningBlock` (`signing_block/mod.rs:199-220`). -/
structure SigningBlock where
  fileStart : Nat
  fileEnd : Nat
  sizeStart : Nat
  contentSize : Nat
  content : List Value
  sizeEnd : Nat
  magic : Bytes
  deriving DecidableEq, Repr

/-- `content.iter().fold(0, |acc, x| acc + x.size())` (`signing_block/mod.rs:230,256,281,308`). -/
def contentSum (c : List Value) : Nat := c.foldl (fun acc x => acc + x.size) 0

/-- `SigningBlock::new` (`signing_block/mod.rs:229-252`). -/
def SigningBlock.new (content : List Value) : Res SigningBlock :=
  let contentSize := contentSum content
  let size := contentSize + 8 + 16
  let total := 8 + size
  if size > maxBlockSize then .err .blockTooLarge
  else .ok ⟨0, total, size, contentSize, content, size, Ksusig.magic⟩

/-- `SigningBlock::recalculate_size` (`signing_block/mod.rs:255-261`). -/
def SigningBlock.recalculateSize (b : SigningBlock) : SigningBlock :=
  let contentSize := contentSum b.content
  let size := contentSize + 8 + 16
  { b with contentSize := contentSize, sizeStart := size, sizeEnd := size, fileEnd := b.fileStart + 8 + size }

/-- The padding computation of `new_with_padding` (`signing_block/mod.rs:284-305`): the content blocks
to append. The error message on line 295 evaluates `4096 - v - 4 - 8` with unchecked subtraction. -/
def paddingBlocks (p : Profile) (almostFull : Nat) : Res (List Value) :=
  let v := almostFull % 4096
  if v = 0 then .ok []
  else if v + 4 + 8 ≤ 4096 then
    .ok [.raw (RawData.new paddingBlockId (List.replicate (4096 - (v + 4 + 8)) 0))]
  else do
    let a ← usub p 4096 v
    let b ← usub p a 4
    let _ ← usub p b 8
    .err .paddingTooLow

/-- `SigningBlock::new_with_padding` (`signing_block/mod.rs:275-331`). -/
def SigningBlock.newWithPadding (p : Profile) (content : List Value) : Res SigningBlock :=
  if content.any (fun c => c.id == paddingBlockId) then .err .paddingExists
  else do
    let almostFull := 8 + contentSum content + 8 + 16
    let pad ← paddingBlocks p almostFull
    let newContent := content ++ pad
    let contentSize := contentSum newContent
    let size := contentSize + 8 + 16
    let total := 8 + size
    if size > maxBlockSize then .err .blockTooLarge
    else do
      debugAssert p (total % 4096 == 0)
      .ok ⟨0, total, size, contentSize, newContent, size, Ksusig.magic⟩

/-- `SigningBlock::extract_values` (`signing_block/mod.rs:675-681`) on a fresh reader. -/
def extractValues (d : Bytes) : Res (List Value) :=
  match P.loopTo Value.parse d.length (Reader.new d) with
  | .ok (vs, _) => .ok vs
  | .err e => .err e
  | .panic => .panic

/-- `SigningBlock::parse_full_block` (`signing_block/mod.rs:490-597`). -/
def parseFullBlock (p : Profile) (d : Bytes) : Res SigningBlock :=
  if d.length < 8 + 8 + 16 then .err .tooShort
  else do
    let m ← Res.ofOption .tooShort (slice? d (d.length - 16) d.length)
    if m ≠ Ksusig.magic then .err .magicNotFound
    else do
      let s0 ← Res.ofOption .tooShort (slice? d 0 8)
      let startSize := leNat s0
      let s1 ← Res.ofOption .tooShort (slice? d (d.length - 16 - 8) (d.length - 16))
      let endSize := leNat s1
      debugAssert p (startSize == endSize)
      if startSize ≠ endSize then .err .sizeMismatch
      else if endSize < 8 + 16 then .err .blockTooSmall
      else if d.length ≠ endSize + 8 then .err .lengthMismatch
      else do
        let contentSize := endSize - 8 - 16
        let inner ← Res.ofOption .tooShort (slice? d 8 (d.length - 16 - 8))
        let content ← extractValues inner
        .ok ⟨0, d.length, startSize, contentSize, content, endSize, Ksusig.magic⟩

/-- Body of the `from_u8` loop once the magic is found at `startMagic` (`signing_block/mod.rs:622-663`). -/
def fromU8At (p : Profile) (d : Bytes) (startMagic : Nat) : Res SigningBlock := do
  let a ← usub p startMagic 8
  let sizePart ← Res.ofOption .beyondData (slice? d a startMagic)
  let size := leNat sizePart
  if size > maxBlockSize then .err .blockTooLarge
  else do
    let x ← usub p size 16
    let y ← uadd p x 8
    if startMagic < y then .err .beyondData
    else do
      let full ← Res.ofOption .beyondData (slice? d (startMagic - y) (startMagic + 16))
      parseFullBlock p full

/-- The `from_u8` loop (`signing_block/mod.rs:610-664`): `startMagic` runs from `len - 16` down to 1. -/
def fromU8Scan (p : Profile) (d : Bytes) : Nat → Res SigningBlock
  | 0 => .err .magicNotFound
  | s + 1 =>
    match slice? d (s + 1) (s + 1 + 16) with
    | none => .err .tooShort
    | some m => if m = Ksusig.magic then fromU8At p d (s + 1) else fromU8Scan p d s

/-- `SigningBlock::from_u8` (`signing_block/mod.rs:602-670`). -/
def SigningBlock.fromU8 (p : Profile) (d : Bytes) : Res SigningBlock :=
  if d.length < 8 + 8 + 16 then .err .tooShort
  else fromU8Scan p d (d.length - 16)

/-- `reader.seek(Start(a)); reader.read_exact(n bytes)` on a file. -/
def readExactAt (file : Bytes) (a n : Nat) : Res Bytes :=
  Res.ofOption .unexpectedEof (slice? file a (a + n))

/-- Body of the `from_reader` loop once the magic is found at window position `pos ≥ 8`
(`signing_block/mod.rs:390-476`). -/
def fromReaderAt (p : Profile) (file : Bytes) (fileLen windowStart : Nat) (window : Bytes) (pos : Nat)
    (sizeSlice : Bytes) : Res SigningBlock :=
  let blockSize := leNat sizeSlice
  if blockSize > maxBlockSize then .err .blockTooLarge
  else if blockSize > fileLen then .err .blockExceedsFile
  else
    let blockEnd := pos + 16
    if blockEnd < blockSize + 8 then
      -- the block starts before the window (lines 418-449)
      if windowStart + blockEnd < blockSize + 8 then .err .beyondData
      else do
        let start := windowStart + blockEnd - (blockSize + 8)
        let full ← readExactAt file start (blockSize + 8)
        let sig ← parseFullBlock p full
        .ok { sig with fileStart := start, fileEnd := windowStart + blockEnd }
    else do
      let start := blockEnd - (blockSize + 8)
      let full ← Res.ofOption .beyondData (slice? window start blockEnd)
      let sig ← parseFullBlock p full
      .ok { sig with fileStart := windowStart + start, fileEnd := windowStart + blockEnd }

/-- The `from_reader` loop (`signing_block/mod.rs:377-478`): the argument is `pos + 1`. -/
def fromReaderScan (p : Profile) (file : Bytes) (fileLen windowStart : Nat) (window : Bytes) :
    Nat → Res SigningBlock
  | 0 => .err .magicNotFound
  | pos + 1 =>
    match slice? window pos (pos + 16) with
    | none => fromReaderScan p file fileLen windowStart window pos
    | some m =>
      if m = Ksusig.magic then
        if pos < 8 then fromReaderScan p file fileLen windowStart window pos
        else
          match slice? window (pos - 8) (pos - 8 + 8) with
          | none => fromReaderScan p file fileLen windowStart window pos
          | some s => fromReaderAt p file fileLen windowStart window pos s
      else fromReaderScan p file fileLen windowStart window pos

/-- `SigningBlock::from_reader` (`signing_block/mod.rs:346-485`) on a file with content `file`. -/
def SigningBlock.fromReader (p : Profile) (file : Bytes) (fileLen endOffset : Nat) : Res SigningBlock :=
  let searchEnd := fileLen - endOffset
  let windowSize := min searchEnd maxWindow
  if windowSize < 16 + 8 then .err .fileTooSmall
  else do
    let windowStart := searchEnd - windowSize
    let window ← readExactAt file windowStart windowSize
    fromReaderScan p file fileLen windowStart window (windowSize - 16 + 1)

/-- `SigningBlock::content_to_u8` (`signing_block/mod.rs:684-689`). -/
def SigningBlock.contentToU8 (b : SigningBlock) : Bytes := b.content.flatMap Value.toU8

/-- `SigningBlock::to_u8` (`signing_block/mod.rs:692-700`). -/
def SigningBlock.toU8 (b : SigningBlock) : Bytes :=
  leBytes 8 b.sizeStart ++ b.contentToU8 ++ leBytes 8 b.sizeEnd ++ b.magic

/-- `SigningBlock::get_full_size` (`signing_block/mod.rs:703-706`). -/
def SigningBlock.fullSize (b : SigningBlock) : Nat := b.sizeStart + 8

/-- `SigningBlock::offset_by` (`signing_block/mod.rs:709-712`). -/
def SigningBlock.offsetBy (b : SigningBlock) (n : Nat) : SigningBlock :=
  { b with fileStart := b.fileStart + n, fileEnd := b.fileEnd + n }

end Ksusig
