import Verif.Model.Cli
import Verif.Model.Signable

/-!
# The build without the feature `elf`

`Cargo.toml` lists `elf` among the default features; without it `ValueSigningBlock` has no variant for the section list
(`signing_block/mod.rs:92-93`) and a pair with its id is kept like any unknown pair. Everything else of the reading side is the same
code; the definitions below are those of `Model/SigningBlock.lean`, `Model/Module.lean`, `Model/Signable.lean` and `Model/Cli.lean` on
top of this decoder. Values are of the type `Value`; `Value.elf` is not used here.
-/

namespace Ksusig.NoElf

open Ksusig

/-- The `match pair_id` of `ValueSigningBlock::parse` (`signing_block/mod.rs:162-180`) without lines 171-174. -/
def parseBody (pairSize : Nat) (pairId : UInt32) (value : Reader) : P Value :=
  if pairId = v2BlockId then do
    let s ← P.on value (SchemeV2.parse pairSize pairId)
    return .v2 s
  else if pairId = stampBlockId then do
    let s ← P.on value (SourceStamp.parse pairSize pairId)
    return .stamp s
  else
    return .raw ⟨pairSize, pairId, value.data⟩

/-- `ValueSigningBlock::parse` (`signing_block/mod.rs:138-182`). -/
def parse : P Value := do
  let pairSize ← P.readSizeU64
  if pairSize > maxPairSize then
    P.fail .pairTooLarge
  else
    let pairId ← P.readU32
    if pairSize < 4 then
      P.fail .pairTooSmall
    else
      let value ← P.asSlice (pairSize - 4)
      parseBody pairSize pairId value

/-- `SigningBlock::extract_values` (`signing_block/mod.rs:675-681`) on a fresh reader. -/
def extractValues (d : Bytes) : Res (List Value) :=
  match P.loopTo parse d.length (Reader.new d) with
  | .ok (vs, _) => .ok vs
  | .err e => .err e
  | .panic => .panic

/-- `SigningBlock::parse_full_block` (`signing_block/mod.rs:490-597`). -/
def parseFullBlock (p : Profile) (d : Bytes) : Res SigningBlock :=
  if d.length < 8 + 8 + 16 then .err .tooShort
  else do
    let m ← Res.ofOption .tooShort (slice? d (d.length - 16) d.length)
    if m ≠ Ksusig.magic then .err .magicNotFound
    else do
      let s0 ← Res.ofOption .tooShort (slice? d 0 8)
      let startSize := leNat s0
      let s1 ← Res.ofOption .tooShort (slice? d (d.length - 16 - 8) (d.length - 16))
      let endSize := leNat s1
      debugAssert p (startSize == endSize)
      if startSize ≠ endSize then .err .sizeMismatch
      else if endSize < 8 + 16 then .err .blockTooSmall
      else if d.length ≠ endSize + 8 then .err .lengthMismatch
      else do
        let contentSize := endSize - 8 - 16
        let inner ← Res.ofOption .tooShort (slice? d 8 (d.length - 16 - 8))
        let content ← extractValues inner
        .ok ⟨0, d.length, startSize, contentSize, content, endSize, Ksusig.magic⟩

/-- Body of the `from_u8` loop once the magic is found at `startMagic` (`signing_block/mod.rs:622-663`). -/
def fromU8At (p : Profile) (d : Bytes) (startMagic : Nat) : Res SigningBlock := do
  let a ← usub p startMagic 8
  let sizePart ← Res.ofOption .beyondData (slice? d a startMagic)
  let size := leNat sizePart
  if size > maxBlockSize then .err .blockTooLarge
  else do
    let x ← usub p size 16
    let y ← uadd p x 8
    if startMagic < y then .err .beyondData
    else do
      let full ← Res.ofOption .beyondData (slice? d (startMagic - y) (startMagic + 16))
      parseFullBlock p full

/-- The `from_u8` loop (`signing_block/mod.rs:610-664`). -/
def fromU8Scan (p : Profile) (d : Bytes) : Nat → Res SigningBlock
  | 0 => .err .magicNotFound
  | s + 1 =>
    match slice? d (s + 1) (s + 1 + 16) with
    | none => .err .tooShort
    | some m => if m = Ksusig.magic then fromU8At p d (s + 1) else fromU8Scan p d s

/-- `SigningBlock::from_u8` (`signing_block/mod.rs:602-670`). -/
def fromU8 (p : Profile) (d : Bytes) : Res SigningBlock :=
  if d.length < 8 + 8 + 16 then .err .tooShort
  else fromU8Scan p d (d.length - 16)

/-- Body of the `from_reader` loop (`signing_block/mod.rs:390-476`). -/
def fromReaderAt (p : Profile) (file : Bytes) (fileLen windowStart : Nat) (window : Bytes) (pos : Nat)
    (sizeSlice : Bytes) : Res SigningBlock :=
  let blockSize := leNat sizeSlice
  if blockSize > maxBlockSize then .err .blockTooLarge
  else if blockSize > fileLen then .err .blockExceedsFile
  else
    let blockEnd := pos + 16
    if blockEnd < blockSize + 8 then
      if windowStart + blockEnd < blockSize + 8 then .err .beyondData
      else do
        let start := windowStart + blockEnd - (blockSize + 8)
        let full ← readExactAt file start (blockSize + 8)
        let sig ← parseFullBlock p full
        .ok { sig with fileStart := start, fileEnd := windowStart + blockEnd }
    else do
      let start := blockEnd - (blockSize + 8)
      let full ← Res.ofOption .beyondData (slice? window start blockEnd)
      let sig ← parseFullBlock p full
      .ok { sig with fileStart := windowStart + start, fileEnd := windowStart + blockEnd }

/-- The `from_reader` loop (`signing_block/mod.rs:377-478`): the argument is `pos + 1`. -/
def fromReaderScan (p : Profile) (file : Bytes) (fileLen windowStart : Nat) (window : Bytes) :
    Nat → Res SigningBlock
  | 0 => .err .magicNotFound
  | pos + 1 =>
    match slice? window pos (pos + 16) with
    | none => fromReaderScan p file fileLen windowStart window pos
    | some m =>
      if m = Ksusig.magic then
        if pos < 8 then fromReaderScan p file fileLen windowStart window pos
        else
          match slice? window (pos - 8) (pos - 8 + 8) with
          | none => fromReaderScan p file fileLen windowStart window pos
          | some s => fromReaderAt p file fileLen windowStart window pos s
      else fromReaderScan p file fileLen windowStart window pos

/-- `SigningBlock::from_reader` (`signing_block/mod.rs:346-485`) on a file with content `file`. -/
def fromReader (p : Profile) (file : Bytes) (fileLen endOffset : Nat) : Res SigningBlock :=
  let searchEnd := fileLen - endOffset
  let windowSize := min searchEnd maxWindow
  if windowSize < 16 + 8 then .err .fileTooSmall
  else do
    let windowStart := searchEnd - windowSize
    let window ← readExactAt file windowStart windowSize
    fromReaderScan p file fileLen windowStart window (windowSize - 16 + 1)

/-- `Module::get_signing_block` (`module/mod.rs:73-99`). -/
def getSigningBlock (p : Profile) (m : Module) (file : Bytes) : Res SigningBlock :=
  match m.sig with
  | some s => .ok s
  | none =>
    if m.raw then .err .moduleIsRaw
    else do
      let eocd ← m.findEocd file
      fromReader p file m.fileLen (m.fileLen - eocd.cdOffset.toNat)

/-- `Module::get_offsets` (`module/mod.rs:258-301`). -/
def getOffsets (p : Profile) (m : Module) (file : Bytes) : Res FileOffsets := do
  let eocd ← m.findEocd file
  match getSigningBlock p m file with
  | .ok sig =>
    let fileLen := if m.raw then m.fileLen + sig.fullSize else m.fileLen
    let stopCd := if m.raw then eocd.fileOffset + sig.fullSize else eocd.fileOffset
    .ok (FileOffsets.new sig.fileStart sig.fileEnd stopCd fileLen)
  | .err e =>
    if e.isMissing then .ok (FileOffsets.withoutSignature eocd.cdOffset.toNat eocd.fileOffset m.fileLen)
    else .err .corrupted
  | .panic => .panic

/-- `Module::digest` (`module/mod.rs:307-311`). -/
def digest (E : Env) (p : Profile) (m : Module) (file : Bytes) (algo : Algo) : Res Bytes := do
  let o ← getOffsets p m file
  digestModule E p fullReads fullReads file o algo

/-- `Module::get_raw_module` (`module/mod.rs:316-363`). -/
def getRawModule (p : Profile) (m : Module) (file : Bytes) : Res Bytes :=
  if m.raw then .ok file
  else do
    let sig ← getSigningBlock p m file
    let sizeSig ← usub p sig.fileEnd sig.fileStart
    let start ← Res.ofOption .invalidData (slice? file 0 sig.fileStart)
    let eocd ← m.findEocd file
    let cd ← Res.ofOption .invalidData (checkedSub32 eocd.cdOffset sizeSig)
    let ser := { eocd with cdOffset := cd }.toU8
    let stop ← usub p file.length ser.length
    let rest ← Res.ofOption .invalidData (slice? file sig.fileEnd stop)
    .ok (start ++ rest ++ ser)

/-- The source of the bytes in `<Module as Signable>::write_with_signature` (`signable.rs:331-356`). -/
def signSource (p : Profile) (m : Module) (file : Bytes) : Res (Bytes × Eocd) :=
  match getSigningBlock p m file with
  | .ok _ => do
    let bytes ← getRawModule p m file
    let eocd ← Ksusig.findEocd bytes bytes.length
    .ok (bytes, eocd)
  | .err e =>
    if e.isMissing then do
      let eocd ← Ksusig.findEocd file file.length
      .ok (file, eocd)
    else .err .refuseCorrupted
  | .panic => .panic

/-- The loop of the verify command that fills the digests (`cli/verify.rs:60-91`). -/
def cliAddDigest (E : Env) (p : Profile) (m : Module) (file : Bytes) (a : Algo) (c : DigestCtx) : Res DigestCtx :=
  match digest E p m file a with
  | .ok d => .ok (c.add a.toU32 d)
  | .err _ => .ok c
  | .panic => .panic

/-- `execute` of the verify command (`cli/verify.rs:27-332`). -/
def cliVerify (E : Env) (p : Profile) (builtinPem : Bytes) (root : Option Bytes) (now : Nat) (file : Bytes) : Res Unit := do
  let m := Module.new file
  let b ← (getSigningBlock p m file).mapErr fun _ => .verifyFailed
  let roots ← cliRoots E builtinPem root
  let c1 ← cliAddDigest E p m file .p256 DigestCtx.new
  let c2 ← cliAddDigest E p m file .p384 c1
  if c2.entries.isEmpty then .err .verifyFailed
  else do
    let v2 ← cliV2 (verifyV2 E roots now b (some c2))
    let stampFailed := cliStampFailed (verifySourceStamp E roots now b (some c2))
    let fully := match v2 with
      | some r => r.sigValid && r.digestValid && r.chainValid && r.trusted
      | none => false
    if fully then
      if stampFailed then .err .verifyFailed else .ok ()
    else .err .verifyFailed

/-- `detect_file_format` (`signable.rs:242-270`) without lines 250-253. -/
def detectFileFormat (file : Bytes) : Res FileFormat := do
  let magic ← readExactAt file 0 4
  if magic.take 2 = [0x50, 0x4b] then .ok .module
  else match findEocd file file.length with
    | .ok _ => .ok .module
    | .err _ => .err .unknownFormat
    | .panic => .panic

end Ksusig.NoElf
