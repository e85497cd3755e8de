import Verif.Model.Cli
import Verif.Model.Signable

/-!
# The same program on a machine with 32-bit `usize`

The rest of the model is of 64-bit targets. The definitions below are those of `Model/Common.lean`, `SchemeV2.lean`, `SourceStamp.lean`,
`ElfInfo.lean`, `SigningBlock.lean`, `Zip.lean`, `Digest.lean`, `Module.lean`, `Signable.lean`, `Verifier.lean` and `Cli.lean` with what
changes for 32 bits: `u64 as usize` drops the upper half, sums and differences of `usize` wrap at 2^32 (or panic, with overflow
checks), and no vector is larger than `isize::MAX`, that is, has 2^31 bytes or more (`capacity overflow`, in both profiles). Parsers
that do not occur here are the same on both. Modules are freshly opened (`Module::new`), not raw. That an allocation below 2^31 bytes may
fail is not modelled.
-/

namespace Ksusig.Narrow

open Ksusig

/-- `usize` subtraction `a - b`. -/
def usub (p : Profile) (a b : Nat) : Res Nat :=
  if b ≤ a then .ok (a - b)
  else match p with
    | .dev => .panic
    | .release => .ok (2 ^ 32 + a - b)

/-- `usize` addition `a + b`. -/
def uadd (p : Profile) (a b : Nat) : Res Nat :=
  if a + b < 2 ^ 32 then .ok (a + b)
  else match p with
    | .dev => .panic
    | .release => .ok (a + b - 2 ^ 32)

/-- `n as usize` for a `u64` (`utils.rs:150`, `signing_block/mod.rs:395,525,537,632`, `module/mod.rs:47`, `cli/info.rs:24`). -/
def asUsize (n : Nat) : Nat := n % 2 ^ 32

/-- An addition inside a parser. -/
def sum (p : Profile) (a b : Nat) : P Nat := fun r =>
  match uadd p a b with
  | .ok n => .ok (n, r)
  | .err e => .err e
  | .panic => .panic

/-- `Certificates::parse` (`common.rs:150-163`); the sum is on line 156. -/
def certs (p : Profile) : P Certs := do
  let size ← P.readSize
  let pos ← P.getPos
  let max ← sum p pos size
  let cs ← P.loopTo Cert.parse max
  return ⟨size, cs⟩

/-- `Signatures::parse` (`common.rs:273-287`); the sum is on line 282. -/
def sigs (p : Profile) : P Sigs := do
  let size ← P.readSize
  if size = 0 then
    return ⟨size, []⟩
  else
    let pos ← P.getPos
    let max ← sum p pos size
    let ss ← P.loopTo Sig.parse max
    return ⟨size, ss⟩

/-- `AdditionalAttributes::parse` (`common.rs:391-404`); the sum is on line 397. -/
def attrs (p : Profile) : P Attrs := do
  let size ← P.readSize
  let pos ← P.getPos
  let max ← sum p pos size
  let as ← P.loopTo Attr.parse max
  return ⟨size, as⟩

/-- V2 `SignedData::parse` (`scheme_v2.rs:209-222`). -/
def signedV2 (p : Profile) : P SignedDataV2 := do
  let size ← P.readSize
  let sub ← P.asSlice size
  P.on sub do
    let d ← Digests.parse
    let c ← certs p
    let a ← attrs p
    return ⟨size, d, c, a, true⟩

/-- `Signer::parse` (`scheme_v2.rs:123-134`). -/
def signerV2 (p : Profile) : P SignerV2 := do
  let size ← P.readSize
  let sd ← signedV2 p
  let ss ← sigs p
  let k ← PubKey.parse
  return ⟨size, sd, ss, k⟩

/-- `Signers::parse` (`scheme_v2.rs:57-69`). -/
def signersV2 (p : Profile) : P SignersV2 := do
  let size ← P.readSize
  let sub ← P.asSlice size
  let ss ← P.on sub (P.loopTo (signerV2 p) sub.data.length)
  return ⟨size, ss⟩

/-- `SignatureSchemeV2::parse` (`scheme_v2.rs:256-262`). -/
def schemeV2 (p : Profile) (size : Nat) (id : UInt32) : P SchemeV2 := do
  let s ← signersV2 p
  return ⟨size, id, s⟩

/-- Stamp `SignedData::parse` (`source_stamp.rs:172-185`). -/
def signedStamp (p : Profile) : P SignedDataStamp := do
  let size ← P.readSize
  let sub ← P.asSlice size
  P.on sub do
    let d ← Digests.parse
    let c ← certs p
    let a ← attrs p
    return ⟨d, c, a⟩

/-- `StampBlock::parse` (`source_stamp.rs:113-127`). -/
def stampBlock (p : Profile) : P StampBlock := do
  let size ← P.readSize
  let sub ← P.asSlice size
  P.on sub do
    let sd ← signedStamp p
    let ss ← sigs p
    let k ← PubKey.parse
    return ⟨size, sd, ss, k⟩

/-- `SourceStamp::parse` (`source_stamp.rs:55-62`). -/
def sourceStamp (p : Profile) (size : Nat) (id : UInt32) : P SourceStamp := do
  let b ← stampBlock p
  return ⟨size, id, b⟩

/-- `Vec::with_capacity(section_count)` (`elf_section_info.rs:135`): a `SectionEntry` takes 32 bytes (a `u16`, two `u64` and the three
words of a `String`). -/
def reserve (count : Nat) : P Unit := fun r => if count * 32 < 2 ^ 31 then .ok ((), r) else .panic

/-- `ElfSectionInfo::parse` (`elf_section_info.rs:133-145`). -/
def elfInfo (size : Nat) (id : UInt32) : P ElfSectionInfo := do
  let c ← P.readU32
  reserve c.toNat
  let ss ← P.repeatN SectionEntry.parse c.toNat
  return ⟨size, id, c, ss⟩

/-- The `match pair_id` of `ValueSigningBlock::parse` (`signing_block/mod.rs:162-180`). -/
def parseBody (p : Profile) (pairSize : Nat) (pairId : UInt32) (value : Reader) : P Value :=
  if pairId = v2BlockId then do
    let s ← P.on value (schemeV2 p pairSize pairId)
    return .v2 s
  else if pairId = stampBlockId then do
    let s ← P.on value (sourceStamp p pairSize pairId)
    return .stamp s
  else if pairId = elfInfoBlockId then do
    let e ← P.on value (elfInfo pairSize pairId)
    return .elf e
  else
    return .raw ⟨pairSize, pairId, value.data⟩

/-- `read_size_u64` (`utils.rs:148-151`). -/
def readSizeU64 : P Nat := do return asUsize (← P.readLe 8)

/-- `ValueSigningBlock::parse` (`signing_block/mod.rs:138-182`). -/
def parse (p : Profile) : P Value := do
  let pairSize ← readSizeU64
  if pairSize > maxPairSize then
    P.fail .pairTooLarge
  else
    let pairId ← P.readU32
    if pairSize < 4 then
      P.fail .pairTooSmall
    else
      let value ← P.asSlice (pairSize - 4)
      parseBody p pairSize pairId value

/-- `SigningBlock::extract_values` (`signing_block/mod.rs:675-681`) on a fresh reader. -/
def extractValues (p : Profile) (d : Bytes) : Res (List Value) :=
  match P.loopTo (parse p) d.length (Reader.new d) with
  | .ok (vs, _) => .ok vs
  | .err e => .err e
  | .panic => .panic

/-- `SigningBlock::parse_full_block` (`signing_block/mod.rs:490-597`). -/
def parseFullBlock (p : Profile) (d : Bytes) : Res SigningBlock :=
  if d.length < 8 + 8 + 16 then .err .tooShort
  else do
    let m ← Res.ofOption .tooShort (slice? d (d.length - 16) d.length)
    if m ≠ Ksusig.magic then .err .magicNotFound
    else do
      let s0 ← Res.ofOption .tooShort (slice? d 0 8)
      let startSize := asUsize (leNat s0)
      let s1 ← Res.ofOption .tooShort (slice? d (d.length - 16 - 8) (d.length - 16))
      let endSize := asUsize (leNat s1)
      debugAssert p (startSize == endSize)
      if startSize ≠ endSize then .err .sizeMismatch
      else if endSize < 8 + 16 then .err .blockTooSmall
      else do
        let expected ← uadd p endSize 8
        if d.length ≠ expected then .err .lengthMismatch
        else do
          let contentSize := endSize - 8 - 16
          let inner ← Res.ofOption .tooShort (slice? d 8 (d.length - 16 - 8))
          let content ← extractValues p inner
          .ok ⟨0, d.length, startSize, contentSize, content, endSize, Ksusig.magic⟩

/-- Body of the `from_u8` loop once the magic is found at `startMagic` (`signing_block/mod.rs:622-663`). -/
def fromU8At (p : Profile) (d : Bytes) (startMagic : Nat) : Res SigningBlock := do
  let a ← usub p startMagic 8
  let sizePart ← Res.ofOption .beyondData (slice? d a startMagic)
  let size := asUsize (leNat sizePart)
  if size > maxBlockSize then .err .blockTooLarge
  else do
    let x ← usub p size 16
    let y ← uadd p x 8
    if startMagic < y then .err .beyondData
    else do
      let full ← Res.ofOption .beyondData (slice? d (startMagic - y) (startMagic + 16))
      parseFullBlock p full

/-- The `from_u8` loop (`signing_block/mod.rs:610-664`). -/
def fromU8Scan (p : Profile) (d : Bytes) : Nat → Res SigningBlock
  | 0 => .err .magicNotFound
  | s + 1 =>
    match slice? d (s + 1) (s + 1 + 16) with
    | none => .err .tooShort
    | some m => if m = Ksusig.magic then fromU8At p d (s + 1) else fromU8Scan p d s

/-- `SigningBlock::from_u8` (`signing_block/mod.rs:602-670`). -/
def fromU8 (p : Profile) (d : Bytes) : Res SigningBlock :=
  if d.length < 8 + 8 + 16 then .err .tooShort
  else fromU8Scan p d (d.length - 16)

/-- Body of the `from_reader` loop (`signing_block/mod.rs:390-476`). -/
def fromReaderAt (p : Profile) (file : Bytes) (fileLen windowStart : Nat) (window : Bytes) (pos : Nat)
    (sizeSlice : Bytes) : Res SigningBlock :=
  let blockSize := asUsize (leNat sizeSlice)
  if blockSize > maxBlockSize then .err .blockTooLarge
  else if blockSize > fileLen then .err .blockExceedsFile
  else
    let blockEnd := pos + 16
    if blockEnd < blockSize + 8 then
      if windowStart + blockEnd < blockSize + 8 then .err .beyondData
      else do
        let start := windowStart + blockEnd - (blockSize + 8)
        let full ← readExactAt file start (blockSize + 8)
        let sig ← parseFullBlock p full
        .ok { sig with fileStart := start, fileEnd := windowStart + blockEnd }
    else do
      let start := blockEnd - (blockSize + 8)
      let full ← Res.ofOption .beyondData (slice? window start blockEnd)
      let sig ← parseFullBlock p full
      .ok { sig with fileStart := windowStart + start, fileEnd := windowStart + blockEnd }

/-- The `from_reader` loop (`signing_block/mod.rs:377-478`): the argument is `pos + 1`. -/
def fromReaderScan (p : Profile) (file : Bytes) (fileLen windowStart : Nat) (window : Bytes) :
    Nat → Res SigningBlock
  | 0 => .err .magicNotFound
  | pos + 1 =>
    match slice? window pos (pos + 16) with
    | none => fromReaderScan p file fileLen windowStart window pos
    | some m =>
      if m = Ksusig.magic then
        if pos < 8 then fromReaderScan p file fileLen windowStart window pos
        else
          match slice? window (pos - 8) (pos - 8 + 8) with
          | none => fromReaderScan p file fileLen windowStart window pos
          | some s => fromReaderAt p file fileLen windowStart window pos s
      else fromReaderScan p file fileLen windowStart window pos

/-- `SigningBlock::from_reader` (`signing_block/mod.rs:346-485`) on a file with content `file`. The positions computed here are at most
`file_len`, which is a `usize`. -/
def fromReader (p : Profile) (file : Bytes) (fileLen endOffset : Nat) : Res SigningBlock :=
  let searchEnd := fileLen - endOffset
  let windowSize := min searchEnd maxWindow
  if windowSize < 16 + 8 then .err .fileTooSmall
  else do
    let windowStart := searchEnd - windowSize
    let window ← readExactAt file windowStart windowSize
    fromReaderScan p file fileLen windowStart window (windowSize - 16 + 1)

/-- `parse_eocd_at_offset` (`zip.rs:121-210`); the sum that can overflow is on line 177. -/
def parseEocdAt (p : Profile) (buffer : Bytes) (offset bufferOffset fileLen : Nat) : Res Eocd := do
  let data ← Res.ofOption .eocdInvalid (sliceFrom? buffer offset)
  if data.length < minEocdSize then .err .eocdInvalid
  else do
    let signature ← Res.ofOption .eocdInvalid (slice? data 0 4)
    let diskNumber ← u16At data 4
    let diskWithCd ← u16At data 6
    let numEntries ← u16At data 8
    let totalEntries ← u16At data 10
    let cdSize ← u32At data 12
    let cdOffset ← u32At data 16
    let commentLen ← u16At data 20
    let expected := minEocdSize + commentLen.toNat
    let fileOffset := bufferOffset + offset
    let stop ← uadd p fileOffset expected
    if stop > fileLen then .err .eocdInvalid
    else if data.length < expected then .err .eocdInvalid
    else
      let comment := (slice? data 22 (22 + commentLen.toNat)).getD []
      .ok ⟨fileOffset, signature, diskNumber, diskWithCd, numEntries, totalEntries, cdSize, cdOffset, commentLen,
        comment⟩

/-- The loop of `find_eocd_in_buffer` (`zip.rs:103-114`); the argument is `i + 1`. -/
def findEocdScan (p : Profile) (buffer : Bytes) (bufferOffset fileLen : Nat) : Nat → Res Eocd
  | 0 => .err .eocdNotFound
  | i + 1 =>
    if slice? buffer i (i + 4) = some eocdSig then
      match parseEocdAt p buffer i bufferOffset fileLen with
      | .ok e => .ok e
      | .err _ => findEocdScan p buffer bufferOffset fileLen i
      | .panic => .panic
    else findEocdScan p buffer bufferOffset fileLen i

/-- `find_eocd` and `find_eocd_in_buffer` (`zip.rs:66-115`) on a file with content `file`. -/
def findEocd (p : Profile) (file : Bytes) (fileLen : Nat) : Res Eocd :=
  if fileLen < minEocdSize then .err .notZip
  else do
    let searchSize := min (maxCommentLen + minEocdSize) fileLen
    let readStart := fileLen - searchSize
    let buffer ← readExactAt file readStart searchSize
    findEocdScan p buffer readStart fileLen (buffer.length - minEocdSize + 1)

/-- `file_len` of `Module::new` (`module/mod.rs:47`). -/
def fileLen (file : Bytes) : Nat := asUsize file.length

/-- `Module::get_signing_block` (`module/mod.rs:73-99`). -/
def getSigningBlock (p : Profile) (file : Bytes) : Res SigningBlock := do
  let eocd ← findEocd p file (fileLen file)
  fromReader p file (fileLen file) (fileLen file - eocd.cdOffset.toNat)

/-- `Module::get_offsets` (`module/mod.rs:258-301`). -/
def getOffsets (p : Profile) (file : Bytes) : Res FileOffsets := do
  let eocd ← findEocd p file (fileLen file)
  match getSigningBlock p file with
  | .ok sig => .ok (FileOffsets.new sig.fileStart sig.fileEnd eocd.fileOffset (fileLen file))
  | .err e =>
    if e.isMissing then .ok (FileOffsets.withoutSignature eocd.cdOffset.toNat eocd.fileOffset (fileLen file))
    else .err .corrupted
  | .panic => .panic

/-- `digest_module` (`digest.rs:136-175`) with `Vec::with_capacity` (`digest.rs:92`). -/
def digestModule (E : Env) (p : Profile) (file : Bytes) (o : FileOffsets) (algo : Algo) : Res Bytes := do
  let n1 ← usub p o.stopContent o.startContent
  let c1 := digestRegion E fullReads file o.startContent n1 algo
  let n2 ← usub p o.stopCd o.startCd
  let c2 := digestRegion E fullReads file o.startCd n2 algo
  let n3 ← usub p o.stopEocd o.startEocd
  if n3 < 2 ^ 31 then do
    let c3 ← digestEocd E file o.startEocd o.stopContent algo
    .ok (digestFinal E (c1 ++ c2 ++ c3) algo)
  else .panic

/-- `Module::digest` (`module/mod.rs:307-311`). -/
def digest (E : Env) (p : Profile) (file : Bytes) (algo : Algo) : Res Bytes := do
  let o ← getOffsets p file
  digestModule E p file o algo

/-- `Module::get_raw_module` (`module/mod.rs:316-363`). `read` fails on files that do not fit into a vector. -/
def getRawModule (p : Profile) (file : Bytes) : Res Bytes :=
  if 2 ^ 31 ≤ file.length then .err .io
  else do
    let sig ← getSigningBlock p file
    let sizeSig ← usub p sig.fileEnd sig.fileStart
    let start ← Res.ofOption .invalidData (slice? file 0 sig.fileStart)
    let eocd ← findEocd p file (fileLen file)
    let cd ← Res.ofOption .invalidData (checkedSub32 eocd.cdOffset sizeSig)
    let ser := { eocd with cdOffset := cd }.toU8
    let stop ← usub p file.length ser.length
    let rest ← Res.ofOption .invalidData (slice? file sig.fileEnd stop)
    .ok (start ++ rest ++ ser)

/-- `verify_v2_with_digest` (`verifier.rs:670-809`): the signed data of every signer is encoded again (`verifier.rs:688`), which panics if it
does not fit into a vector. -/
def verifyV2 (E : Env) (roots : Roots) (now : Nat) (b : SigningBlock) (ctx : Option DigestCtx) : Res Verdict :=
  if b.content.all fun v => match v with
      | .v2 s => s.signers.data.all fun g => decide (g.signedData.toU8.length < 2 ^ 31)
      | _ => true
  then .ok (Ksusig.verifyV2 E roots now b ctx)
  else .panic

/-- `verify_source_stamp_with_digest` (`verifier.rs:822-957`): only the first stamp is looked at (encoded signed data has at least four
bytes, so line 842 never fails). -/
def verifySourceStamp (E : Env) (roots : Roots) (now : Nat) (b : SigningBlock) (ctx : Option DigestCtx) : Res Verdict :=
  if (b.content.findSome? fun v => match v with
      | .stamp s => some (decide (s.block.signedData.toU8.length < 2 ^ 31))
      | _ => none).getD true
  then .ok (Ksusig.verifySourceStamp E roots now b ctx)
  else .panic

/-- The loop of the verify command that fills the digests (`cli/verify.rs:60-91`). -/
def cliAddDigest (E : Env) (p : Profile) (file : Bytes) (a : Algo) (c : DigestCtx) : Res DigestCtx :=
  match digest E p file a with
  | .ok d => .ok (c.add a.toU32 d)
  | .err _ => .ok c
  | .panic => .panic

/-- `execute` of the verify command (`cli/verify.rs:27-332`). -/
def cliVerify (E : Env) (p : Profile) (builtinPem : Bytes) (root : Option Bytes) (now : Nat) (file : Bytes) : Res Unit := do
  let b ← (getSigningBlock p file).mapErr fun _ => .verifyFailed
  let roots ← cliRoots E builtinPem root
  let c1 ← cliAddDigest E p file .p256 DigestCtx.new
  let c2 ← cliAddDigest E p file .p384 c1
  if c2.entries.isEmpty then .err .verifyFailed
  else do
    let x ← verifyV2 E roots now b (some c2)
    let v2 ← cliV2 x
    let y ← verifySourceStamp E roots now b (some c2)
    let fully := match v2 with
      | some r => r.sigValid && r.digestValid && r.chainValid && r.trusted
      | none => false
    if fully then
      if cliStampFailed y then .err .verifyFailed else .ok ()
    else .err .verifyFailed

end Ksusig.Narrow
