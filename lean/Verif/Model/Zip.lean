import Verif.Model.SigningBlock

/-!
# `/repo/src/file_formats/module/zip.rs`
-/

namespace Ksusig

/-- `EOCD_SIG_U8` (`zip.rs:6-8`). -/
def eocdSig : Bytes := [0x50, 0x4b, 0x05, 0x06]

/-- `MAX_COMMENT_LEN` (`zip.rs:53`). -/
def maxCommentLen : Nat := 65535

/-- `MIN_EOCD_SIZE` (`zip.rs:56`). -/
def minEocdSize : Nat := 22

/-- `EndOfCentralDirectoryRecord` (`zip.rs:12-33`). -/
structure Eocd where
  fileOffset : Nat
  signature : Bytes
  diskNumber : UInt16
  diskWithCd : UInt16
  numEntries : UInt16
  totalEntries : UInt16
  cdSize : UInt32
  cdOffset : UInt32
  commentLen : UInt16
  comment : Bytes
  deriving DecidableEq, Repr

/-- `EndOfCentralDirectoryRecord::to_u8` (`zip.rs:37-49`). -/
def Eocd.toU8 (e : Eocd) : Bytes :=
  e.signature ++ leBytes 2 e.diskNumber.toNat ++ leBytes 2 e.diskWithCd.toNat ++ leBytes 2 e.numEntries.toNat ++
    leBytes 2 e.totalEntries.toNat ++ leBytes 4 e.cdSize.toNat ++ leBytes 4 e.cdOffset.toNat ++
    leBytes 2 e.commentLen.toNat ++ e.comment

/-- A two-byte field at `a` (`zip.rs:143-158,167-170`). -/
def u16At (d : Bytes) (a : Nat) : Res UInt16 := do
  let b ← Res.ofOption .eocdInvalid (slice? d a (a + 2))
  .ok (UInt16.ofNat (leNat b))

/-- A four-byte field at `a` (`zip.rs:159-166`). -/
def u32At (d : Bytes) (a : Nat) : Res UInt32 := do
  let b ← Res.ofOption .eocdInvalid (slice? d a (a + 4))
  .ok (UInt32.ofNat (leNat b))

/-- `parse_eocd_at_offset` (`zip.rs:121-210`). The sums on lines 172-177 are of real file positions and do not
overflow. -/
def parseEocdAt (buffer : Bytes) (offset bufferOffset fileLen : Nat) : Res Eocd := do
  let data ← Res.ofOption .eocdInvalid (sliceFrom? buffer offset)
  if data.length < minEocdSize then .err .eocdInvalid
  else do
    let signature ← Res.ofOption .eocdInvalid (slice? data 0 4)
    let diskNumber ← u16At data 4
    let diskWithCd ← u16At data 6
    let numEntries ← u16At data 8
    let totalEntries ← u16At data 10
    let cdSize ← u32At data 12
    let cdOffset ← u32At data 16
    let commentLen ← u16At data 20
    let expected := minEocdSize + commentLen.toNat
    let fileOffset := bufferOffset + offset
    if fileOffset + expected > fileLen then .err .eocdInvalid
    else if data.length < expected then .err .eocdInvalid
    else
      let comment := (slice? data 22 (22 + commentLen.toNat)).getD []
      .ok ⟨fileOffset, signature, diskNumber, diskWithCd, numEntries, totalEntries, cdSize, cdOffset, commentLen,
        comment⟩

/-- The loop of `find_eocd_in_buffer` (`zip.rs:103-114`); the argument is `i + 1`. -/
def findEocdScan (buffer : Bytes) (bufferOffset fileLen : Nat) : Nat → Res Eocd
  | 0 => .err .eocdNotFound
  | i + 1 =>
    if slice? buffer i (i + 4) = some eocdSig then
      match parseEocdAt buffer i bufferOffset fileLen with
      | .ok e => .ok e
      | .err _ => findEocdScan buffer bufferOffset fileLen i
      | .panic => .panic
    else findEocdScan buffer bufferOffset fileLen i

/-- `find_eocd` and `find_eocd_in_buffer` (`zip.rs:66-115`) on a file with content `file`. -/
def findEocd (file : Bytes) (fileLen : Nat) : Res Eocd :=
  if fileLen < minEocdSize then .err .notZip
  else do
    let searchSize := min (maxCommentLen + minEocdSize) fileLen
    let readStart := fileLen - searchSize
    let buffer ← readExactAt file readStart searchSize
    findEocdScan buffer readStart fileLen (buffer.length - minEocdSize + 1)

/-- `FileOffsets` (`zip.rs:239-252`). -/
structure FileOffsets where
  startContent : Nat
  stopContent : Nat
  startCd : Nat
  stopCd : Nat
  startEocd : Nat
  stopEocd : Nat
  deriving DecidableEq, Repr

/-- `FileOffsets::new` (`zip.rs:256-270`). -/
def FileOffsets.new (stopContent startCd stopCd stopEocd : Nat) : FileOffsets :=
  ⟨0, stopContent, startCd, stopCd, stopCd, stopEocd⟩

/-- `FileOffsets::without_signature` (`zip.rs:274-276`). -/
def FileOffsets.withoutSignature (stopContent stopCd stopEocd : Nat) : FileOffsets :=
  FileOffsets.new stopContent stopContent stopCd stopEocd

end Ksusig
