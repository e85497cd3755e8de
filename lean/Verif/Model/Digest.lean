import Verif.Model.Zip

/-!
# `/repo/src/file_formats/module/digest.rs`

A `Read` implementation may deliver fewer bytes than asked for. `Sched` says how many bytes the `k`-th read of a
region delivers at most; reads of a regular file deliver everything that was asked for (`fullReads`).
-/

namespace Ksusig

/-- `CHUNK_SIZE` (`digest.rs:16`). -/
def chunkSize : Nat := 1048576

/-- For the `k`-th call of `read` on a region: how many bytes the reader is willing to deliver at most (at least
one is delivered unless the end is reached). -/
abbrev Sched := Nat → Nat

/-- A reader that always fills the buffer. -/
def fullReads : Sched := fun _ => chunkSize

/-- The chunks seen by the `fill_buf` loops (`digest.rs:42-50,68-76,112-121`): one per `read` call into the
1 MiB buffer. The first argument is fuel, `d.length` is always enough. -/
def chunksBy (s : Sched) : Nat → Nat → Bytes → List Bytes
  | 0, _, _ => []
  | fuel + 1, k, d =>
    if d = [] then []
    else
      let n := max 1 (min (s k) (min chunkSize d.length))
      d.take n :: chunksBy s fuel (k + 1) (d.drop n)

/-- `digest_chunk` (`digest.rs:19-25`). -/
def digestChunk (E : Env) (algo : Algo) (chunk : Bytes) : Bytes :=
  algo.hash E (0xa5 :: (leBytes 4 chunk.length ++ chunk))

/-- `digest_zip_contents` and `digest_central_directory` (`digest.rs:30-52,57-78`, identical): seek to `start`,
read at most `size` bytes. Positions are below `2^63`, as positions in a file are: beyond that, which only a caller who makes up
`FileOffsets` or the positions in a block can reach, seeking would be an error. -/
def digestRegion (E : Env) (s : Sched) (file : Bytes) (start size : Nat) (algo : Algo) : List Bytes :=
  let d := (file.drop start).take size
  (chunksBy s d.length 0 d).map (digestChunk E algo)

/-- The end record with its directory offset replaced (`digest.rs:90-108`); everything from `start` to the end of
the file is read. -/
def eocdForDigest (file : Bytes) (start cdOffset : Nat) : Res Bytes := do
  let buf := file.drop start
  let a ← Res.ofOption .invalidData (slice? buf 0 16)
  let b ← Res.ofOption .invalidData (sliceFrom? buf 20)
  .ok (a ++ leBytes 4 cdOffset ++ b)

/-- `digest_end_of_central_directory` (`digest.rs:83-123`); the `Cursor` delivers full reads. The argument
`eocd_size` is only a capacity hint, see `digestModule`. -/
def digestEocd (E : Env) (file : Bytes) (start cdOffset : Nat) (algo : Algo) : Res (List Bytes) := do
  let d ← eocdForDigest file start cdOffset
  .ok ((chunksBy fullReads d.length 0 d).map (digestChunk E algo))

/-- `digest_final_digest` (`digest.rs:126-131`). -/
def digestFinal (E : Env) (chunks : List Bytes) (algo : Algo) : Bytes :=
  algo.hash E (0x5a :: (leBytes 4 chunks.length ++ chunks.flatten))

/-- `digest_module` (`digest.rs:136-175`); `s1`, `s2` are the read schedules of the two region loops. The size of the end
record is passed to `Vec::with_capacity` (`digest.rs:92`), so when the subtraction wraps in a release build the capacity exceeds
`isize::MAX` and the call panics as well. -/
def digestModule (E : Env) (p : Profile) (s1 s2 : Sched) (file : Bytes) (o : FileOffsets) (algo : Algo) :
    Res Bytes := do
  let n1 ← usub p o.stopContent o.startContent
  let c1 := digestRegion E s1 file o.startContent n1 algo
  let n2 ← usub p o.stopCd o.startCd
  let c2 := digestRegion E s2 file o.startCd n2 algo
  let _ ← usub .dev o.stopEocd o.startEocd
  let c3 ← digestEocd E file o.startEocd o.stopContent algo
  .ok (digestFinal E (c1 ++ c2 ++ c3) algo)

end Ksusig
