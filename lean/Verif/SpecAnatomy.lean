import Verif.SpecGrammar

/-!
# The anatomy of a module file

Where the end record, the signing block and the three hashed regions of a file are, in terms of its bytes only. Nothing here
refers to the functions of the model.
-/

namespace Ksusig.Spec

open Ksusig

/-- The end record in force: fields `t` and directory offset `off`, encoded at position `pos`, among the last 65557 bytes of the
file, and no complete record starts later. Bytes may follow it. -/
structure EndRecord (file : Bytes) (pos : Nat) (t : Tail) (off : Nat) : Prop where
  bytes : ∃ before after, file = before ++ wireEocd t off ++ after ∧ before.length = pos
  comment : t.comment.length ≤ 65535
  offset : off < 2 ^ 32
  reach : file.length ≤ pos + 65557
  last : ∀ k, pos < k → ¬ RecordAt file k

/-- The block in force when the search ends at `limit`: a framed content `pairs` following `pre`, at most 16 KiB large, that
stands for the values `vs`. It ends before `limit`; its last 24 bytes are among the last 16 MiB before it; no later magic ends
before `limit`. -/
structure BlockBefore (file : Bytes) (limit : Nat) (pre pairs : Bytes) (vs : List Value) : Prop where
  bytes : ∃ post, file = pre ++ wireFrame pairs ++ post
  small : pairs.length + 24 ≤ 16384
  content : IsContent pairs vs
  inside : pre.length + pairs.length + 32 ≤ limit
  reach : limit + 24 ≤ pre.length + pairs.length + 32 + 16777216
  last : ∀ u, u + 16 ≤ limit → MagicAtPos file u → u ≤ pre.length + pairs.length + 16

/-- Nothing that looks like a block: at least 24 bytes before `limit`, and no magic in the last 16 MiB before it (a magic among
the first eight bytes of these is not looked at). -/
structure Unsigned (file : Bytes) (limit : Nat) : Prop where
  size : 24 ≤ limit
  none : ∀ u, 8 ≤ u → limit + 8 ≤ u + 16777216 → u + 16 ≤ limit → ¬ MagicAtPos file u

/-- Where the entries stop (`s`) and the directory starts (`e`), for a file whose end record gives the offset `off`: around the
block if there is one, otherwise both at the offset. -/
inductive Located (file : Bytes) (off : Nat) : Nat → Nat → Prop where
  | signed (pre pairs : Bytes) (vs : List Value) : BlockBefore file (min file.length off) pre pairs vs →
      Located file off pre.length (pre.length + pairs.length + 32)
  | unsigned : Unsigned file (min file.length off) → Located file off off off

/-- The three hashed regions: the entries, the directory, and the end record with everything after it, in which the directory
offset is replaced by the end of the entries. If the directory starts after the end record, its region is everything from there to
the end of the file. -/
def regions (file : Bytes) (s e pos : Nat) : List Bytes :=
  [file.take s, if e ≤ pos then (file.drop e).take (pos - e) else file.drop e, patchOffset (file.drop pos) s]

/-- The file without its block: what precedes the block, what follows it except for the last bytes of the file (as many as the end
record has), and the end record with its offset reduced by the size of the block. -/
def stripped (file pre pairs : Bytes) (t : Tail) (off : Nat) : Bytes :=
  pre ++ (file.drop (pre.length + pairs.length + 32)).take
      (file.length - (22 + t.comment.length) - (pre.length + pairs.length + 32)) ++
    wireEocd t (off - (pairs.length + 32))

/-- `raw` is what remains of `file` without its block, provided that block and end record do not overlap. -/
inductive Strips (file : Bytes) : Bytes → Prop where
  | intro (pos : Nat) (t : Tail) (off : Nat) (pre pairs : Bytes) (vs : List Value) : EndRecord file pos t off →
      BlockBefore file (min file.length off) pre pairs vs →
      pre.length + pairs.length + 32 + (22 + t.comment.length) ≤ file.length →
      Strips file (stripped file pre pairs t off)

/-- The bytes that are signed: the file itself if it is not signed, otherwise what remains without its block. -/
inductive Source (file : Bytes) : Bytes → Prop where
  | unsigned (pos : Nat) (t : Tail) (off : Nat) : EndRecord file pos t off → Unsigned file (min file.length off) →
      Source file file
  | signed (raw : Bytes) : Strips file raw → Source file raw

/-- `raw` with `block` inserted at the directory offset of its end record, which is adjusted (modulo 4 GiB); nothing is written
behind the end record. -/
inductive Inserted (raw block : Bytes) : Bytes → Prop where
  | intro (pos : Nat) (t : Tail) (off : Nat) : EndRecord raw pos t off → off ≤ pos →
      Inserted raw block (raw.take off ++ block ++ (raw.drop off).take (pos - off) ++ wireEocd t (off + block.length))

/-- An end record that hides no other complete record, whatever offset is stored in it (for instance one without a comment). -/
def Plain (t : Tail) : Prop := ∀ off k, 1 ≤ k → ¬ RecordAt (wireEocd t off) k

/-- All V2 signers among the values of a block. -/
def signersIn (vs : List Value) : List SignerV2 := vs.flatMap fun v => match v with | .v2 s => s.signers.data | _ => []

/-- All source stamps among the values of a block. -/
def stampsIn (vs : List Value) : List StampBlock := vs.filterMap fun v => match v with | .stamp s => some s.block | _ => none

end Ksusig.Spec
