import Verif.SpecAnatomy

/-!
# The anatomy of a module file for the build without ELF support

As `SpecAnatomy.lean`, with the grammar of a build that knows no section lists: pairs with their id are kept as bytes, whatever these
are. Nothing here refers to the functions of the model.
-/

namespace Ksusig.Spec

open Ksusig

/-- The value bytes of a pair and what they are decoded to without ELF support: V2 signatures and source stamps as ever, everything
else is kept as it is. -/
def BareValue (id : UInt32) (value : Bytes) : Value → Prop
  | .v2 s => id = 0x7109871a ∧ s.id = id ∧ s.size = 4 + value.length ∧ ∃ w rest, value = w ++ rest ∧ IsSigners w s.signers
  | .stamp s => id = 0x6dff800d ∧ s.id = id ∧ s.size = 4 + value.length ∧ ∃ w rest, value = w ++ rest ∧ IsStamp w s.block
  | .elf _ => False
  | .raw r => r = ⟨4 + value.length, id, value⟩ ∧ id ≠ 0x7109871a ∧ id ≠ 0x6dff800d

/-- The content of a block: pairs one after the other, without gaps. -/
inductive BareContent : Bytes → List Value → Prop where
  | nil : BareContent [] []
  | cons (id : UInt32) (value : Bytes) (v : Value) (rest : Bytes) (vs : List Value) :
      BareValue id value v → BareContent rest vs → BareContent (wirePair id value ++ rest) (v :: vs)

/-- The block in force when the search ends at `limit`, as `BlockBefore`. -/
structure BareBlock (file : Bytes) (limit : Nat) (pre pairs : Bytes) (vs : List Value) : Prop where
  bytes : ∃ post, file = pre ++ wireFrame pairs ++ post
  small : pairs.length + 24 ≤ 16384
  content : BareContent pairs vs
  inside : pre.length + pairs.length + 32 ≤ limit
  reach : limit + 24 ≤ pre.length + pairs.length + 32 + 16777216
  last : ∀ u, u + 16 ≤ limit → MagicAtPos file u → u ≤ pre.length + pairs.length + 16

/-- Where the entries stop and the directory starts, as `Located`. -/
inductive BareLocated (file : Bytes) (off : Nat) : Nat → Nat → Prop where
  | signed (pre pairs : Bytes) (vs : List Value) : BareBlock file (min file.length off) pre pairs vs →
      BareLocated file off pre.length (pre.length + pairs.length + 32)
  | unsigned : Unsigned file (min file.length off) → BareLocated file off off off

/-- What remains of a file without its block, as `Strips`. -/
inductive BareStrips (file : Bytes) : Bytes → Prop where
  | intro (pos : Nat) (t : Tail) (off : Nat) (pre pairs : Bytes) (vs : List Value) : EndRecord file pos t off →
      BareBlock file (min file.length off) pre pairs vs →
      pre.length + pairs.length + 32 + (22 + t.comment.length) ≤ file.length →
      BareStrips file (stripped file pre pairs t off)

/-- The bytes that are signed, as `Source`. -/
inductive BareSource (file : Bytes) : Bytes → Prop where
  | unsigned (pos : Nat) (t : Tail) (off : Nat) : EndRecord file pos t off → Unsigned file (min file.length off) →
      BareSource file file
  | signed (raw : Bytes) : BareStrips file raw → BareSource file raw

end Ksusig.Spec
