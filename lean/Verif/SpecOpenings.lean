import Verif.SpecAnatomy

/-!
# What is read from a file that changes while it is being read

The library opens the path anew for every part it reads. These definitions say what is read if the successive openings find different
contents; for equal contents they are those of `SpecAnatomy.lean`.
-/

namespace Ksusig.Spec

open Ksusig

/-- The bounds of the hashed regions: the end record at `pos` is that of `f1`; the place of the block is looked up in `f3`, before the
offset that the end record of `f2` gives; without a block there, the directory starts at the offset the end record of `f1` gives. -/
inductive Bounds (f1 f2 f3 : Bytes) : Nat → Nat → Nat → Prop where
  | signed (pos pos' off off' : Nat) (t t' : Tail) (pre pairs : Bytes) (vs : List Value) : EndRecord f1 pos t off →
      EndRecord f2 pos' t' off' → BlockBefore f3 (min f3.length off') pre pairs vs →
      Bounds f1 f2 f3 pre.length (pre.length + pairs.length + 32) pos
  | unsigned (pos pos' off off' : Nat) (t t' : Tail) : EndRecord f1 pos t off → EndRecord f2 pos' t' off' →
      Unsigned f3 (min f3.length off') → Bounds f1 f2 f3 off off pos

/-- `d` is the digest of the regions of `f0` with these bounds. A release build does not insist that the directory starts before the end
record. -/
def DigestAcross (hash : Bytes → Bytes) (p : Profile) (f0 f1 f2 f3 d : Bytes) : Prop :=
  ∃ s e pos, Bounds f1 f2 f3 s e pos ∧ (e ≤ pos ∨ p = .release) ∧ d = treeDigest hash (regions f0 s e pos)

end Ksusig.Spec
