import Verif.SpecAnatomy

/-!
# Files on which a development build stops with a panic

Blocks whose two size fields disagree, in terms of the bytes of the file only. Nothing here refers to the functions of the model.
-/

namespace Ksusig.Spec

open Ksusig

/-- The eight-byte little-endian number at position `k`. -/
def wordAt (d : Bytes) (k : Nat) : Nat := leNat ((d.drop k).take 8)

/-- What looks like a block ending with the magic at position `u`: the eight bytes before the magic give a plausible size (24 bytes
to 16 KiB) that leads back to a position inside the data, but the number stored there is a different one. -/
structure Torn (d : Bytes) (u : Nat) : Prop where
  magic : MagicAtPos d u
  room : 8 ≤ u
  least : 24 ≤ wordAt d (u - 8)
  most : wordAt d (u - 8) ≤ 16384
  inside : wordAt d (u - 8) ≤ u + 8
  differ : wordAt d (u + 8 - wordAt d (u - 8)) ≠ wordAt d (u - 8)

/-- Such a block is the one the search ending at `limit` comes to: its last 24 bytes are among the 16 MiB before `limit` and no
later magic ends before `limit`. -/
structure TornBefore (file : Bytes) (limit u : Nat) : Prop where
  torn : Torn file u
  fits : u + 16 ≤ limit
  reach : limit + 8 ≤ u + 16777216
  last : ∀ v, v + 16 ≤ limit → MagicAtPos file v → v ≤ u

/-- Some V2 signer or source stamp among the values carries a content digest. -/
def HasDigest (vs : List Value) : Prop :=
  (∃ s, Value.v2 s ∈ vs ∧ ∃ g ∈ s.signers.data, g.signedData.digests.data ≠ []) ∨
    ∃ s, Value.stamp s ∈ vs ∧ s.block.signedData.digests.data ≠ []

end Ksusig.Spec
