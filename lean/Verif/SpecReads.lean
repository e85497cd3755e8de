import Verif.Spec

/-! Specification for C125: readers that deliver less than was asked for. -/

namespace Ksusig.Spec

open Ksusig

/-- `cs` is `d`, cut into pieces of at least one byte and at most 1 MiB. -/
def CutOf (d : Bytes) (cs : List Bytes) : Prop := cs.flatten = d ∧ ∀ c ∈ cs, c ≠ [] ∧ c.length ≤ 2 ^ 20

/-- The digest over pieces that are given. -/
def piecesDigest (h : Bytes → Bytes) (cs : List Bytes) : Bytes :=
  h (0x5a :: (leBytes 4 cs.length ++ (cs.map fun c => h (pieceInput c)).flatten))

/-- Everything hashed on the way to it. -/
def pieceInputs (h : Bytes → Bytes) (cs : List Bytes) : List Bytes :=
  (0x5a :: (leBytes 4 cs.length ++ (cs.map fun c => h (pieceInput c)).flatten)) :: cs.map pieceInput

/-- Two different inputs with the same hash value, one hashed for `cs` and one for `cs'`. -/
def PieceCollision (h : Bytes → Bytes) (cs cs' : List Bytes) : Prop :=
  ∃ x ∈ pieceInputs h cs, ∃ y ∈ pieceInputs h cs', x ≠ y ∧ h x = h y

/-- The `k`-th read of `n` bytes delivers 1 MiB, or what is left if this is less. A reader delivers one byte at least. -/
def Fills (s : Nat → Nat) (n : Nat) : Prop := ∀ k, k * 2 ^ 20 < n → min (2 ^ 20) (n - k * 2 ^ 20) ≤ max 1 (s k)

end Ksusig.Spec
