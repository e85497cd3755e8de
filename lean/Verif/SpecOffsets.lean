import Verif.Spec

/-! What the public function `digest_module` hashes for offsets made up by its caller. -/

namespace Ksusig.Spec

/-- The bytes from `start` up to `stop`; everything from `start` on if the two are the wrong way round. -/
def extent (file : Bytes) (start stop : Nat) : Bytes :=
  if start ≤ stop then (file.drop start).take (stop - start) else file.drop start

/-- Every position is one a file can have. -/
structure Positions (o : FileOffsets) : Prop where
  startContent : o.startContent < 2 ^ 63
  stopContent : o.stopContent < 2 ^ 63
  startCd : o.startCd < 2 ^ 63
  stopCd : o.stopCd < 2 ^ 63
  startEocd : o.startEocd < 2 ^ 63
  stopEocd : o.stopEocd < 2 ^ 63

/-- The offsets at which the program stops: an end record that ends before it starts, and in a development build any region that
does. -/
def Reversed (p : Profile) (o : FileOffsets) : Prop :=
  o.stopEocd < o.startEocd ∨ (p = .dev ∧ (o.stopContent < o.startContent ∨ o.stopCd < o.startCd))

/-- The three parts that are hashed. -/
def givenParts (file : Bytes) (o : FileOffsets) : List Bytes :=
  [extent file o.startContent o.stopContent, extent file o.startCd o.stopCd, patchOffset (file.drop o.startEocd) o.stopContent]

end Ksusig.Spec
