import Verif.SpecGrammar

/-!
# A source stamp in the place of a V2 signature
-/

namespace Ksusig.Spec

open Ksusig

/-- The bytes of a source stamp, unchanged, as the only signer of a V2 signature: preceded by their length, in a pair with the id
of V2 signatures, framed as a block. Making this needs no key. -/
def relabelled (stamp : Bytes) : Bytes := wireFrame (wirePair 0x7109871a (lp4 stamp))

/-- A source stamp the decoder can return. -/
def CanDecode (t : StampBlock) : Prop := ∃ w, IsStamp w t

end Ksusig.Spec
