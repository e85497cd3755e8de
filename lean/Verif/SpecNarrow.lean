import Verif.Spec

/-!
# When a reading takes every size in the file as it is written

Used to say which blocks 32-bit and 64-bit machines read alike.
-/

namespace Ksusig.Spec

open Ksusig

/-- A list said to be within 16 KiB of 4 GiB long, or longer. -/
def Huge (size : Nat) : Prop := 2 ^ 32 ≤ size + 16384

/-- A value with a list of certificates, attributes or signatures that is said to be that long. -/
def HasHuge : Value → Prop
  | .v2 s => ∃ g ∈ s.signers.data, Huge g.signedData.certs.size ∨ Huge g.signedData.attrs.size ∨ Huge g.sigs.size
  | .stamp s => Huge s.block.signedData.certs.size ∨ Huge s.block.signedData.attrs.size ∨ Huge s.block.sigs.size
  | _ => False

/-- The bytes are pairs one after the other, and the size written in front of each is the size it was read with. -/
def Framed : Bytes → List Value → Prop
  | bs, [] => bs = []
  | bs, v :: vs => ∃ payload rest, bs = leBytes 8 v.innerSize ++ payload ++ rest ∧ payload.length = v.innerSize ∧ Framed rest vs

/-- At the place where `b` was found the data has a block with both sizes and the sizes of all pairs as `b` says. -/
def SizesAsWritten (data : Bytes) (b : SigningBlock) : Prop :=
  ∃ pre content post, data = pre ++ (leBytes 8 b.sizeStart ++ content ++ leBytes 8 b.sizeEnd ++ Ksusig.magic) ++ post ∧
    b.fileStart = pre.length ∧ b.fileEnd = pre.length + (content.length + 32) ∧ Framed content b.content

/-- A value with signed data that takes 2 GiB or more when written again with the sizes it was read with. -/
def Bulky : Value → Prop
  | .v2 s => ∃ g ∈ s.signers.data, 2 ^ 31 ≤ g.signedData.toU8.length
  | .stamp s => 2 ^ 31 ≤ s.block.signedData.toU8.length
  | _ => False

end Ksusig.Spec
