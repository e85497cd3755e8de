import Verif.Model.SigningBlock

/-! What the text of a signing block can tell of its values (specification for C127). -/

namespace Ksusig.Spec

/-- Kind and identifier of a value, and how many signers, sections or bytes it has. -/
inductive Outline where
  | v2 (id : UInt32) (signers : Nat)
  | stamp (id : UInt32)
  | elf (id : UInt32) (sections : Nat)
  | other (id : UInt32) (bytes : Nat)

/-- The outline of a value. -/
def outline : Value → Outline
  | .v2 s => .v2 s.id s.signers.data.length
  | .stamp s => .stamp s.id
  | .elf e => .elf e.id e.sections.length
  | .raw r => .other r.id r.data.length

end Ksusig.Spec
