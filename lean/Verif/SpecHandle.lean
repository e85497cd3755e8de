import Verif.SpecAnatomy
import Verif.SpecElfAnatomy

/-!
# What an opened file says, for both formats
-/

namespace Ksusig.Spec

open Ksusig

/-- A file of this format has no block. -/
def NoBlock (acc : Bytes → Bool) (file : Bytes) : FileFormat → Prop
  | .module => ∃ pos t off, EndRecord file pos t off ∧ Unsigned file (min file.length off)
  | .elf => acc file = true ∧ ∃ e, ElfView file e ∧
      ((¬ ∃ s, FirstNamed e ksuBytes s) ∨ ∃ s, FirstNamed e ksuBytes s ∧ s.size = 0)

/-- A file of this format has the block `b`. -/
def HasBlock (acc : Bytes → Bool) (file : Bytes) (b : SigningBlock) : FileFormat → Prop
  | .module => ∃ pos t off pre pairs, EndRecord file pos t off ∧ BlockBefore file (min file.length off) pre pairs b.content ∧
      b = ⟨pre.length, pre.length + pairs.length + 32, pairs.length + 24, pairs.length, b.content, pairs.length + 24, Ksusig.magic⟩
  | .elf => acc file = true ∧ ∃ e s, ElfView file e ∧ FirstNamed e ksuBytes s ∧ s.size ≠ 0 ∧
      s.offset + s.size ≤ file.length ∧ HoldsBlock (sectionBytes file s) b

/-- The first bytes of an ELF file. -/
def elfMagic : Bytes := [0x7f, 0x45, 0x4c, 0x46]

/-- `pk` is the public key of this private key. -/
def PublicOf (E : Env) : PrivateKey → Bytes → Prop
  | .p256 k, pk => E.p256Pub k = some pk
  | .p384 k, pk => E.p384Pub k = some pk

end Ksusig.Spec
