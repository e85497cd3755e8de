import Verif.SpecOut
import Verif.SpecHandle
import Verif.SpecForge
import Verif.SpecElf

/-!
# What a key is used for by the sign command
-/

namespace Ksusig.Spec

open Ksusig

/-- What is hashed of an opened file: the three regions of a module, the chosen sections of an ELF file. -/
inductive HashedParts (acc : Bytes → Bool) : SignableFile → List Bytes → Prop where
  | module (file : Bytes) (pos : Nat) (t : Tail) (off s e : Nat) : EndRecord file pos t off → Located file off s e →
      HashedParts acc (.module (Module.new file) file) (regions file s e pos)
  | elf (f : ElfFile) (l : List Resolved) : f.resolvedSections acc = .ok l → HashedParts acc (.elf f) (l.map fun x => (f.data.drop x.2.1).take x.2.2)

/-- The sign command, run on any machine, in any build, with any credentials, made the block `b` for the opened file `s`. Whether it was
then able to write an output does not matter. -/
def SignedOnce (E : Env) (acc : Bytes → Bool) (s : SignableFile) (b : SigningBlock) : Prop :=
  ∃ (M : Machine) (clock : Option UInt64) (fs : Fs) (input : Path) (v2 stamp : CredPaths) (sections : List (List Char))
    (signer : ModuleSigner), M.env = E ∧ M.acc = acc ∧ (∀ file, fs input = some file → file.length < 2 ^ 64) ∧
    ReadyToSign M fs input v2 stamp sections signer s ∧ Makes M clock signer s b

end Ksusig.Spec
