import Verif.SpecGrammar
import Verif.Proofs.Grammar
import Verif.Props.Parse

/-!
# C88: the decoder accepts exactly the documented format, and returns what it says
-/

namespace Ksusig.Props

open Ksusig Spec

/-- C88. `SigningBlock::from_u8` succeeds exactly on the byte strings containing a framed content that follows the grammar,
at most 16 KiB large, with no later magic; the value returned is the one the grammar assigns to those bytes. -/
theorem C88_from_u8 (p : Profile) (d : Bytes) (b : SigningBlock) : SigningBlock.fromU8 p d = .ok b ↔
    ∃ pre pairs post, d = pre ++ wireFrame pairs ++ post ∧ pairs.length + 24 ≤ 16384 ∧ IsContent pairs b.content ∧
      (∀ u, MagicAtPos d u → u ≤ pre.length + pairs.length + 16) ∧
      b = ⟨0, pairs.length + 32, pairs.length + 24, pairs.length, b.content, pairs.length + 24, Ksusig.magic⟩ :=
  fromU8_iff

/-- C88. `SigningBlock::from_reader` succeeds exactly when, before the end of the search (`fl - eo`, which must lie in the
file), the file contains a framed content that follows the grammar, at most 16 KiB large, with no later magic before that
end, whose magic and trailing size are among the last 16 MiB before it. The block may begin before that window. -/
theorem C88_from_reader (p : Profile) (file : Bytes) (fl eo : Nat) (b : SigningBlock) :
    SigningBlock.fromReader p file fl eo = .ok b ↔
    ∃ pre pairs post, file = pre ++ wireFrame pairs ++ post ∧ pairs.length + 24 ≤ 16384 ∧ IsContent pairs b.content ∧
      fl - eo ≤ file.length ∧ pre.length + pairs.length + 32 ≤ fl - eo ∧
      fl - eo + 24 ≤ pre.length + pairs.length + 32 + 16777216 ∧
      (∀ u, u + 16 ≤ fl - eo → MagicAtPos file u → u ≤ pre.length + pairs.length + 16) ∧
      b = ⟨pre.length, pre.length + pairs.length + 32, pairs.length + 24, pairs.length, b.content, pairs.length + 24,
        Ksusig.magic⟩ :=
  fromReader_iff

/-- C88. The grammar is unambiguous: the content of a block has at most one reading. -/
theorem C88_unambiguous (pairs : Bytes) (vs vs' : List Value) (hl : pairs.length ≤ 16384) (h : IsContent pairs vs)
    (h' : IsContent pairs vs') : vs = vs' := by
  have e := (extractValues_iff hl).mpr h
  rw [(extractValues_iff hl).mpr h'] at e
  cases e; rfl

/-- C88. What is accepted, and what is returned, does not depend on the build profile. -/
theorem C88_same_in_both_profiles (d : Bytes) (fl eo : Nat) (b : SigningBlock) :
    (SigningBlock.fromU8 .dev d = .ok b ↔ SigningBlock.fromU8 .release d = .ok b) ∧
    (SigningBlock.fromReader .dev d fl eo = .ok b ↔ SigningBlock.fromReader .release d fl eo = .ok b) := by
  constructor
  · rw [C88_from_u8, C88_from_u8]
  · rw [C88_from_reader, C88_from_reader]

/-- The signed data of `smallWire` with other padding: still in the grammar, decoded to the same value. -/
example : ∃ pairs pairs' vs, pairs ≠ pairs' ∧ pairs.length ≤ 16384 ∧ IsContent pairs vs ∧ IsContent pairs' vs ∧
    vs.length = 1 := by
  have hl : smallWire.length = 93 := by decide +kernel
  have h : (extractValues ((smallWire.drop 8).take 61) >>= fun a =>
      extractValues ((smallWire'.drop 8).take 61) >>= fun b => Res.ok (decide (a = b ∧ a.length = 1))) = .ok true := by
    decide +kernel
  obtain ⟨a, ha, h⟩ := Res.bind_eq_ok.mp h
  obtain ⟨b, hb, h⟩ := Res.bind_eq_ok.mp h
  have h : a = b ∧ a.length = 1 := by simpa using h
  refine ⟨_, _, a, by decide +kernel, by simp; omega, (extractValues_iff (by simp; omega)).mp ha,
    (extractValues_iff (by simp; omega)).mp (h.1 ▸ hb), h.2⟩

/-- An accepted input with bytes around the block. -/
example : ∃ b pre pairs post, [7, 7] ++ smallWire ++ [1] = pre ++ wireFrame pairs ++ post ∧ IsContent pairs b.content ∧
    SigningBlock.fromU8 .dev ([7, 7] ++ smallWire ++ [1]) = .ok b ∧ b.content.length = 1 := by
  have h : (SigningBlock.fromU8 .dev ([7, 7] ++ smallWire ++ [1]) >>= fun b => Res.ok (decide (b.content.length = 1))) =
      .ok true := by decide +kernel
  obtain ⟨b, hb, h⟩ := Res.bind_eq_ok.mp h
  obtain ⟨pre, pairs, post, h1, _, h3, _⟩ := (C88_from_u8 ..).mp hb
  exact ⟨b, pre, pairs, post, h1, h3, hb, by simpa using h⟩

end Ksusig.Props
