import Verif.Proofs.Serde
import Verif.Props.Grammar
import Verif.Props.Verify
import Verif.Props.Zip

namespace Ksusig.Props

open Ksusig Spec

/-- C101. Storing a block (`Serialize`) and loading it again (`Deserialize`) gives the same block exactly when every number in it
fits its type, section names are text, the magic has 16 bytes and no known algorithm is held under the name `Unknown`. -/
theorem C101_round_trip (b : SigningBlock) : SigningBlock.ofJson b.toJson = some b ↔ Storable b :=
  block_iff b

/-- C101. Whatever is loaded, from any document, can be stored and loaded again without change. -/
theorem C101_loaded_again (j : Json) (b : SigningBlock) (h : SigningBlock.ofJson j = some b) :
    SigningBlock.ofJson b.toJson = some b :=
  (block_iff b).mpr (loaded_block h)

/-- C101. Two blocks that can be stored are stored alike only if they are the same. -/
theorem C101_injective (b b' : SigningBlock) (hb : Storable b) (hb' : Storable b') (h : b.toJson = b'.toJson) : b = b' := by
  have h1 := (block_iff b).mpr hb
  rw [h, (block_iff b').mpr hb'] at h1
  exact (Option.some.inj h1).symm

/-- C101. Every block read from bytes can be stored and loaded again without change. -/
theorem C101_read_from_bytes (p : Profile) (d : Bytes) (b : SigningBlock) (h : SigningBlock.fromU8 p d = .ok b) :
    SigningBlock.ofJson b.toJson = some b := by
  obtain ⟨pre, pairs, post, rfl, hl, hc, -, hb⟩ := (C88_from_u8 p d b).mp h
  rw [block_iff, hb]
  have hs := storable_read (start := 0) hl (by omega) hc
  rwa [Nat.zero_add] at hs

/-- C101. Every block read from a file can be stored and loaded again without change; the file's size fits 64 bits. -/
theorem C101_read_from_file (p : Profile) (file : Bytes) (fl eo : Nat) (b : SigningBlock) (hfile : file.length < 2 ^ 64)
    (h : SigningBlock.fromReader p file fl eo = .ok b) : SigningBlock.ofJson b.toJson = some b := by
  obtain ⟨pre, pairs, post, rfl, hl, hc, h1, h2, -, -, hb⟩ := (C88_from_reader p _ fl eo b).mp h
  rw [block_iff, hb]
  exact storable_read hl (by omega) hc

/-- C101. So does every block made by the constructors. -/
theorem C101_built (p : Profile) (b : SigningBlock) (h : Built p b) : SigningBlock.ofJson b.toJson = some b := by
  obtain ⟨cs, hok, h | h⟩ := h
  · exact C101_read_from_bytes p _ b (C01_roundtrip_new p cs hok b h)
  · exact C101_read_from_bytes p _ b (C01_roundtrip_new_with_padding p p cs hok b h)

/-- C101. So a block that was read, stored and loaded is written as the same bytes and gets the same verdicts. -/
theorem C101_same_bytes_and_verdict (p : Profile) (file : Bytes) (fl eo : Nat) (b b' : SigningBlock)
    (hfile : file.length < 2 ^ 64) (h : SigningBlock.fromReader p file fl eo = .ok b)
    (hb : SigningBlock.ofJson b.toJson = some b') (E : Env) (roots : Roots) (now : Nat) (ctx : Option DigestCtx) :
    b'.toU8 = b.toU8 ∧ verifyAll E roots now b' ctx = verifyAll E roots now b ctx := by
  rw [C101_read_from_file p file fl eo b hfile h] at hb
  rw [Option.some.inj hb]
  exact ⟨rfl, rfl⟩

/-- C101. The order in which a document lists the fields of the block does not matter. -/
theorem C101_any_order (l l' : List (String × Json)) (h : l.Perm l') :
    SigningBlock.ofJson (.obj l) = SigningBlock.ofJson (.obj l') := by
  unfold SigningBlock.ofJson
  rw [fields_perm _ h]

/-- C101. Fields with other names are ignored. -/
theorem C101_other_fields (l : List (String × Json)) (n : String) (j : Json)
    (h : n ∉ ["file_offset_start", "file_offset_end", "size_of_block_start", "content_size", "content", "size_of_block_end",
      "magic"]) : SigningBlock.ofJson (.obj ((n, j) :: l)) = SigningBlock.ofJson (.obj l) := by
  unfold SigningBlock.ofJson
  rw [fields_unknown _ _ _ _ h]

/-- C101 is false of loaded blocks in one respect: nothing checks the sizes in a document. A block can be loaded whose bytes are
not read back. -/
theorem C101_sizes_unchecked : ∃ j b, SigningBlock.ofJson j = some b ∧ (∀ p b', SigningBlock.fromU8 p b.toU8 ≠ .ok b') :=
  ⟨_, ⟨0, 48, 40, 16, [.raw ⟨9, 5, [1, 2, 3, 4]⟩], 40, magic⟩, (C101_round_trip _).mpr (by
      refine ⟨by decide, by decide, by decide, by decide, ?_, by decide, by decide⟩
      intro v hv
      simp only [List.mem_singleton] at hv
      subst hv
      show 9 < 2 ^ 64
      decide), by
    intro p b' h
    have hf : (match SigningBlock.fromU8 p
        (SigningBlock.toU8 ⟨0, 48, 40, 16, [.raw ⟨9, 5, [1, 2, 3, 4]⟩], 40, magic⟩) with | .ok _ => false | _ => true) = true := by
      cases p <;> decide +kernel
    rw [h] at hf
    cases hf⟩

/-- A block with all four kinds of content. -/
example : SigningBlock.ofJson sampleBlock.toJson = some sampleBlock := C101_built .dev _ (sampleBlock_built .dev)

/-- A known algorithm under the name `Unknown` is not kept. -/
example : ¬ Storable ⟨0, 0, 0, 0, [.v2 ⟨0, 0, ⟨0, [⟨0, ⟨0, ⟨0, [⟨0, .unknown 0x0201, []⟩]⟩, ⟨0, []⟩, ⟨0, []⟩, true⟩, ⟨0, []⟩,
    ⟨0, []⟩⟩]⟩⟩], 0, magic⟩ := by
  intro h
  have := (h.content _ (List.mem_singleton.mpr rfl)).2.2 _ (List.mem_singleton.mpr rfl)
  exact (this.2.1.2.1.2 _ (List.mem_singleton.mpr rfl)).2.1 rfl

end Ksusig.Props
