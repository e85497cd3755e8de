import Verif.Proofs.ReadBlock
import Verif.Props.Block

/-!
# Properties of reading signing blocks (C06–C10)
-/

namespace Ksusig.Props

open Ksusig Ksusig.Spec

/-- The bytes of a small block with one V2 signer. -/
def smallSigner : SignerSpec := ⟨[(.p256, [1])], [], [], [], []⟩
def smallWire : Bytes := wireBlock [.v2 [smallSigner]]

/-! ## C06 -/

/-- **C06** is false of overflow-checked builds for `from_u8`: three ways to panic — magic within the first eight
bytes, an announced size below 16, and two different size fields. -/
theorem C06_dev_panics_from_u8 :
    SigningBlock.fromU8 .dev ([0] ++ Ksusig.magic ++ List.replicate 20 0) = .panic ∧
    SigningBlock.fromU8 .dev (List.replicate 8 0 ++ leBytes 8 15 ++ Ksusig.magic) = .panic ∧
    SigningBlock.fromU8 .dev (leBytes 8 25 ++ leBytes 8 24 ++ Ksusig.magic) = .panic := by
  decide +kernel

/-- **C06** is false of overflow-checked builds for `from_reader`. -/
theorem C06_dev_panics_from_reader :
    SigningBlock.fromReader .dev (leBytes 8 25 ++ leBytes 8 24 ++ Ksusig.magic) 32 0 = .panic := by
  decide +kernel

/-- **C06**, release builds, `from_u8`: a block or a real error, for every input. -/
theorem C06_from_u8_release_partial (d : Bytes) :
    (∃ b, SigningBlock.fromU8 .release d = .ok b) ∨
      ∃ e, e ≠ .fuel ∧ SigningBlock.fromU8 .release d = .err e :=
  fromU8_release_total d

/-- **C06**, release builds, `from_reader`: a block or a real error, for every file, every claimed file length
and every end offset. -/
theorem C06_from_reader_release_partial (file : Bytes) (fileLen endOffset : Nat) :
    (∃ b, SigningBlock.fromReader .release file fileLen endOffset = .ok b) ∨
      ∃ e, e ≠ .fuel ∧ SigningBlock.fromReader .release file fileLen endOffset = .err e :=
  (fromReader_total file fileLen endOffset).1

/-- **C06**, dev builds, `from_u8`: same outcome as in release, except for a panic on inputs that contain the magic
at some position `t` where the size field cannot belong to a block: there is no room for it, it is below 16, or
the size field at the front of the block differs. -/
theorem C06_from_u8_dev_partial (d : Bytes) :
    SigningBlock.fromU8 .dev d = SigningBlock.fromU8 .release d ∨
      (SigningBlock.fromU8 .dev d = .panic ∧ ∃ t, slice? d t (t + 16) = some Ksusig.magic ∧
        (t < 8 ∨ leNat ((d.drop (t - 8)).take 8) < 16 ∨
          (leNat ((d.drop (t - 8)).take 8) ≤ t + 8 ∧
            leNat ((d.drop (t + 8 - leNat ((d.drop (t - 8)).take 8))).take 8) ≠
              leNat ((d.drop (t - 8)).take 8)))) :=
  fromU8_dev d

/-- **C06**, dev builds, `from_reader`: same outcome as in release, except that some inputs release builds reject
with an error panic instead. -/
theorem C06_from_reader_dev_partial (file : Bytes) (fileLen endOffset : Nat) :
    SigningBlock.fromReader .dev file fileLen endOffset = SigningBlock.fromReader .release file fileLen endOffset ∨
      (SigningBlock.fromReader .dev file fileLen endOffset = .panic ∧
        ∃ e, SigningBlock.fromReader .release file fileLen endOffset = .err e) :=
  (fromReader_total file fileLen endOffset).2

example : (∃ b, SigningBlock.fromU8 .dev ([7, 7] ++ smallWire ++ [1]) = .ok b) ∧
    (∃ b, SigningBlock.fromReader .dev ([7, 7] ++ smallWire ++ [1, 2]) 97 1 = .ok b) ∧
    SigningBlock.fromU8 .release (smallWire.set 8 200) = .err .outOfBounds :=
  ⟨Res.exists_of_isOk (by decide +kernel), Res.exists_of_isOk (by decide +kernel), by decide +kernel⟩

/-! ## C07 -/

/-- **C07** (`from_u8`): what is accepted is a frame somewhere in the data, the last one (no magic after it),
at most 16384 in its size field, tiled exactly by the returned content. `from_u8` reports offsets relative to the
frame. -/
theorem C07_from_u8 (p : Profile) (d : Bytes) (b : SigningBlock) (h : SigningBlock.fromU8 p d = .ok b) :
    ∃ pre pairs post, d = pre ++ wireFrame pairs ++ post ∧ pairs.length + 24 ≤ 16384 ∧ Tiled pairs b.content ∧
      (∀ u, slice? d u (u + 16) = some Ksusig.magic → u ≤ pre.length + pairs.length + 16) ∧
      b.sizeStart = pairs.length + 24 ∧ b.sizeEnd = pairs.length + 24 ∧ b.contentSize = pairs.length ∧
      b.magic = Ksusig.magic ∧ b.fileStart = 0 ∧ b.fileEnd = pairs.length + 32 := by
  obtain ⟨pre, pairs, post, h1, h2, h3, h4, h5⟩ := fromU8_ok h
  refine ⟨pre, pairs, post, h1, h2, extractValues_ok h3, h4, ?_⟩
  rw [h5]
  exact ⟨rfl, rfl, rfl, rfl, rfl, rfl⟩

/-- **C07** (`from_reader`): in addition the reported offsets are the position of the frame in the file, the frame
ends at or before the search limit, and no magic lies between it and the limit. -/
theorem C07_from_reader (p : Profile) (file : Bytes) (fileLen endOffset : Nat) (b : SigningBlock)
    (h : SigningBlock.fromReader p file fileLen endOffset = .ok b) :
    ∃ pre pairs post, file = pre ++ wireFrame pairs ++ post ∧ pairs.length + 24 ≤ 16384 ∧
      Tiled pairs b.content ∧ b.fileStart = pre.length ∧ b.fileEnd = pre.length + (wireFrame pairs).length ∧
      b.fileEnd ≤ fileLen - endOffset ∧
      (∀ u, u + 16 ≤ fileLen - endOffset → slice? file u (u + 16) = some Ksusig.magic → u + 16 ≤ b.fileEnd) ∧
      b.sizeStart = pairs.length + 24 ∧ b.sizeEnd = pairs.length + 24 ∧ b.contentSize = pairs.length ∧
      b.magic = Ksusig.magic := by
  obtain ⟨pre, pairs, post, h1, h2, h3, h4, h5, h6⟩ := fromReader_ok h
  refine ⟨pre, pairs, post, h1, h2, extractValues_ok h3, ?_⟩
  rw [h6, wireFrame_length']
  refine ⟨rfl, rfl, h4, ?_, rfl, rfl, rfl, rfl⟩
  intro u hu hm
  have := h5 u hu hm
  show u + 16 ≤ pre.length + pairs.length + 32
  omega

example : ∃ b, SigningBlock.fromReader .release ([7, 7] ++ smallWire ++ [1, 2]) 97 1 = .ok b :=
  Res.exists_of_isOk (by decide +kernel)

/-! ## C08 -/

/-- A file differing from `smallWire` inside the signed data. -/
def smallWire' : Bytes := smallWire.set 57 0xAA

/-- **C08** is false: two different files, differing in a byte covered by the length prefix of the signed data,
decode to the same block, so whatever signature is checked cannot tell them apart; and the altered file is not
reproduced by re-serialisation. -/
theorem C08_signed_bytes_malleable :
    smallWire ≠ smallWire' ∧ smallWire'.length = smallWire.length ∧
    (∃ b, SigningBlock.fromU8 .dev smallWire = .ok b ∧ SigningBlock.fromU8 .dev smallWire' = .ok b ∧
      b.toU8 ≠ smallWire') ∧
    slice? smallWire 28 61 = some (lp4 (smallSigner.wireSigned ++ [0, 0, 0, 0])) ∧
    slice? smallWire' 28 61 = some (lp4 (smallSigner.wireSigned ++ [0xAA, 0, 0, 0])) := by
  refine ⟨by decide +kernel, by decide +kernel, ?_, by decide +kernel, by decide +kernel⟩
  have h : (SigningBlock.fromU8 .dev smallWire >>= fun b => SigningBlock.fromU8 .dev smallWire' >>= fun b' =>
      Res.ok (decide (b' = b ∧ b.toU8 ≠ smallWire'))) = .ok true := by decide +kernel
  obtain ⟨b, hb, h⟩ := Res.bind_eq_ok.mp h
  obtain ⟨b', hb', h⟩ := Res.bind_eq_ok.mp h
  have h : b' = b ∧ b.toU8 ≠ smallWire' := by simpa using h
  exact ⟨b, hb, by rw [← h.1]; exact hb', h.2⟩

/-- The bytes of `smallWire` with the length of its digest entry raised to 100: the bytes handed to the
signature check then occur nowhere in the file (they are longer than the file). -/
theorem C08_checked_bytes_not_in_file : ∃ b s, SigningBlock.fromU8 .dev (smallWire.set 36 100) = .ok b ∧
    b.content.map (fun v => match v with | .v2 x => x.signers.data | _ => []) = [[s]] ∧
    (smallWire.set 36 100).length < s.signedData.toU8.length := by
  have h : (SigningBlock.fromU8 .dev (smallWire.set 36 100) >>= fun b =>
      match b.content with
      | [.v2 x] => match x.signers.data with
        | [s] => Res.ok (decide ((smallWire.set 36 100).length < s.signedData.toU8.length))
        | _ => .panic
      | _ => .panic) = .ok true := by decide +kernel
  obtain ⟨b, hb, h⟩ := Res.bind_eq_ok.mp h
  split at h
  · rename_i x hx
    split at h
    · rename_i s hs
      refine ⟨b, s, hb, by simp [hx, hs], by simpa using h⟩
    · cases h
  · cases h

/-- **C08** for blocks written with the constructors: reading back and serialising again reproduces the bytes, and
for every signer the bytes handed to the signature check are the length-prefixed signed data of the wire format
(V2: with its four zero bytes). -/
theorem C08_constructor_built_partial (p : Profile) (cs : List ContentSpec) (hok : ∀ c ∈ cs, c.Ok)
    (b b' : SigningBlock) (h : SigningBlock.new (cs.map ContentSpec.build) = .ok b)
    (h' : SigningBlock.fromU8 p b.toU8 = .ok b') :
    b'.toU8 = wireBlock cs ∧ b.toU8 = wireBlock cs ∧
    (∀ x s, Value.v2 x ∈ b'.content → s ∈ x.signers.data →
      ∃ ss σ, ContentSpec.v2 ss ∈ cs ∧ σ ∈ ss ∧ s.signedData.toU8 = lp4 (σ.wireSigned ++ [0, 0, 0, 0])) ∧
    (∀ x, Value.stamp x ∈ b'.content →
      ∃ σ, ContentSpec.stamp σ ∈ cs ∧ x.block.signedData.toU8 = lp4 σ.wireSigned) := by
  have hrt := C01_roundtrip_new p cs hok b h
  rw [hrt] at h'
  cases h'
  have hl := (C02_layout_new cs hok b h).1
  refine ⟨hl, hl, ?_, ?_⟩
  · intro x s hx hs
    obtain ⟨_, hb⟩ := SigningBlock.new_eq_ok.mp h
    rw [hb] at hx
    simp only [List.mem_map] at hx
    obtain ⟨c, hc, hcx⟩ := hx
    cases c with
    | v2 ss =>
      simp only [ContentSpec.build, Value.newV2, Value.v2.injEq] at hcx
      rw [← hcx] at hs
      simp only [SchemeV2.new, SignersV2.new, List.mem_map] at hs
      obtain ⟨σ, hσ, rfl⟩ := hs
      exact ⟨ss, σ, hc, hσ, signedV2_wire (hok _ hc σ hσ)⟩
    | raw => cases hcx
    | stamp => cases hcx
    | elf => cases hcx
  · intro x hx
    obtain ⟨_, hb⟩ := SigningBlock.new_eq_ok.mp h
    rw [hb] at hx
    simp only [List.mem_map] at hx
    obtain ⟨c, hc, hcx⟩ := hx
    cases c with
    | stamp σ =>
      simp only [ContentSpec.build, Value.newSourceStamp, Value.stamp.injEq] at hcx
      rw [← hcx]
      exact ⟨σ, hc, signedStamp_wire (hok _ hc)⟩
    | raw => cases hcx
    | v2 => cases hcx
    | elf => cases hcx

example : ∃ b b', SigningBlock.new (sampleContent.map ContentSpec.build) = .ok b ∧
    SigningBlock.fromU8 .dev b.toU8 = .ok b' := by
  obtain ⟨b, hb⟩ := Res.exists_of_isOk (x := SigningBlock.new (sampleContent.map ContentSpec.build))
    (by decide +kernel)
  exact ⟨b, b, hb, C01_roundtrip_new _ _ sampleContent_ok b hb⟩

/-! ## C09 -/

/-- The three ids with a structured decoder. -/
def Structured (id : UInt32) : Prop := id = 0x7109871a ∨ id = 0x6dff800d ∨ id = 0x4c45534b

theorem tiled_pairs {x : Bytes} {vs : List Value} (h : Tiled x vs) :
    ∃ l : List (UInt32 × Bytes), x = l.flatMap (fun q => wirePair q.1 q.2) ∧ l.length = vs.length ∧
      ∀ (i : Nat) (q : UInt32 × Bytes), l[i]? = some q → ∃ v, vs[i]? = some v ∧ PairOk q.1 q.2 v := by
  induction h with
  | nil => exact ⟨[], rfl, rfl, fun i q h => by simp at h⟩
  | cons id value v rest vs hp _ ih =>
    obtain ⟨l, h1, h2, h3⟩ := ih
    refine ⟨(id, value) :: l, by simp [h1], by simp [h2], ?_⟩
    intro i q hq
    cases i with
    | zero => simp at hq; subst hq; exact ⟨v, rfl, hp⟩
    | succ i => simpa using h3 i q (by simpa using hq)

theorem pairOk_raw {id : UInt32} {value : Bytes} {v : Value} (h : PairOk id value v) (hid : ¬ Structured id) :
    v = .raw ⟨4 + value.length, id, value⟩ ∧ v.toU8 = wirePair id value := by
  cases v with
  | raw r => cases h.1; exact ⟨rfl, rfl⟩
  | v2 s => exact absurd (.inl h.1) hid
  | stamp s => exact absurd (.inr (.inl h.1)) hid
  | elf s => exact absurd (.inr (.inr h.1)) hid

/-- **C09**: an accepted input is a frame around a list of pairs; every pair with an unstructured id is decoded, at
its own position, to a raw block with exactly its id and value, whose serialisation is exactly the pair. -/
theorem C09_raw_preserved (p : Profile) (d : Bytes) (b : SigningBlock) (h : SigningBlock.fromU8 p d = .ok b) :
    ∃ pre post, ∃ l : List (UInt32 × Bytes), d = pre ++ wireFrame (l.flatMap fun q => wirePair q.1 q.2) ++ post ∧
      l.length = b.content.length ∧
      ∀ (i : Nat) (id : UInt32) (value : Bytes), l[i]? = some (id, value) → ¬ Structured id →
        ∃ v : Value, b.content[i]? = some v ∧ v = .raw ⟨4 + value.length, id, value⟩ ∧ v.toU8 = wirePair id value := by
  obtain ⟨pre, pairs, post, h1, _, h3, _⟩ := C07_from_u8 p d b h
  obtain ⟨l, rfl, hl, hi⟩ := tiled_pairs h3
  refine ⟨pre, post, l, h1, hl, ?_⟩
  intro i id value hq hid
  obtain ⟨v, hv, hp⟩ := hi i _ hq
  exact ⟨v, hv, pairOk_raw hp hid⟩

/-- **C09**, same for blocks read from a file. -/
theorem C09_raw_preserved_reader (p : Profile) (file : Bytes) (fileLen endOffset : Nat) (b : SigningBlock)
    (h : SigningBlock.fromReader p file fileLen endOffset = .ok b) :
    ∃ pre post, ∃ l : List (UInt32 × Bytes), file = pre ++ wireFrame (l.flatMap fun q => wirePair q.1 q.2) ++ post ∧
      l.length = b.content.length ∧ b.fileStart = pre.length ∧
      ∀ (i : Nat) (id : UInt32) (value : Bytes), l[i]? = some (id, value) → ¬ Structured id →
        ∃ v : Value, b.content[i]? = some v ∧ v = .raw ⟨4 + value.length, id, value⟩ ∧ v.toU8 = wirePair id value := by
  obtain ⟨pre, pairs, post, h1, _, h3, h4, _⟩ := C07_from_reader p file fileLen endOffset b h
  obtain ⟨l, rfl, hl, hi⟩ := tiled_pairs h3
  refine ⟨pre, post, l, h1, hl, h4, ?_⟩
  intro i id value hq hid
  obtain ⟨v, hv, hp⟩ := hi i _ hq
  exact ⟨v, hv, pairOk_raw hp hid⟩

/-- **C09**: every list of unstructured pairs that fits in a block can be written and is read back as exactly those
raw blocks. -/
theorem C09_raw_written_and_read (p : Profile) (l : List (UInt32 × Bytes)) (hid : ∀ q ∈ l, ¬ Structured q.1)
    (hsz : (l.map fun q => q.2.length + 12).sum + 24 ≤ 16384) :
    ∃ b, SigningBlock.fromU8 p (wireFrame (l.flatMap fun q => wirePair q.1 q.2)) = .ok b ∧
      b.content = l.map (fun q => .raw ⟨4 + q.2.length, q.1, q.2⟩) ∧
      b.toU8 = wireFrame (l.flatMap fun q => wirePair q.1 q.2) := by
  let cs : List ContentSpec := l.map fun q => .raw q.1 q.2
  have hok : ∀ c ∈ cs, c.Ok := by
    intro c hc
    obtain ⟨q, hq, rfl⟩ := List.mem_map.mp hc
    have := hid q hq
    simp only [Structured, not_or] at this
    exact this
  have hbuild : cs.map ContentSpec.build = l.map (fun q => .raw ⟨4 + q.2.length, q.1, q.2⟩) := by
    simp [cs, ContentSpec.build, RawData.new]
  have hw : wireBlock cs = wireFrame (l.flatMap fun q => wirePair q.1 q.2) := by
    simp [wireBlock, cs, List.flatMap_map, ContentSpec.id, ContentSpec.wireValue]
  have hs : contentSum (cs.map ContentSpec.build) + 24 ≤ maxBlockSize := by
    rw [contentSum_eq, hbuild, List.map_map]
    have : (Value.size ∘ fun q : UInt32 × Bytes => Value.raw ⟨4 + q.2.length, q.1, q.2⟩) =
        fun q => q.2.length + 12 := by
      funext q; simp only [Function.comp, Value.size, Value.innerSize]; omega
    rw [this]; exact hsz
  obtain ⟨b, hb⟩ : ∃ b, SigningBlock.new (cs.map ContentSpec.build) = .ok b :=
    ⟨_, SigningBlock.new_eq_ok.mpr ⟨hs, rfl⟩⟩
  have hl := (C02_layout_new cs hok b hb).1
  refine ⟨b, ?_, ?_, by rw [hl, hw]⟩
  · rw [← hw, ← hl]; exact C01_roundtrip_new p cs hok b hb
  · obtain ⟨_, rfl⟩ := SigningBlock.new_eq_ok.mp hb; exact hbuild

example : (∀ q ∈ [((5 : UInt32), ([1, 2, 3] : Bytes)), (0x42726577, [])], ¬ Structured q.1) ∧
    ([((5 : UInt32), ([1, 2, 3] : Bytes)), (0x42726577, [])].map fun q => q.2.length + 12).sum + 24 ≤ 16384 := by
  constructor
  · intro q hq; simp only [Structured]; revert q; decide
  · decide

/-! ## C10 -/

/-- **C10** is false while decoding: four bytes make the decoder reserve room for 2^32 - 1 section entries. -/
theorem C10_reserve_unbounded : ElfSectionInfo.reserved [0xff, 0xff, 0xff, 0xff] = .ok 4294967295 := by
  decide +kernel

theorem digest_size_le (s : SignedDataV2) (dg : Digest) (h : dg ∈ s.digests.data) : dg.size ≤ s.toU8.length := by
  have h1 : dg.size ≤ dg.toU8.length := by
    simp only [Digest.toU8, zeroPad, List.length_append, List.length_replicate, leBytes_length]; omega
  have h2 : dg.toU8.length ≤ s.digests.content.length := by
    simp only [Digests.content, List.length_flatMap]
    exact le_sum_of_mem (List.mem_map.mpr ⟨dg, h, rfl⟩)
  have h3 : s.digests.content.length ≤ s.digests.toU8.length := by
    simp only [Digests.toU8, List.length_append]; omega
  simp only [SignedDataV2.toU8, SignedDataV2.content, List.length_append]
  omega

/-- `smallWire` with the length field of its digest entry set to the maximum. -/
def hugeWire : Bytes := (((smallWire.set 36 0xff).set 37 0xff).set 38 0xff).set 39 0xff

/-- **C10** is false while verifying: from a 93-byte block the signed data is re-serialised to 4 GiB. -/
theorem C10_reserialise_unbounded : hugeWire.length = 93 ∧
    ∃ b x s, SigningBlock.fromU8 .dev hugeWire = .ok b ∧ Value.v2 x ∈ b.content ∧ s ∈ x.signers.data ∧
      4294967295 ≤ s.signedData.toU8.length := by
  refine ⟨by decide +kernel, ?_⟩
  have h : (SigningBlock.fromU8 .dev hugeWire >>= fun b =>
      match b.content with
      | [.v2 x] => match x.signers.data with
        | [s] => match s.signedData.digests.data with
          | [d] => Res.ok d.size
          | _ => .panic
        | _ => .panic
      | _ => .panic) = .ok 4294967295 := by decide +kernel
  obtain ⟨b, hb, h⟩ := Res.bind_eq_ok.mp h
  split at h
  · rename_i x hx
    split at h
    · rename_i s hs
      split at h
      · rename_i d hd
        refine ⟨b, x, s, hb, by simp [hx], by simp [hs], ?_⟩
        have : d.size = 4294967295 := by simpa using h
        rw [← this]
        exact digest_size_le s.signedData d (by simp [hd])
      · cases h
    · cases h
  · cases h

/-- **C10**, the data kept in memory: everything a decoded block holds is paid for by distinct input bytes. -/
theorem C10_stored_bounded_partial (p : Profile) (d : Bytes) (b : SigningBlock)
    (h : SigningBlock.fromU8 p d = .ok b) : (b.content.map Value.weight).sum ≤ d.length := fromU8_weight h

/-- **C10**, the data kept in memory, reading from a file: additionally never more than 16 KB and 8 bytes. -/
theorem C10_stored_bounded_reader_partial (p : Profile) (file : Bytes) (fileLen endOffset : Nat) (b : SigningBlock)
    (h : SigningBlock.fromReader p file fileLen endOffset = .ok b) :
    (b.content.map Value.weight).sum ≤ file.length ∧ (b.content.map Value.weight).sum ≤ 16384 + 8 :=
  fromReader_weight h

end Ksusig.Props
