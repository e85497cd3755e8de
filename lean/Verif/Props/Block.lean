import Verif.Proofs.Block

/-!
# Properties of building and serialising signing blocks (C01–C05, C11, C48)
-/

namespace Ksusig.Props

open Ksusig Ksusig.Spec

/-- A concrete, non-trivial content list used by the examples: a V2 block with two signers, a stamp, an
ELF section info and an unknown block. -/
def sampleSigner (k : UInt8) : SignerSpec :=
  { digests := [(.p256, [k, 1, 2]), (.unknown 7, [])]
    certs := [[0x30, k], []]
    attrs := [(5, [9, 9, k])]
    sigs := [(.p256, [3, k]), (.p384, [])]
    key := [k, k] }

def sampleContent : List ContentSpec :=
  [.v2 [sampleSigner 1, sampleSigner 2], .stamp (sampleSigner 3), .elf [([0x2e, 0x61], 64, 128)], .raw 5 [1, 2, 3]]

theorem sampleContent_ok : ∀ c ∈ sampleContent, c.Ok := by decide +kernel

/-! ## C01 -/

/-- **C01** (`SigningBlock::new`). -/
theorem C01_roundtrip_new (p : Profile) (cs : List ContentSpec) (hok : ∀ c ∈ cs, c.Ok) (b : SigningBlock)
    (h : SigningBlock.new (cs.map ContentSpec.build) = .ok b) :
    SigningBlock.fromU8 p b.toU8 = .ok b := by
  obtain ⟨hlim, rfl⟩ := SigningBlock.new_eq_ok.mp h
  have hw := built_wf hok 0 (contentSum (cs.map ContentSpec.build) + 32) hlim
  rw [fromU8_toU8 p hw, hw.toU8_length]

/-- **C01** (`SigningBlock::new_with_padding`). -/
theorem C01_roundtrip_new_with_padding (p q : Profile) (cs : List ContentSpec) (hok : ∀ c ∈ cs, c.Ok)
    (b : SigningBlock) (h : SigningBlock.newWithPadding p (cs.map ContentSpec.build) = .ok b) :
    SigningBlock.fromU8 q b.toU8 = .ok b := by
  obtain ⟨cs', hok', _, h'⟩ := padded_spec hok h
  exact C01_roundtrip_new q cs' hok' b h'

example : ∃ b, SigningBlock.new (sampleContent.map ContentSpec.build) = .ok b ∧ b.content.length = 4 :=
  ⟨_, SigningBlock.new_eq_ok.mpr ⟨by decide +kernel, rfl⟩, rfl⟩

example : ∃ b, SigningBlock.newWithPadding .dev (sampleContent.map ContentSpec.build) = .ok b :=
  Res.exists_of_isOk (by decide +kernel)

/-- The side condition on algorithm values is needed: `Algorithms::Unknown(0x0201)` is a value the public
API can build and it decodes to the known algorithm. -/
theorem C01_alias_not_preserved :
    let content (a : Algo) : ContentSpec := .v2 [⟨[(a, [1])], [], [], [], []⟩]
    ∃ b b', SigningBlock.new [(content (.unknown 0x0201)).build] = .ok b ∧
      SigningBlock.fromU8 .dev b.toU8 = .ok b' ∧ b' ≠ b := by
  intro content
  have h : (SigningBlock.new [(content (.unknown 0x0201)).build] >>= fun b => SigningBlock.fromU8 .dev b.toU8 >>=
      fun b' => Res.ok (decide (b' = b))) = .ok false := by decide +kernel
  obtain ⟨b, hb, h⟩ := Res.bind_eq_ok.mp h
  obtain ⟨b', hb', h⟩ := Res.bind_eq_ok.mp h
  exact ⟨b, b', hb, hb', by simpa using h⟩

/-! ## C02 -/

/-- **C02** (layout of a fresh block, byte for byte). -/
theorem C02_layout_new (cs : List ContentSpec) (hok : ∀ c ∈ cs, c.Ok) (b : SigningBlock)
    (h : SigningBlock.new (cs.map ContentSpec.build) = .ok b) :
    b.toU8 = wireBlock cs ∧ b.fullSize = b.toU8.length ∧ b.fileEnd - b.fileStart = b.toU8.length := by
  obtain ⟨hlim, rfl⟩ := SigningBlock.new_eq_ok.mp h
  have hw := built_wf hok 0 (contentSum (cs.map ContentSpec.build) + 32) hlim
  refine ⟨toU8_wire hok ?_ rfl rfl rfl rfl, ?_, ?_⟩
  · intro c hc
    apply small_of_size
    have : c.build.size ≤ contentSum (cs.map ContentSpec.build) := by
      rw [contentSum_eq]; exact le_sum_of_mem (by simp; exact ⟨c, hc, rfl⟩)
    omega
  · rw [hw.toU8_length]; rfl
  · rw [hw.toU8_length]; rfl

/-- **C02** (padded block). -/
theorem C02_layout_new_with_padding (p : Profile) (cs : List ContentSpec) (hok : ∀ c ∈ cs, c.Ok) (b : SigningBlock)
    (h : SigningBlock.newWithPadding p (cs.map ContentSpec.build) = .ok b) :
    (∃ pad, (pad = [] ∨ ∃ n, pad = [ContentSpec.raw 0x42726577 (List.replicate n 0)]) ∧
      b.toU8 = wireBlock (cs ++ pad)) ∧
      b.fullSize = b.toU8.length ∧ b.fileEnd - b.fileStart = b.toU8.length := by
  obtain ⟨cs', hok', hcs, h'⟩ := padded_spec hok h
  obtain ⟨h1, h2, h3⟩ := C02_layout_new cs' hok' b h'
  refine ⟨?_, h2, h3⟩
  rcases hcs with rfl | ⟨n, rfl⟩
  · exact ⟨[], .inl rfl, by simpa using h1⟩
  · exact ⟨_, .inr ⟨n, rfl⟩, h1⟩

/-- **C02** (after editing the content of any block that carries the magic and calling
`recalculate_size`): same layout, whatever the size, as long as counts and names fit their fields. -/
theorem C02_layout_recalculate (b : SigningBlock) (hm : b.magic = Ksusig.magic) (cs : List ContentSpec)
    (hok : ∀ c ∈ cs, c.Ok) (hs : ∀ n o s es, ContentSpec.elf es ∈ cs → es.length < 2 ^ 32 ∧
      ((n, o, s) ∈ es → n.length < 2 ^ 16)) (hc : b.content = cs.map ContentSpec.build) :
    let b' := b.recalculateSize
    b'.content = b.content ∧ b'.fileStart = b.fileStart ∧
      b'.toU8 = wireBlock cs ∧ b'.fullSize = b'.toU8.length ∧ b'.fileEnd - b'.fileStart = b'.toU8.length := by
  have hsm : ∀ c ∈ cs, c.Small := by
    intro c hcm
    cases c with
    | elf es => exact ⟨(hs [] 0 0 es hcm).1, fun e he => (hs e.1 e.2.1 e.2.2 es hcm).2 he⟩
    | _ => trivial
  intro b'
  have h1 : b'.toU8 = wireBlock cs := toU8_wire hok hsm hc rfl rfl hm
  have hl : (cs.flatMap fun c => wirePair c.id c.wireValue).length = contentSum b.content := by
    rw [← flatMap_wire hok hsm, hc]
    apply content_length
    intro v hv
    rw [List.mem_map] at hv
    obtain ⟨c, hc, rfl⟩ := hv
    exact build_wf (hok c hc) (hsm c hc)
  have h2 : b'.toU8.length = contentSum b.content + 32 := by
    rw [h1, wireBlock, wireFrame_length, hl]
  refine ⟨rfl, rfl, h1, ?_, ?_⟩
  · rw [h2]; simp only [SigningBlock.fullSize, b', SigningBlock.recalculateSize]
  · rw [h2]; simp only [b', SigningBlock.recalculateSize]; omega

example : ∃ b : SigningBlock, b.magic = Ksusig.magic ∧ b.content = sampleContent.map ContentSpec.build :=
  ⟨⟨100, 0, 0, 0, sampleContent.map ContentSpec.build, 0, Ksusig.magic⟩, rfl, rfl⟩

/-- **C02** (reading the frame of the specified layout): first 8 bytes and the 8 bytes before the magic hold
the length minus 8, the last 16 bytes are the magic. This ties `wireFrame` to the English statement. -/
theorem C02_frame_fields (pairs : Bytes) (h : pairs.length + 24 < 2 ^ 64) :
    let w := wireFrame pairs
    leNat (w.take 8) = w.length - 8 ∧ leNat ((w.drop (w.length - 24)).take 8) = w.length - 8 ∧
      w.drop (w.length - 16) = Ksusig.magic := by
  intro w
  have hl : w.length = pairs.length + 32 := wireFrame_length pairs
  have hn : pairs.length + 24 < 256 ^ 8 := by
    have : (256 : Nat) ^ 8 = 2 ^ 64 := by decide
    omega
  have e0 : w = leBytes 8 (pairs.length + 24) ++ (pairs ++ leBytes 8 (pairs.length + 24) ++ Ksusig.magic) := by
    simp only [w, wireFrame, List.append_assoc]; rfl
  have e1 : w = (leBytes 8 (pairs.length + 24) ++ pairs) ++ (leBytes 8 (pairs.length + 24) ++ Ksusig.magic) := by
    simp only [w, wireFrame, List.append_assoc]; rfl
  have e2 : w = (leBytes 8 (pairs.length + 24) ++ pairs ++ leBytes 8 (pairs.length + 24)) ++ Ksusig.magic := by
    simp only [w, wireFrame, List.append_assoc]; rfl
  refine ⟨?_, ?_, ?_⟩
  · have : w.take 8 = leBytes 8 (pairs.length + 24) := by
      rw [e0]; exact List.take_left' (leBytes_length _ _)
    rw [this, leNat_leBytes_of_lt hn, hl]; omega
  · have : (w.drop (w.length - 24)).take 8 = leBytes 8 (pairs.length + 24) := by
      rw [show w.length - 24 = (leBytes 8 (pairs.length + 24) ++ pairs).length by simp [hl]; omega, e1,
        List.drop_left]
      exact List.take_left' (leBytes_length _ _)
    rw [this, leNat_leBytes_of_lt hn, hl]; omega
  · rw [show w.length - 16 = (leBytes 8 (pairs.length + 24) ++ pairs ++ leBytes 8 (pairs.length + 24)).length by
      simp [hl]; omega, e2, List.drop_left]

/-! ## C03 -/

/-- **C03**, for every content list whatsoever: content is preserved, at most one zero-filled padding block is
added, and the announced full size is a multiple of 4096. -/
theorem C03_padding_content (p : Profile) (c : List Value) (b : SigningBlock)
    (h : SigningBlock.newWithPadding p c = .ok b) :
    (b.content = c ∨ ∃ n, b.content = c ++ [.raw ⟨4 + n, 0x42726577, List.replicate n 0⟩]) ∧
      b.fullSize % 4096 = 0 := by
  obtain ⟨_, pad, hpad, hmod, _, rfl⟩ := SigningBlock.newWithPadding_ok h
  refine ⟨?_, hmod⟩
  rcases hpad with rfl | ⟨n, rfl⟩
  · left; simp
  · right; exact ⟨n, by simp [padBlock, RawData.new, paddingBlockId]⟩

/-- **C03** for constructor-built content: the serialised bytes are a multiple of 4096 long. -/
theorem C03_padding_aligned (p : Profile) (cs : List ContentSpec) (hok : ∀ c ∈ cs, c.Ok) (b : SigningBlock)
    (h : SigningBlock.newWithPadding p (cs.map ContentSpec.build) = .ok b) : b.toU8.length % 4096 = 0 := by
  rw [← (C02_layout_new_with_padding p cs hok b h).2.1]
  exact (C03_padding_content p _ b h).2

/-! ## C04 -/

/-- Room left before the next 4096 boundary for a block with this content. -/
def room (c : List Value) : Nat := (4096 - (8 + (c.map Value.size).sum + 8 + 16) % 4096) % 4096

/-- **C04** is false in overflow-checked builds: the error message computes a negative number. -/
theorem C04_dev_panics : ∃ c : List Value, SigningBlock.newWithPadding .dev c = .panic := by
  refine ⟨[.raw (RawData.new 1 (List.replicate 4046 0))], ?_⟩
  rw [SigningBlock.newWithPadding_eq _ _ (by decide +kernel)]
  have : contentSum [Value.raw (RawData.new 1 (List.replicate 4046 0))] = 4058 := by
    decide +kernel
  rw [this]
  rfl

/-- **C04**, exact behaviour in both profiles: success or one of the three documented errors in release
builds; in dev builds the "not enough room" error is a panic instead. -/
theorem C04_exact_outcome_partial (p : Profile) (c : List Value) :
    SigningBlock.newWithPadding p c =
      if ∃ v ∈ c, v.id = 0x42726577 then .err .paddingExists
      else if 0 < room c ∧ room c < 12 then (match p with | .dev => .panic | .release => .err .paddingTooLow)
      else if 24 + (c.map Value.size).sum + room c > 16384 then .err .blockTooLarge
      else
        let n := 24 + (c.map Value.size).sum + room c
        let pad := if room c = 0 then [] else [.raw ⟨room c - 8, 0x42726577, List.replicate (room c - 12) 0⟩]
        .ok ⟨0, n + 8, n, n - 24, c ++ pad, n, Ksusig.magic⟩ := by
  by_cases hid : ∃ v ∈ c, v.id = 0x42726577
  · rw [if_pos hid]
    unfold SigningBlock.newWithPadding
    rw [if_pos]
    obtain ⟨v, hv, he⟩ := hid
    simp only [List.any_eq_true]
    exact ⟨v, hv, by simp [he, paddingBlockId]⟩
  · rw [if_neg hid]
    have hid' : c.any (fun v => v.id == paddingBlockId) = false := by
      rw [List.any_eq_false]
      intro v hv he
      exact hid ⟨v, hv, by simpa [paddingBlockId] using he⟩
    rw [SigningBlock.newWithPadding_eq p c hid']
    have hr : room c = (4096 - (contentSum c + 32) % 4096) % 4096 := by
      rw [contentSum_eq, room]
      congr 3; omega
    have hs : (c.map Value.size).sum = contentSum c := (contentSum_eq c).symm
    have hm : maxBlockSize = 16384 := rfl
    rw [hs]
    have hlt : (contentSum c + 32) % 4096 < 4096 := Nat.mod_lt _ (by decide)
    generalize contentSum c = s at *
    generalize room c = r at *
    by_cases h0 : (s + 32) % 4096 = 0
    · have r0 : r = 0 := by rw [hr, h0]
      simp only [h0, if_true, r0, Nat.lt_irrefl, false_and, if_false, Nat.add_zero, List.append_nil]
      by_cases hb : s + 32 > maxBlockSize + 8
      · rw [if_pos hb, if_pos (by omega)]
      · rw [if_neg hb, if_neg (by omega)]
        congr 2 <;> omega
    · have r1 : r = 4096 - (s + 32) % 4096 := by rw [hr]; omega
      simp only [h0, if_false]
      by_cases h12 : 4096 - (s + 32) % 4096 < 12
      · rw [if_pos (by omega : 0 < r ∧ r < 12)]
        simp only [h12, if_true]
        cases p <;> rfl
      · rw [if_neg (by omega : ¬ (0 < r ∧ r < 12))]
        simp only [h12, if_false]
        by_cases hb : s + 32 + (4096 - (s + 32) % 4096) > maxBlockSize + 8
        · rw [if_pos hb, if_pos (by omega)]
        · rw [if_neg hb, if_neg (by omega), if_neg (by omega : ¬ r = 0)]
          simp only [padBlock, RawData.new, paddingBlockId, List.length_replicate, ← r1]
          have e : 4 + (r - 12) = r - 8 := by omega
          rw [e]
          congr 2 <;> omega

/-- **C04** for release builds as stated: never a panic. -/
theorem C04_release_never_panics_partial (c : List Value) : SigningBlock.newWithPadding .release c ≠ .panic := by
  rw [C04_exact_outcome_partial]
  repeat' split
  all_goals first | contradiction | simp

example : (∃ b, SigningBlock.newWithPadding .release (sampleContent.map ContentSpec.build) = .ok b) ∧
    SigningBlock.newWithPadding .release [.raw (RawData.new 0x42726577 [])] = .err .paddingExists :=
  ⟨Res.exists_of_isOk (by decide +kernel), by decide +kernel⟩

/-! ## C05 -/

/-- **C05** (writer side): `new` accepts exactly the contents whose size field is at most 16384. -/
theorem C05_writer_limit_partial (c : List Value) :
    (∃ b, SigningBlock.new c = .ok b ∧ b.sizeStart = (c.map Value.size).sum + 24) ∧ (c.map Value.size).sum + 24 ≤ 16384 ∨
    SigningBlock.new c = .err .blockTooLarge ∧ (c.map Value.size).sum + 24 > 16384 := by
  rw [← contentSum_eq]
  by_cases h : contentSum c + 24 ≤ maxBlockSize
  · exact .inl ⟨⟨_, SigningBlock.new_eq_ok.mpr ⟨h, rfl⟩, rfl⟩, h⟩
  · refine .inr ⟨?_, by simp only [maxBlockSize] at h; omega⟩
    unfold SigningBlock.new
    simp only
    rw [if_pos (by omega)]

/-- **C05** is false for the ELF signing path: a block that fills its 16 KB, extended with section info and
`recalculate_size`d as `cli/sign.rs` does, serialises to bytes the reader rejects. Holds for *every* section
list and every such block. -/
theorem C05_elf_path_unreadable (p q : Profile) (cs : List ContentSpec) (hok : ∀ c ∈ cs, c.Ok)
    (es : List (Bytes × UInt64 × UInt64)) (hu : ∀ e ∈ es, validUtf8 e.1 = true) (hes : ContentSpec.Small (.elf es))
    (b : SigningBlock) (h : SigningBlock.newWithPadding p (cs.map ContentSpec.build) = .ok b)
    (hfull : b.fullSize = 16384) :
    let b' := SigningBlock.recalculateSize { b with content := b.content ++ [ContentSpec.build (.elf es)] }
    SigningBlock.fromU8 q b'.toU8 = .err .blockTooLarge := by
  intro b'
  obtain ⟨cs', hok', _, h'⟩ := padded_spec hok h
  obtain ⟨hlim, hb⟩ := SigningBlock.new_eq_ok.mp h'
  have hsz : contentSum (cs'.map ContentSpec.build) + 32 = 16384 := by
    rw [hb] at hfull; exact hfull
  have hx : (ContentSpec.build (.elf es)).size ≥ 16 := by
    simp only [ContentSpec.build, Value.size, Value.innerSize, ElfSectionInfo.fromTuples, ElfSectionInfo.new]
    omega
  have hsm : ∀ c ∈ cs' ++ [ContentSpec.elf es], c.Small := by
    intro c hc
    rcases List.mem_append.mp hc with hc | hc
    · apply small_of_size
      have : c.build.size ≤ contentSum (cs'.map ContentSpec.build) := by
        rw [contentSum_eq]; exact le_sum_of_mem (by simp; exact ⟨c, hc, rfl⟩)
      omega
    · rw [List.mem_singleton] at hc; rw [hc]; exact hes
  have hok'' : ∀ c ∈ cs' ++ [ContentSpec.elf es], c.Ok := by
    intro c hc
    rcases List.mem_append.mp hc with hc | hc
    · exact hok' c hc
    · rw [List.mem_singleton] at hc; rw [hc]; exact hu
  have hcont : b'.content = (cs' ++ [ContentSpec.elf es]).map ContentSpec.build := by
    simp [b', SigningBlock.recalculateSize, hb]
  have hbs : b'.sizeStart = contentSum (cs'.map ContentSpec.build) + (ContentSpec.build (.elf es)).size + 24 := by
    simp only [b', SigningBlock.recalculateSize, hb, contentSum_append]
    simp [contentSum]
  have hw := toU8_wire hok'' hsm hcont
    (b := b') (by rfl) (by rfl) (by simp [b', SigningBlock.recalculateSize, hb])
  have hwf : ∀ v ∈ b'.content, v.WF := by
    intro v hv
    rw [hcont, List.mem_map] at hv
    obtain ⟨c, hc, rfl⟩ := hv
    exact build_wf (hok'' c hc) (hsm c hc)
  have hl : b'.toU8.length = b'.sizeStart + 8 := by
    have := content_length hwf
    have hm : b'.magic.length = 16 := by simp [b', SigningBlock.recalculateSize, hb, magic_length]
    simp only [SigningBlock.toU8, SigningBlock.contentToU8, List.length_append, leBytes_length, hm, this]
    have : b'.sizeStart = contentSum b'.content + 24 := rfl
    omega
  have hsmall : b'.sizeStart < 2 ^ 64 := by
    have hsz2 : (ContentSpec.build (.elf es)).size ≤ 16 + es.length * (18 + 2 ^ 16) := by
      simp only [ContentSpec.build, Value.size, Value.innerSize, ElfSectionInfo.fromTuples, ElfSectionInfo.new,
        List.map_map]
      have : ∀ l : List (Bytes × UInt64 × UInt64), (∀ e ∈ l, e.1.length < 2 ^ 16) →
          (l.map (SectionEntry.byteSize ∘ fun x : Bytes × UInt64 × UInt64 =>
            SectionEntry.new x.1 x.2.1 x.2.2)).sum ≤ l.length * (18 + 2 ^ 16) := by
        intro l hl
        induction l with
        | nil => simp
        | cons x xs ih =>
          have h1 := ih fun e he => hl e (by simp [he])
          have h2 := hl x (by simp)
          obtain ⟨n, o, s⟩ := x
          simp only [List.map_cons, List.sum_cons, Function.comp, SectionEntry.byteSize, SectionEntry.new,
            List.length_cons] at h1 h2 ⊢
          omega
      have := this es hes.2
      refine Nat.le_trans (Nat.add_le_add_right (Nat.add_le_add_left this 8) 8) ?_
      omega
    have := hes.1
    omega
  have hsz8 : b'.sizeStart < 256 ^ 8 := by
    have : (256 : Nat) ^ 8 = 2 ^ 64 := by decide
    omega
  have hm : b'.magic = Ksusig.magic := by simp [b', SigningBlock.recalculateSize, hb]
  have hcl := content_length hwf
  have hse : b'.sizeEnd = b'.sizeStart := rfl
  have hml : Ksusig.magic.length = 16 := rfl
  have hss : b'.sizeStart = contentSum b'.content + 24 := rfl
  unfold SigningBlock.fromU8
  rw [if_neg (by omega), show b'.toU8.length - 16 = (b'.toU8.length - 17) + 1 by omega]
  have s1 : slice? b'.toU8 (b'.toU8.length - 17 + 1) (b'.toU8.length - 17 + 1 + 16) = some Ksusig.magic := by
    have := slice?_append (leBytes 8 b'.sizeStart ++ b'.contentToU8 ++ leBytes 8 b'.sizeEnd) Ksusig.magic []
    rw [List.append_nil, ← hm] at this
    have e : (leBytes 8 b'.sizeStart ++ b'.contentToU8 ++ leBytes 8 b'.sizeEnd).length = b'.toU8.length - 17 + 1 := by
      simp only [hl, List.length_append, leBytes_length, SigningBlock.contentToU8, hcl]
      omega
    rw [e, hm, hml, ← hm] at this
    rw [← hm]; exact this
  have s3 : slice? b'.toU8 (b'.toU8.length - 17 + 1 - 8) (b'.toU8.length - 17 + 1) =
      some (leBytes 8 b'.sizeEnd) := by
    have := slice?_append (leBytes 8 b'.sizeStart ++ b'.contentToU8) (leBytes 8 b'.sizeEnd) b'.magic
    have e : (leBytes 8 b'.sizeStart ++ b'.contentToU8).length = b'.toU8.length - 17 + 1 - 8 := by
      simp only [hl, List.length_append, leBytes_length, SigningBlock.contentToU8, hcl]
      omega
    rw [e, leBytes_length] at this
    rw [show b'.toU8.length - 17 + 1 - 8 + 8 = b'.toU8.length - 17 + 1 by omega] at this
    exact this
  unfold fromU8Scan
  rw [s1]
  simp only [if_true]
  unfold fromU8At
  have u1 : usub q (b'.toU8.length - 17 + 1) 8 = .ok (b'.toU8.length - 17 + 1 - 8) := by
    unfold usub; rw [if_pos (by omega)]
  rw [u1]
  simp only [Res.ok_bind, s3, Res.ofOption_some, hse, leNat_leBytes_of_lt hsz8]
  rw [if_pos (by rw [hbs]; simp only [maxBlockSize]; omega)]

/-- Such blocks exist: a signer whose certificates take 12 KB is padded to exactly 16 KB. -/
example : ∃ b, SigningBlock.newWithPadding .dev
    (([.v2 [{ (sampleSigner 1) with certs := [List.replicate 12500 0x30] }]] : List ContentSpec).map
      ContentSpec.build) = .ok b ∧ b.fullSize = 16384 := by
  obtain ⟨b, hb⟩ := Res.exists_of_isOk (x := SigningBlock.newWithPadding .dev
    (([.v2 [{ (sampleSigner 1) with certs := [List.replicate 12500 0x30] }]] : List ContentSpec).map
      ContentSpec.build)) (by decide +kernel)
  refine ⟨b, hb, ?_⟩
  have : (SigningBlock.newWithPadding .dev
    (([.v2 [{ (sampleSigner 1) with certs := [List.replicate 12500 0x30] }]] : List ContentSpec).map
      ContentSpec.build) >>= fun b => Res.ok b.fullSize) = .ok 16384 := by decide +kernel
  rw [hb] at this
  simpa using this

/-! ## C11 -/

/-- **C11**: conversions are inverse, known ids are exactly 0x0201 and 0x0202, and the mixed comparison
agrees with the conversion. -/
theorem C11_algorithm_ids (x : UInt32) (a : Algo) :
    (Algo.ofU32 x).toU32 = x ∧ Algo.ofU32 (Algo.ofU32 x).toU32 = Algo.ofU32 x ∧
      (Algo.ofU32 x = .p256 ↔ x = 0x0201) ∧ (Algo.ofU32 x = .p384 ↔ x = 0x0202) ∧
      (Algo.eqU32 x a = true ↔ x = a.toU32) := by
  refine ⟨?_, ?_, ?_, ?_, ?_⟩
  · by_cases h1 : x = 0x0201
    · subst h1; rfl
    · by_cases h2 : x = 0x0202
      · subst h2; rfl
      · simp [Algo.ofU32, h1, h2, Algo.toU32]
  · by_cases h1 : x = 0x0201
    · subst h1; rfl
    · by_cases h2 : x = 0x0202
      · subst h2; rfl
      · simp [Algo.ofU32, h1, h2, Algo.toU32]
  · by_cases h1 : x = 0x0201
    · subst h1; decide
    · by_cases h2 : x = 0x0202
      · subst h2; decide
      · simp [Algo.ofU32, h1, h2]
  · by_cases h1 : x = 0x0201
    · subst h1; decide
    · by_cases h2 : x = 0x0202
      · subst h2; decide
      · simp [Algo.ofU32, h1, h2]
  · cases a <;> simp [Algo.eqU32, Algo.toU32]

end Ksusig.Props
