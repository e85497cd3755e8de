import Verif.Proofs.Build

/-! Blocks returned by the constructors, and reading them back. -/

namespace Ksusig

theorem SigningBlock.new_eq_ok {c : List Value} {b : SigningBlock} :
    SigningBlock.new c = .ok b ↔
      contentSum c + 24 ≤ maxBlockSize ∧
        b = ⟨0, contentSum c + 32, contentSum c + 24, contentSum c, c, contentSum c + 24, Ksusig.magic⟩ := by
  unfold SigningBlock.new
  have e : 8 + (contentSum c + 8 + 16) = contentSum c + 32 := by omega
  simp only [e]
  split
  · constructor
    · intro h; cases h
    · intro h; omega
  · constructor
    · intro h; cases h; exact ⟨by omega, rfl⟩
    · rintro ⟨_, rfl⟩; rfl

theorem contentSum_append (a b : List Value) : contentSum (a ++ b) = contentSum a + contentSum b := by
  simp [contentSum_eq]

/-- The padding block with `n` bytes of payload. -/
def padBlock (n : Nat) : Value := .raw (RawData.new paddingBlockId (List.replicate n 0))

theorem padBlock_size (n : Nat) : (padBlock n).size = n + 12 := by
  simp [padBlock, Value.size, Value.innerSize, RawData.new]; omega

theorem padBlock_wf (n : Nat) : (padBlock n).WF := by
  have : paddingBlockId ≠ v2BlockId ∧ paddingBlockId ≠ stampBlockId ∧ paddingBlockId ≠ elfInfoBlockId := by decide
  exact ⟨rfl, this⟩

theorem contentSum_padBlock (n : Nat) : contentSum [padBlock n] = n + 12 := by
  simp [contentSum_eq, padBlock_size]

/-- `new_with_padding` succeeds exactly when no padding is present, the remaining room is 0 or at least
12, and the limit is kept. -/
theorem SigningBlock.newWithPadding_eq (p : Profile) (c : List Value)
    (hid : c.any (fun v => v.id == paddingBlockId) = false) :
    SigningBlock.newWithPadding p c =
      let t := contentSum c + 32
      if t % 4096 = 0 then
        if t > maxBlockSize + 8 then .err .blockTooLarge
        else .ok ⟨0, t, t - 8, t - 32, c, t - 8, Ksusig.magic⟩
      else if 4096 - t % 4096 < 12 then
        match p with
        | .dev => .panic
        | .release => .err .paddingTooLow
      else
        let t' := t + (4096 - t % 4096)
        if t' > maxBlockSize + 8 then .err .blockTooLarge
        else .ok ⟨0, t', t' - 8, t' - 32, c ++ [padBlock (4096 - t % 4096 - 12)], t' - 8, Ksusig.magic⟩ := by
  unfold SigningBlock.newWithPadding
  rw [hid]
  simp only [Bool.false_eq_true, if_false]
  have e : 8 + contentSum c + 8 + 16 = contentSum c + 32 := by omega
  rw [e]
  generalize hs : contentSum c = s
  have hm : maxBlockSize = 16384 := rfl
  have hlt : (s + 32) % 4096 < 4096 := Nat.mod_lt _ (by decide)
  by_cases h0 : (s + 32) % 4096 = 0
  · simp only [paddingBlocks, h0, if_true, Res.ok_bind, List.append_nil, hs]
    by_cases hb : s + 32 > maxBlockSize + 8
    · rw [if_pos (by omega), if_pos hb]
    · rw [if_neg (by omega), if_neg hb]
      have : (8 + (s + 8 + 16)) % 4096 = 0 := by omega
      have hd : debugAssert p ((8 + (s + 8 + 16)) % 4096 == 0) = .ok () := by cases p <;> simp [debugAssert, this]
      rw [hd]
      simp only [Res.ok_bind]
      have e1 : 8 + (s + 8 + 16) = s + 32 := by omega
      have e2 : s + 8 + 16 = s + 32 - 8 := by omega
      have e3 : s + 32 - 32 = s := by omega
      rw [e1, e2, e3]
  · simp only [h0, if_false]
    by_cases h1 : 4096 - (s + 32) % 4096 < 12
    · simp only [h1, if_true]
      have hp : paddingBlocks p (s + 32) = match p with | .dev => .panic | .release => .err .paddingTooLow := by
        simp only [paddingBlocks, h0, if_false]
        rw [if_neg (by omega)]
        have u1 : usub p 4096 ((s + 32) % 4096) = .ok (4096 - (s + 32) % 4096) := by
          unfold usub; rw [if_pos (by omega)]
        rw [u1]
        simp only [Res.ok_bind]
        generalize 4096 - (s + 32) % 4096 = a at *
        by_cases h4 : 4 ≤ a
        · have u2 : usub p a 4 = .ok (a - 4) := by unfold usub; rw [if_pos h4]
          rw [u2]
          simp only [Res.ok_bind]
          unfold usub
          rw [if_neg (by omega)]
          cases p <;> rfl
        · unfold usub
          rw [if_neg h4]
          cases p
          · rfl
          · simp only [Res.ok_bind]
            rw [if_pos (by omega)]
            rfl
      rw [hp]
      cases p <;> rfl
    · simp only [h1, if_false]
      have hp : paddingBlocks p (s + 32) = .ok [padBlock (4096 - (s + 32) % 4096 - 12)] := by
        simp only [paddingBlocks, h0, if_false]
        rw [if_pos (by omega)]
        simp only [padBlock]
        congr 5
      rw [hp]
      simp only [Res.ok_bind, contentSum_append, contentSum_padBlock, hs]
      generalize hv : (s + 32) % 4096 = v at *
      by_cases hb : s + 32 + (4096 - v) > maxBlockSize + 8
      · rw [if_pos (by omega), if_pos hb]
      · rw [if_neg (by omega), if_neg hb]
        have : (8 + (s + (4096 - v - 12 + 12) + 8 + 16)) % 4096 = 0 := by omega
        have hd : debugAssert p ((8 + (s + (4096 - v - 12 + 12) + 8 + 16)) % 4096 == 0) = .ok () := by
          cases p <;> simp [debugAssert, this]
        rw [hd]
        simp only [Res.ok_bind]
        congr 2 <;> omega

/-- Success of `new_with_padding`. -/
theorem SigningBlock.newWithPadding_ok {p : Profile} {c : List Value} {b : SigningBlock}
    (h : SigningBlock.newWithPadding p c = .ok b) :
    c.any (fun v => v.id == paddingBlockId) = false ∧
      ∃ pad, (pad = [] ∨ ∃ n, pad = [padBlock n]) ∧ (contentSum (c ++ pad) + 32) % 4096 = 0 ∧
        contentSum (c ++ pad) + 24 ≤ maxBlockSize ∧
        b = ⟨0, contentSum (c ++ pad) + 32, contentSum (c ++ pad) + 24, contentSum (c ++ pad), c ++ pad,
          contentSum (c ++ pad) + 24, Ksusig.magic⟩ := by
  by_cases hid : c.any (fun v => v.id == paddingBlockId) = true
  · unfold SigningBlock.newWithPadding at h
    rw [if_pos hid] at h
    cases h
  · have hid : c.any (fun v => v.id == paddingBlockId) = false := by simpa using hid
    refine ⟨hid, ?_⟩
    rw [SigningBlock.newWithPadding_eq p c hid] at h
    have hlt : (contentSum c + 32) % 4096 < 4096 := Nat.mod_lt _ (by decide)
    dsimp only at h
    split at h
    · rename_i h0
      split at h
      · cases h
      · cases h
        refine ⟨[], .inl rfl, ?_, ?_, ?_⟩
        · simpa using h0
        · simp only [List.append_nil]; omega
        · simp only [List.append_nil]
          congr 1
    · split at h
      · cases p <;> cases h
      · split at h
        · cases h
        · cases h
          refine ⟨[padBlock (4096 - (contentSum c + 32) % 4096 - 12)], .inr ⟨_, rfl⟩, ?_, ?_, ?_⟩
          · rw [contentSum_append, contentSum_padBlock]; omega
          · rw [contentSum_append, contentSum_padBlock]; omega
          · rw [contentSum_append, contentSum_padBlock]
            congr 1 <;> omega

/-- The scan starts at the last magic. -/
theorem fromU8_toU8 (p : Profile) {b : SigningBlock} (h : b.WF) :
    SigningBlock.fromU8 p b.toU8 = .ok { b with fileStart := 0, fileEnd := b.toU8.length } := by
  have hlen := h.toU8_length
  have h1 := h.sizeStart
  have h2 := h.sizeEnd
  have h3 := h.limit
  have hm := h.magic
  have hmb : maxBlockSize = 16384 := rfl
  have hml : Ksusig.magic.length = 16 := rfl
  have hcl := content_length h.content
  have hsz : b.sizeStart < 256 ^ 8 := by
    have : (256 : Nat) ^ 8 = 2 ^ 64 := by decide
    omega
  unfold SigningBlock.fromU8
  rw [if_neg (by omega)]
  have e : b.toU8.length - 16 = (b.toU8.length - 17) + 1 := by omega
  rw [e]
  have s1 : slice? b.toU8 (b.toU8.length - 17 + 1) (b.toU8.length - 17 + 1 + 16) = some Ksusig.magic := by
    have := slice?_append (leBytes 8 b.sizeStart ++ b.contentToU8 ++ leBytes 8 b.sizeEnd) Ksusig.magic []
    rw [List.append_nil, ← hm] at this
    have e : (leBytes 8 b.sizeStart ++ b.contentToU8 ++ leBytes 8 b.sizeEnd).length = b.toU8.length - 17 + 1 := by
      simp only [SigningBlock.toU8, List.length_append, leBytes_length, hm, hml, SigningBlock.contentToU8]; omega
    rw [e, hm, hml, ← hm] at this
    rw [← hm]; exact this
  have s3 : slice? b.toU8 (b.toU8.length - 17 + 1 - 8) (b.toU8.length - 17 + 1) = some (leBytes 8 b.sizeEnd) := by
    have := slice?_append (leBytes 8 b.sizeStart ++ b.contentToU8) (leBytes 8 b.sizeEnd) b.magic
    have e : (leBytes 8 b.sizeStart ++ b.contentToU8).length = b.toU8.length - 17 + 1 - 8 := by
      simp only [SigningBlock.toU8, List.length_append, hm, hml, leBytes_length]; omega
    rw [e, leBytes_length] at this
    rw [show b.toU8.length - 17 + 1 - 8 + 8 = b.toU8.length - 17 + 1 by omega] at this
    exact this
  have sfull : slice? b.toU8 0 b.toU8.length = some b.toU8 := by
    have := slice?_append [] b.toU8 []
    simpa using this
  unfold fromU8Scan
  rw [s1]
  simp only [if_true]
  unfold fromU8At
  have u1 : usub p (b.toU8.length - 17 + 1) 8 = .ok (b.toU8.length - 17 + 1 - 8) := by
    unfold usub; rw [if_pos (by omega)]
  have u2 : usub p b.sizeStart 16 = .ok (b.sizeStart - 16) := by
    unfold usub; rw [if_pos (by omega)]
  have u3 : uadd p (b.sizeStart - 16) 8 = .ok (b.sizeStart - 16 + 8) := by
    unfold uadd; rw [if_pos (by omega)]
  rw [u1]
  simp only [Res.ok_bind, s3, Res.ofOption_some, h2, leNat_leBytes_of_lt hsz]
  rw [if_neg (by omega), u2]
  simp only [Res.ok_bind]
  rw [u3]
  simp only [Res.ok_bind]
  rw [if_neg (by omega)]
  rw [show b.toU8.length - 17 + 1 - (b.sizeStart - 16 + 8) = 0 by omega,
    show b.toU8.length - 17 + 1 + 16 = b.toU8.length by omega, sfull]
  simp only [Res.ofOption_some, Res.ok_bind]
  rw [parseFullBlock_toU8 p h, h2]

end Ksusig

namespace Ksusig.Spec

open Ksusig

/-- A block whose content was built by constructors and whose size fields were computed is well-formed. -/
theorem built_wf {cs : List ContentSpec} (hok : ∀ c ∈ cs, c.Ok) (fs fe : Nat)
    (hlim : contentSum (cs.map ContentSpec.build) + 24 ≤ maxBlockSize) :
    SigningBlock.WF ⟨fs, fe, contentSum (cs.map ContentSpec.build) + 24, contentSum (cs.map ContentSpec.build),
      cs.map ContentSpec.build, contentSum (cs.map ContentSpec.build) + 24, Ksusig.magic⟩ where
  content := by
    intro v hv
    simp only [List.mem_map] at hv
    obtain ⟨c, hc, rfl⟩ := hv
    refine build_wf (hok c hc) (small_of_size ?_)
    have : c.build.size ≤ contentSum (cs.map ContentSpec.build) := by
      rw [contentSum_eq]; exact le_sum_of_mem (by simp; exact ⟨c, hc, rfl⟩)
    omega
  contentSize := rfl
  sizeStart := rfl
  sizeEnd := rfl
  limit := hlim
  magic := rfl

/-- The padding block, as caller content. -/
theorem padBlock_build (n : Nat) : padBlock n = (ContentSpec.raw paddingBlockId (List.replicate n 0)).build := rfl

/-- Content after padding, as caller content. -/
theorem padded_spec {p : Profile} {cs : List ContentSpec} {b : SigningBlock}
    (hok : ∀ c ∈ cs, c.Ok) (h : SigningBlock.newWithPadding p (cs.map ContentSpec.build) = .ok b) :
    ∃ cs' : List ContentSpec, (∀ c ∈ cs', c.Ok) ∧
      (cs' = cs ∨ ∃ n, cs' = cs ++ [.raw paddingBlockId (List.replicate n 0)]) ∧
      SigningBlock.new (cs'.map ContentSpec.build) = .ok b := by
  obtain ⟨_, pad, hpad, _, hlim, hb⟩ := SigningBlock.newWithPadding_ok h
  rcases hpad with rfl | ⟨n, rfl⟩
  · refine ⟨cs, hok, .inl rfl, ?_⟩
    rw [List.append_nil] at hlim hb
    exact SigningBlock.new_eq_ok.mpr ⟨hlim, hb⟩
  · refine ⟨cs ++ [.raw paddingBlockId (List.replicate n 0)], ?_, .inr ⟨n, rfl⟩, ?_⟩
    · intro c hc
      rcases List.mem_append.mp hc with hc | hc
      · exact hok c hc
      · rw [List.mem_singleton] at hc
        subst hc
        simp only [ContentSpec.Ok]
        decide
    · rw [padBlock_build] at hlim hb
      have e : (cs ++ [ContentSpec.raw paddingBlockId (List.replicate n 0)]).map ContentSpec.build =
          cs.map ContentSpec.build ++ [(ContentSpec.raw paddingBlockId (List.replicate n 0)).build] := by simp
      rw [SigningBlock.new_eq_ok, e]
      exact ⟨hlim, hb⟩

theorem flatMap_wire {cs : List ContentSpec} (hok : ∀ c ∈ cs, c.Ok) (hs : ∀ c ∈ cs, c.Small) :
    (cs.map ContentSpec.build).flatMap Value.toU8 = cs.flatMap fun c => wirePair c.id c.wireValue := by
  induction cs with
  | nil => rfl
  | cons c cs ih =>
    simp only [List.map_cons, List.flatMap_cons]
    rw [build_wire (hok c (by simp)) (hs c (by simp)), ih (fun x hx => hok x (by simp [hx]))
      (fun x hx => hs x (by simp [hx]))]

/-- The serialised form of a block with computed sizes. -/
theorem toU8_wire {cs : List ContentSpec} (hok : ∀ c ∈ cs, c.Ok) (hs : ∀ c ∈ cs, c.Small) {b : SigningBlock}
    (h1 : b.content = cs.map ContentSpec.build) (h2 : b.sizeStart = contentSum b.content + 24)
    (h3 : b.sizeEnd = b.sizeStart) (h4 : b.magic = Ksusig.magic) : b.toU8 = wireBlock cs := by
  have hc : b.contentToU8 = cs.flatMap fun c => wirePair c.id c.wireValue := by
    rw [SigningBlock.contentToU8, h1, flatMap_wire hok hs]
  have hl : (cs.flatMap fun c => wirePair c.id c.wireValue).length = contentSum b.content := by
    rw [← hc, SigningBlock.contentToU8]
    apply content_length
    intro v hv
    rw [h1, List.mem_map] at hv
    obtain ⟨c, hc, rfl⟩ := hv
    exact build_wf (hok c hc) (hs c hc)
  rw [SigningBlock.toU8, hc, h3, h2, h4, ← hl]
  rfl

theorem wireFrame_length (x : Bytes) : (wireFrame x).length = x.length + 32 := by
  simp [wireFrame]; omega

end Ksusig.Spec
