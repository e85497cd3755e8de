import Verif.Model.NarrowSign
import Verif.Props.NarrowBack
import Verif.Props.SignExact

/-! Signing on 32 bits and on 64 bits. -/

namespace Ksusig

open Spec Props

/-- The 64-bit machine reads a block, or finds that there is none. -/
def Readable (p : Profile) (file : Bytes) : Prop :=
  (∃ b, (Module.new file).getSigningBlock p file = .ok b) ∨ ∃ e, (Module.new file).getSigningBlock p file = .err e ∧ e.isMissing = true

theorem eocd_bounds {file : Bytes} {eocd : Eocd} (h1 : findEocd file file.length = .ok eocd) :
    eocd.fileOffset ≤ file.length ∧ file.length ≤ eocd.fileOffset + 65557 ∧ eocd.toU8.length ≤ 65557 := by
  obtain ⟨pos, t, off, ht, rfl⟩ := findEocd_iff.mp h1
  have hc : t.comment.length ≤ 65535 := ht.comment
  obtain ⟨before, after, hf, hl⟩ := ht.bytes
  refine ⟨?_, ?_, ?_⟩
  · show pos ≤ _
    rw [hf]
    simp only [List.length_append]
    omega
  · exact ht.reach
  · simp only [Eocd.toU8, Tail.eocd, List.length_append, leBytes_length, eocdSig, List.length_cons, List.length_nil]
    omega

theorem raw_equal {p : Profile} {file : Bytes} (h : file.length < 2 ^ 31) {b : SigningBlock}
    (hb : (Module.new file).getSigningBlock p file = .ok b) :
    Narrow.getRawModule p file = (Module.new file).getRawModule p file := by
  have hf : file.length + 65557 < 2 ^ 32 := by omega
  unfold Narrow.getRawModule Module.getRawModule
  rw [if_neg (by omega), if_neg (by simp [Module.new]), hb, ((block_twin p hf b).mp hb).1, narrow_len hf, findEocd_eq p hf]
  have he : (Module.new file).findEocd file = findEocd file file.length := rfl
  rw [he]
  simp only [Res.ok_bind]
  have hb' : (findEocd file file.length >>= fun eocd =>
    SigningBlock.fromReader p file file.length (file.length - eocd.cdOffset.toNat)) = .ok b := hb
  obtain ⟨eocd, h1, h8⟩ := Res.bind_eq_ok.mp hb'
  obtain ⟨pre, pairs, post, _, _, _, _, _, _, _, g8⟩ := fromReader_iff.mp h8
  have hle : b.fileStart ≤ b.fileEnd := by rw [g8]; dsimp only; omega
  have e1 : Narrow.usub p b.fileEnd b.fileStart = .ok (b.fileEnd - b.fileStart) := by unfold Narrow.usub; rw [if_pos hle]
  have e2 : usub p b.fileEnd b.fileStart = .ok (b.fileEnd - b.fileStart) := by unfold usub; rw [if_pos hle]
  rw [e1, e2, h1]
  simp only [Res.ok_bind]
  refine bind_same fun start => ?_
  refine bind_same fun cd => ?_
  have hl := (eocd_bounds h1).2.2
  have hl' : ({ eocd with cdOffset := cd } : Eocd).toU8.length ≤ 65557 := by
    have : ({ eocd with cdOffset := cd } : Eocd).toU8.length = eocd.toU8.length := by
      simp only [Eocd.toU8, List.length_append, leBytes_length]
    omega
  generalize ({ eocd with cdOffset := cd } : Eocd).toU8 = ser at hl' ⊢
  by_cases hs : ser.length ≤ file.length
  · have e3 : Narrow.usub p file.length ser.length = .ok (file.length - ser.length) := by unfold Narrow.usub; rw [if_pos hs]
    have e4 : usub p file.length ser.length = .ok (file.length - ser.length) := by unfold usub; rw [if_pos hs]
    rw [e3, e4]
  · cases p with
    | dev =>
      have e3 : Narrow.usub .dev file.length ser.length = .panic := by unfold Narrow.usub; rw [if_neg hs]
      have e4 : usub .dev file.length ser.length = .panic := by unfold usub; rw [if_neg hs]
      rw [e3, e4]
    | release =>
      have e3 : Narrow.usub .release file.length ser.length = .ok (2 ^ 32 + file.length - ser.length) := by unfold Narrow.usub; rw [if_neg hs]
      have e4 : usub .release file.length ser.length = .ok (2 ^ 64 + file.length - ser.length) := by unfold usub; rw [if_neg hs]
      rw [e3, e4]
      simp only [Res.ok_bind]
      have e5 : ∀ n, file.length < n → slice? file b.fileEnd n = none := by
        intro n hn
        unfold slice?
        rw [if_neg (by omega)]
      rw [e5 _ (by omega), e5 _ (by omega)]

theorem ofOption_some_of_ok {o : Option α} {e : Err} {x : α} (h : Res.ofOption e o = .ok x) : o = some x := by
  cases o with
  | none => cases h
  | some y => cases h; rfl

/-- What is left is hardly longer. -/
theorem raw_length {p : Profile} {file raw : Bytes} (h : file.length < 2 ^ 31) (hr : (Module.new file).getRawModule p file = .ok raw) :
    raw.length ≤ file.length + 65557 := by
  unfold Module.getRawModule at hr
  rw [if_neg (by simp [Module.new])] at hr
  obtain ⟨b, h1, hr⟩ := Res.bind_eq_ok.mp hr
  obtain ⟨n, h2, hr⟩ := Res.bind_eq_ok.mp hr
  obtain ⟨s, h3, hr⟩ := Res.bind_eq_ok.mp hr
  obtain ⟨eocd, h4, hr⟩ := Res.bind_eq_ok.mp hr
  obtain ⟨cd, h5, hr⟩ := Res.bind_eq_ok.mp hr
  obtain ⟨stop, h6, hr⟩ := Res.bind_eq_ok.mp hr
  obtain ⟨rest, h7, hr⟩ := Res.bind_eq_ok.mp hr
  cases hr
  have hb' : (findEocd file file.length >>= fun eocd =>
    SigningBlock.fromReader p file file.length (file.length - eocd.cdOffset.toNat)) = .ok b := h1
  obtain ⟨eocd', _, h8⟩ := Res.bind_eq_ok.mp hb'
  obtain ⟨pre, pairs, post, _, _, _, _, _, _, _, g8⟩ := fromReader_iff.mp h8
  have hle : b.fileStart ≤ b.fileEnd := by rw [g8]; dsimp only; omega
  have h4' : findEocd file file.length = .ok eocd := h4
  have hl := (eocd_bounds h4').2.2
  have hl' : ({ eocd with cdOffset := cd } : Eocd).toU8.length ≤ 65557 := by
    have : ({ eocd with cdOffset := cd } : Eocd).toU8.length = eocd.toU8.length := by
      simp only [Eocd.toU8, List.length_append, leBytes_length]
    omega
  have h3 := ofOption_some_of_ok h3
  have h7 := ofOption_some_of_ok h7
  have g3 := slice?_eq_some h3
  have g7 := slice?_eq_some h7
  simp only [List.length_append]
  omega

theorem source_equal {p : Profile} {file : Bytes} (h : file.length < 2 ^ 31) (hr : Readable p file) :
    Narrow.signSource p file = (Module.new file).signSource p file := by
  have hf : file.length + 65557 < 2 ^ 32 := by omega
  unfold Narrow.signSource Module.signSource
  rcases hr with ⟨b, hb⟩ | ⟨e, he, hm⟩
  · rw [hb, ((block_twin p hf b).mp hb).1]
    dsimp only
    rw [raw_equal h hb]
    refine bind_same' fun raw hraw => ?_
    have := raw_length h hraw
    rw [findEocd_eq p (by omega)]
  · obtain ⟨e', he', hm'⟩ := (block_missing p hf).mp ⟨e, he, hm⟩
    rw [he, he']
    simp only [hm, hm', if_true]
    rw [if_neg (by omega), findEocd_eq p hf]

theorem write_equal {p : Profile} {file : Bytes} (h : file.length < 2 ^ 31) (hr : Readable p file) {b : SigningBlock}
    (hb : b.toU8.length < 2 ^ 31 - 65557) : Narrow.signableWrite p file b = (Module.new file).signableWrite p file b := by
  have hf : file.length + 65557 < 2 ^ 32 := by omega
  unfold Narrow.signableWrite Module.signableWrite
  rw [source_equal h hr]
  dsimp only
  cases hs : (Module.new file).signSource p file with
  | err e => rfl
  | panic => rfl
  | ok x =>
    obtain ⟨raw, eocd⟩ := x
    have hraw : raw.length ≤ file.length + 65557 ∧ findEocd raw raw.length = .ok eocd := by
      unfold Module.signSource at hs
      rcases hr with ⟨b', hb'⟩ | ⟨e, he, hm⟩
      · rw [hb'] at hs
        dsimp only at hs
        obtain ⟨raw', h1, hs⟩ := Res.bind_eq_ok.mp hs
        obtain ⟨eocd', h2, hs⟩ := Res.bind_eq_ok.mp hs
        cases hs
        exact ⟨raw_length h h1, h2⟩
      · rw [he] at hs
        simp only [hm, if_true] at hs
        obtain ⟨eocd', h2, hs⟩ := Res.bind_eq_ok.mp hs
        cases hs
        exact ⟨by omega, h2⟩
    have hle := (eocd_bounds hraw.2).1
    dsimp only
    by_cases hcd : eocd.fileOffset < eocd.cdOffset.toNat
    · rw [if_pos hcd, if_pos hcd]
    · rw [if_neg hcd, if_neg hcd]
      have e1 : Narrow.usub p raw.length eocd.fileOffset = .ok (raw.length - eocd.fileOffset) := by unfold Narrow.usub; rw [if_pos hle]
      have e2 : usub p raw.length eocd.fileOffset = .ok (raw.length - eocd.fileOffset) := by unfold usub; rw [if_pos hle]
      rw [e1, e2]
      dsimp only
      cases h1 : slice? raw 0 eocd.cdOffset.toNat with
      | none => rfl
      | some header =>
        dsimp only
        cases h2 : slice? raw eocd.cdOffset.toNat eocd.fileOffset with
        | none => rfl
        | some cd =>
          dsimp only
          rw [if_neg (by omega), if_neg (by omega)]
          generalize debugAssert p (eocd.fileOffset - eocd.cdOffset.toNat + (raw.length - eocd.fileOffset) + eocd.cdOffset.toNat ==
            raw.length) = r
          cases r <;> rfl

theorem regions_alike {p : Profile} {file : Bytes} (hf : file.length + 65557 < 2 ^ 32) {o : FileOffsets}
    (ho : (Module.new file).getOffsets p file = .ok o) (f : Res α) :
    (Narrow.digestRegions p file >>= fun _ => f) = ((Module.new file).digestRegions p file >>= fun _ => f) := by
  unfold Narrow.digestRegions Module.digestRegions
  rw [ho, (offsets_twin hf ho).1]
  simp only [Res.ok_bind]
  have step : ∀ a b : Nat, (∃ n n', Narrow.usub p a b = .ok n ∧ usub p a b = .ok n') ∨ (Narrow.usub p a b = .panic ∧ usub p a b = .panic) := by
    intro a b
    unfold Narrow.usub usub
    split
    · exact .inl ⟨_, _, rfl, rfl⟩
    · cases p with
      | dev => exact .inr ⟨rfl, rfl⟩
      | release => exact .inl ⟨_, _, rfl, rfl⟩
  rcases step o.stopContent o.startContent with ⟨n1, n1', h1, h1'⟩ | ⟨h1, h1'⟩
  · rcases step o.stopCd o.startCd with ⟨n2, n2', h2, h2'⟩ | ⟨h2, h2'⟩
    · rcases step o.stopEocd o.startEocd with ⟨n3, n3', h3, h3'⟩ | ⟨h3, h3'⟩
      · rw [h1, h1', h2, h2', h3, h3']
        rfl
      · rw [h1, h1', h2, h2', h3, h3']
        rfl
    · rw [h1, h1', h2, h2']
      rfl
  · rw [h1, h1']
    rfl

theorem digests_alike {E : Env} {p : Profile} {file : Bytes} (hf : file.length + 65557 < 2 ^ 32) {o : FileOffsets}
    (ho : (Module.new file).getOffsets p file = .ok o) : ∀ as, Narrow.cliDigests E p file as = cliDigests E p (Module.new file) file as
  | [] => rfl
  | a :: as => by
    unfold Narrow.cliDigests cliDigests
    rw [digest_twin hf ho, digests_alike hf ho as]

theorem readable_offsets {p : Profile} {file : Bytes} (hr : Readable p file) : ∃ o, (Module.new file).getOffsets p file = .ok o := by
  unfold Module.getOffsets Module.getOffsetsT
  have he : ∃ eocd, (Module.new file).findEocd file = .ok eocd := by
    have h0 : ∀ r : Res SigningBlock, (Module.new file).getSigningBlock p file = r →
        ((Module.new file).findEocd file >>= fun eocd =>
          SigningBlock.fromReader p file file.length (file.length - eocd.cdOffset.toNat)) = r := fun r h => h
    cases hx : (Module.new file).findEocd file with
    | ok r => exact ⟨r, rfl⟩
    | err e =>
      exfalso
      rcases hr with ⟨b, hb⟩ | ⟨e', he', hm⟩
      · have := h0 _ hb; rw [hx] at this; cases this
      · have := h0 _ he'
        rw [hx] at this
        cases this
        have hx' : findEocd file file.length = .err e := hx
        unfold findEocd at hx'
        split at hx'
        · cases hx'; cases hm
        · rcases bind_err.mp hx' with h1 | ⟨buf, _, h1⟩
          · rw [ofOption_err h1] at hm; cases hm
          · have : ∀ k, findEocdScan buf (file.length - min (maxCommentLen + minEocdSize) file.length) file.length k = .err e → False := by
              intro k
              induction k with
              | zero => intro h; cases h; cases hm
              | succ k ih =>
                intro h
                rw [findEocdScan] at h
                split at h
                · split at h
                  · cases h
                  · exact ih h
                  · cases h
                · exact ih h
            exact this _ h1
    | panic =>
      exfalso
      rcases hr with ⟨b, hb⟩ | ⟨e', he', hm⟩
      · have := h0 _ hb; rw [hx] at this; cases this
      · have := h0 _ he'; rw [hx] at this; cases this
  obtain ⟨eocd, he⟩ := he
  rw [he]
  simp only [Res.ok_bind]
  rcases hr with ⟨b, hb⟩ | ⟨e, h1, hm⟩
  · have hb' : (Module.new file).getSigningBlockT p file file = .ok b := hb
    rw [hb']
    exact ⟨_, rfl⟩
  · have h1' : (Module.new file).getSigningBlockT p file file = .err e := h1
    rw [h1']
    simp only [hm, if_true]
    exact ⟨_, rfl⟩

end Ksusig
