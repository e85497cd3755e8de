import Verif.Props.Narrow

/-!
# C108: what only 32-bit devices determine
-/

namespace Ksusig.Props

open Ksusig Spec

/-- C108. A content digest that a 32-bit machine determines a 64-bit machine determines too, unless the 32-bit machine reads a block in
which a size is not what is written or a list is said to be about 4 GiB long. -/
theorem C108_only_narrow_digest (E : Env) (p : Profile) {file d : Bytes} (h : file.length + 65557 < 2 ^ 32) (a : Algo)
    (hd : Narrow.digest E p file a = .ok d) :
    (Module.new file).digest E p file a = .ok d ∨
      ∃ b, Narrow.getSigningBlock p file = .ok b ∧ ¬ (SizesAsWritten file b ∧ ∀ v ∈ b.content, ¬ HasHuge v) := by
  have hoff : ∀ o, (Module.new file).getOffsets p file = .ok o → (Module.new file).digest E p file a = .ok d :=
    fun o ho => (digest_twin h ho a).symm.trans hd
  unfold Narrow.digest at hd
  obtain ⟨o, ho, _⟩ := Res.bind_eq_ok.mp hd
  unfold Narrow.getOffsets at ho
  obtain ⟨eocd, he, ho⟩ := Res.bind_eq_ok.mp ho
  have he' : (Module.new file).findEocd file = .ok eocd := by
    rw [narrow_len h, findEocd_eq p h] at he
    exact he
  cases hb : Narrow.getSigningBlock p file with
  | ok b =>
    by_cases hP : SizesAsWritten file b ∧ ∀ v ∈ b.content, ¬ HasHuge v
    · have hb' : (Module.new file).getSigningBlockT p file file = .ok b := (C108_exact p h b).mpr ⟨hb, hP⟩
      refine .inl (hoff (FileOffsets.new b.fileStart b.fileEnd eocd.fileOffset (Module.new file).fileLen) ?_)
      unfold Module.getOffsets Module.getOffsetsT
      rw [he', hb']
      rfl
    · exact .inr ⟨b, rfl, hP⟩
  | err e =>
    rw [hb] at ho
    cases hm : e.isMissing with
    | false =>
      simp only [hm] at ho
      cases ho
    | true =>
      obtain ⟨e', hb', hm'⟩ := (C108_unsigned p h).mpr ⟨e, hb, hm⟩
      have hb'' : (Module.new file).getSigningBlockT p file file = .err e' := hb'
      refine .inl (hoff (FileOffsets.withoutSignature eocd.cdOffset.toNat eocd.fileOffset (Module.new file).fileLen) ?_)
      unfold Module.getOffsets Module.getOffsetsT
      rw [he', hb'']
      simp only [Res.ok_bind, hm', if_true]
  | panic =>
    rw [hb] at ho
    cases ho

/-- C108. So it is with what is left when the signature is taken off. -/
theorem C108_only_narrow_raw (p : Profile) {file raw : Bytes} (h : file.length < 2 ^ 31) (hr : Narrow.getRawModule p file = .ok raw) :
    (Module.new file).getRawModule p file = .ok raw ∨
      ∃ b, Narrow.getSigningBlock p file = .ok b ∧ ¬ (SizesAsWritten file b ∧ ∀ v ∈ b.content, ¬ HasHuge v) := by
  have hf : file.length + 65557 < 2 ^ 32 := by omega
  unfold Narrow.getRawModule at hr
  rw [if_neg (by omega)] at hr
  obtain ⟨b, h1, hr⟩ := Res.bind_eq_ok.mp hr
  by_cases hP : SizesAsWritten file b ∧ ∀ v ∈ b.content, ¬ HasHuge v
  · refine .inl ?_
    have hb := (C108_exact p hf b).mpr ⟨h1, hP⟩
    obtain ⟨n, h2, hr⟩ := Res.bind_eq_ok.mp hr
    obtain ⟨s, h3, hr⟩ := Res.bind_eq_ok.mp hr
    obtain ⟨eocd, h4, hr⟩ := Res.bind_eq_ok.mp hr
    obtain ⟨cd, h5, hr⟩ := Res.bind_eq_ok.mp hr
    obtain ⟨stop, h6, hr⟩ := Res.bind_eq_ok.mp hr
    obtain ⟨rest, h7, hr9⟩ := Res.bind_eq_ok.mp hr
    clear hr
    rw [narrow_len hf, findEocd_eq p hf] at h4
    have h4' : (Module.new file).findEocd file = .ok eocd := h4
    have hb' : (findEocd file file.length >>= fun eocd =>
      SigningBlock.fromReader p file file.length (file.length - eocd.cdOffset.toNat)) = .ok b := hb
    obtain ⟨eocd', _, h8⟩ := Res.bind_eq_ok.mp hb'
    obtain ⟨pre, pairs, post, _, _, _, _, _, _, _, g8⟩ := fromReader_iff.mp h8
    have hle : b.fileStart ≤ b.fileEnd := by rw [g8]; dsimp only; omega
    unfold Narrow.usub at h2
    rw [if_pos hle] at h2
    have hstop : ({ eocd with cdOffset := cd } : Eocd).toU8.length ≤ file.length := by
      rcases Nat.lt_or_ge file.length ({ eocd with cdOffset := cd } : Eocd).toU8.length with hlt | hge
      · exfalso
        unfold Narrow.usub at h6
        rw [if_neg (by omega)] at h6
        cases p with
        | dev => cases h6
        | release =>
          cases h6
          cases hs : slice? file b.fileEnd (2 ^ 32 + file.length - ({ eocd with cdOffset := cd } : Eocd).toU8.length) with
          | none => rw [hs] at h7; cases h7
          | some x =>
            have h9 := (slice?_eq_some hs).2.1
            have hlen : ({ eocd with cdOffset := cd } : Eocd).toU8.length < 2 ^ 32 := by
              obtain ⟨pos, t, off, ht, rfl⟩ := findEocd_iff.mp h4
              have hc : t.comment.length ≤ 65535 := ht.comment
              simp only [Eocd.toU8, Tail.eocd, List.length_append, leBytes_length, eocdSig, List.length_cons, List.length_nil]
              omega
            omega
      · exact hge
    unfold Narrow.usub at h6
    rw [if_pos hstop] at h6
    cases h2
    cases h6
    unfold Module.getRawModule
    rw [if_neg (by simp [Module.new]), hb, h4']
    simp only [Res.ok_bind]
    unfold usub
    rw [if_pos hle]
    simp only [Res.ok_bind]
    rw [h3]
    simp only [Res.ok_bind]
    rw [h5]
    simp only [Res.ok_bind]
    rw [if_pos hstop]
    simp only [Res.ok_bind]
    rw [h7]
    exact hr9
  · exact .inr ⟨b, h1, hP⟩

theorem first_stamp (f : StampBlock → Bool) : ∀ vs : List Value,
    (vs.findSome? fun v => match v with | .stamp s => some (f s.block) | _ => none) =
      ((vs.filterMap fun v => match v with | .stamp s => some s.block | _ => none).head?).map f
  | [] => rfl
  | .stamp _ :: _ => rfl
  | .v2 _ :: vs => first_stamp f vs
  | .elf _ :: vs => first_stamp f vs
  | .raw _ :: vs => first_stamp f vs

/-- C108. Exactly when a 32-bit machine runs out of address space while it verifies: some V2 signer, or the first source stamp, has
signed data that takes 2 GiB or more when written again. Otherwise its verdicts are those of a 64-bit machine. -/
theorem C108_out_of_memory (E : Env) (roots : Roots) (now : Nat) (b : SigningBlock) (ctx : Option DigestCtx) :
    (Narrow.verifyV2 E roots now b ctx = .panic ↔ ∃ s ∈ v2Signers b, 2 ^ 31 ≤ s.signedData.toU8.length) ∧
    (Narrow.verifyV2 E roots now b ctx ≠ .panic → Narrow.verifyV2 E roots now b ctx = .ok (verifyV2 E roots now b ctx)) ∧
    (Narrow.verifySourceStamp E roots now b ctx = .panic ↔ ∃ s rest, stamps b = s :: rest ∧ 2 ^ 31 ≤ s.signedData.toU8.length) ∧
    (Narrow.verifySourceStamp E roots now b ctx ≠ .panic →
      Narrow.verifySourceStamp E roots now b ctx = .ok (verifySourceStamp E roots now b ctx)) := by
  refine ⟨?_, ?_, ?_, ?_⟩
  · constructor
    · intro h
      rcases narrowV2_cases E roots now b ctx with h' | ⟨_, v, hv, hb⟩
      · rw [h] at h'; cases h'
      · cases v with
        | v2 s =>
          obtain ⟨g, hg, hb⟩ := hb
          exact ⟨g, List.mem_flatMap.mpr ⟨_, hv, hg⟩, hb⟩
        | stamp s =>
          unfold Narrow.verifyV2 at h
          split at h
          · cases h
          · rename_i hn
            simp only [List.all_eq_true, Classical.not_forall] at hn
            obtain ⟨w, hw, hn⟩ := hn
            cases w with
            | v2 s =>
              simp only [List.all_eq_true, Classical.not_forall, decide_eq_true_eq, Nat.not_lt] at hn
              obtain ⟨g, hg, hn⟩ := hn
              exact ⟨g, List.mem_flatMap.mpr ⟨_, hw, hg⟩, hn⟩
            | stamp s => exact absurd rfl hn
            | elf s => exact absurd rfl hn
            | raw s => exact absurd rfl hn
        | elf s => cases hb
        | raw s => cases hb
    · rintro ⟨s, hs, hb⟩
      obtain ⟨v, hv, hg⟩ := List.mem_flatMap.mp hs
      unfold Narrow.verifyV2
      rw [if_neg]
      intro h
      have := List.all_eq_true.mp h v hv
      cases v with
      | v2 x => exact absurd (by simpa using List.all_eq_true.mp this s hg) (Nat.not_lt.mpr hb)
      | stamp s => cases hg
      | elf s => cases hg
      | raw s => cases hg
  · intro h
    rcases narrowV2_cases E roots now b ctx with h' | ⟨h', _⟩
    · exact h'
    · exact absurd h' h
  · unfold Narrow.verifySourceStamp stamps
    generalize hf : List.findSome? _ b.content = y
    have hy : y = _ := hf.symm.trans (first_stamp (fun s => decide (s.signedData.toU8.length < 2 ^ 31)) b.content)
    rw [hy]
    clear hf hy
    generalize List.filterMap _ b.content = l
    cases l with
    | nil => exact ⟨nofun, nofun⟩
    | cons s rest =>
      by_cases h : s.signedData.toU8.length < 2 ^ 31
      · simp only [List.head?_cons, Option.map_some, Option.getD_some, h, decide_true, if_true]
        constructor
        · nofun
        · rintro ⟨s', rest', he, hb⟩
          cases he
          exact absurd h (Nat.not_lt.mpr hb)
      · simp only [List.head?_cons, Option.map_some, Option.getD_some, h, decide_false]
        exact ⟨fun _ => ⟨s, rest, rfl, Nat.not_lt.mp h⟩, fun _ => rfl⟩
  · intro h
    rcases narrowStamp_cases E roots now b ctx with h' | ⟨h', _⟩
    · exact h'
    · exact absurd h' h

set_option maxRecDepth 100000 in
/-- Files meeting the hypotheses, with either conclusion. -/
example : (∃ d, Narrow.digest toyEnv .dev plainArchive.unsigned .p256 = .ok d ∧ (Module.new plainArchive.unsigned).digest toyEnv .dev plainArchive.unsigned .p256 = .ok d) ∧
    (∃ d, Narrow.digest toyEnv .dev wideFile .p256 = .ok d ∧ (Module.new wideFile).digest toyEnv .dev wideFile .p256 ≠ .ok d) := by
  have key : ∀ {x y : Res Bytes}, x.isOk = true → x = y → ∃ d, x = .ok d ∧ y = .ok d := by
    intro x y h e
    subst e
    cases x with
    | ok d => exact ⟨d, rfl, rfl⟩
    | err e => cases h
    | panic => cases h
  have key2 : ∀ {x y : Res Bytes}, x.isOk = true → y.isOk = false → ∃ d, x = .ok d ∧ y ≠ .ok d := by
    intro x y h e
    cases x with
    | ok d => exact ⟨d, rfl, fun hy => by rw [hy] at e; cases e⟩
    | err e => cases h
    | panic => cases h
  exact ⟨key (by decide +kernel) (by decide +kernel), key2 (by decide +kernel) (by decide +kernel)⟩

end Ksusig.Props
