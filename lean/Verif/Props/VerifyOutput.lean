import Verif.Model.CliVerify
import Verif.SpecReport
import Verif.Props.Keystore
import Verif.Props.Report

/-!
# What the verify command prints (C83)
-/

namespace Ksusig.Props

open Ksusig Spec

/-- The lines printed before any signature is looked at. -/
def isPrelude : Printed → Bool
  | .out .start | .out .blockFound | .out .customRoot | .out (.computed _) | .out (.notComputed _)
  | .out .digestsComputed => true
  | _ => false

/-- The rest of the command, once block, roots and digests are there. -/
def afterPrelude (pre : List Printed) (verbose : Bool) (v s : Verdict) : List Printed × Res Unit :=
  match (v2Report verbose v).2 with
  | .err e => (pre ++ (v2Report verbose v).1, .err e)
  | .panic => (pre ++ (v2Report verbose v).1, .panic)
  | .ok v2 => (pre ++ (v2Report verbose v).1 ++ (stampReport s).1 ++ (conclude v2 (stampReport s).2).1, (conclude v2 (stampReport s).2).2)

theorem digestLine_prelude {E : Env} {p : Profile} {m : Module} {file : Bytes} {verbose : Bool} {a : Algo} :
    ∀ x ∈ digestLine E p m file verbose a, isPrelude x = true := by
  intro x hx
  unfold digestLine at hx
  split at hx
  · split at hx <;> simp only [List.mem_singleton, List.not_mem_nil] at hx
    · subst hx; rfl
    · subst hx; rfl
  · cases hx

/-- A run of the command either stops before any signature is looked at, or block, roots and digests are there. -/
theorem run_cases (E : Env) (p : Profile) (pem : Bytes) (root : Option Bytes) (now : Nat) (verbose : Bool) (file : Bytes) :
    ((∀ x ∈ (cliVerifyRun E p pem root now verbose file).1, isPrelude x = true ∨ x = .err .noDigests) ∧
      (cliVerifyRun E p pem root now verbose file).2 ≠ .ok () ∧
      ¬ ∃ b roots d, (Module.new file).getSigningBlock p file = .ok b ∧ cliRoots E pem root = .ok roots ∧
        (Module.new file).digest E p file .p256 = .ok d) ∨
    ∃ b roots ps c pre, (Module.new file).getSigningBlock p file = .ok b ∧ cliRoots E pem root = .ok roots ∧
      (∀ E a, (Module.new file).digest E p file a = .ok (treeDigest (a.hash E) ps)) ∧
      (∀ id, DigestCtx.get c id = table (treeDigest (Algo.p256.hash E) ps) (treeDigest (Algo.p384.hash E) ps) id) ∧
      (∀ x ∈ pre, isPrelude x = true) ∧
      cliVerifyRun E p pem root now verbose file =
        afterPrelude pre verbose (verifyV2 E roots now b (some c)) (verifySourceStamp E roots now b (some c)) := by
  unfold cliVerifyRun
  dsimp only
  cases hb : (Module.new file).getSigningBlock p file with
  | err e => left; exact ⟨by simp [isPrelude], by simp, by simp⟩
  | panic => left; exact ⟨by simp [isPrelude], by simp, by simp⟩
  | ok b =>
    dsimp only
    cases hr : cliRoots E pem root with
    | err e => left; exact ⟨by simp [isPrelude], by simp, by simp⟩
    | panic => left; exact ⟨by simp [isPrelude], by simp, by simp⟩
    | ok roots =>
      dsimp only
      have h2 : ∀ x ∈ ([.out .start, .out .blockFound] ++ if root.isSome then [.out .customRoot] else [] : List Printed),
          isPrelude x = true := by
        cases root <;> simp [isPrelude]
      rcases digest_form p (Module.new file) file with ⟨ps, hd⟩ | ⟨e, hd⟩ | ⟨hd⟩
      · rw [cliAddDigest_ok _ (hd E .p256)]
        dsimp only
        rw [cliAddDigest_ok _ (hd E .p384)]
        dsimp only
        rw [if_neg (by simp [DigestCtx.add])]
        right
        refine ⟨b, roots, ps, _, _, rfl, rfl, hd, cliCtx_get _ _, ?_, rfl⟩
        intro x hx
        rcases List.mem_append.mp hx with hx | hx
        · rcases List.mem_append.mp hx with hx | hx
          · rcases List.mem_append.mp hx with hx | hx
            · exact h2 x hx
            · exact digestLine_prelude x hx
          · exact digestLine_prelude x hx
        · rw [List.mem_singleton] at hx; subst hx; rfl
      · left
        unfold cliAddDigest
        rw [hd, hd]
        dsimp only
        rw [if_pos (by rfl)]
        refine ⟨?_, by simp, by simp⟩
        intro x hx
        rcases List.mem_append.mp hx with hx | hx
        · rcases List.mem_append.mp hx with hx | hx
          · rcases List.mem_append.mp hx with hx | hx
            · exact .inl (h2 x hx)
            · exact .inl (digestLine_prelude x hx)
          · exact .inl (digestLine_prelude x hx)
        · rw [List.mem_singleton] at hx; exact .inr hx
      · left
        unfold cliAddDigest
        rw [hd]
        exact ⟨fun x hx => .inl (h2 x hx), by simp, by simp⟩

theorem v2Report_res (verbose : Bool) (v : Verdict) : (v2Report verbose v).2 = cliV2 v := by
  cases v with
  | err e => cases e <;> rfl
  | ok r =>
    unfold v2Report cliV2
    dsimp only
    split
    · split
      · rfl
      · split
        · rfl
        · split <;> rfl
    · rfl

theorem stampReport_failed (v : Verdict) : (stampReport v).2 = cliStampFailed v := by
  cases v with
  | err e => cases e <;> rfl
  | ok r =>
    unfold stampReport cliStampFailed
    dsimp only
    split <;> rename_i h
    · rw [h]; rfl
    · simp only [Bool.not_eq_true] at h; rw [h]; rfl

/-- C83: the command with its output is the command of C35; asking for more output does not change the result. -/
theorem C83_result (E : Env) (p : Profile) (pem : Bytes) (root : Option Bytes) (now : Nat) (verbose : Bool) (file : Bytes) :
    (cliVerifyRun E p pem root now verbose file).2 = cliVerify E p pem root now file := by
  unfold cliVerifyRun cliVerify
  dsimp only
  cases (Module.new file).getSigningBlock p file with
  | err e => rfl
  | panic => rfl
  | ok b =>
    dsimp only [Res.mapErr_ok]
    simp only [Res.ok_bind]
    cases cliRoots E pem root with
    | err e => rfl
    | panic => rfl
    | ok roots =>
      simp only [Res.ok_bind]
      cases cliAddDigest E p (Module.new file) file .p256 DigestCtx.new with
      | err e => rfl
      | panic => rfl
      | ok c1 =>
        simp only [Res.ok_bind]
        cases cliAddDigest E p (Module.new file) file .p384 c1 with
        | err e => rfl
        | panic => rfl
        | ok c2 =>
          simp only [Res.ok_bind]
          by_cases hc : c2.entries.isEmpty = true
          · rw [if_pos hc, if_pos hc]
          · rw [if_neg hc, if_neg hc, ← v2Report_res verbose, ← stampReport_failed]
            cases (v2Report verbose (verifyV2 E roots now b (some c2))).2 with
            | err e => rfl
            | panic => rfl
            | ok v2 =>
              simp only [Res.ok_bind]
              unfold conclude
              cases v2 with
              | none => rfl
              | some r =>
                dsimp only
                by_cases hf : (r.sigValid && r.digestValid && r.chainValid && r.trusted) = true
                · rw [if_pos hf, if_pos hf]; split <;> rfl
                · rw [if_neg hf, if_neg hf]

/-- What kind of line the V2 part prints. -/
def isV2Line : Printed → Bool
  | .out .v2NotFound | .err .v2Failed | .err (.v2Failure _ _) | .out .v2Passed | .out (.v2Count _) | .out (.signer _ _ _ _ _)
  | .out (.signerCert _) | .out (.chainLength _) | .out (.chainCert _ _) | .out (.signerWarning _) | .out (.overall _ _ _)
  | .out (.warning _ _) | .err (.warning _ _) | .err .digestMismatch | .err .chainInvalid | .err .untrusted | .err .v2Invalid => true
  | _ => false

/-- What kind of line the source stamp part prints. -/
def isStampLine : Printed → Bool
  | .out (.stampPassed _ _ _ _) | .out (.stampCert _) | .err (.stampFailed _ _ _ _ _) | .err .stampTampered | .err .stampUntrusted
  | .err (.stampWarning _ _) | .out .stampNotFound | .err .stampError | .err (.stampFailure _) | .err .stampPresent => true
  | _ => false

theorem v2Lines_kind (verbose : Bool) (r : VResult) : ∀ x ∈ v2Lines verbose r, isV2Line x = true ∧ ∃ l, x = .out l := by
  intro x hx
  unfold v2Lines at hx
  simp only [List.mem_append, List.mem_cons, List.not_mem_nil, or_false, List.mem_flatMap, List.mem_map] at hx
  rcases hx with ((((rfl | rfl) | ⟨s, _, hx⟩) | rfl) | ⟨y, _, rfl⟩)
  · exact ⟨rfl, _, rfl⟩
  · exact ⟨rfl, _, rfl⟩
  · unfold signerLines at hx
    simp only [List.mem_append, List.mem_cons, List.not_mem_nil, or_false] at hx
    rcases hx with ((rfl | hx) | hx) | hx
    · exact ⟨rfl, _, rfl⟩
    · split at hx
      · simp only [List.mem_singleton] at hx; subst hx; exact ⟨rfl, _, rfl⟩
      · cases hx
    · split at hx
      · cases hx
      · rcases List.mem_append.mp hx with hx | hx
        · rw [List.mem_singleton] at hx; subst hx; exact ⟨rfl, _, rfl⟩
        · split at hx
          · simp only [List.mem_map] at hx
            obtain ⟨_, _, rfl⟩ := hx
            exact ⟨rfl, _, rfl⟩
          · cases hx
    · split at hx
      · simp only [List.mem_map] at hx
        obtain ⟨_, _, rfl⟩ := hx
        exact ⟨rfl, _, rfl⟩
      · cases hx
  · exact ⟨rfl, _, rfl⟩
  · exact ⟨rfl, _, rfl⟩

theorem v2Report_kind (verbose : Bool) (v : Verdict) : ∀ x ∈ (v2Report verbose v).1, isV2Line x = true := by
  intro x hx
  unfold v2Report at hx
  split at hx
  · simp only [List.mem_cons, List.not_mem_nil, or_false, or_self] at hx; subst hx; rfl
  · simp only [List.mem_cons, List.mem_map] at hx
    rcases hx with rfl | ⟨_, _, rfl⟩ <;> rfl
  · simp only [List.mem_singleton] at hx; subst hx; rfl
  · split at hx
    · split at hx
      · rcases List.mem_append.mp hx with hx | hx
        · exact (v2Lines_kind verbose _ x hx).1
        · simp only [List.mem_singleton] at hx; subst hx; rfl
      · split at hx
        · rcases List.mem_append.mp hx with hx | hx
          · exact (v2Lines_kind verbose _ x hx).1
          · simp only [List.mem_singleton] at hx; subst hx; rfl
        · split at hx
          · rcases List.mem_append.mp hx with hx | hx
            · exact (v2Lines_kind verbose _ x hx).1
            · simp only [List.mem_singleton] at hx; subst hx; rfl
          · exact (v2Lines_kind verbose _ x hx).1
    · simp only [List.mem_append, List.mem_singleton, List.mem_map] at hx
      rcases hx with rfl | ⟨_, _, rfl⟩ <;> rfl

theorem stampReport_kind (v : Verdict) : ∀ x ∈ (stampReport v).1, isStampLine x = true := by
  intro x hx
  unfold stampReport at hx
  split at hx
  · split at hx
    · simp only [List.mem_append, List.mem_singleton] at hx
      rcases hx with rfl | hx
      · rfl
      · split at hx
        · simp only [List.mem_singleton] at hx; subst hx; rfl
        · cases hx
    · simp only [List.mem_append, List.mem_singleton, List.mem_map] at hx
      rcases hx with ((rfl | hx) | hx) | ⟨_, _, rfl⟩
      · rfl
      · split at hx
        · cases hx
        · simp only [List.mem_singleton] at hx; subst hx; rfl
      · split at hx
        · cases hx
        · simp only [List.mem_singleton] at hx; subst hx; rfl
      · rfl
  · simp only [List.mem_singleton] at hx; subst hx; rfl
  · simp only [List.mem_append, List.mem_cons, List.mem_map, List.not_mem_nil, or_false] at hx
    rcases hx with (rfl | ⟨_, _, rfl⟩) | rfl <;> rfl
  · simp only [List.mem_cons, List.not_mem_nil, or_false] at hx
    rcases hx with rfl | rfl <;> rfl

/-- The line about the success of the whole command and the exit status agree. -/
theorem afterPrelude_success {pre : List Printed} (hp : ∀ x ∈ pre, isPrelude x = true) (verbose : Bool) (v s : Verdict) :
    .out .success ∈ (afterPrelude pre verbose v s).1 ↔ (afterPrelude pre verbose v s).2 = .ok () := by
  have h1 : .out .success ∉ pre := fun h => by have := hp _ h; simp [isPrelude] at this
  have h2 : .out .success ∉ (v2Report verbose v).1 := fun h => by have := v2Report_kind _ _ _ h; simp [isV2Line] at this
  have h3 : .out .success ∉ (stampReport s).1 := fun h => by have := stampReport_kind _ _ h; simp [isStampLine] at this
  unfold afterPrelude
  split
  · simp [h1, h2]
  · simp [h1, h2]
  · rename_i v2 _
    simp only [List.mem_append, h1, h2, h3, false_or]
    unfold conclude
    cases v2 with
    | none => simp
    | some r =>
      dsimp only
      split
      · split <;> simp
      · simp

/-- C83: the command says that verification was successful exactly if it ends successfully, that is, under the conditions of C35. -/
theorem C83_success_line (E : Env) (p : Profile) (pem : Bytes) (root : Option Bytes) (now : Nat) (verbose : Bool) (file : Bytes) :
    .out .success ∈ (cliVerifyRun E p pem root now verbose file).1 ↔ cliVerify E p pem root now file = .ok () := by
  rw [← C83_result E p pem root now verbose file]
  rcases run_cases E p pem root now verbose file with ⟨h1, h2, h3⟩ | ⟨b, roots, ps, c, pre, _, _, _, _, hp, hrun⟩
  · refine ⟨fun h => ?_, fun h => absurd h h2⟩
    have := h1 _ h
    simp [isPrelude] at this
  · rw [hrun]
    exact afterPrelude_success hp verbose _ _

/-! ### The source stamp -/

theorem cliV2_ok {v : Verdict} {x : Option VResult} (h : cliV2 v = .ok x) :
    (v = .err .noSignature ∧ x = none) ∨ FullyValid v ∧ ∃ r, v = .ok r ∧ x = some r := by
  unfold cliV2 at h
  split at h
  · cases h; exact .inl ⟨rfl, rfl⟩
  · cases h
  · rename_i r
    split at h
    · split at h
      · cases h
      · split at h
        · cases h
        · split at h
          · cases h
          · cases h
            rename_i h1 h2 h3 h4
            refine .inr ⟨⟨r, rfl, h1, ?_, ?_, ?_⟩, r, rfl, rfl⟩
            · simpa using h2
            · simpa using h3
            · simpa using h4
    · cases h

theorem stampReport_passed {v : Verdict} {w x y z : Bool} :
    .out (.stampPassed w x y z) ∈ (stampReport v).1 ↔ FullyValid v ∧ w = true ∧ x = true ∧ y = true ∧ z = true := by
  unfold stampReport
  split
  · rename_i r
    split <;> rename_i h
    · simp only [Bool.and_eq_true] at h
      obtain ⟨⟨⟨h1, h2⟩, h3⟩, h4⟩ := h
      constructor
      · intro hm
        refine ⟨⟨r, rfl, h1, h2, h3, h4⟩, ?_⟩
        rcases List.mem_append.mp hm with hm | hm
        · rw [List.mem_singleton] at hm
          cases hm
          exact ⟨h1, h2, h3, h4⟩
        · split at hm
          · rw [List.mem_singleton] at hm; cases hm
          · cases hm
      · rintro ⟨_, rfl, rfl, rfl, rfl⟩
        simp [h1, h2, h3, h4]
    · constructor
      · intro hm
        simp only [List.mem_append, List.mem_singleton, List.mem_map] at hm
        rcases hm with ((hm | hm) | hm) | ⟨_, _, hm⟩
        · cases hm
        · split at hm
          · cases hm
          · rw [List.mem_singleton] at hm; cases hm
        · split at hm
          · cases hm
          · rw [List.mem_singleton] at hm; cases hm
        · cases hm
      · rintro ⟨⟨r', hr, h1, h2, h3, h4⟩, _⟩
        cases hr
        simp [h1, h2, h3, h4] at h
  · simp [FullyValid]
  · simp [FullyValid]
  · simp [FullyValid]

theorem afterPrelude_stampPassed {pre : List Printed} (hp : ∀ x ∈ pre, isPrelude x = true) {verbose : Bool} {v s : Verdict}
    {w x y z : Bool} :
    .out (.stampPassed w x y z) ∈ (afterPrelude pre verbose v s).1 ↔
      (v = .err .noSignature ∨ FullyValid v) ∧ FullyValid s ∧ w = true ∧ x = true ∧ y = true ∧ z = true := by
  have h1 : .out (.stampPassed w x y z) ∉ pre := fun h => by have := hp _ h; simp [isPrelude] at this
  have h2 : .out (.stampPassed w x y z) ∉ (v2Report verbose v).1 := fun h => by
    have := v2Report_kind _ _ _ h; simp [isV2Line] at this
  have hno : (∀ o, cliV2 v ≠ .ok o) → ¬ (v = .err .noSignature ∨ FullyValid v) := by
    intro hne h
    rcases h with rfl | ⟨r, rfl, a1, a2, a3, a4⟩
    · exact hne none rfl
    · exact hne (some r) (by unfold cliV2; simp [a1, a2, a3, a4])
  unfold afterPrelude
  rw [v2Report_res]
  split
  · rename_i e he
    simp only [List.mem_append, h1, h2, or_self, false_iff, not_and]
    intro h
    exact absurd h (hno fun o ho => by rw [ho] at he; cases he)
  · rename_i he
    simp only [List.mem_append, h1, h2, or_self, false_iff, not_and]
    intro h
    exact absurd h (hno fun o ho => by rw [ho] at he; cases he)
  · rename_i v2 hv
    have h3 : .out (.stampPassed w x y z) ∉ (conclude v2 (stampReport s).2).1 := by
      unfold conclude
      cases v2 with
      | none => simp
      | some r =>
        dsimp only
        split
        · split <;> simp
        · simp
    simp only [List.mem_append, h1, h2, h3, or_false, false_or, stampReport_passed]
    have : v = .err .noSignature ∨ FullyValid v := by
      rcases cliV2_ok hv with ⟨h, _⟩ | ⟨h, _⟩
      · exact .inl h
      · exact .inr h
    simp [this]

/-- C83: the command says that the source stamp passed exactly if the file has a block, the root certificate loads, the digests
can be computed, the first source stamp is good for them, and either there is no V2 signer or all of them are good. All flags
printed in that line are set. -/
theorem C83_stamp_passed_line {E : Env} {p : Profile} {pem : Bytes} {root : Option Bytes} {now : Nat} {verbose : Bool} {file : Bytes}
    {w x y z : Bool} :
    .out (.stampPassed w x y z) ∈ (cliVerifyRun E p pem root now verbose file).1 ↔
      (w = true ∧ x = true ∧ y = true ∧ z = true) ∧
      ∃ b cert d256 d384 s rest, (Module.new file).getSigningBlock p file = .ok b ∧
        E.pemParse (root.getD pem) = some ("CERTIFICATE", cert) ∧
        (Module.new file).digest E p file .p256 = .ok d256 ∧ (Module.new file).digest E p file .p384 = .ok d384 ∧
        stamps b = s :: rest ∧ GoodStamp E [cert] now (table d256 d384) s ∧
        ∀ s ∈ v2Signers b, GoodV2 E [cert] now (table d256 d384) s := by
  rcases run_cases E p pem root now verbose file with ⟨h1, h2, h3⟩ | ⟨b, roots, ps, c, pre, hb, hr, hd, hc, hp, hrun⟩
  · constructor
    · intro h
      have := h1 _ h
      simp [isPrelude] at this
    · rintro ⟨_, b, cert, d2, d5, s, rest, hb, hr, hd2, hd5, _⟩
      exact absurd ⟨b, _, d2, hb, cliRoots_of hr, hd2⟩ h3
  · have hget : c.get = table (treeDigest (Algo.p256.hash E) ps) (treeDigest (Algo.p384.hash E) ps) := funext hc
    rw [hrun, afterPrelude_stampPassed hp, verifyV2_noSignature]
    constructor
    · rintro ⟨hv, hs, hf⟩
      refine ⟨hf, ?_⟩
      rcases cliRoots_ok hr with ⟨cert, hpem, rfl⟩ | rfl
      · rw [verifyV2_valid] at hv
        obtain ⟨s, rest, hs1, hs2⟩ := verifySourceStamp_valid.mp hs
        rw [hget] at hv hs2
        refine ⟨b, cert, _, _, s, rest, hb, hpem, hd E .p256, hd E .p384, hs1, hs2, ?_⟩
        rcases hv with hv | hv
        · rw [hv]; intro s hs; cases hs
        · exact hv.2
      · obtain ⟨s, rest, _, hs2⟩ := verifySourceStamp_valid.mp hs
        obtain ⟨_, _, _, _, ht, _⟩ := hs2.cert
        exact absurd rfl ht
    · rintro ⟨hf, b', cert, d2, d5, s, rest, hb', hpem, hd2, hd5, hs1, hs2, hv⟩
      rw [hb] at hb'; cases hb'
      rw [hd] at hd2 hd5
      cases hd2; cases hd5
      rw [cliRoots_of hpem] at hr
      cases hr
      refine ⟨?_, verifySourceStamp_valid.mpr ⟨s, rest, hs1, by rw [hget]; exact hs2⟩, hf⟩
      by_cases hn : v2Signers b = []
      · exact .inl hn
      · exact .inr (verifyV2_valid.mpr ⟨hn, by rw [hget]; exact hv⟩)

/-! ### The V2 signature -/

theorem verifySigner_consistent {E : Env} {roots : Roots} {now idx : Nat} {c : DigestCtx} {s : SignerV2} :
    ((verifySigner E roots now (some c) idx s).sigValid = true ∧ (verifySigner E roots now (some c) idx s).error = none) ↔
      Consistent E c.get s := by
  have hall := v2SigLoop_ok (E := E) (c := c) (pk := s.pubKey.data) (raw := s.signedData.toU8.drop 4)
    (ds := s.signedData.digests.data) s.sigs.data SigState.init
  unfold verifySigner
  rw [sliceFrom?_4_signed]
  dsimp only
  unfold finishSigner
  cases hc : s.signedData.certs.data.map (·.cert) with
  | nil =>
    dsimp only
    rw [Bool.and_eq_true, Option.isNone_iff_eq_none]
    constructor
    · rintro ⟨⟨h1, h2⟩, _⟩
      obtain ⟨_, _, h⟩ := hall.mp ⟨h1, h2⟩
      exact ⟨fun g hg => (h g hg).1, fun g hg => (h g hg).2, by rw [hc]; rintro _ _ ⟨⟩⟩
    · intro h
      obtain ⟨h1, h2⟩ := hall.mpr ⟨rfl, rfl, fun g hg => ⟨h.crypto g hg, h.content g hg⟩⟩
      exact ⟨⟨h1, h2⟩, h2⟩
  | cons leaf rest =>
    dsimp only
    have hk : verifyPubkeyBinding E s.pubKey.data leaf = true ↔ E.certSpki leaf = some s.pubKey.data := by
      unfold verifyPubkeyBinding
      cases E.certSpki leaf with
      | none => simp
      | some k => simp only [beq_iff_eq, Option.some.injEq]; exact eq_comm
    by_cases hb : verifyPubkeyBinding E s.pubKey.data leaf = true
    · rw [if_neg (by simp [hb])]
      dsimp only
      rw [Bool.and_eq_true, Option.isNone_iff_eq_none]
      constructor
      · rintro ⟨⟨h1, h2⟩, _⟩
        obtain ⟨_, _, h⟩ := hall.mp ⟨h1, h2⟩
        refine ⟨fun g hg => (h g hg).1, fun g hg => (h g hg).2, ?_⟩
        rw [hc]
        rintro _ _ ⟨⟩
        exact hk.mp hb
      · intro h
        obtain ⟨h1, h2⟩ := hall.mpr ⟨rfl, rfl, fun g hg => ⟨h.crypto g hg, h.content g hg⟩⟩
        exact ⟨⟨h1, h2⟩, h2⟩
    · rw [if_pos (by simp [hb])]
      simp only [Bool.false_eq_true, false_and, false_iff]
      exact fun h => hb (hk.mpr (h.binding _ _ hc))

theorem verifyV2_consistent {E : Env} {roots : Roots} {now : Nat} {b : SigningBlock} {c : DigestCtx} :
    (∃ r, verifyV2 E roots now b (some c) = .ok r ∧ r.sigValid = true) ↔
      v2Signers b ≠ [] ∧ ∀ s ∈ v2Signers b, Consistent E c.get s := by
  rw [verifyV2_eq]
  have hnil := v2Results_eq_nil (E := E) (roots := roots) (now := now) (b := b) (ctx := some c)
  rcases concludeVerify_cases (v2Results E roots now b (some c)) with ⟨h, he⟩ | ⟨h, ⟨r, hr, hre⟩, he⟩ | ⟨h, hall, he⟩
  · rw [he]
    simp [hnil.mp h]
  · rw [he]
    simp only [reduceCtorEq, false_and, exists_false, false_iff, not_and]
    intro _ hcon
    obtain ⟨s, hs, i, rfl⟩ := mem_v2Results hr
    exact hre (verifySigner_consistent.mpr (hcon s hs)).2
  · rw [he]
    constructor
    · rintro ⟨r, hr, hv⟩
      cases hr
      rw [(fromSigners_flags h).1, List.all_eq_true] at hv
      refine ⟨fun hn => h (hnil.mpr hn), fun s hs => ?_⟩
      obtain ⟨i, hi⟩ := v2Results_of_mem (E := E) (roots := roots) (now := now) (ctx := some c) hs
      exact verifySigner_consistent.mp ⟨hv _ hi, hall _ hi⟩
    · rintro ⟨_, hcon⟩
      refine ⟨_, rfl, ?_⟩
      rw [(fromSigners_flags h).1, List.all_eq_true]
      intro r hr
      obtain ⟨s, hs, i, rfl⟩ := mem_v2Results hr
      exact (verifySigner_consistent.mpr (hcon s hs)).1

theorem v2Report_passed {verbose : Bool} {v : Verdict} :
    .out .v2Passed ∈ (v2Report verbose v).1 ↔ ∃ r, v = .ok r ∧ r.sigValid = true := by
  unfold v2Report
  split
  · simp
  · simp
  · simp
  · rename_i r
    have hin : .out .v2Passed ∈ v2Lines verbose r := by simp [v2Lines]
    cases hs : r.sigValid with
    | false => simp [hs]
    | true =>
      simp only [if_true, Verdict.ok.injEq, exists_eq_left', hs, iff_true]
      split
      · exact List.mem_append_left _ hin
      · split
        · exact List.mem_append_left _ hin
        · split
          · exact List.mem_append_left _ hin
          · exact hin

/-- C83: the command says that the V2 signature passed exactly if the file has a block, the roots load, the digests can be computed,
and there are V2 signers none of which contradicts the content. It says so before looking at trust. -/
theorem C83_v2_passed_line {E : Env} {p : Profile} {pem : Bytes} {root : Option Bytes} {now : Nat} {verbose : Bool} {file : Bytes} :
    .out .v2Passed ∈ (cliVerifyRun E p pem root now verbose file).1 ↔
      ∃ b d256 d384, (Module.new file).getSigningBlock p file = .ok b ∧
        (∀ r, root = some r → ∃ cert, E.pemParse r = some ("CERTIFICATE", cert)) ∧
        (Module.new file).digest E p file .p256 = .ok d256 ∧ (Module.new file).digest E p file .p384 = .ok d384 ∧
        v2Signers b ≠ [] ∧ ∀ s ∈ v2Signers b, Consistent E (table d256 d384) s := by
  have hroots : (∃ roots, cliRoots E pem root = .ok roots) ↔ ∀ r, root = some r → ∃ cert, E.pemParse r = some ("CERTIFICATE", cert) := by
    cases root with
    | none => exact ⟨fun _ r h => (nomatch h), fun _ => ⟨_, rfl⟩⟩
    | some r =>
      constructor
      · rintro ⟨roots, h⟩ _ ⟨⟩
        obtain ⟨c, hc, _⟩ := addPem_ok.mp h
        exact ⟨c, hc⟩
      · intro h
        obtain ⟨c, hc⟩ := h r rfl
        exact ⟨_, addPem_ok.mpr ⟨c, hc, rfl⟩⟩
  rw [← hroots]
  rcases run_cases E p pem root now verbose file with ⟨h1, h2, h3⟩ | ⟨b, roots, ps, c, pre, hb, hr, hd, hc, hp, hrun⟩
  · constructor
    · intro h
      have := h1 _ h
      simp [isPrelude] at this
    · rintro ⟨b, d2, d5, hb, ⟨roots, hr⟩, hd2, _⟩
      exact absurd ⟨b, roots, d2, hb, hr, hd2⟩ h3
  · have hget : c.get = table (treeDigest (Algo.p256.hash E) ps) (treeDigest (Algo.p384.hash E) ps) := funext hc
    have hpre : .out .v2Passed ∉ pre := fun h => by have := hp _ h; simp [isPrelude] at this
    have hiff : .out .v2Passed ∈ (cliVerifyRun E p pem root now verbose file).1 ↔
        .out .v2Passed ∈ (v2Report verbose (verifyV2 E roots now b (some c))).1 := by
      rw [hrun]
      unfold afterPrelude
      have hst : .out .v2Passed ∉ (stampReport (verifySourceStamp E roots now b (some c))).1 := fun h => by
        have := stampReport_kind _ _ h; simp [isStampLine] at this
      split
      · simp [hpre]
      · simp [hpre]
      · rename_i v2 _
        have h3 : .out .v2Passed ∉ (conclude v2 (stampReport (verifySourceStamp E roots now b (some c))).2).1 := by
          unfold conclude
          cases v2 with
          | none => simp
          | some r =>
            dsimp only
            split
            · split <;> simp
            · simp
        simp [hpre, hst, h3]
    rw [hiff, v2Report_passed, verifyV2_consistent, hget]
    constructor
    · rintro ⟨h1, h2⟩
      exact ⟨b, _, _, hb, ⟨roots, hr⟩, hd E .p256, hd E .p384, h1, h2⟩
    · rintro ⟨b', d2, d5, hb', _, hd2, hd5, h1, h2⟩
      rw [hb] at hb'; cases hb'
      rw [hd] at hd2 hd5
      cases hd2; cases hd5
      exact ⟨h1, h2⟩

/-- C83 fails for the line about the V2 signature: nobody needs a key to have it printed. For every file with a readable block
whose only V2 signer carries no signature at all, and no certificate or one with its public key, the command says that the V2
signature passed (and then refuses the file). -/
theorem C83_passed_without_signature {E : Env} {p : Profile} {pem : Bytes} {now : Nat} {verbose : Bool} {file : Bytes} {b : SigningBlock}
    {s : SignerV2} {d256 d384 : Bytes} (hb : (Module.new file).getSigningBlock p file = .ok b) (hs : v2Signers b = [s])
    (hno : s.sigs.data = []) (hk : ∀ leaf rest, s.signedData.certs.data.map (·.cert) = leaf :: rest → E.certSpki leaf = some s.pubKey.data)
    (h2 : (Module.new file).digest E p file .p256 = .ok d256) (h5 : (Module.new file).digest E p file .p384 = .ok d384) :
    .out .v2Passed ∈ (cliVerifyRun E p pem none now verbose file).1 ∧ cliVerify E p pem none now file ≠ .ok () := by
  refine ⟨C83_v2_passed_line.mpr ⟨b, d256, d384, hb, fun r h => (nomatch h), h2, h5, by rw [hs]; simp, ?_⟩, ?_⟩
  · rw [hs]
    intro t ht
    rw [List.mem_singleton] at ht
    subst ht
    exact ⟨(by rw [hno]; intro g hg; cases hg), (by rw [hno]; intro g hg; cases hg), hk⟩
  · intro h
    obtain ⟨b', _, _, _, hb', _, _, _, _, hv, _⟩ := C35_verify_command.mp h
    rw [hb] at hb'; cases hb'
    exact (hv s (by rw [hs]; simp)).signed hno

/-! ### Success -/

/-- C83: a successful run prints nothing on standard error, and says either that the source stamp passed or that there is none. -/
theorem C83_success_output {E : Env} {p : Profile} {pem : Bytes} {root : Option Bytes} {now : Nat} {verbose : Bool} {file : Bytes}
    (h : cliVerify E p pem root now file = .ok ()) :
    (∀ x ∈ (cliVerifyRun E p pem root now verbose file).1, ∃ l, x = .out l) ∧
    .out .v2Passed ∈ (cliVerifyRun E p pem root now verbose file).1 ∧
    ∃ b, (Module.new file).getSigningBlock p file = .ok b ∧
      ((stamps b ≠ [] ∧ .out (.stampPassed true true true true) ∈ (cliVerifyRun E p pem root now verbose file).1) ∨
       (stamps b = [] ∧ .out .stampNotFound ∈ (cliVerifyRun E p pem root now verbose file).1)) := by
  obtain ⟨b, cert, d2, d5, hb, hpem, hd2, hd5, hne, hv, hs⟩ := C35_verify_command.mp h
  have hres := C83_result E p pem root now verbose file
  rw [h] at hres
  rcases run_cases E p pem root now verbose file with ⟨_, h2, _⟩ | ⟨b', roots, ps, c, pre, hb', hr, hd, hc, hp, hrun⟩
  · exact absurd hres h2
  · rw [hb] at hb'; cases hb'
    have hpout : ∀ x ∈ pre, ∃ l, x = .out l := by
      intro x hx
      have := hp x hx
      cases x with
      | out l => exact ⟨l, rfl⟩
      | err l => cases l <;> simp [isPrelude] at this
    rw [cliRoots_of hpem] at hr
    cases hr
    rw [hd] at hd2 hd5
    cases hd2; cases hd5
    have hget : c.get = table (treeDigest (Algo.p256.hash E) ps) (treeDigest (Algo.p384.hash E) ps) := funext hc
    obtain ⟨r, hr, f1, f2, f3, f4⟩ := verifyV2_valid.mpr ⟨hne, by rw [hget]; exact hv⟩
    have hrep : v2Report verbose (.ok r) = (v2Lines verbose r, .ok (some r)) := by simp [v2Report, f1, f2, f3, f4]
    have hfull : (cliVerifyRun E p pem root now verbose file).1 = pre ++ v2Lines verbose r ++
        (stampReport (verifySourceStamp E (storeOf E [cert]) now b (some c))).1 ++ [.out .success] := by
      have h2 : (conclude (some r) (stampReport (verifySourceStamp E (storeOf E [cert]) now b (some c))).2).2 = .ok () := by
        rw [hrun, hr] at hres
        unfold afterPrelude at hres
        rw [hrep] at hres
        exact hres
      rw [hrun, hr]
      unfold afterPrelude
      rw [hrep]
      dsimp only
      congr 1
      unfold conclude at h2 ⊢
      dsimp only at h2 ⊢
      rw [if_pos (by simp [f1, f2, f3, f4])] at h2 ⊢
      split at h2
      · cases h2
      · rename_i hx; rw [if_neg hx]
    have hv2 : .out .v2Passed ∈ v2Lines verbose r := by simp [v2Lines]
    have hst : (stamps b ≠ [] ∧ .out (.stampPassed true true true true) ∈
          (stampReport (verifySourceStamp E (storeOf E [cert]) now b (some c))).1 ∨
        stamps b = [] ∧ .out .stampNotFound ∈ (stampReport (verifySourceStamp E (storeOf E [cert]) now b (some c))).1) ∧
        ∀ x ∈ (stampReport (verifySourceStamp E (storeOf E [cert]) now b (some c))).1, ∃ l, x = .out l := by
      cases hsb : stamps b with
      | nil =>
        rw [verifySourceStamp_noSignature.mpr hsb]
        exact ⟨.inr ⟨rfl, by simp [stampReport]⟩, by simp [stampReport]⟩
      | cons s rest =>
        obtain ⟨q, hq, g1, g2, g3, g4⟩ := verifySourceStamp_valid (E := E) (added := [cert]) (now := now) (b := b) (c := c) |>.mpr
          ⟨s, rest, hsb, by rw [hget]; exact hs s rest hsb⟩
        rw [hq]
        refine ⟨.inl ⟨by simp, by simp [stampReport, g1, g2, g3, g4]⟩, ?_⟩
        unfold stampReport
        dsimp only
        rw [if_pos (by simp [g1, g2, g3, g4])]
        intro x hx
        rcases List.mem_append.mp hx with hx | hx
        · rw [List.mem_singleton] at hx; exact ⟨_, hx⟩
        · split at hx
          · rw [List.mem_singleton] at hx; exact ⟨_, hx⟩
          · cases hx
    rw [hfull]
    refine ⟨?_, by simp [hv2], b, hb, ?_⟩
    · intro x hx
      rcases List.mem_append.mp hx with hx | hx
      · rcases List.mem_append.mp hx with hx | hx
        · rcases List.mem_append.mp hx with hx | hx
          · exact hpout x hx
          · exact (v2Lines_kind verbose r x hx).2
        · exact hst.2 x hx
      · rw [List.mem_singleton] at hx; exact ⟨_, hx⟩
    · rcases hst.1 with ⟨h1, h2⟩ | ⟨h1, h2⟩
      · exact .inl ⟨h1, by simp [h2]⟩
      · exact .inr ⟨h1, by simp [h2]⟩

/-- What the command prints for a block, for an archive of the examples. -/
def outputFor (root : Bytes) (v : Value) : List Printed × Res Unit :=
  match SigningBlock.newWithPadding .dev [v] with
  | .ok b => cliVerifyRun toyEnv .dev [7] (some root) 0 false (plainArchive.signed b.toU8)
  | _ => ([], .panic)

/-- A signer with a trusted certificate and no signature. -/
def bareSigner : Value := Value.newV2 (SignersV2.new [(SignerSpec.buildV2 ⟨[], [[7]], [], [], [7]⟩)])

example : outputFor [7] bareSigner = ([.out .start, .out .blockFound, .out .customRoot, .out .digestsComputed, .out .v2Passed,
    .out (.v2Count 1), .out (.signer 1 true false true true), .out (.signerCert [7]), .out (.overall false true true),
    .err .digestMismatch], .err .verifyFailed) := by decide +kernel

end Ksusig.Props
