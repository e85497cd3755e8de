import Verif.SpecLines
import Verif.Props.VerifyOutput

/-!
# C105: every line of the report of the verify command
-/

namespace Ksusig.Props

open Ksusig Spec

theorem fullyValid_ok {r : VResult} : FullyValid (.ok r) ↔
    r.sigValid = true ∧ r.digestValid = true ∧ r.chainValid = true ∧ r.trusted = true := by
  constructor
  · rintro ⟨r', h, h1⟩
    cases h
    exact h1
  · intro h
    exact ⟨r, rfl, h⟩

theorem not_fullyValid_err {e : VErr} : ¬ FullyValid (.err e) := by
  rintro ⟨r, h, _⟩
  cases h

theorem mem_signerLines {verbose : Bool} {g : SignerResult} {x : Printed} : x ∈ signerLines verbose g ↔
    x = .out (.signer (g.index + 1) g.sigValid g.digestValid g.chainValid g.trusted) ∨
    (∃ c, g.cert = some c ∧ x = .out (.signerCert c)) ∨
    (g.chain ≠ [] ∧ x = .out (.chainLength g.chain.length)) ∨
    (verbose = true ∧ ∃ i c, g.chain[i]? = some c ∧ x = .out (.chainCert i c)) ∨
    (verbose = true ∧ ∃ w ∈ g.warnings, x = .out (.signerWarning w)) := by
  have hch : (x ∈ g.chain.zipIdx.map fun x => Printed.out (.chainCert x.2 x.1)) ↔
      ∃ i c, g.chain[i]? = some c ∧ x = .out (.chainCert i c) := by
    simp only [List.mem_map, Prod.exists, List.mem_zipIdx_iff_getElem?]
    constructor
    · rintro ⟨c, i, h, rfl⟩; exact ⟨i, c, h, rfl⟩
    · rintro ⟨i, c, h, rfl⟩; exact ⟨c, i, h, rfl⟩
  unfold signerLines
  simp only [List.mem_append, List.mem_singleton]
  rw [or_assoc, or_assoc]
  refine or_congr Iff.rfl (or_congr ?_ ?_)
  · cases g.cert <;> simp
  · by_cases he : g.chain = []
    · cases verbose <;> simp [he, eq_comm]
    · have he' : g.chain.isEmpty = false := by simpa using he
      cases verbose
      · simp [he', he]
      · simp only [he', Bool.false_eq_true, if_false, List.mem_append, List.mem_singleton, if_true, hch, ne_eq, he, not_false_eq_true,
          true_and, List.mem_map, or_assoc, eq_comm (a := x)]

/-- What the V2 part prints. -/
theorem v2Report_lines (verbose custom : Bool) (v s : Verdict) (x : Printed) (hx : isV2Line x = true) :
    x ∈ (v2Report verbose v).1 ↔ Reported verbose custom v s x := by
  constructor
  · intro h
    cases v with
    | err e =>
      cases e with
      | noSignature =>
        simp only [v2Report, List.mem_cons, List.not_mem_nil, or_false, or_self] at h
        subst h
        exact .v2NotFound rfl
      | invalidSignature =>
        simp only [v2Report, List.mem_singleton] at h
        subst h
        exact .v2Failed _ rfl (by simp)
      | multiSigner es =>
        simp only [v2Report, cliFailureLines, List.mem_cons, List.mem_map, List.map_map, Function.comp_def, Prod.exists,
          List.mem_zipIdx_iff_getElem?] at h
        rcases h with rfl | ⟨e, i, h, rfl⟩
        · exact .v2Failed _ rfl (by simp)
        · exact .v2Failure es i e rfl h
    | ok r =>
      have lines : r.sigValid = true → x ∈ v2Lines verbose r → Reported verbose custom (.ok r) s x := by
        intro hs k
        simp only [v2Lines, List.mem_append, List.mem_cons, List.not_mem_nil, or_false, List.mem_flatMap, mem_signerLines, List.mem_map,
          Prod.exists] at k
        rcases k with (((rfl | rfl) | ⟨g, hg, k⟩) | rfl) | ⟨n, w, k, rfl⟩
        · exact .v2Passed r rfl hs
        · exact .v2Count r rfl hs
        · rcases k with rfl | ⟨c, k, rfl⟩ | ⟨k, rfl⟩ | ⟨hv, i, c, k, rfl⟩ | ⟨hv, w, k, rfl⟩
          · exact .signer r g rfl hs hg
          · exact .signerCert r g c rfl hs hg k
          · exact .chainLength r g rfl hs hg k
          · exact .chainCert r g i c hv rfl hs hg k
          · exact .signerWarning r g w hv rfl hs hg k
        · exact .overall r rfl hs
        · exact .warning r n w rfl hs k
      unfold v2Report at h
      dsimp only at h
      split at h
      · rename_i hs
        split at h
        · rename_i hd
          rcases List.mem_append.mp h with h | h
          · exact lines hs h
          · rw [List.mem_singleton] at h
            subst h
            exact .digestMismatch r rfl hs (by simpa using hd)
        · rename_i hd
          have hd : r.digestValid = true := by simpa using hd
          split at h
          · rename_i hc
            rcases List.mem_append.mp h with h | h
            · exact lines hs h
            · rw [List.mem_singleton] at h
              subst h
              exact .chainInvalid r rfl hs hd (by simpa using hc)
          · rename_i hc
            split at h
            · rename_i ht
              rcases List.mem_append.mp h with h | h
              · exact lines hs h
              · rw [List.mem_singleton] at h
                subst h
                exact .untrusted r rfl hs hd (by simpa using hc) (by simpa using ht)
            · exact lines hs h
      · rename_i hs
        have hs : r.sigValid = false := by simpa using hs
        simp only [List.mem_append, List.mem_singleton, List.mem_map, Prod.exists] at h
        rcases h with rfl | ⟨n, w, h, rfl⟩
        · exact .v2Invalid r rfl hs
        · exact .errWarning r n w rfl hs h
  · have lines : ∀ r : VResult, r.sigValid = true → x ∈ v2Lines verbose r → x ∈ (v2Report verbose (.ok r)).1 := by
      intro r hs h
      unfold v2Report
      dsimp only
      rw [if_pos hs]
      split
      · exact List.mem_append_left _ h
      · split
        · exact List.mem_append_left _ h
        · split
          · exact List.mem_append_left _ h
          · exact h
    intro h
    cases h with
    | v2NotFound hv => subst hv; simp [v2Report]
    | v2Failed e hv he =>
      subst hv
      cases e with
      | noSignature => exact absurd rfl he
      | invalidSignature => simp [v2Report]
      | multiSigner es => simp [v2Report]
    | v2Failure es i e hv he =>
      subst hv
      simp only [v2Report, cliFailureLines, List.mem_cons, List.mem_map, List.map_map, Function.comp_def, Prod.exists,
        List.mem_zipIdx_iff_getElem?]
      exact .inr ⟨e, i, he, rfl⟩
    | v2Passed r hv hs => subst hv; exact lines r hs (by simp [v2Lines])
    | v2Count r hv hs => subst hv; exact lines r hs (by simp [v2Lines])
    | signer r g hv hs hg =>
      subst hv
      refine lines r hs ?_
      simp only [v2Lines, List.mem_append, List.mem_flatMap]
      exact .inl (.inl (.inr ⟨g, hg, mem_signerLines.mpr (.inl rfl)⟩))
    | signerCert r g c hv hs hg hc =>
      subst hv
      refine lines r hs ?_
      simp only [v2Lines, List.mem_append, List.mem_flatMap]
      exact .inl (.inl (.inr ⟨g, hg, mem_signerLines.mpr (.inr (.inl ⟨c, hc, rfl⟩))⟩))
    | chainLength r g hv hs hg hc =>
      subst hv
      refine lines r hs ?_
      simp only [v2Lines, List.mem_append, List.mem_flatMap]
      exact .inl (.inl (.inr ⟨g, hg, mem_signerLines.mpr (.inr (.inr (.inl ⟨hc, rfl⟩)))⟩))
    | chainCert r g i c hb hv hs hg hc =>
      subst hv
      refine lines r hs ?_
      simp only [v2Lines, List.mem_append, List.mem_flatMap]
      exact .inl (.inl (.inr ⟨g, hg, mem_signerLines.mpr (.inr (.inr (.inr (.inl ⟨hb, i, c, hc, rfl⟩))))⟩))
    | signerWarning r g w hb hv hs hg hw =>
      subst hv
      refine lines r hs ?_
      simp only [v2Lines, List.mem_append, List.mem_flatMap]
      exact .inl (.inl (.inr ⟨g, hg, mem_signerLines.mpr (.inr (.inr (.inr (.inr ⟨hb, w, hw, rfl⟩))))⟩))
    | overall r hv hs => subst hv; exact lines r hs (by simp [v2Lines])
    | warning r n w hv hs hw =>
      subst hv
      refine lines r hs ?_
      simp only [v2Lines, List.mem_append, List.mem_map]
      exact .inr ⟨(n, w), hw, rfl⟩
    | digestMismatch r hv hs hd => subst hv; simp [v2Report, hs, hd]
    | chainInvalid r hv hs hd hc => subst hv; simp [v2Report, hs, hd, hc]
    | untrusted r hv hs hd hc ht => subst hv; simp [v2Report, hs, hd, hc, ht]
    | v2Invalid r hv hs => subst hv; simp [v2Report, hs]
    | errWarning r n w hv hs hw =>
      subst hv
      simp only [v2Report, hs, Bool.false_eq_true, if_false, List.mem_append, List.mem_map]
      exact .inr ⟨(n, w), hw, rfl⟩
    | start | blockFound | customRoot | computed | digestsComputed | stampPassed | stampCert | stampFailed | stampTampered
    | stampUntrusted | stampWarning | stampNotFound | stampError | stampFailure | stampPresent | onlyV2 | success => cases hx

theorem stampReasons_eq (r : VResult) : stampReasons r = missing [r.sigValid, r.digestValid, r.chainValid, r.trusted] := by
  unfold stampReasons
  generalize r.sigValid = a
  generalize r.digestValid = b
  generalize r.chainValid = c
  generalize r.trusted = d
  revert a b c d
  decide

/-- What the source stamp part prints, if it is reached. -/
theorem stampReport_lines (verbose custom : Bool) (v s : Verdict) (hv : GoesOn v) (x : Printed) (hx : isStampLine x = true) :
    x ∈ (stampReport s).1 ↔ Reported verbose custom v s x := by
  constructor
  · intro h
    cases s with
    | err e =>
      cases e with
      | noSignature =>
        simp only [stampReport, List.mem_singleton] at h
        subst h
        exact .stampNotFound hv rfl
      | invalidSignature =>
        simp only [stampReport, List.mem_cons, List.not_mem_nil, or_false] at h
        rcases h with rfl | rfl
        · exact .stampError _ hv rfl (by simp)
        · exact .stampPresent _ hv rfl (by simp)
      | multiSigner es =>
        simp only [stampReport, List.cons_append, List.mem_cons, List.mem_append, List.mem_map, List.not_mem_nil, or_false] at h
        rcases h with rfl | ⟨e, h, rfl⟩ | rfl
        · exact .stampError _ hv rfl (by simp)
        · exact .stampFailure es e hv rfl h
        · exact .stampPresent _ hv rfl (by simp)
    | ok r =>
      unfold stampReport at h
      dsimp only at h
      split at h
      · rename_i hf
        simp only [Bool.and_eq_true] at hf
        obtain ⟨⟨⟨h1, h2⟩, h3⟩, h4⟩ := hf
        have hfv : FullyValid (.ok r) := fullyValid_ok.mpr ⟨h1, h2, h3, h4⟩
        rw [h1, h2, h3, h4] at h
        rcases List.mem_append.mp h with h | h
        · rw [List.mem_singleton] at h
          subst h
          exact .stampPassed hv hfv
        · cases hc : r.cert with
          | none => rw [hc] at h; cases h
          | some c =>
            rw [hc, List.mem_singleton] at h
            subst h
            exact .stampCert r c hv hfv rfl hc
      · rename_i hf
        have hnf : ¬ FullyValid (.ok r) := by
          rw [fullyValid_ok]
          rintro ⟨h1, h2, h3, h4⟩
          exact hf (by simp [h1, h2, h3, h4])
        simp only [List.mem_append, List.mem_singleton, List.mem_map, Prod.exists] at h
        rcases h with ((rfl | h) | h) | ⟨n, w, h, rfl⟩
        · rw [stampReasons_eq]
          exact .stampFailed r hv rfl hnf
        · split at h
          · cases h
          · rename_i hd
            rw [List.mem_singleton] at h
            subst h
            exact .stampTampered r hv rfl (by simpa using hd)
        · split at h
          · cases h
          · rename_i hd
            rw [List.mem_singleton] at h
            subst h
            exact .stampUntrusted r hv rfl (by simpa using hd)
        · exact .stampWarning r n w hv rfl hnf h
  · have failed : ∀ r : VResult, ¬ FullyValid (.ok r) → ¬ ((r.sigValid && r.digestValid && r.chainValid && r.trusted) = true) := by
      intro r h1 h2
      simp only [Bool.and_eq_true] at h2
      exact h1 (fullyValid_ok.mpr ⟨h2.1.1.1, h2.1.1.2, h2.1.2, h2.2⟩)
    intro h
    cases h with
    | stampPassed _ hf =>
      obtain ⟨r, rfl, h1, h2, h3, h4⟩ := hf
      simp [stampReport, h1, h2, h3, h4]
    | stampCert r c _ hf hs hc =>
      subst hs
      obtain ⟨h1, h2, h3, h4⟩ := fullyValid_ok.mp hf
      simp [stampReport, h1, h2, h3, h4, hc]
    | stampFailed r _ hs hf =>
      subst hs
      simp only [stampReport, if_neg (failed r hf), stampReasons_eq]
      simp
    | stampTampered r _ hs hd =>
      subst hs
      simp [stampReport, hd]
    | stampUntrusted r _ hs hd =>
      subst hs
      simp [stampReport, hd]
    | stampWarning r n w _ hs hf hw =>
      subst hs
      simp only [stampReport, if_neg (failed r hf), List.mem_append, List.mem_map]
      exact .inr ⟨(n, w), hw, rfl⟩
    | stampNotFound _ hs => subst hs; simp [stampReport]
    | stampError e _ hs he =>
      subst hs
      cases e with
      | noSignature => exact absurd rfl he
      | invalidSignature => simp [stampReport]
      | multiSigner es => simp [stampReport]
    | stampPresent e _ hs he =>
      subst hs
      cases e with
      | noSignature => exact absurd rfl he
      | invalidSignature => simp [stampReport]
      | multiSigner es => simp [stampReport]
    | stampFailure es e _ hs he =>
      subst hs
      simp [stampReport, he]
    | start | blockFound | customRoot | computed | digestsComputed | v2NotFound | v2Failed | v2Failure | v2Passed | v2Count | signer
    | signerCert | chainLength | chainCert | signerWarning | overall | warning | digestMismatch | chainInvalid | untrusted | v2Invalid
    | errWarning | onlyV2 | success => cases hx

theorem goesOn_iff (verbose : Bool) (v : Verdict) : GoesOn v ↔ ∃ v2, (v2Report verbose v).2 = .ok v2 := by
  rw [v2Report_res]
  constructor
  · rintro (rfl | ⟨r, rfl, h1, h2, h3, h4⟩)
    · exact ⟨none, rfl⟩
    · exact ⟨some r, by simp [cliV2, h1, h2, h3, h4]⟩
  · rintro ⟨v2, h⟩
    rcases cliV2_ok h with ⟨h, _⟩ | ⟨h, _⟩
    · exact .inl h
    · exact .inr h

/-- Only the V2 part prints V2 lines, and only the source stamp part stamp lines. -/
theorem reported_stamp {verbose custom : Bool} {v s : Verdict} {x : Printed} (hx : isStampLine x = true)
    (h : Reported verbose custom v s x) : GoesOn v := by
  cases h <;> first | assumption | cases hx

/-- What the command prints once the digests are there. -/
theorem verifyRun_after {E : Env} {p : Profile} {pem : Bytes} {root : Option Bytes} {now : Nat} {verbose : Bool} {file : Bytes}
    {b : SigningBlock} {roots : Roots} {d256 d384 : Bytes} (hb : (Module.new file).getSigningBlock p file = .ok b)
    (hr : cliRoots E pem root = .ok roots) (h2 : (Module.new file).digest E p file .p256 = .ok d256)
    (h5 : (Module.new file).digest E p file .p384 = .ok d384) :
    cliVerifyRun E p pem root now verbose file = afterPrelude
      ([.out .start, .out .blockFound] ++ (if root.isSome then [.out .customRoot] else []) ++
        (if verbose then [.out (.computed .p256)] else []) ++ (if verbose then [.out (.computed .p384)] else []) ++
        [.out .digestsComputed])
      verbose (verifyV2 E roots now b (some ((DigestCtx.new.add Algo.p256.toU32 d256).add Algo.p384.toU32 d384)))
      (verifySourceStamp E roots now b (some ((DigestCtx.new.add Algo.p256.toU32 d256).add Algo.p384.toU32 d384))) := by
  unfold cliVerifyRun
  dsimp only
  rw [hb]
  dsimp only
  rw [hr]
  dsimp only
  rw [cliAddDigest_ok _ h2]
  dsimp only
  rw [cliAddDigest_ok _ h5]
  dsimp only
  rw [if_neg (by simp [DigestCtx.add])]
  simp only [digestLine, h2, h5]
  rfl

/-- C105. For a module with a block, a root certificate that loads and digests that can be computed, the verify command prints exactly
the lines that are true, in the sense of `Reported`, of what verifying the V2 signature and the stamp of the block against the digests
returns. -/
theorem C105_lines {E : Env} {p : Profile} {pem : Bytes} {root : Option Bytes} {now : Nat} {verbose : Bool} {file : Bytes}
    {b : SigningBlock} {roots : Roots} {d256 d384 : Bytes} (hb : (Module.new file).getSigningBlock p file = .ok b)
    (hr : cliRoots E pem root = .ok roots) (h2 : (Module.new file).digest E p file .p256 = .ok d256)
    (h5 : (Module.new file).digest E p file .p384 = .ok d384) (x : Printed) :
    let c := (DigestCtx.new.add Algo.p256.toU32 d256).add Algo.p384.toU32 d384
    x ∈ (cliVerifyRun E p pem root now verbose file).1 ↔
      Reported verbose root.isSome (verifyV2 E roots now b (some c)) (verifySourceStamp E roots now b (some c)) x := by
  intro c
  have hrun := verifyRun_after (now := now) (verbose := verbose) hb hr h2 h5
  rw [hrun]
  generalize verifyV2 E roots now b (some c) = v
  generalize verifySourceStamp E roots now b (some c) = s
  generalize root.isSome = custom
  clear hrun
  generalize hpre : ([.out .start, .out .blockFound] ++ (if custom then [.out .customRoot] else []) ++
        (if verbose then [.out (.computed .p256)] else []) ++ (if verbose then [.out (.computed .p384)] else []) ++
        [.out .digestsComputed] : List Printed) = pre
  have hp : x ∈ pre ↔ isPrelude x = true ∧ Reported verbose custom v s x := by
    subst hpre
    constructor
    · intro h
      simp only [List.mem_append, List.mem_cons, List.not_mem_nil, or_false] at h
      rcases h with ((((rfl | rfl) | h) | h) | h) | rfl
      · exact ⟨rfl, .start⟩
      · exact ⟨rfl, .blockFound⟩
      · split at h
        · rename_i hc
          rw [List.mem_singleton] at h
          subst h
          exact ⟨rfl, .customRoot hc⟩
        · cases h
      · split at h
        · rename_i hc
          rw [List.mem_singleton] at h
          subst h
          exact ⟨rfl, .computed _ hc (.inl rfl)⟩
        · cases h
      · split at h
        · rename_i hc
          rw [List.mem_singleton] at h
          subst h
          exact ⟨rfl, .computed _ hc (.inr rfl)⟩
        · cases h
      · exact ⟨rfl, .digestsComputed⟩
    · rintro ⟨hx, h⟩
      cases h with
      | start => simp
      | blockFound => simp
      | customRoot hc => simp [hc]
      | computed a hv ha => rcases ha with rfl | rfl <;> simp [hv]
      | digestsComputed => simp
      | v2NotFound | v2Failed | v2Failure | v2Passed | v2Count | signer | signerCert | chainLength | chainCert | signerWarning
      | overall | warning | digestMismatch | chainInvalid | untrusted | v2Invalid | errWarning | stampPassed | stampCert | stampFailed
      | stampTampered | stampUntrusted | stampWarning | stampNotFound | stampError | stampFailure | stampPresent | onlyV2
      | success => cases hx
  have hv2 : x ∈ (v2Report verbose v).1 ↔ isV2Line x = true ∧ Reported verbose custom v s x :=
    ⟨fun h => ⟨v2Report_kind _ _ x h, (v2Report_lines verbose custom v s x (v2Report_kind _ _ x h)).mp h⟩,
      fun h => (v2Report_lines verbose custom v s x h.1).mpr h.2⟩
  have hst : GoesOn v → (x ∈ (stampReport s).1 ↔ isStampLine x = true ∧ Reported verbose custom v s x) := fun hg =>
    ⟨fun h => ⟨stampReport_kind _ x h, (stampReport_lines verbose custom v s hg x (stampReport_kind _ x h)).mp h⟩,
      fun h => (stampReport_lines verbose custom v s hg x h.1).mpr h.2⟩
  have hall : Reported verbose custom v s x → isPrelude x = true ∨ isV2Line x = true ∨ isStampLine x = true ∨
      x = .out .onlyV2 ∨ x = .out .success := by
    intro h
    cases h <;> simp [isPrelude, isV2Line, isStampLine]
  have hsf : (stampReport s).2 = true ↔ s ≠ .err .noSignature ∧ ¬ FullyValid s := by
    rw [stampReport_failed]
    cases s with
    | err e => cases e <;> simp [cliStampFailed, not_fullyValid_err]
    | ok r => 
      simp only [cliStampFailed, fullyValid_ok]
      cases r.sigValid <;> cases r.digestValid <;> cases r.chainValid <;> cases r.trusted <;> simp
  unfold afterPrelude
  cases hv : (v2Report verbose v).2 with
  | ok v2 =>
    have hg : GoesOn v := (goesOn_iff verbose v).mpr ⟨v2, hv⟩
    dsimp only
    have hc : x ∈ (conclude v2 (stampReport s).2).1 ↔ (x = .out .onlyV2 ∨ x = .out .success) ∧ Reported verbose custom v s x := by
      rw [v2Report_res] at hv
      rcases cliV2_ok hv with ⟨rfl, rfl⟩ | ⟨hf, r, rfl, rfl⟩
      · simp only [conclude, Bool.false_eq_true, if_false, List.not_mem_nil, false_iff, not_and]
        rintro (rfl | rfl) h
        · cases h with | onlyV2 h => exact not_fullyValid_err h
        · cases h with | success h => exact not_fullyValid_err h
      · obtain ⟨h1, h2, h3, h4⟩ := fullyValid_ok.mp hf
        simp only [conclude, h1, h2, h3, h4, Bool.and_self, if_true]
        by_cases hs : (stampReport s).2 = true
        · rw [if_pos hs, List.mem_singleton]
          have hs' := hsf.mp hs
          constructor
          · rintro rfl
            exact ⟨.inl rfl, .onlyV2 hf hs'.1 hs'.2⟩
          · rintro ⟨rfl | rfl, h⟩
            · rfl
            · cases h with | success _ h => exact absurd h (fun h => h.elim hs'.1 hs'.2)
        · rw [if_neg hs, List.mem_singleton]
          have hs' : s = .err .noSignature ∨ FullyValid s := by
            by_cases e : s = .err .noSignature
            · exact .inl e
            · exact .inr (Classical.byContradiction fun hn => hs (hsf.mpr ⟨e, hn⟩))
          constructor
          · rintro rfl
            exact ⟨.inr rfl, .success hf hs'⟩
          · rintro ⟨rfl | rfl, h⟩
            · cases h with | onlyV2 _ h1 h2 => exact absurd hs' (fun h => h.elim h1 h2)
            · rfl
    simp only [List.mem_append, hp, hv2, hst hg, hc]
    constructor
    · rintro (((h | h) | h) | h) <;> exact h.2
    · intro h
      rcases hall h with h' | h' | h' | h'
      · exact .inl (.inl (.inl ⟨h', h⟩))
      · exact .inl (.inl (.inr ⟨h', h⟩))
      · exact .inl (.inr ⟨h', h⟩)
      · exact .inr ⟨h', h⟩
  | err e =>
    dsimp only
    have hng : ¬ GoesOn v := by
      rw [goesOn_iff verbose]
      rw [hv]
      rintro ⟨_, h⟩
      cases h
    simp only [List.mem_append, hp, hv2]
    constructor
    · rintro (h | h) <;> exact h.2
    · intro h
      rcases hall h with h' | h' | h' | h' | h'
      · exact .inl ⟨h', h⟩
      · exact .inr ⟨h', h⟩
      · exact absurd (reported_stamp h' h) hng
      · subst h'
        cases h with | onlyV2 h => exact absurd (.inr h) hng
      · subst h'
        cases h with | success h => exact absurd (.inr h) hng
  | panic =>
    exfalso
    rw [v2Report_res] at hv
    cases v with
    | err e => cases e <;> cases hv
    | ok r =>
      simp only [cliV2] at hv
      split at hv
      · split at hv
        · cases hv
        · split at hv
          · cases hv
          · split at hv <;> cases hv
      · cases hv

/-- C105. The certificate printed after the flags of a signer is this signer's, followed by the length of its chain. -/
theorem C105_signer_group {E : Env} {p : Profile} {pem : Bytes} {root : Option Bytes} {now : Nat} {verbose : Bool} {file : Bytes}
    {b : SigningBlock} {roots : Roots} {d256 d384 : Bytes} (hb : (Module.new file).getSigningBlock p file = .ok b)
    (hr : cliRoots E pem root = .ok roots) (h2 : (Module.new file).digest E p file .p256 = .ok d256)
    (h5 : (Module.new file).digest E p file .p384 = .ok d384) {r : VResult}
    (hv : verifyV2 E roots now b (some ((DigestCtx.new.add Algo.p256.toU32 d256).add Algo.p384.toU32 d384)) = .ok r)
    (hs : r.sigValid = true) {i : Nat} {g : SignerResult} (hg : r.signers[i]? = some g) {c : Bytes} (hc : g.cert = some c) :
    [.out (.signer (g.index + 1) g.sigValid g.digestValid g.chainValid g.trusted), .out (.signerCert c)] ++
      (if g.chain = [] then [] else [.out (.chainLength g.chain.length)]) <:+: (cliVerifyRun E p pem root now verbose file).1 := by
  have hl : v2Lines verbose r <:+: (v2Report verbose (.ok r)).1 := by
    simp only [v2Report, hs, if_true]
    split
    · exact (List.prefix_append _ _).isInfix
    · split
      · exact (List.prefix_append _ _).isInfix
      · split
        · exact (List.prefix_append _ _).isInfix
        · exact List.infix_refl _
  have hgl : [.out (.signer (g.index + 1) g.sigValid g.digestValid g.chainValid g.trusted), .out (.signerCert c)] ++
      (if g.chain = [] then [] else [.out (.chainLength g.chain.length)]) <:+: signerLines verbose g := by
    unfold signerLines
    rw [hc]
    cases hch : g.chain with
    | nil => exact ⟨[], _, rfl⟩
    | cons x l => exact ⟨[], _, by simp [List.append_assoc]; rfl⟩
  have hsl : signerLines verbose g <:+: v2Lines verbose r := by
    obtain ⟨s, t, hst⟩ := List.append_of_mem (List.mem_of_getElem? hg)
    refine ⟨[.out .v2Passed, .out (.v2Count r.signers.length)] ++ s.flatMap (signerLines verbose), t.flatMap (signerLines verbose) ++
      ([.out (.overall r.digestValid r.chainValid r.trusted)] ++ r.warnings.map fun x => .out (.warning x.1 x.2)), ?_⟩
    unfold v2Lines
    simp only [hst, List.flatMap_append, List.flatMap_cons, List.append_assoc]
  rw [verifyRun_after hb hr h2 h5, hv]
  refine hgl.trans (hsl.trans (hl.trans ?_))
  unfold afterPrelude
  split
  · exact (List.suffix_append _ _).isInfix
  · exact (List.suffix_append _ _).isInfix
  · exact ⟨_, _, (List.append_assoc _ _ _).symm⟩

/-- C105. What the command prints when it stops before verifying anything: without a block only the first line; with a root certificate
that cannot be loaded only that the block was found; with digests that cannot be computed this, in verbose mode once per digest. -/
theorem C105_early (E : Env) (p : Profile) (pem : Bytes) (root : Option Bytes) (now : Nat) (verbose : Bool) (file : Bytes) :
    (∀ e, (Module.new file).getSigningBlock p file = .err e →
      cliVerifyRun E p pem root now verbose file = ([.out .start], .err .verifyFailed)) ∧
    (∀ b e, (Module.new file).getSigningBlock p file = .ok b → cliRoots E pem root = .err e →
      cliVerifyRun E p pem root now verbose file = ([.out .start, .out .blockFound], .err e)) ∧
    (∀ b roots e1 e2, (Module.new file).getSigningBlock p file = .ok b → cliRoots E pem root = .ok roots →
      (Module.new file).digest E p file .p256 = .err e1 → (Module.new file).digest E p file .p384 = .err e2 →
      cliVerifyRun E p pem root now verbose file = ([.out .start, .out .blockFound] ++ (if root.isSome then [.out .customRoot] else []) ++
        (if verbose then [.out (.notComputed .p256), .out (.notComputed .p384)] else []) ++ [.err .noDigests], .err .verifyFailed)) := by
  refine ⟨fun e h => ?_, fun b e h hr => ?_, fun b roots e1 e2 h hr h1 h2 => ?_⟩
  · simp only [cliVerifyRun, h]
  · simp only [cliVerifyRun, h, hr]
  · have a1 : ∀ c, cliAddDigest E p (Module.new file) file .p256 c = .ok c := fun c => by simp [cliAddDigest, h1]
    have a2 : ∀ c, cliAddDigest E p (Module.new file) file .p384 c = .ok c := fun c => by simp [cliAddDigest, h2]
    simp only [cliVerifyRun, h, hr, a1, a2, digestLine, h1, h2]
    cases verbose <;> simp [DigestCtx.new]

/-- The lines for the archive of the examples with one signer are those of `Reported`: the signer is reported with the flags its result
has, the digest as not matching, and no success. -/
example : (.out (.signer 1 true false true true) ∈ (outputFor [7] bareSigner).1) ∧ (.err .digestMismatch ∈ (outputFor [7] bareSigner).1) ∧
    (.out .success ∉ (outputFor [7] bareSigner).1) := by decide +kernel

/-- The hypotheses of `C105_lines` and `C105_signer_group` are met by this archive: the block is found, the root loads, the digests are
computed, and the V2 result has a signer with a certificate. -/
example : (match SigningBlock.newWithPadding .dev [bareSigner] with
    | .ok b =>
      let file := plainArchive.signed b.toU8
      match (Module.new file).getSigningBlock .dev file, cliRoots toyEnv [7] (some [7]), (Module.new file).digest toyEnv .dev file .p256,
        (Module.new file).digest toyEnv .dev file .p384 with
      | .ok b', .ok roots, .ok d2, .ok d5 =>
        match verifyV2 toyEnv roots 0 b' (some ((DigestCtx.new.add Algo.p256.toU32 d2).add Algo.p384.toU32 d5)) with
        | .ok r => r.sigValid && (match r.signers[0]? with | some g => g.cert == some [7] | none => false)
        | _ => false
      | _, _, _, _ => false
    | _ => false) = true := by decide +kernel

/-- Those of `C105_early` by an empty file. -/
example : cliVerifyRun toyEnv .dev [7] none 0 true [] = ([.out .start], .err .verifyFailed) := by decide +kernel

end Ksusig.Props
