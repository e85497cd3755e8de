import Verif.SpecQuick
import Verif.Props.Verify
import Verif.Props.VerifyOutput

/-!
# C122: the quick verification functions
-/

namespace Ksusig.Props

open Ksusig Spec

theorem contextOf_append (adds : List (UInt32 × Bytes)) (a : UInt32 × Bytes) : contextOf (adds ++ [a]) = (contextOf adds).add a.1 a.2 := by
  simp [contextOf]

/-- **C122**: a digest context returns for an algorithm what was added last for it, and only that digest counts as equal. -/
theorem C122_context (adds : List (UInt32 × Bytes)) (id : UInt32) (d : Bytes) :
    ((contextOf adds).get id = some d ↔ LastAdded adds id d) ∧ ((contextOf adds).verify id d = true ↔ LastAdded adds id d) := by
  have key : ∀ (l : List (UInt32 × Bytes)), (contextOf l.reverse).get id = some d ↔ LastAdded l.reverse id d := by
    intro l
    induction l with
    | nil =>
      constructor
      · intro h; cases h
      · rintro ⟨pre, post, h, _⟩
        have := congrArg List.length h
        simp at this
    | cons a l ih =>
      rw [List.reverse_cons, contextOf_append, DigestCtx.get_add]
      by_cases h : a.1 = id
      · rw [if_pos h]
        constructor
        · intro hd
          refine ⟨l.reverse, [], ?_, by simp⟩
          cases hd
          rw [← h]
        · rintro ⟨pre, post, he, hp⟩
          rcases List.eq_nil_or_concat post with rfl | ⟨q, x, hq⟩
          · have := List.append_inj_right' he rfl
            cases this
            rfl
          · rw [List.concat_eq_append] at hq
            subst hq
            rw [show pre ++ (id, d) :: (q ++ [x]) = (pre ++ (id, d) :: q) ++ [x] by simp] at he
            have := List.append_inj_right' he rfl
            cases this
            exact absurd h (hp a (by simp))
      · rw [if_neg h, ih]
        constructor
        · rintro ⟨pre, post, he, hp⟩
          refine ⟨pre, post ++ [a], by rw [he]; simp, ?_⟩
          intro x hx
          rcases List.mem_append.mp hx with hx | hx
          · exact hp x hx
          · rw [List.mem_singleton.mp hx]; exact h
        · rintro ⟨pre, post, he, hp⟩
          rcases List.eq_nil_or_concat post with rfl | ⟨q, x, hq⟩
          · have := List.append_inj_right' he rfl
            cases this
            exact absurd rfl h
          · rw [List.concat_eq_append] at hq
            subst hq
            rw [show pre ++ (id, d) :: (q ++ [x]) = (pre ++ (id, d) :: q) ++ [x] by simp] at he
            refine ⟨pre, q, List.append_inj_left' he rfl, fun y hy => hp y (by simp [hy])⟩
  have := key adds.reverse
  rw [List.reverse_reverse] at this
  exact ⟨this, DigestCtx.verify_iff.trans this⟩

theorem content_iff {adds : List (UInt32 × Bytes)} {id : UInt32} {d : Bytes} : (contextOf adds).get id = some d ↔ LastAdded adds id d :=
  (C122_context adds id d).1

/-- **C122**: with custom roots, the result has all four flags exactly if there are V2 signers and all of them are accepted with the roots
and the digests handed over. -/
theorem C122_accepted {E : Env} {roots : Roots} {added : List Bytes} (hr : StoreHistory E roots added) {now : Nat} {b : SigningBlock}
    {adds : List (UInt32 × Bytes)} :
    FullyValid (verifyWithRootsAndDigest E roots now b (contextOf adds)) ↔
      v2Signers b ≠ [] ∧ ∀ s ∈ v2Signers b, Accepted E added now adds s := by
  unfold verifyWithRootsAndDigest
  rw [hr.eq_storeOf, verifyV2_valid]
  refine and_congr_right fun _ => forall_congr' fun s => imp_congr_right fun _ => ?_
  constructor
  · rintro ⟨h1, h2, h3, h4⟩
    refine ⟨h1, h2, fun g hg => ?_, h4⟩
    obtain ⟨d, hd, hc⟩ := h3 g hg
    exact ⟨d, hd, content_iff.mp hc⟩
  · rintro ⟨h1, h2, h3, h4⟩
    refine ⟨h1, h2, fun g hg => ?_, h4⟩
    obtain ⟨d, hd, hc⟩ := h3 g hg
    exact ⟨d, hd, content_iff.mpr hc⟩

/-- **C122**: the function without roots uses the built-in certificate and no other; if that cannot be read, nothing is ever accepted. -/
theorem C122_builtin {E : Env} {pem : Bytes} {now : Nat} {b : SigningBlock} {adds : List (UInt32 × Bytes)} :
    (FullyValid (verifyWithDigest E pem now b (contextOf adds)) ↔
      ∃ cert, E.pemParse pem = some ("CERTIFICATE", cert) ∧ v2Signers b ≠ [] ∧ ∀ s ∈ v2Signers b, Accepted E [cert] now adds s) := by
  have hsame : verifyWithDigest E pem now b (contextOf adds) = verifyWithRootsAndDigest E (Roots.withBuiltin E pem) now b (contextOf adds) := rfl
  rw [hsame]
  by_cases h : ∃ c, E.pemParse pem = some ("CERTIFICATE", c)
  · obtain ⟨c, hc⟩ := h
    rw [C122_accepted (.builtin pem c hc)]
    constructor
    · rintro ⟨h1, h2⟩; exact ⟨c, hc, h1, h2⟩
    · rintro ⟨c', hc', h1, h2⟩
      rw [hc] at hc'
      cases hc'
      exact ⟨h1, h2⟩
  · have hn : ∀ c, E.pemParse pem ≠ some ("CERTIFICATE", c) := fun c hc => h ⟨c, hc⟩
    rw [C122_accepted (.builtinFailed pem hn)]
    constructor
    · rintro ⟨h1, h2⟩
      obtain ⟨s, hs⟩ := List.exists_mem_of_ne_nil _ h1
      obtain ⟨_, _, _, _, ht, _⟩ := (h2 s hs).cert
      exact absurd rfl ht
    · rintro ⟨c, hc, _⟩; exact absurd hc (hn c)

theorem v2SigLoop_unrefuted {E : Env} {c : DigestCtx} {pk raw : Bytes} {ds : List Digest} :
    ∀ (sigs : List Sig) (st : SigState), (v2SigLoop E (some c) pk raw ds sigs st).error = none ↔
      st.error = none ∧ ∀ pre g post, sigs = pre ++ g :: post → (∀ x ∈ pre ++ [g], ∃ d ∈ ds, d.algo = x.algo) →
        CryptoOk E g.algo pk raw g.signature ∧ ∀ d, FirstFor g.algo ds d → c.get g.algo.toU32 = some d.digest
  | [], st => by simp [v2SigLoop]
  | g :: gs, st => by
    rw [v2SigLoop]
    cases hf : ds.find? (fun d => d.algo == g.algo) with
    | none =>
      dsimp only
      refine ⟨fun h => ⟨h, ?_⟩, fun h => h.1⟩
      intro pre x post he hx
      have : g ∈ pre ++ [x] := by
        cases pre with
        | nil => cases he; simp
        | cons y ys => cases he; simp
      obtain ⟨d, hd, ha⟩ := hx g this
      have := List.find?_eq_none.mp hf d hd
      simp [ha] at this
    | some d =>
      dsimp only
      have hd := find?_firstFor.mp hf
      have hmem : ∃ d ∈ ds, d.algo = g.algo := ⟨d, List.mem_of_find?_eq_some hf, by simpa using List.find?_some hf⟩
      have huniq : ∀ d', FirstFor g.algo ds d' → d' = d := by
        intro d' hd'
        rw [← find?_firstFor, hf] at hd'
        cases hd'; rfl
      -- the condition for the whole list, split at the first signature
      have hsplit : (∀ pre x post, g :: gs = pre ++ x :: post → (∀ y ∈ pre ++ [x], ∃ d ∈ ds, d.algo = y.algo) →
            CryptoOk E x.algo pk raw x.signature ∧ ∀ d, FirstFor x.algo ds d → c.get x.algo.toU32 = some d.digest) ↔
          (CryptoOk E g.algo pk raw g.signature ∧ c.get g.algo.toU32 = some d.digest) ∧
          ∀ pre x post, gs = pre ++ x :: post → (∀ y ∈ pre ++ [x], ∃ d ∈ ds, d.algo = y.algo) →
            CryptoOk E x.algo pk raw x.signature ∧ ∀ d, FirstFor x.algo ds d → c.get x.algo.toU32 = some d.digest := by
        constructor
        · intro h
          refine ⟨?_, ?_⟩
          · obtain ⟨h1, h2⟩ := h [] g gs rfl (by simpa using hmem)
            exact ⟨h1, h2 d hd⟩
          · intro pre x post he hx
            refine h (g :: pre) x post (by rw [he]; rfl) ?_
            intro y hy
            rcases List.mem_cons.mp hy with rfl | hy
            · exact hmem
            · exact hx y hy
        · rintro ⟨⟨h1, h2⟩, h3⟩ pre x post he hx
          cases pre with
          | nil =>
            cases he
            exact ⟨h1, fun d' hd' => by rw [huniq d' hd']; exact h2⟩
          | cons y ys =>
            cases he
            exact h3 ys x post rfl fun z hz => hx z (List.mem_cons_of_mem _ hz)
      rw [hsplit]
      cases hv : g.algo.verify E pk raw g.signature with
      | false =>
        simp only [Bool.not_false, if_true, reduceCtorEq, false_iff]
        rintro ⟨_, ⟨h, _⟩, _⟩
        rw [Algo.verify_iff.mpr h] at hv; cases hv
      | true =>
        simp only [Bool.not_true, Bool.false_eq_true, if_false]
        cases hc : c.verify g.algo.toU32 d.digest with
        | false =>
          simp only [Bool.not_false, if_true]
          rw [v2SigLoop_unrefuted gs]
          simp only [reduceCtorEq, false_and, false_iff]
          rintro ⟨_, ⟨_, h⟩, _⟩
          rw [← DigestCtx.verify_iff, hc] at h; cases h
        | true =>
          simp only [Bool.not_true, Bool.false_eq_true, if_false]
          rw [v2SigLoop_unrefuted gs]
          simp only [Algo.verify_iff.mp hv, DigestCtx.verify_iff.mp hc, true_and]

theorem verifySigner_error {E : Env} {roots : Roots} {now idx : Nat} {adds : List (UInt32 × Bytes)} {s : SignerV2} :
    (verifySigner E roots now (some (contextOf adds)) idx s).error = none ↔ NotRefuted E adds s := by
  have hall := v2SigLoop_unrefuted (E := E) (c := contextOf adds) (pk := s.pubKey.data) (raw := s.signedData.toU8.drop 4)
    (ds := s.signedData.digests.data) s.sigs.data SigState.init
  simp only [SigState.init, true_and, content_iff] at hall
  unfold verifySigner
  rw [sliceFrom?_4_signed]
  dsimp only
  unfold finishSigner
  cases hc : s.signedData.certs.data.map (·.cert) with
  | nil =>
    dsimp only
    refine hall.trans ⟨fun h => ⟨h, by rw [hc]; rintro _ _ ⟨⟩⟩, fun h => h.checked⟩
  | cons leaf rest =>
    dsimp only
    have hk : verifyPubkeyBinding E s.pubKey.data leaf = true ↔ E.certSpki leaf = some s.pubKey.data := by
      unfold verifyPubkeyBinding
      cases E.certSpki leaf with
      | none => simp
      | some k => simp only [beq_iff_eq, Option.some.injEq]; exact eq_comm
    by_cases hb : verifyPubkeyBinding E s.pubKey.data leaf = true
    · rw [if_neg (by simp [hb])]
      dsimp only
      refine hall.trans ⟨fun h => ⟨h, ?_⟩, fun h => h.checked⟩
      rw [hc]
      rintro _ _ ⟨⟩
      exact hk.mp hb
    · rw [if_pos (by simp [hb])]
      simp only [reduceCtorEq, false_iff]
      exact fun h => hb (hk.mpr (h.binding _ _ hc))

/-- **C122**: that the functions return `Ok` means only that there are signers and that none is refuted. It does not depend on the roots
or the clock, so it says nothing about trust. -/
theorem C122_ok {E : Env} {roots : Roots} {pem : Bytes} {now : Nat} {b : SigningBlock} {adds : List (UInt32 × Bytes)} :
    ((∃ r, verifyWithRootsAndDigest E roots now b (contextOf adds) = .ok r) ↔ v2Signers b ≠ [] ∧ ∀ s ∈ v2Signers b, NotRefuted E adds s) ∧
    ((∃ r, verifyWithDigest E pem now b (contextOf adds) = .ok r) ↔ v2Signers b ≠ [] ∧ ∀ s ∈ v2Signers b, NotRefuted E adds s) := by
  have key : ∀ roots, (∃ r, verifyV2 E roots now b (some (contextOf adds)) = .ok r) ↔
      v2Signers b ≠ [] ∧ ∀ s ∈ v2Signers b, NotRefuted E adds s := by
    intro roots
    rw [verifyV2_eq]
    have hnil := v2Results_eq_nil (E := E) (roots := roots) (now := now) (b := b) (ctx := some (contextOf adds))
    rcases concludeVerify_cases (v2Results E roots now b (some (contextOf adds))) with ⟨h, he⟩ | ⟨h, ⟨r, hr, hre⟩, he⟩ | ⟨h, hall, he⟩
    · rw [he]
      simp [hnil.mp h]
    · rw [he]
      simp only [reduceCtorEq, exists_false, false_iff, not_and]
      intro _ hcon
      obtain ⟨s, hs, i, rfl⟩ := mem_v2Results hr
      exact hre (verifySigner_error.mpr (hcon s hs))
    · rw [he]
      refine ⟨fun _ => ⟨fun hn => h (hnil.mpr hn), fun s hs => ?_⟩, fun _ => ⟨_, rfl⟩⟩
      obtain ⟨i, hi⟩ := v2Results_of_mem (E := E) (roots := roots) (now := now) (ctx := some (contextOf adds)) hs
      exact verifySigner_error.mp (hall _ hi)
  exact ⟨key roots, key _⟩

/-- **C122**: source stamps and other values in the block make no difference to the functions. -/
theorem C122_only_v2 {E : Env} {roots : Roots} {pem : Bytes} {now : Nat} {b b' : SigningBlock} {ctx : DigestCtx}
    (h : b.content.filter (fun v => match v with | .v2 _ => true | _ => false) =
      b'.content.filter (fun v => match v with | .v2 _ => true | _ => false)) :
    verifyWithRootsAndDigest E roots now b ctx = verifyWithRootsAndDigest E roots now b' ctx ∧
    verifyWithDigest E pem now b ctx = verifyWithDigest E pem now b' ctx := by
  have key : ∀ roots, verifyV2 E roots now b (some ctx) = verifyV2 E roots now b' (some ctx) := by
    intro roots
    have hf : ∀ (f : Value → List SignerResult), (∀ v, (∀ s, v ≠ .v2 s) → f v = []) → ∀ (l : List Value),
        l.flatMap f = (l.filter (fun v => match v with | .v2 _ => true | _ => false)).flatMap f := by
      intro f h0 l
      induction l with
      | nil => rfl
      | cons v l ih =>
        cases v with
        | v2 s => simp [ih]
        | _ => simp [ih, h0]
    unfold verifyV2
    rw [hf _ ?_ b.content, hf _ ?_ b'.content, h]
    all_goals
      intro v hv
      cases v with
      | v2 s => exact absurd rfl (hv s)
      | _ => rfl
  exact ⟨key roots, key _⟩

/-- **C122**: `has_v2` says whether there is a V2 signer (a V2 block without signers counts as none), `has_source_stamp` whether there is
a stamp; neither depends on roots, clock, digests, or whether anything is valid. -/
theorem C122_has {E : Env} {roots : Roots} {now : Nat} {b : SigningBlock} {ctx : Option DigestCtx} :
    ((verifyAll E roots now b ctx).hasV2 = true ↔ v2Signers b ≠ []) ∧
    ((verifyAll E roots now b ctx).hasStamp = true ↔ stamps b ≠ []) := by
  constructor
  · unfold VAll.hasV2
    rw [Bool.not_eq_true', Bool.eq_false_iff, ne_eq, isNoSignature_iff]
    exact not_congr verifyV2_noSignature
  · unfold VAll.hasStamp
    rw [Bool.not_eq_true', Bool.eq_false_iff, ne_eq, isNoSignature_iff]
    exact not_congr verifySourceStamp_noSignature

/-- The functions accept the sample block with its digest. -/
example : FullyValid (verifyWithRootsAndDigest toyEnv (Roots.new.add toyEnv [7]) 0 (toyBlock [1, 2]) (contextOf [(0x0201, [5]), (0x0201, [1, 2])])) ∧
    StoreHistory toyEnv (Roots.new.add toyEnv [7]) [[7]] ∧
    FullyValid (verifyWithDigest toyEnv [7] 0 (toyBlock [1, 2]) (contextOf [(0x0201, [5]), (0x0201, [1, 2])])) ∧
    ¬ FullyValid (verifyWithDigest toyEnv [7] 0 (toyBlock [1, 2]) (contextOf [(0x0201, [1, 2]), (0x0201, [5])])) := by
  simp only [← allFlags_iff]
  exact ⟨by decide +kernel, .add _ _ _ .new, by decide +kernel, by decide +kernel⟩

/-- `Ok` without trust: the sample block, without any roots. -/
example : (∃ r, verifyWithRootsAndDigest toyEnv Roots.new 0 (toyBlock [1, 2]) (contextOf [(0x0201, [1, 2])]) = .ok r ∧ r.trusted = false) :=
  (exists_verdict (P := fun r => !r.trusted) (by decide +kernel)).imp fun _ h => ⟨h.1, by simpa using h.2⟩

example : (toyBlock [1, 2]).content.filter (fun v => match v with | .v2 _ => true | _ => false) =
    (blockOf [Value.newV2 (SignersV2.new [toySigner [1, 2]]), Value.newV2 (SignersV2.new [toySigner [1, 2]])]).content.filter
      (fun v => match v with | .v2 _ => true | _ => false) := by decide +kernel

end Ksusig.Props
