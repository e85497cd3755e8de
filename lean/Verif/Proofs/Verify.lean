import Verif.SpecVerify
import Verif.Proofs.Bytes

namespace Ksusig

open Spec

theorem Algo.verify_iff {E : Env} {a : Algo} {pk m s : Bytes} : a.verify E pk m s = true ↔ CryptoOk E a pk m s := by
  cases a <;> simp [Algo.verify, CryptoOk, Algo.hash]

theorem find?_firstFor {a : Algo} {ds : List Digest} {d : Digest} :
    ds.find? (fun d => d.algo == a) = some d ↔ FirstFor a ds d := by
  rw [List.find?_eq_some_iff_append]
  constructor
  · rintro ⟨h1, pre, post, h2, h3⟩
    exact ⟨pre, post, h2, fun x hx => by simpa using h3 x hx, by simpa using h1⟩
  · rintro ⟨pre, post, h1, h2, h3⟩
    exact ⟨by simpa using h3, pre, post, h1, fun x hx => by simpa using h2 x hx⟩

theorem DigestCtx.verify_iff {c : DigestCtx} {id : UInt32} {d : Bytes} : c.verify id d = true ↔ c.get id = some d := by
  unfold DigestCtx.verify
  cases c.get id <;> simp

/-- What one V2 signature must satisfy. -/
def V2SigOk (E : Env) (computed : UInt32 → Option Bytes) (pk raw : Bytes) (ds : List Digest) (g : Sig) : Prop :=
  CryptoOk E g.algo pk raw g.signature ∧ ∃ d, FirstFor g.algo ds d ∧ computed g.algo.toU32 = some d.digest

/-- The V2 signature loop ends without error and with the flag set iff it started so and all signatures are good. -/
theorem v2SigLoop_ok {E : Env} {c : DigestCtx} {pk raw : Bytes} {ds : List Digest} :
    ∀ (sigs : List Sig) (st : SigState),
      ((v2SigLoop E (some c) pk raw ds sigs st).sigValid = true ∧ (v2SigLoop E (some c) pk raw ds sigs st).error = none) ↔
        (st.sigValid = true ∧ st.error = none ∧ ∀ g ∈ sigs, V2SigOk E c.get pk raw ds g)
  | [], st => by simp [v2SigLoop]
  | g :: gs, st => by
    rw [v2SigLoop]
    cases hf : ds.find? (fun d => d.algo == g.algo) with
    | none =>
      simp only [Bool.false_eq_true, false_and, false_iff, not_and]
      intro _ _ h
      obtain ⟨_, d, hd, _⟩ := h g (by simp)
      rw [← find?_firstFor, hf] at hd; cases hd
    | some d =>
      dsimp only
      have hd := find?_firstFor.mp hf
      cases hv : g.algo.verify E pk raw g.signature with
      | false =>
        simp only [Bool.not_false, if_true, Bool.false_eq_true, false_and, false_iff, not_and]
        intro _ _ h
        have := Algo.verify_iff.mpr (h g (by simp)).1
        rw [hv] at this; cases this
      | true =>
        simp only [Bool.not_true, Bool.false_eq_true, if_false]
        cases hc : c.verify g.algo.toU32 d.digest with
        | false =>
          simp only [Bool.not_false, if_true]
          rw [v2SigLoop_ok gs]
          simp only [reduceCtorEq, false_and, and_false, false_iff, not_and]
          intro _ _ h
          obtain ⟨_, d', hd', hg⟩ := h g (by simp)
          rw [← find?_firstFor, hf] at hd'
          cases hd'
          rw [← DigestCtx.verify_iff, hc] at hg; cases hg
        | true =>
          simp only [Bool.not_true, Bool.false_eq_true, if_false]
          rw [v2SigLoop_ok gs]
          simp only [List.mem_cons, forall_eq_or_imp]
          have : V2SigOk E c.get pk raw ds g := ⟨Algo.verify_iff.mp hv, d, hd, DigestCtx.verify_iff.mp hc⟩
          simp [this]

/-- After a successful V2 loop the digest flag is set iff there was a signature or it was set before. -/
theorem v2SigLoop_digest {E : Env} {c : DigestCtx} {pk raw : Bytes} {ds : List Digest} :
    ∀ (sigs : List Sig) (st : SigState), (∀ g ∈ sigs, V2SigOk E c.get pk raw ds g) →
      (v2SigLoop E (some c) pk raw ds sigs st).digestValid = (st.digestValid || !sigs.isEmpty)
  | [], st, _ => by simp [v2SigLoop]
  | g :: gs, st, h => by
    obtain ⟨hcr, d, hd, hg⟩ := h g (by simp)
    rw [v2SigLoop, find?_firstFor.mpr hd]
    simp only [Algo.verify_iff.mpr hcr, DigestCtx.verify_iff.mpr hg, Bool.not_true, Bool.false_eq_true, if_false]
    rw [v2SigLoop_digest gs _ (fun x hx => h x (by simp [hx]))]
    simp

/-! ### Trust -/

theorem storeOf_eq (E : Env) (added : List Bytes) : storeOf E added = ⟨added, added.filter E.anchorOk⟩ := by
  have key : ∀ (l : List Bytes) (r : Roots),
      l.foldl (fun r c => r.add E c) r = ⟨r.roots ++ l, r.anchors ++ l.filter E.anchorOk⟩ := by
    intro l
    induction l with
    | nil => intro r; simp
    | cons x xs ih =>
      intro r
      rw [List.foldl_cons, ih, Roots.add]
      by_cases h : E.anchorOk x = true <;> simp [h, List.filter_cons]
  rw [storeOf, key]
  simp [Roots.new]

theorem verifyChain_trusted {E : Env} {added : List Bytes} {now : Nat} {leaf : Bytes} {inters : List Bytes} :
    (verifyChain E (storeOf E added) now leaf inters).2.1 = true ↔ Trusted E added now leaf inters := by
  rw [storeOf_eq]
  unfold verifyChain Trusted
  by_cases h0 : added = []
  · simp [h0, Roots.isEmpty]
  · have h0' : added.isEmpty = false := by simpa using h0
    simp only [Roots.isEmpty, h0', Bool.false_eq_true, if_false, ne_eq, h0, not_false_eq_true, true_and]
    by_cases h1 : leaf ∈ added
    · have : (added.any fun x => x == leaf) = true := by simpa using h1
      simp [Roots.isDirect, this, h1]
    · have : (added.any fun x => x == leaf) = false := by
        rw [Bool.eq_false_iff]; intro h; simp at h; exact h1 h
      simp only [Roots.isDirect, this, Bool.false_eq_true, if_false, h1, false_or]
      cases hee : E.eeOk leaf with
      | false => simp
      | true =>
        simp only [Bool.not_true, Bool.false_eq_true, if_false, true_and]
        cases E.pki (List.filter E.anchorOk added) leaf inters now <;> simp

theorem verifyChain_valid_of_trusted {E : Env} {roots : Roots} {now : Nat} {leaf : Bytes} {inters : List Bytes}
    (h : (verifyChain E roots now leaf inters).2.1 = true) : verifyChain E roots now leaf inters = (true, true, none) := by
  revert h
  unfold verifyChain
  split
  · simp
  · split
    · simp
    · split
      · simp
      · split <;> simp

theorem verifyPubkeyBinding_iff {E : Env} {pk cert : Bytes} :
    verifyPubkeyBinding E pk cert = true ↔ E.certSpki cert = some pk := by
  unfold verifyPubkeyBinding
  cases E.certSpki cert with
  | none => simp
  | some k => simp only [beq_iff_eq, Option.some.injEq]; exact eq_comm

/-- All four flags and no error. -/
def SignerResult.Good (r : SignerResult) : Prop :=
  r.sigValid = true ∧ r.digestValid = true ∧ r.chainValid = true ∧ r.trusted = true ∧ r.error = none

theorem finishSigner_good {E : Env} {added : List Bytes} {now idx : Nat} {pk : Bytes} {certs inters shown : List Bytes}
    {st : SigState} : (finishSigner E (storeOf E added) now idx pk certs inters shown st).Good ↔
      (st.sigValid = true ∧ st.error = none ∧ st.digestValid = true ∧
        ∃ leaf rest, certs = leaf :: rest ∧ E.certSpki leaf = some pk ∧ Trusted E added now leaf inters) := by
  unfold finishSigner SignerResult.Good
  cases certs with
  | nil => simp
  | cons leaf rest =>
    dsimp only
    by_cases hb : verifyPubkeyBinding E pk leaf = true
    · simp only [hb, Bool.not_true, Bool.false_eq_true, if_false]
      have hb' := verifyPubkeyBinding_iff.mp hb
      by_cases ht : Trusted E added now leaf inters
      · have := verifyChain_valid_of_trusted (verifyChain_trusted.mpr ht)
        simp only [this]
        constructor
        · rintro ⟨h1, h2, _, _, h5⟩
          simp only [Bool.and_eq_true] at h1
          exact ⟨h1.1, h5, h2, leaf, rest, rfl, hb', ht⟩
        · rintro ⟨h1, h2, h3, _⟩
          simp [h1, h2, h3]
      · constructor
        · rintro ⟨_, _, _, h4, _⟩
          exact absurd (verifyChain_trusted.mp h4) ht
        · rintro ⟨_, _, _, l, r, h, _, h'⟩
          cases h; exact absurd h' ht
    · simp only [Bool.not_eq_true] at hb
      simp only [hb, Bool.not_false, if_true]
      constructor
      · rintro ⟨h, _⟩; cases h
      · rintro ⟨_, _, _, l, r, h, h', _⟩
        cases h
        rw [← verifyPubkeyBinding_iff, hb] at h'; cases h'

theorem sliceFrom?_4_signed (s : SignedDataV2) : sliceFrom? s.toU8 4 = some (s.toU8.drop 4) := by
  unfold sliceFrom?
  rw [if_pos]
  simp only [SignedDataV2.toU8, List.length_append, leBytes_length]
  omega

theorem sliceFrom?_4_stamp (s : SignedDataStamp) : sliceFrom? s.toU8 4 = some (s.toU8.drop 4) := by
  unfold sliceFrom?
  rw [if_pos]
  simp only [SignedDataStamp.toU8, List.length_append, leBytes_length]
  omega

theorem verifySigner_good {E : Env} {added : List Bytes} {now idx : Nat} {c : DigestCtx} {s : SignerV2} :
    (verifySigner E (storeOf E added) now (some c) idx s).Good ↔ GoodV2 E added now c.get s := by
  unfold verifySigner
  rw [sliceFrom?_4_signed]
  dsimp only
  rw [finishSigner_good]
  constructor
  · rintro ⟨h1, h2, h3, leaf, rest, h4, h5, h6⟩
    have h := (v2SigLoop_ok _ _).mp ⟨h1, h2⟩
    rw [v2SigLoop_digest _ _ h.2.2] at h3
    refine ⟨?_, fun g hg => (h.2.2 g hg).1, fun g hg => (h.2.2 g hg).2, leaf, rest, h4, h5, ?_⟩
    · intro hn; simp [hn, SigState.init] at h3
    · rw [h4] at h6; simpa using h6
  · rintro ⟨h1, h2, h3, leaf, rest, h4, h5, h6⟩
    have hall : ∀ g ∈ s.sigs.data, V2SigOk E c.get s.pubKey.data (s.signedData.toU8.drop 4) s.signedData.digests.data g :=
      fun g hg => ⟨h2 g hg, h3 g hg⟩
    have h := (v2SigLoop_ok s.sigs.data SigState.init).mpr ⟨rfl, rfl, hall⟩
    refine ⟨h.1, h.2, ?_, leaf, rest, h4, h5, ?_⟩
    · rw [v2SigLoop_digest _ _ hall]
      cases hs : s.sigs.data with
      | nil => exact absurd hs h1
      | cons => simp
    · rw [h4]; simpa using h6

/-! ### From signers to the verdict -/

theorem fromSigners_flags {rs : List SignerResult} (h : rs ≠ []) :
    (VResult.fromSigners rs).sigValid = rs.all (·.sigValid) ∧ (VResult.fromSigners rs).digestValid = rs.all (·.digestValid) ∧
    (VResult.fromSigners rs).chainValid = rs.all (·.chainValid) ∧ (VResult.fromSigners rs).trusted = rs.all (·.trusted) ∧
    (VResult.fromSigners rs).signers = rs := by
  cases rs with
  | nil => exact absurd rfl h
  | cons r rs => simp [VResult.fromSigners]

theorem concludeVerify_cases (rs : List SignerResult) :
    (rs = [] ∧ concludeVerify rs = .err .noSignature) ∨
    (rs ≠ [] ∧ (∃ r ∈ rs, r.error ≠ none) ∧ concludeVerify rs = .err (.multiSigner (rs.filterMap (·.error)))) ∨
    (rs ≠ [] ∧ (∀ r ∈ rs, r.error = none) ∧ concludeVerify rs = .ok (VResult.fromSigners rs)) := by
  unfold concludeVerify
  by_cases h : rs = []
  · left; simp [h]
  · right
    have h' : rs.isEmpty = false := by simpa using h
    simp only [h', Bool.false_eq_true, if_false, h, ne_eq, not_false_eq_true, true_and]
    by_cases he : ∀ r ∈ rs, r.error = none
    · right
      have : rs.filterMap (·.error) = [] := by rw [List.filterMap_eq_nil_iff]; exact he
      exact ⟨he, by rw [this]; rfl⟩
    · left
      have : rs.filterMap (·.error) ≠ [] := by rw [ne_eq, List.filterMap_eq_nil_iff]; exact he
      have : (rs.filterMap (·.error)).isEmpty = false := by simpa using this
      refine ⟨?_, by rw [this]; rfl⟩
      apply Classical.byContradiction
      intro hn
      apply he
      intro r hr
      apply Classical.byContradiction
      intro hr'
      exact hn ⟨r, hr, hr'⟩

theorem concludeVerify_valid {rs : List SignerResult} :
    FullyValid (concludeVerify rs) ↔ rs ≠ [] ∧ ∀ r ∈ rs, r.Good := by
  rcases concludeVerify_cases rs with ⟨h, he⟩ | ⟨h, ⟨r, hr, hre⟩, he⟩ | ⟨h, hall, he⟩
  · rw [he]; simp [FullyValid, h]
  · rw [he]
    constructor
    · rintro ⟨_, h, _⟩; cases h
    · rintro ⟨_, h'⟩; exact absurd (h' r hr).2.2.2.2 hre
  · rw [he]
    have hf := fromSigners_flags h
    constructor
    · rintro ⟨r, h1, h2, h3, h4, h5⟩
      cases h1
      rw [hf.1, List.all_eq_true] at h2
      rw [hf.2.1, List.all_eq_true] at h3
      rw [hf.2.2.1, List.all_eq_true] at h4
      rw [hf.2.2.2.1, List.all_eq_true] at h5
      exact ⟨h, fun r hr => ⟨h2 r hr, h3 r hr, h4 r hr, h5 r hr, hall r hr⟩⟩
    · rintro ⟨_, hg⟩
      refine ⟨_, rfl, ?_, ?_, ?_, ?_⟩
      · rw [hf.1, List.all_eq_true]; exact fun r hr => (hg r hr).1
      · rw [hf.2.1, List.all_eq_true]; exact fun r hr => (hg r hr).2.1
      · rw [hf.2.2.1, List.all_eq_true]; exact fun r hr => (hg r hr).2.2.1
      · rw [hf.2.2.2.1, List.all_eq_true]; exact fun r hr => (hg r hr).2.2.2.1

theorem allFlags_iff {v : Verdict} : v.allFlags = true ↔ FullyValid v := by
  unfold Verdict.allFlags FullyValid
  cases v with
  | ok r => simp [and_assoc]
  | err e => simp

theorem isNoSignature_iff {v : Verdict} : v.isNoSignature = true ↔ v = .err .noSignature := by
  unfold Verdict.isNoSignature
  split <;> simp_all

/-- The results of the V2 signers. -/
def v2Results (E : Env) (roots : Roots) (now : Nat) (b : SigningBlock) (ctx : Option DigestCtx) : List SignerResult :=
  b.content.flatMap fun v =>
    match v with
    | .v2 s => s.signers.data.zipIdx.map fun x => verifySigner E roots now ctx x.2 x.1
    | _ => []

theorem verifyV2_eq (E : Env) (roots : Roots) (now : Nat) (b : SigningBlock) (ctx : Option DigestCtx) :
    verifyV2 E roots now b ctx = concludeVerify (v2Results E roots now b ctx) := rfl

/-- Every result belongs to a signer. -/
theorem mem_v2Results {E : Env} {roots : Roots} {now : Nat} {b : SigningBlock} {ctx : Option DigestCtx}
    {r : SignerResult} (h : r ∈ v2Results E roots now b ctx) :
    ∃ s ∈ v2Signers b, ∃ i, r = verifySigner E roots now ctx i s := by
  unfold v2Results at h
  obtain ⟨v, hv, hr⟩ := List.mem_flatMap.mp h
  cases v with
  | v2 x =>
    obtain ⟨y, hy, rfl⟩ := List.mem_map.mp hr
    refine ⟨y.1, ?_, y.2, rfl⟩
    exact List.mem_flatMap.mpr ⟨_, hv, (List.mem_zipIdx' hy).2 ▸ List.getElem_mem _⟩
  | raw x => cases hr
  | stamp x => cases hr
  | elf x => cases hr

/-- Every signer has a result. -/
theorem v2Results_of_mem {E : Env} {roots : Roots} {now : Nat} {b : SigningBlock} {ctx : Option DigestCtx}
    {s : SignerV2} (h : s ∈ v2Signers b) : ∃ i, verifySigner E roots now ctx i s ∈ v2Results E roots now b ctx := by
  obtain ⟨v, hv, hs⟩ := List.mem_flatMap.mp h
  cases v with
  | v2 x =>
    obtain ⟨i, hi, he⟩ := List.getElem_of_mem hs
    refine ⟨i, List.mem_flatMap.mpr ⟨_, hv, List.mem_map.mpr ⟨(s, i), ?_, rfl⟩⟩⟩
    rw [List.mem_zipIdx_iff_getElem?, List.getElem?_eq_getElem hi, he]
  | raw x => cases hs
  | stamp x => cases hs
  | elf x => cases hs

theorem v2Results_eq_nil {E : Env} {roots : Roots} {now : Nat} {b : SigningBlock} {ctx : Option DigestCtx} :
    v2Results E roots now b ctx = [] ↔ v2Signers b = [] := by
  constructor
  · intro h
    apply List.eq_nil_iff_forall_not_mem.mpr
    intro s hs
    obtain ⟨i, hi⟩ := v2Results_of_mem (E := E) (roots := roots) (now := now) (ctx := ctx) hs
    rw [h] at hi; cases hi
  · intro h
    apply List.eq_nil_iff_forall_not_mem.mpr
    intro r hr
    obtain ⟨s, hs, _⟩ := mem_v2Results hr
    rw [h] at hs; cases hs

theorem verifyV2_valid {E : Env} {added : List Bytes} {now : Nat} {b : SigningBlock} {c : DigestCtx} :
    FullyValid (verifyV2 E (storeOf E added) now b (some c)) ↔
      v2Signers b ≠ [] ∧ ∀ s ∈ v2Signers b, GoodV2 E added now c.get s := by
  rw [verifyV2_eq, concludeVerify_valid, ne_eq, v2Results_eq_nil]
  constructor
  · rintro ⟨h1, h2⟩
    refine ⟨h1, fun s hs => ?_⟩
    obtain ⟨i, hi⟩ := v2Results_of_mem (E := E) (roots := storeOf E added) (now := now) (ctx := some c) hs
    exact verifySigner_good.mp (h2 _ hi)
  · rintro ⟨h1, h2⟩
    refine ⟨h1, fun r hr => ?_⟩
    obtain ⟨s, hs, i, rfl⟩ := mem_v2Results hr
    exact verifySigner_good.mpr (h2 s hs)

theorem verifyV2_noSignature {E : Env} {roots : Roots} {now : Nat} {b : SigningBlock} {ctx : Option DigestCtx} :
    verifyV2 E roots now b ctx = .err .noSignature ↔ v2Signers b = [] := by
  rw [verifyV2_eq, ← v2Results_eq_nil (E := E) (roots := roots) (now := now) (ctx := ctx)]
  rcases concludeVerify_cases (v2Results E roots now b ctx) with ⟨h, he⟩ | ⟨h, _, he⟩ | ⟨h, _, he⟩ <;>
    rw [he] <;> simp [h]

/-! ### Source stamps -/

/-- What one stamp signature must satisfy. -/
def StampSigOk (E : Env) (computed : UInt32 → Option Bytes) (pk raw : Bytes) (ds : List Digest) (g : Sig) : Prop :=
  CryptoOk E g.algo pk raw g.signature ∧ ∀ d, FirstFor g.algo ds d → computed g.algo.toU32 = some d.digest

theorem stampSigLoop_ok {E : Env} {c : DigestCtx} {pk raw : Bytes} {ds : List Digest} :
    ∀ (sigs : List Sig) (st : SigState),
      ((stampSigLoop E (some c) pk raw ds sigs st).sigValid = true ∧
        (stampSigLoop E (some c) pk raw ds sigs st).error = none) ↔
        (st.sigValid = true ∧ st.error = none ∧ ∀ g ∈ sigs, StampSigOk E c.get pk raw ds g)
  | [], st => by simp [stampSigLoop]
  | g :: gs, st => by
    rw [stampSigLoop]
    cases hv : g.algo.verify E pk raw g.signature with
    | false =>
      simp only [Bool.not_false, if_true, Bool.false_eq_true, false_and, false_iff, not_and]
      intro _ _ h
      have := Algo.verify_iff.mpr (h g (by simp)).1
      rw [hv] at this; cases this
    | true =>
      simp only [Bool.not_true, Bool.false_eq_true, if_false]
      cases hf : ds.find? (fun d => d.algo == g.algo) with
      | none =>
        dsimp only
        rw [stampSigLoop_ok gs]
        simp only [List.mem_cons, forall_eq_or_imp]
        have : StampSigOk E c.get pk raw ds g := ⟨Algo.verify_iff.mp hv, fun d hd => by
          rw [← find?_firstFor, hf] at hd; cases hd⟩
        simp [this]
      | some d =>
        dsimp only
        have hd := find?_firstFor.mp hf
        cases hc : c.verify g.algo.toU32 d.digest with
        | false =>
          simp only [Bool.not_false, if_true]
          rw [stampSigLoop_ok gs]
          simp only [reduceCtorEq, false_and, and_false, false_iff, not_and]
          intro _ _ h
          have hg := (h g (by simp)).2 d hd
          rw [← DigestCtx.verify_iff, hc] at hg; cases hg
        | true =>
          simp only [Bool.not_true, Bool.false_eq_true, if_false]
          rw [stampSigLoop_ok gs]
          simp only [List.mem_cons, forall_eq_or_imp]
          have : StampSigOk E c.get pk raw ds g := ⟨Algo.verify_iff.mp hv, fun d' hd' => by
            rw [← find?_firstFor, hf] at hd'
            cases hd'
            exact DigestCtx.verify_iff.mp hc⟩
          simp [this]

/-- After a successful stamp loop both digest flags are set iff some digest was compared or they were set before. -/
theorem stampSigLoop_digest {E : Env} {c : DigestCtx} {pk raw : Bytes} {ds : List Digest} :
    ∀ (sigs : List Sig) (st : SigState), (∀ g ∈ sigs, StampSigOk E c.get pk raw ds g) →
      ((stampSigLoop E (some c) pk raw ds sigs st).digestValid = true ↔
        st.digestValid = true ∨ ∃ g ∈ sigs, ∃ d, FirstFor g.algo ds d) ∧
      ((stampSigLoop E (some c) pk raw ds sigs st).digestVerified = true ↔
        st.digestVerified = true ∨ ∃ g ∈ sigs, ∃ d, FirstFor g.algo ds d)
  | [], st, _ => by simp [stampSigLoop]
  | g :: gs, st, h => by
    obtain ⟨hcr, hg⟩ := h g (by simp)
    rw [stampSigLoop]
    simp only [Algo.verify_iff.mpr hcr, Bool.not_true, Bool.false_eq_true, if_false]
    have hrest := fun x (hx : x ∈ gs) => h x (List.mem_cons_of_mem _ hx)
    cases hf : ds.find? (fun d => d.algo == g.algo) with
    | none =>
      dsimp only
      have hno : ¬ ∃ d, FirstFor g.algo ds d := by
        rintro ⟨d, hd⟩; rw [← find?_firstFor, hf] at hd; cases hd
      have := stampSigLoop_digest gs st hrest
      simp only [List.mem_cons, exists_eq_or_imp, hno, false_or]
      exact this
    | some d =>
      dsimp only
      have hd := find?_firstFor.mp hf
      simp only [DigestCtx.verify_iff.mpr (hg d hd), Bool.not_true, Bool.false_eq_true, if_false]
      have := stampSigLoop_digest gs { st with digestValid := true, digestVerified := true } hrest
      have hex : ∃ d, FirstFor g.algo ds d := ⟨d, hd⟩
      simp only [List.mem_cons, exists_eq_or_imp, hex, true_or, or_true, iff_true]
      exact ⟨this.1.mpr (Or.inl rfl), this.2.mpr (Or.inl rfl)⟩

theorem verifyStamp_good {E : Env} {added : List Bytes} {now : Nat} {c : DigestCtx} {s : StampBlock} :
    (verifyStamp E (storeOf E added) now (some c) s).1.Good ↔ GoodStamp E added now c.get s := by
  unfold verifyStamp
  rw [sliceFrom?_4_stamp]
  dsimp only
  rw [finishSigner_good]
  constructor
  · rintro ⟨h1, h2, h3, leaf, rest, h4, h5, h6⟩
    unfold stampAdjust at h1 h2 h3
    simp only [Option.isNone_some, Bool.false_eq_true, if_false] at h1 h2 h3
    split at h3
    · cases h3
    · rename_i hif
      rw [if_neg hif] at h1 h2
      have h := (stampSigLoop_ok _ _).mp ⟨h1, h2⟩
      have h3' := (stampSigLoop_digest _ _ h.2.2).1.mp h3
      refine ⟨?_, fun g hg => (h.2.2 g hg).1, fun g hg => (h.2.2 g hg).2, leaf, rest, h4, h5, h6⟩
      rcases h3' with h' | h'
      · cases h'
      · exact h'
  · rintro ⟨h1, h2, h3, leaf, rest, h4, h5, h6⟩
    have hall : ∀ g ∈ s.sigs.data, StampSigOk E c.get s.pubKey.data (s.signedData.toU8.drop 4) s.signedData.digests.data g :=
      fun g hg => ⟨h2 g hg, h3 g hg⟩
    have h := (stampSigLoop_ok s.sigs.data SigState.init).mpr ⟨rfl, rfl, hall⟩
    have hd := stampSigLoop_digest s.sigs.data SigState.init hall
    have hdv := hd.1.mpr (Or.inr h1)
    have hdw := hd.2.mpr (Or.inr h1)
    unfold stampAdjust
    simp only [Option.isNone_some, Bool.false_eq_true, if_false, hdw, Bool.not_true, Bool.false_and]
    exact ⟨h.1, h.2, hdv, leaf, rest, h4, h5, h6⟩

theorem verifyStamp_stop {E : Env} {roots : Roots} {now : Nat} {ctx : Option DigestCtx} {s : StampBlock} :
    (verifyStamp E roots now ctx s).2 = true := by
  unfold verifyStamp
  rw [sliceFrom?_4_stamp]

theorem stampLoop_eq {E : Env} {roots : Roots} {now : Nat} {ctx : Option DigestCtx} (b : SigningBlock) :
    stampLoop E roots now ctx b.content =
      match stamps b with
      | [] => []
      | s :: _ => [(verifyStamp E roots now ctx s).1] := by
  unfold stamps
  generalize b.content = vs
  induction vs with
  | nil => rfl
  | cons v vs ih =>
    cases v with
    | stamp s =>
      rw [stampLoop]
      simp only [verifyStamp_stop, if_true, List.filterMap_cons]
    | raw x => simpa [stampLoop] using ih
    | v2 x => simpa [stampLoop] using ih
    | elf x => simpa [stampLoop] using ih

theorem verifySourceStamp_valid {E : Env} {added : List Bytes} {now : Nat} {b : SigningBlock} {c : DigestCtx} :
    FullyValid (verifySourceStamp E (storeOf E added) now b (some c)) ↔
      ∃ s rest, stamps b = s :: rest ∧ GoodStamp E added now c.get s := by
  rw [verifySourceStamp, concludeVerify_valid, stampLoop_eq]
  cases hs : stamps b with
  | nil => simp
  | cons s rest => simp [verifyStamp_good]

theorem verifySourceStamp_noSignature {E : Env} {roots : Roots} {now : Nat} {b : SigningBlock} {ctx : Option DigestCtx} :
    verifySourceStamp E roots now b ctx = .err .noSignature ↔ stamps b = [] := by
  rw [verifySourceStamp, stampLoop_eq]
  cases hs : stamps b with
  | nil => simp [concludeVerify]
  | cons s rest =>
    dsimp only
    rcases concludeVerify_cases [(verifyStamp E roots now ctx s).1] with ⟨h, _⟩ | ⟨_, _, he⟩ | ⟨_, _, he⟩
    · cases h
    · rw [he]; simp
    · rw [he]; simp

/-- The combined verdict. -/
theorem isValid_iff {E : Env} {added : List Bytes} {now : Nat} {b : SigningBlock} {c : DigestCtx} :
    (verifyAll E (storeOf E added) now b (some c)).isValid = true ↔
      (∀ s ∈ v2Signers b, GoodV2 E added now c.get s) ∧
      (∀ s rest, stamps b = s :: rest → GoodStamp E added now c.get s) := by
  simp only [VAll.isValid, verifyAll, Bool.and_eq_true, Bool.or_eq_true, allFlags_iff, isNoSignature_iff, verifyV2_valid,
    verifySourceStamp_valid, verifyV2_noSignature, verifySourceStamp_noSignature]
  constructor
  · rintro ⟨h1, h2⟩
    constructor
    · rcases h1 with h1 | h1
      · exact h1.2
      · intro s hs; rw [h1] at hs; cases hs
    · intro s rest hs
      rcases h2 with ⟨s', r', h', hg⟩ | h2
      · rw [hs] at h'; cases h'; exact hg
      · rw [hs] at h2; cases h2
  · rintro ⟨h1, h2⟩
    constructor
    · by_cases h : v2Signers b = []
      · exact Or.inr h
      · exact Or.inl ⟨h, h1⟩
    · cases hs : stamps b with
      | nil => exact Or.inr rfl
      | cons s rest => exact Or.inl ⟨s, rest, rfl, h2 s rest hs⟩

end Ksusig

namespace Ksusig

open Spec

/-! ### Without a digest context, and signatures only -/

theorem v2SigLoop_crypto {E : Env} {ctx : Option DigestCtx} {pk raw : Bytes} {ds : List Digest} :
    ∀ (sigs : List Sig) (st : SigState), (v2SigLoop E ctx pk raw ds sigs st).sigValid = true →
      st.sigValid = true ∧ ∀ g ∈ sigs, CryptoOk E g.algo pk raw g.signature
  | [], st, h => ⟨h, by simp⟩
  | g :: gs, st, h => by
    rw [v2SigLoop] at h
    split at h
    · cases h
    · split at h
      · cases h
      · rename_i hv
        have hv' : g.algo.verify E pk raw g.signature = true := by simpa using hv
        have key : ∀ st' : SigState, st'.sigValid = st.sigValid →
            (v2SigLoop E ctx pk raw ds gs st').sigValid = true →
            st.sigValid = true ∧ ∀ x ∈ g :: gs, CryptoOk E x.algo pk raw x.signature := by
          intro st' hs h'
          obtain ⟨h1, h2⟩ := v2SigLoop_crypto gs st' h'
          refine ⟨hs ▸ h1, fun x hx => ?_⟩
          rcases List.mem_cons.mp hx with rfl | hx
          · exact Algo.verify_iff.mp hv'
          · exact h2 x hx
        split at h
        · split at h
          · exact key _ (by rfl) h
          · exact key _ (by rfl) h
        · exact key _ (by rfl) h

theorem stampSigLoop_crypto {E : Env} {ctx : Option DigestCtx} {pk raw : Bytes} {ds : List Digest} :
    ∀ (sigs : List Sig) (st : SigState), (stampSigLoop E ctx pk raw ds sigs st).sigValid = true →
      st.sigValid = true ∧ ∀ g ∈ sigs, CryptoOk E g.algo pk raw g.signature
  | [], st, h => ⟨h, by simp⟩
  | g :: gs, st, h => by
    rw [stampSigLoop] at h
    split at h
    · cases h
    · rename_i hv
      have hv' : g.algo.verify E pk raw g.signature = true := by simpa using hv
      have key : ∀ st' : SigState, st'.sigValid = st.sigValid →
          (stampSigLoop E ctx pk raw ds gs st').sigValid = true →
          st.sigValid = true ∧ ∀ x ∈ g :: gs, CryptoOk E x.algo pk raw x.signature := by
        intro st' hs h'
        obtain ⟨h1, h2⟩ := stampSigLoop_crypto gs st' h'
        refine ⟨hs ▸ h1, fun x hx => ?_⟩
        rcases List.mem_cons.mp hx with rfl | hx
        · exact Algo.verify_iff.mp hv'
        · exact h2 x hx
      split at h
      · exact key _ (by rfl) h
      · split at h
        · split at h
          · exact key _ (by rfl) h
          · exact key _ (by rfl) h
        · exact key _ (by rfl) h

theorem v2SigLoop_none {E : Env} {pk raw : Bytes} {ds : List Digest} :
    ∀ (sigs : List Sig) (st : SigState), st.digestValid = false →
      (v2SigLoop E none pk raw ds sigs st).digestValid = false
  | [], st, h => h
  | g :: gs, st, h => by
    rw [v2SigLoop]
    split
    · exact h
    · split
      · exact h
      · exact v2SigLoop_none gs _ rfl

theorem finishSigner_digestValid {E : Env} {roots : Roots} {now idx : Nat} {pk : Bytes} {certs inters shown : List Bytes}
    {st : SigState} : (finishSigner E roots now idx pk certs inters shown st).digestValid = st.digestValid := by
  unfold finishSigner
  cases certs with
  | nil => rfl
  | cons c cs =>
    dsimp only
    split <;> rfl

theorem finishSigner_sigValid {E : Env} {roots : Roots} {now idx : Nat} {pk : Bytes} {certs inters shown : List Bytes}
    {st : SigState} (h : (finishSigner E roots now idx pk certs inters shown st).sigValid = true) :
    st.sigValid = true ∧ st.error = none := by
  have key : (st.sigValid && st.error.isNone) = true → st.sigValid = true ∧ st.error = none := by
    intro h; simpa using h
  unfold finishSigner at h
  cases certs with
  | nil => exact key h
  | cons c cs =>
    dsimp only at h
    split at h
    · cases h
    · exact key h

theorem finishSigner_unbound {E : Env} {roots : Roots} {now idx : Nat} {pk leaf : Bytes} {rest inters shown : List Bytes}
    {st : SigState} (h : E.certSpki leaf ≠ some pk) :
    (finishSigner E roots now idx pk (leaf :: rest) inters shown st).error = some .keyBinding := by
  unfold finishSigner
  have : verifyPubkeyBinding E pk leaf = false := by
    rw [Bool.eq_false_iff, ne_eq, verifyPubkeyBinding_iff]; exact h
  simp [this]

/-- The results are those of the signers, in order. -/
theorem v2Results_zip (E : Env) (roots : Roots) (now : Nat) (b : SigningBlock) (ctx : Option DigestCtx) :
    ∃ idx : List Nat, idx.length = (v2Signers b).length ∧
      v2Results E roots now b ctx = List.zipWith (fun i s => verifySigner E roots now ctx i s) idx (v2Signers b) := by
  unfold v2Results v2Signers
  generalize b.content = vs
  induction vs with
  | nil => exact ⟨[], rfl, rfl⟩
  | cons v vs ih =>
    obtain ⟨idx, h1, h2⟩ := ih
    have skip : ∀ f : Value → List SignerResult, ∀ g : Value → List SignerV2, f v = [] → g v = [] →
        (∃ idx : List Nat, idx.length = (vs.flatMap g).length ∧
          vs.flatMap f = List.zipWith (fun i s => verifySigner E roots now ctx i s) idx (vs.flatMap g)) →
        ∃ idx : List Nat, idx.length = ((v :: vs).flatMap g).length ∧
          (v :: vs).flatMap f = List.zipWith (fun i s => verifySigner E roots now ctx i s) idx ((v :: vs).flatMap g) := by
      intro f g hf hg h
      simpa [List.flatMap_cons, hf, hg] using h
    cases v with
    | v2 x =>
      refine ⟨List.range x.signers.data.length ++ idx, ?_, ?_⟩
      · simp only [List.flatMap_cons, List.length_append, List.length_range, h1]
      · simp only [List.flatMap_cons]
        rw [List.zipWith_append (by simp), h2]
        congr 1
        apply List.ext_getElem
        · simp
        · intro i hi hi'
          simp
    | raw x => exact skip _ _ rfl rfl ⟨idx, h1, h2⟩
    | stamp x => exact skip _ _ rfl rfl ⟨idx, h1, h2⟩
    | elf x => exact skip _ _ rfl rfl ⟨idx, h1, h2⟩

/-- A returned V2 result lists the results of all signers. -/
theorem verifyV2_signers {E : Env} {roots : Roots} {now : Nat} {b : SigningBlock} {ctx : Option DigestCtx} {r : VResult}
    (h : verifyV2 E roots now b ctx = .ok r) : r.signers = v2Results E roots now b ctx ∧ r.signers ≠ [] ∧
      r = VResult.fromSigners r.signers := by
  rw [verifyV2_eq] at h
  rcases concludeVerify_cases (v2Results E roots now b ctx) with ⟨_, he⟩ | ⟨_, _, he⟩ | ⟨hn, _, he⟩
  · rw [he] at h; cases h
  · rw [he] at h; cases h
  · rw [he] at h
    cases h
    have := (fromSigners_flags hn).2.2.2.2
    exact ⟨this, by rw [this]; exact hn, by rw [this]⟩

theorem verifySourceStamp_signers {E : Env} {roots : Roots} {now : Nat} {b : SigningBlock} {ctx : Option DigestCtx}
    {r : VResult} (h : verifySourceStamp E roots now b ctx = .ok r) :
    ∃ s rest, stamps b = s :: rest ∧ r = VResult.fromSigners [(verifyStamp E roots now ctx s).1] := by
  rw [verifySourceStamp, stampLoop_eq] at h
  cases hs : stamps b with
  | nil => rw [hs] at h; cases h
  | cons s rest =>
    rw [hs] at h
    refine ⟨s, rest, rfl, ?_⟩
    rcases concludeVerify_cases [(verifyStamp E roots now ctx s).1] with ⟨_, he⟩ | ⟨_, _, he⟩ | ⟨hn, _, he⟩
    · dsimp only at h; rw [he] at h; cases h
    · dsimp only at h; rw [he] at h; cases h
    · dsimp only at h; rw [he] at h; cases h; rfl

theorem verifySigner_digest_none {E : Env} {roots : Roots} {now idx : Nat} {s : SignerV2} :
    (verifySigner E roots now none idx s).digestValid = false := by
  unfold verifySigner
  rw [sliceFrom?_4_signed]
  dsimp only
  rw [finishSigner_digestValid]
  exact v2SigLoop_none _ _ rfl

theorem verifyStamp_digest_none {E : Env} {roots : Roots} {now : Nat} {s : StampBlock} :
    (verifyStamp E roots now none s).1.digestValid = false := by
  unfold verifyStamp
  rw [sliceFrom?_4_stamp]
  dsimp only
  rw [finishSigner_digestValid]
  rfl

theorem fullyValid_digest {v : Verdict} (h : FullyValid v) : ∃ r, v = .ok r ∧ r.digestValid = true := by
  obtain ⟨r, h1, _, h2, _⟩ := h
  exact ⟨r, h1, h2⟩

/-! ### Chains -/

theorem chainLinks_iff {E : Env} : ∀ (inters : List Bytes) (c : Bytes) (issuer subject : Bytes),
    E.certNames c = some (issuer, subject) →
    (chainLinks E issuer inters = true ↔
      ∀ i (h : i + 1 < (c :: inters).length), ∃ n n', E.certNames ((c :: inters)[i]'(by omega)) = some n ∧
        E.certNames ((c :: inters)[i + 1]) = some n' ∧ n.1 = n'.2)
  | [], c, issuer, subject, hc => by
    simp [chainLinks]
  | d :: ds, c, issuer, subject, hc => by
    rw [chainLinks]
    cases hd : E.certNames d with
    | none =>
      simp only [Bool.false_eq_true, false_iff]
      intro h
      obtain ⟨n, n', h1, h2, h3⟩ := h 0 (by simp)
      simp [hd] at h2
    | some n' =>
      obtain ⟨issuer', subject'⟩ := n'
      dsimp only
      by_cases he : issuer = subject'
      · rw [if_neg (by simpa using he), chainLinks_iff ds d issuer' subject' hd]
        constructor
        · intro h i hi
          cases i with
          | zero => exact ⟨_, _, hc, hd, he⟩
          | succ i => exact h i (by simp at hi ⊢; omega)
        · intro h i hi
          exact h (i + 1) (by simp at hi ⊢; omega)
      · rw [if_pos (by simpa using he)]
        simp only [Bool.false_eq_true, false_iff]
        intro h
        obtain ⟨n, n', h1, h2, h3⟩ := h 0 (by simp)
        have h1' : E.certNames c = some n := h1
        have h2' : E.certNames d = some n' := h2
        rw [hc] at h1'; rw [hd] at h2'
        cases h1'; cases h2'
        exact he h3

theorem chainStructure_iff {E : Env} {leaf : Bytes} {inters : List Bytes} :
    chainStructure E leaf inters = true ↔
      ∀ i (h : i + 1 < (leaf :: inters).length), ∃ n n', E.certNames ((leaf :: inters)[i]'(by omega)) = some n ∧
        E.certNames ((leaf :: inters)[i + 1]) = some n' ∧ n.1 = n'.2 := by
  unfold chainStructure
  cases inters with
  | nil => simp
  | cons d ds =>
    dsimp only
    cases hl : E.certNames leaf with
    | none =>
      simp only [Bool.false_eq_true, false_iff]
      intro h
      obtain ⟨n, n', h1, _⟩ := h 0 (by simp)
      simp [hl] at h1
    | some n => exact chainLinks_iff (d :: ds) leaf n.1 n.2 hl

/-! ### The digest context is a map -/

theorem DigestCtx.get_add (c : DigestCtx) (id id' : UInt32) (d : Bytes) :
    (c.add id d).get id' = if id = id' then some d else c.get id' := by
  unfold DigestCtx.get DigestCtx.add
  by_cases h : id = id'
  · simp [h]
  · have h' : (id == id') = false := by simpa using h
    rw [List.find?_cons]
    simp only [h', if_neg h]
    congr 1
    rw [List.find?_filter]
    congr 1
    funext e
    by_cases he : e.1 = id'
    · simp [he]
      simpa using fun hh : id' = id => h hh.symm
    · simp [he]

end Ksusig
