import Verif.SpecTrust
import Verif.Props.Verify

/-!
# C104: what the trust store and the clock can change, and what they cannot
-/

namespace Ksusig.Props

open Ksusig Spec

theorem apart_finishSigner (E : Env) (r r' : Roots) (now now' idx : Nat) (pk : Bytes) (certs inters shown : List Bytes) (st : SigState) :
    apart (finishSigner E r now idx pk certs inters shown st) = apart (finishSigner E r' now' idx pk certs inters shown st) := by
  unfold finishSigner
  cases certs with
  | nil => rfl
  | cons c cs =>
    dsimp only
    split
    · rfl
    · simp only [apart, List.filter_append]
      cases (verifyChain E r now c inters).2.2 <;> cases (verifyChain E r' now' c inters).2.2 <;> rfl

theorem apart_verifySigner (E : Env) (r r' : Roots) (now now' : Nat) (ctx : Option DigestCtx) (idx : Nat) (s : SignerV2) :
    apart (verifySigner E r now ctx idx s) = apart (verifySigner E r' now' ctx idx s) := by
  unfold verifySigner
  split
  · rfl
  · exact apart_finishSigner ..

theorem apart_verifyStamp (E : Env) (r r' : Roots) (now now' : Nat) (ctx : Option DigestCtx) (s : StampBlock) :
    apart (verifyStamp E r now ctx s).1 = apart (verifyStamp E r' now' ctx s).1 := by
  unfold verifyStamp
  split
  · rfl
  · exact apart_finishSigner ..

/-- Verdicts on lists of results that are the same apart from the chains. -/
theorem apart_conclude {rs rs' : List SignerResult} (h : rs.map apart = rs'.map apart) :
    Spec.Verdict.apart (concludeVerify rs) = Spec.Verdict.apart (concludeVerify rs') := by
  have herr : rs.filterMap (·.error) = rs'.filterMap (·.error) := by
    have key : ∀ l : List SignerResult, l.filterMap (·.error) = (l.map apart).filterMap (·.error) := by
      intro l; rw [List.filterMap_map]; rfl
    rw [key, h, ← key]
  have hall : ∀ f : SignerResult → Bool, (∀ r, f (apart r) = f r) → rs.all f = rs'.all f := by
    intro f hf
    have key : ∀ l : List SignerResult, l.all f = (l.map apart).all f := by
      intro l; rw [List.all_map]; congr 1; funext r; exact (hf r).symm
    rw [key, h, ← key]
  have hwarn : ∀ (l l' : List SignerResult) (k : Nat), l.map apart = l'.map apart →
      ((l.zipIdx k).flatMap fun x => x.1.warnings.map fun w => (x.2 + 1, w)).filter (fun w => notChain w.2) =
      ((l'.zipIdx k).flatMap fun x => x.1.warnings.map fun w => (x.2 + 1, w)).filter (fun w => notChain w.2) := by
    intro l
    induction l with
    | nil => intro l' k e; cases l' with
      | nil => rfl
      | cons => cases e
    | cons x xs ih =>
      intro l' k e
      cases l' with
      | nil => cases e
      | cons y ys =>
        simp only [List.map_cons, List.cons.injEq] at e
        have hw : x.warnings.filter notChain = y.warnings.filter notChain := congrArg (·.warnings) e.1
        have hm : ∀ l : List Warn, (l.map fun w => (k + 1, w)).filter (fun w => notChain w.2) =
            (l.filter notChain).map fun w => (k + 1, w) := by
          intro l; rw [List.filter_map]; rfl
        simp only [List.zipIdx_cons, List.flatMap_cons, List.filter_append, ih ys (k + 1) e.2, hm, hw]
  unfold concludeVerify
  cases rs with
  | nil => cases rs' with
    | nil => rfl
    | cons => cases h
  | cons x xs => cases rs' with
    | nil => cases h
    | cons y ys =>
      simp only [List.isEmpty_cons, Bool.false_eq_true, if_false, herr]
      split
      · rfl
      · have h0 := h
        simp only [List.map_cons, List.cons.injEq] at h0
        have hc : x.cert = y.cert := congrArg (·.cert) h0.1
        have hch : x.chain = y.chain := congrArg (·.chain) h0.1
        simp only [VResult.fromSigners, Spec.Verdict.apart, h, hall (·.sigValid) (fun _ => rfl), hall (·.digestValid) (fun _ => rfl),
          hc, hch, hwarn _ _ 0 h]

/-- C104. The trust store and the clock influence the flags and the warnings about certificate chains, and nothing else: whether there
are results or an error and which one, the signature and digest flags of the block and of each signer, its certificates, its error
and its other warnings are the same for any two stores and times. -/
theorem C104_only_chains (E : Env) (r r' : Roots) (now now' : Nat) (b : SigningBlock) (ctx : Option DigestCtx) :
    Spec.Verdict.apart (verifyV2 E r now b ctx) = Spec.Verdict.apart (verifyV2 E r' now' b ctx) ∧
    Spec.Verdict.apart (verifySourceStamp E r now b ctx) = Spec.Verdict.apart (verifySourceStamp E r' now' b ctx) := by
  constructor
  · unfold verifyV2
    refine apart_conclude ?_
    rw [List.map_flatMap, List.map_flatMap]
    congr 1
    funext v
    cases v with
    | v2 s =>
      simp only [List.map_map]
      congr 1
      funext x
      exact apart_verifySigner ..
    | raw _ => rfl
    | stamp _ => rfl
    | elf _ => rfl
  · unfold verifySourceStamp
    refine apart_conclude ?_
    induction b.content with
    | nil => rfl
    | cons v vs ih =>
      cases v with
      | stamp s =>
        have hs : (verifyStamp E r now ctx s.block).2 = (verifyStamp E r' now' ctx s.block).2 := by
          unfold verifyStamp
          split <;> rfl
        simp only [stampLoop, hs]
        split
        · simp [apart_verifyStamp E r r' now now']
        · simp [apart_verifyStamp E r r' now now', ih]
      | raw _ => exact ih
      | v2 _ => exact ih
      | elf _ => exact ih

theorem trusted_mono {E : Env} (hpki : PkiMonotone E) {added added' : List Bytes} (hsub : added ⊆ added') {now : Nat} {leaf : Bytes}
    {inters : List Bytes} (h : Trusted E added now leaf inters) : Trusted E added' now leaf inters := by
  obtain ⟨h0, h⟩ := h
  refine ⟨fun e => h0 (List.eq_nil_of_subset_nil (e ▸ hsub)), ?_⟩
  rcases h with h | ⟨h1, h2⟩
  · exact .inl (hsub h)
  · exact .inr ⟨h1, hpki _ _ _ _ _ (fun c hc => List.mem_filter.mpr ⟨hsub (List.mem_filter.mp hc).1, (List.mem_filter.mp hc).2⟩) h2⟩

/-- C104. Trusting more roots never takes trust away: a chain that is trusted stays trusted and valid; a V2 verdict or a stamp verdict
with all flags keeps them; so does an overall valid verdict. -/
theorem C104_more_roots {E : Env} (hpki : PkiMonotone E) {r r' : Roots} {added added' : List Bytes} (hr : StoreHistory E r added)
    (hr' : StoreHistory E r' added') (hsub : added ⊆ added') (now : Nat) (b : SigningBlock) (c : DigestCtx) :
    (∀ leaf inters, (verifyChain E r now leaf inters).2.1 = true → verifyChain E r' now leaf inters = (true, true, none)) ∧
    (FullyValid (verifyV2 E r now b (some c)) → FullyValid (verifyV2 E r' now b (some c))) ∧
    (FullyValid (verifySourceStamp E r now b (some c)) → FullyValid (verifySourceStamp E r' now b (some c))) ∧
    ((verifyAll E r now b (some c)).isValid = true → (verifyAll E r' now b (some c)).isValid = true) := by
  obtain rfl := hr.eq_storeOf
  obtain rfl := hr'.eq_storeOf
  have h2 : FullyValid (verifyV2 E (storeOf E added) now b (some c)) → FullyValid (verifyV2 E (storeOf E added') now b (some c)) := by
    rw [verifyV2_valid, verifyV2_valid]
    rintro ⟨h0, h⟩
    refine ⟨h0, fun s hs => ?_⟩
    obtain ⟨h1, h2, h3, leaf, rest, h4, h5, h6⟩ := h s hs
    exact ⟨h1, h2, h3, leaf, rest, h4, h5, trusted_mono hpki hsub h6⟩
  have h3 : FullyValid (verifySourceStamp E (storeOf E added) now b (some c)) →
      FullyValid (verifySourceStamp E (storeOf E added') now b (some c)) := by
    rw [verifySourceStamp_valid, verifySourceStamp_valid]
    rintro ⟨s, rest, hs, h⟩
    obtain ⟨h1, h2, h3, leaf, rest', h4, h5, h6⟩ := h
    exact ⟨s, rest, hs, h1, h2, h3, leaf, rest', h4, h5, trusted_mono hpki hsub h6⟩
  refine ⟨fun leaf inters h => verifyChain_valid_of_trusted (verifyChain_trusted.mpr (trusted_mono hpki hsub (verifyChain_trusted.mp h))),
    h2, h3, fun h => ?_⟩
  simp only [VAll.isValid, verifyAll, Bool.and_eq_true, Bool.or_eq_true, allFlags_iff, isNoSignature_iff, verifyV2_noSignature,
    verifySourceStamp_noSignature] at h ⊢
  exact ⟨h.1.imp h2 id, h.2.imp h3 id⟩

theorem verifyChain_same_set {E : Env} (hpki : PkiSet E) {added added' : List Bytes} (h1 : added ⊆ added') (h2 : added' ⊆ added)
    (now : Nat) (leaf : Bytes) (inters : List Bytes) :
    verifyChain E (storeOf E added) now leaf inters = verifyChain E (storeOf E added') now leaf inters := by
  have hf : ∀ {a b : List Bytes}, a ⊆ b → a.filter E.anchorOk ⊆ b.filter E.anchorOk := fun h c hc =>
    List.mem_filter.mpr ⟨h (List.mem_filter.mp hc).1, (List.mem_filter.mp hc).2⟩
  have he : added.isEmpty = added'.isEmpty := by
    rw [Bool.eq_iff_iff, List.isEmpty_iff, List.isEmpty_iff]
    exact ⟨fun e => List.eq_nil_of_subset_nil (e ▸ h2), fun e => List.eq_nil_of_subset_nil (e ▸ h1)⟩
  have hd : (added.any fun x => x == leaf) = added'.any fun x => x == leaf := by
    rw [Bool.eq_iff_iff]
    simp only [List.any_eq_true, beq_iff_eq]
    exact ⟨fun ⟨x, hx, e⟩ => ⟨x, h1 hx, e⟩, fun ⟨x, hx, e⟩ => ⟨x, h2 hx, e⟩⟩
  rw [storeOf_eq, storeOf_eq]
  simp only [verifyChain, Roots.isEmpty, Roots.isDirect, he, hd, hpki _ _ leaf inters now (hf h1) (hf h2)]

/-- Verdicts depend on the store only through `verifyChain`. -/
theorem verifyAll_congr {E : Env} {r r' : Roots} {now now' : Nat}
    (h : ∀ leaf inters, verifyChain E r now leaf inters = verifyChain E r' now' leaf inters) (b : SigningBlock) (ctx : Option DigestCtx) :
    verifyAll E r now b ctx = verifyAll E r' now' b ctx := by
  have hf : ∀ idx pk certs inters shown st, finishSigner E r now idx pk certs inters shown st =
      finishSigner E r' now' idx pk certs inters shown st := by
    intro idx pk certs inters shown st
    unfold finishSigner
    simp only [h]
  have hs : ∀ idx s, verifySigner E r now ctx idx s = verifySigner E r' now' ctx idx s := by
    intro idx s
    unfold verifySigner
    simp only [hf]
  have ht : ∀ s, verifyStamp E r now ctx s = verifyStamp E r' now' ctx s := by
    intro s
    unfold verifyStamp
    simp only [hf]
  have hl : ∀ vs, stampLoop E r now ctx vs = stampLoop E r' now' ctx vs := by
    intro vs
    induction vs with
    | nil => rfl
    | cons v vs ih => cases v <;> simp [stampLoop, ih, ht]
  simp only [verifyAll, verifyV2, verifySourceStamp, hs, hl]

/-- C104. Neither the order in which roots are added nor adding one twice nor the format in which it is given makes a difference: two
stores into which the same certificates were put give the same verdicts, with the same warnings, on all blocks. -/
theorem C104_same_roots {E : Env} (hpki : PkiSet E) {r r' : Roots} {added added' : List Bytes} (hr : StoreHistory E r added)
    (hr' : StoreHistory E r' added') (h1 : added ⊆ added') (h2 : added' ⊆ added) (now : Nat) (b : SigningBlock)
    (ctx : Option DigestCtx) : verifyAll E r now b ctx = verifyAll E r' now b ctx := by
  obtain rfl := hr.eq_storeOf
  obtain rfl := hr'.eq_storeOf
  exact verifyAll_congr (fun leaf inters => verifyChain_same_set hpki h1 h2 now leaf inters) b ctx

/-- C104. The same for `Module::verify_with_roots` on any file, also one that changes while it is read: where it gives an overall valid
verdict, it gives one with more roots. -/
theorem C104_more_roots_module {E : Env} (hpki : PkiMonotone E) {r r' : Roots} {added added' : List Bytes} (hr : StoreHistory E r added)
    (hr' : StoreHistory E r' added') (hsub : added ⊆ added') {p : Profile} {m : Module} {files : Nat → Bytes} {now : Nat} {v : VAll}
    (h : m.verifyWithRootsT E p files r now = .ok v) (hv : v.isValid = true) :
    ∃ v', m.verifyWithRootsT E p files r' now = .ok v' ∧ v'.isValid = true ∧ v'.hasV2 = v.hasV2 ∧ v'.hasStamp = v.hasStamp := by
  unfold Module.verifyWithRootsT at h ⊢
  split at h
  · cases h
    cases hv
  · cases h
  · rename_i b hb
    obtain ⟨ctx, hctx, h⟩ := Res.bind_eq_ok.mp h
    cases h
    refine ⟨_, Res.bind_eq_ok.mpr ⟨ctx, hctx, rfl⟩, (C104_more_roots hpki hr hr' hsub now b ctx).2.2.2 hv, ?_, ?_⟩
    · simp only [VAll.hasV2, verifyAll]
      congr 1
      rw [Bool.eq_iff_iff, isNoSignature_iff, isNoSignature_iff, verifyV2_noSignature, verifyV2_noSignature]
    · simp only [VAll.hasStamp, verifyAll]
      congr 1
      rw [Bool.eq_iff_iff, isNoSignature_iff, isNoSignature_iff, verifySourceStamp_noSignature, verifySourceStamp_noSignature]

/-- C104. A root that the PKI library cannot use as a trust anchor is trusted itself, and adds nothing else: where it is not the
certificate of a signer, chains are judged as before (if there were roots before). -/
theorem C104_unusable_root {E : Env} {r : Roots} {added : List Bytes} (hr : StoreHistory E r added) (h0 : added ≠ []) {c : Bytes}
    (hc : E.anchorOk c = false) {leaf : Bytes} (hl : leaf ≠ c) (now : Nat) (inters : List Bytes) :
    verifyChain E (r.add E c) now leaf inters = verifyChain E r now leaf inters := by
  obtain rfl := hr.eq_storeOf
  have h0' : added.isEmpty = false := by simpa using h0
  rw [← storeOf_append, storeOf_eq, storeOf_eq]
  have hd : (c == leaf) = false := by simpa using Ne.symm hl
  simp [verifyChain, Roots.isEmpty, Roots.isDirect, hc, h0', hd]

/-- C104. The flag `cert_chain_valid` alone has not this property: without roots it is set for any chain of matching names, and adding a
root takes it away from every signer whose leaf certificate the PKI library cannot parse or refuses as expired, not yet valid or
without the code signing usage. -/
theorem C104_chain_flag_falls {E : Env} {now : Nat} {leaf : Bytes} {inters : List Bytes} {c : Bytes}
    (hs : chainStructure E leaf inters = true) (hl : leaf ≠ c)
    (hp : E.eeOk leaf = false ∨ E.pki ([c].filter E.anchorOk) leaf inters now ∈
      [PkiOutcome.expired, .notYetValid, .ekuMissing, .other]) :
    (verifyChain E Roots.new now leaf inters).1 = true ∧ (verifyChain E (Roots.new.add E c) now leaf inters).1 = false := by
  refine ⟨hs, ?_⟩
  have hd : (c == leaf) = false := by simpa using Ne.symm hl
  have hr : Roots.new.add E c = storeOf E [c] := rfl
  rw [hr, storeOf_eq]
  rcases hp with hp | hp
  · simp [verifyChain, Roots.isEmpty, Roots.isDirect, hd, hp]
  · simp only [verifyChain, Roots.isEmpty, Roots.isDirect, List.isEmpty_cons, Bool.false_eq_true, if_false, List.any_cons, hd,
      List.any_nil, Bool.or_self]
    split
    · rfl
    · simp only [List.mem_cons, List.not_mem_nil, or_false] at hp
      rcases hp with h | h | h | h <;> rw [h]

/-- A PKI library that wants the last certificate of the chain to be an anchor and the time to be less than 100; certificates of three
or more bytes are no anchors. -/
def linkEnv : Env := { toyEnv with
  pki := fun roots leaf inters now =>
    if now ≥ 100 then .expired else if (inters.getLast?.getD leaf) ∈ roots then .ok else .unknownIssuer
  anchorOk := fun c => c.length < 3 }

/-- The hypotheses of `C104_more_roots` and `C104_same_roots`. -/
example : PkiMonotone linkEnv ∧ PkiSet linkEnv := by
  constructor
  · intro A B leaf inters now h hp
    simp only [linkEnv] at hp ⊢
    split at hp
    · cases hp
    · rename_i hn
      rw [if_neg hn]
      split at hp
      · rename_i hm
        rw [if_pos (h hm)]
      · cases hp
  · intro A B leaf inters now h1 h2
    simp only [linkEnv]
    split
    · rfl
    · by_cases hm : inters.getLast?.getD leaf ∈ A
      · rw [if_pos hm, if_pos (h1 hm)]
      · rw [if_neg hm, if_neg fun h => hm (h2 h)]

/-- A store with a root that cannot be an anchor, added before and after another one, once as PEM text, and one with more roots. -/
example : StoreHistory linkEnv ((Roots.new.add linkEnv [1, 2, 3]).add linkEnv [9]) [[1, 2, 3], [9]] ∧
    StoreHistory linkEnv (((Roots.withBuiltin linkEnv [9]).add linkEnv [1, 2, 3]).add linkEnv [9]) [[9], [1, 2, 3], [9]] ∧
    [[1, 2, 3], [9]] ⊆ [[9], [1, 2, 3], ([9] : Bytes)] ∧ [[9], [1, 2, 3], [9]] ⊆ [[1, 2, 3], ([9] : Bytes)] ∧
    linkEnv.anchorOk [1, 2, 3] = false ∧
    (verifyChain linkEnv ((Roots.new.add linkEnv [1, 2, 3]).add linkEnv [9]) 5 [4] [[9]]).2.1 = true ∧
    (verifyChain linkEnv ((Roots.new.add linkEnv [1, 2, 3]).add linkEnv [9]) 5 [4] [[1, 2, 3]]).2.1 = false :=
  ⟨.add _ _ _ (.add _ [] _ .new), .add _ _ _ (.add _ [[9]] _ (.builtin [9] [9] rfl)), by decide, by decide, by decide, by decide,
    by decide⟩

/-- A verdict that has all flags with this store. -/
example : FullyValid (verifyV2 linkEnv ((Roots.new.add linkEnv [1, 2, 3]).add linkEnv [7]) 0
    (blockOf [Value.newV2 (SignersV2.new [toySigner [1, 2]])]) (some (toyCtx [1, 2]))) :=
  allFlags_iff.mp (by decide +kernel)

/-- The hypotheses of `C104_chain_flag_falls`. -/
example : chainStructure linkEnv [4] [[4]] = true ∧ ([4] : Bytes) ≠ [9] ∧
    linkEnv.pki ([[9]].filter linkEnv.anchorOk) [4] [[4]] 100 ∈ [PkiOutcome.expired, .notYetValid, .ekuMissing, .other] := by
  decide

end Ksusig.Props
