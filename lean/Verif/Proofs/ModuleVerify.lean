import Verif.Proofs.Canon
import Verif.Proofs.Verify
import Verif.Proofs.Digest
import Verif.SpecSign

/-!
# Verifying a module: the digest context, and the verify command
-/

namespace Ksusig

open Spec

/-! ### Whether the digest can be computed does not depend on the algorithm -/

/-- Outcome of computing the digest of a file: the regions that are hashed, an error, or a panic. -/
inductive DigestForm (p : Profile) (m : Module) (file : Bytes) : Prop where
  | parts (ps : List Bytes) (h : ∀ E a, m.digest E p file a = .ok (treeDigest (a.hash E) ps))
  | err (e : Err) (h : ∀ E a, m.digest E p file a = .err e)
  | panic (h : ∀ E a, m.digest E p file a = .panic)

theorem digestModule_form (p : Profile) (file : Bytes) (o : FileOffsets) :
    (∃ ps, ∀ E a, digestModule E p fullReads fullReads file o a = .ok (treeDigest (a.hash E) ps)) ∨
    (∃ e, ∀ E a, digestModule E p fullReads fullReads file o a = .err e) ∨
    (∀ E a, digestModule E p fullReads fullReads file o a = .panic) := by
  unfold digestModule
  cases h1 : usub p o.stopContent o.startContent with
  | err e => exact .inr (.inl ⟨e, fun _ _ => rfl⟩)
  | panic => exact .inr (.inr fun _ _ => rfl)
  | ok n1 =>
    simp only [Res.ok_bind]
    cases h2 : usub p o.stopCd o.startCd with
    | err e => exact .inr (.inl ⟨e, fun _ _ => rfl⟩)
    | panic => exact .inr (.inr fun _ _ => rfl)
    | ok n2 =>
      simp only [Res.ok_bind]
      cases h3 : usub .dev o.stopEocd o.startEocd with
      | err e => exact .inr (.inl ⟨e, fun _ _ => rfl⟩)
      | panic => exact .inr (.inr fun _ _ => rfl)
      | ok n3 =>
        simp only [Res.ok_bind]
        unfold digestEocd
        cases h4 : eocdForDigest file o.startEocd o.stopContent with
        | err e => exact .inr (.inl ⟨e, fun _ _ => rfl⟩)
        | panic => exact .inr (.inr fun _ _ => rfl)
        | ok d =>
          refine .inl ⟨[(file.drop o.startContent).take n1, (file.drop o.startCd).take n2, d], fun E a => ?_⟩
          simp only [Res.ok_bind, digestRegion_eq E fullReads_ge]
          congr 1
          simp only [digestFinal, treeDigest, topInput, List.flatMap_cons, List.flatMap_nil, List.append_nil,
            chunksBy_full fullReads_ge _ _ _ (Nat.le_refl _), List.map_append, List.length_append, List.length_map,
            List.append_assoc]
          rfl

theorem digest_form (p : Profile) (m : Module) (file : Bytes) : DigestForm p m file := by
  cases h : m.getOffsetsT p file file file with
  | err e => exact .err e fun E a => by unfold Module.digest Module.digestT; rw [h]; rfl
  | panic => exact .panic fun E a => by unfold Module.digest Module.digestT; rw [h]; rfl
  | ok o =>
    have hd : ∀ E a, m.digest E p file a = digestModule E p fullReads fullReads file o a := fun E a => by
      unfold Module.digest Module.digestT; rw [h]; rfl
    rcases digestModule_form p file o with ⟨ps, h1⟩ | ⟨e, h1⟩ | h1
    · exact .parts ps fun E a => by rw [hd, h1]
    · exact .err e fun E a => by rw [hd, h1]
    · exact .panic fun E a => by rw [hd, h1]

/-! ### The library's digest context -/

/-- `fillCtxT` on a file that does not change. -/
def fillCtx (E : Env) (p : Profile) (m : Module) (file : Bytes) (as : List Algo) (c : DigestCtx) : Res DigestCtx :=
  fillCtxT E p m (fun _ => file) as 2 c

theorem fillCtxT_const {E : Env} {p : Profile} {m : Module} {file : Bytes} : ∀ (as : List Algo) (k k' : Nat) (c : DigestCtx),
    fillCtxT E p m (fun _ => file) as k c = fillCtxT E p m (fun _ => file) as k' c := by
  intro as
  induction as with
  | nil => intros; rfl
  | cons a as ih =>
    intro k k' c
    unfold fillCtxT
    split
    · cases m.digestT E p file file file file a with
      | ok d => exact ih _ _ _
      | err e => exact ih _ _ _
      | panic => rfl
    · exact ih _ _ _

theorem fillCtx_parts {E : Env} {p : Profile} {m : Module} {file : Bytes} {ps : List Bytes}
    (h : ∀ E a, m.digest E p file a = .ok (treeDigest (a.hash E) ps)) : ∀ (as : List Algo) (c : DigestCtx),
    ∃ c', fillCtx E p m file as c = .ok c' ∧ ∀ id, c'.get id = match c.get id with
      | some d => some d
      | none => (as.find? fun a => a.toU32 == id).map fun a => treeDigest (a.hash E) ps := by
  intro as
  induction as with
  | nil =>
    intro c
    refine ⟨c, rfl, fun id => ?_⟩
    cases c.get id <;> rfl
  | cons a as ih =>
    intro c
    unfold fillCtx fillCtxT
    have hd : m.digestT E p file file file file a = .ok (treeDigest (a.hash E) ps) := h E a
    by_cases hn : (c.get a.toU32).isNone = true
    · rw [if_pos hn, hd]
      dsimp only
      rw [fillCtxT_const _ _ 2]
      obtain ⟨c', h1, h2⟩ := ih (c.add a.toU32 (treeDigest (a.hash E) ps))
      refine ⟨c', h1, fun id => ?_⟩
      rw [h2, DigestCtx.get_add]
      by_cases hid : id = a.toU32
      · subst hid
        rw [if_pos rfl]
        have : c.get a.toU32 = none := by simpa using hn
        rw [this]
        simp
      · rw [if_neg (fun h => hid h.symm)]
        have : (a.toU32 == id) = false := by simpa using fun h => hid h.symm
        rw [List.find?_cons, this]
    · rw [if_neg hn]
      obtain ⟨c', h1, h2⟩ := ih c
      refine ⟨c', h1, fun id => ?_⟩
      rw [h2]
      by_cases hid : a.toU32 = id
      · subst hid
        cases hc : c.get a.toU32 with
        | none => rw [hc] at hn; exact absurd rfl hn
        | some d => rfl
      · have : (a.toU32 == id) = false := by simpa using hid
        rw [List.find?_cons, this]

theorem fillCtx_err {E : Env} {p : Profile} {m : Module} {file : Bytes} {e : Err}
    (h : ∀ E a, m.digest E p file a = .err e) : ∀ (as : List Algo) (c : DigestCtx),
    fillCtx E p m file as c = .ok c := by
  intro as
  induction as with
  | nil => intro c; rfl
  | cons a as ih =>
    intro c
    unfold fillCtx fillCtxT
    have hd : m.digestT E p file file file file a = .err e := h E a
    split
    · rw [hd]
      dsimp only
      rw [fillCtxT_const _ _ 2]
      exact ih c
    · exact ih c

theorem fillCtx_panic {E : Env} {p : Profile} {m : Module} {file : Bytes}
    (h : ∀ E a, m.digest E p file a = .panic) (as : List Algo) :
    fillCtx E p m file as DigestCtx.new = if as = [] then .ok DigestCtx.new else .panic := by
  cases as with
  | nil => rfl
  | cons a as =>
    unfold fillCtx fillCtxT
    have hd : m.digestT E p file file file file a = .panic := h E a
    rw [if_pos (by rfl), hd, if_neg (List.cons_ne_nil _ _)]

theorem verifyWithRoots_eq {E : Env} {p : Profile} {m : Module} {file : Bytes} {roots : Roots} {now : Nat} :
    m.verifyWithRoots E p file roots now = match m.getSigningBlock p file with
      | .err _ => .ok ⟨.err .invalidSignature, .err .noSignature⟩
      | .panic => .panic
      | .ok b => (fillCtx E p m file (storedAlgos b) DigestCtx.new).bind fun ctx =>
          .ok (verifyAll E roots now b (some ctx)) := by
  unfold Module.verifyWithRoots Module.verifyWithRootsT Module.getSigningBlock
  rfl

/-- The library's context holds the content digest for every stored algorithm. -/
theorem fillCtx_get {E : Env} {p : Profile} {m : Module} {file : Bytes} {ps : List Bytes} {as : List Algo} {c : DigestCtx}
    (h : ∀ E a, m.digest E p file a = .ok (treeDigest (a.hash E) ps)) (hc : ∀ a ∈ as, a.Canon)
    (hf : fillCtx E p m file as DigestCtx.new = .ok c) :
    ∀ a ∈ as, c.get a.toU32 = some (treeDigest (a.hash E) ps) := by
  intro a ha
  obtain ⟨c', h1, h2⟩ := fillCtx_parts (E := E) h as DigestCtx.new
  rw [hf] at h1
  cases h1
  rw [h2]
  show (as.find? fun x => x.toU32 == a.toU32).map _ = _
  cases hx : as.find? fun x => x.toU32 == a.toU32 with
  | none =>
    have := List.find?_eq_none.mp hx a ha
    simp at this
  | some x =>
    have hp : (x.toU32 == a.toU32) = true := List.find?_some (p := fun x : Algo => x.toU32 == a.toU32) hx
    have hm := List.mem_of_find?_eq_some hx
    have : x = a := Algo.canon_inj (hc x hm) (hc a ha) (by simpa using hp)
    subst this
    rfl

/-! ### A good signer depends only on the digests of the algorithms it lists -/

theorem Spec.GoodV2.congr {E : Env} {added : List Bytes} {now : Nat} {f g : UInt32 → Option Bytes} {s : SignerV2}
    (hfg : ∀ d ∈ s.signedData.digests.data, Known d.algo → f d.algo.toU32 = g d.algo.toU32)
    (h : GoodV2 E added now f s) : GoodV2 E added now g s := by
  refine ⟨h.signed, h.crypto, fun x hx => ?_, h.cert⟩
  obtain ⟨d, hd, hc⟩ := h.content x hx
  refine ⟨d, hd, ?_⟩
  have hk : Known x.algo := by rcases h.crypto x hx with ⟨h, _⟩ | ⟨h, _⟩ <;> simp [Known, h]
  obtain ⟨pre, post, he, _, ha⟩ := hd
  rw [← ha] at hc hk ⊢
  rw [← hfg d (by rw [he]; simp) hk]
  exact hc

theorem Spec.GoodStamp.congr {E : Env} {added : List Bytes} {now : Nat} {f g : UInt32 → Option Bytes} {s : StampBlock}
    (hfg : ∀ d ∈ s.signedData.digests.data, Known d.algo → f d.algo.toU32 = g d.algo.toU32)
    (h : GoodStamp E added now f s) : GoodStamp E added now g s := by
  refine ⟨h.signed, h.crypto, fun x hx d hd => ?_, h.cert⟩
  have hc := h.content x hx d hd
  have hk : Known x.algo := by rcases h.crypto x hx with ⟨h, _⟩ | ⟨h, _⟩ <;> simp [Known, h]
  obtain ⟨pre, post, he, _, ha⟩ := hd
  rw [← ha] at hc hk ⊢
  rw [← hfg d (by rw [he]; simp) hk]
  exact hc

theorem mem_storedAlgos_v2 {b : SigningBlock} {s : SignerV2} (h : s ∈ v2Signers b) {d : Digest}
    (hd : d ∈ s.signedData.digests.data) : d.algo ∈ storedAlgos b := by
  unfold v2Signers at h
  obtain ⟨v, hv, hs⟩ := List.mem_flatMap.mp h
  unfold storedAlgos
  refine List.mem_flatMap.mpr ⟨v, hv, ?_⟩
  cases v with
  | v2 x => exact List.mem_flatMap.mpr ⟨s, hs, List.mem_map_of_mem hd⟩
  | raw x => cases hs
  | stamp x => cases hs
  | elf x => cases hs

theorem mem_storedAlgos_stamp {b : SigningBlock} {s : StampBlock} (h : s ∈ stamps b) {d : Digest}
    (hd : d ∈ s.signedData.digests.data) : d.algo ∈ storedAlgos b := by
  unfold stamps at h
  obtain ⟨v, hv, hs⟩ := List.mem_filterMap.mp h
  unfold storedAlgos
  refine List.mem_flatMap.mpr ⟨v, hv, ?_⟩
  cases v with
  | stamp x => cases hs; exact List.mem_map_of_mem hd
  | raw x => cases hs
  | v2 x => cases hs
  | elf x => cases hs

theorem table_known {E : Env} {ps : List Bytes} {a : Algo} (h : Known a) :
    table (treeDigest (Algo.p256.hash E) ps) (treeDigest (Algo.p384.hash E) ps) a.toU32 = some (treeDigest (a.hash E) ps) := by
  rcases h with rfl | rfl <;> rfl

theorem getSigningBlock_canon {p : Profile} {file : Bytes} {b : SigningBlock}
    (h : (Module.new file).getSigningBlock p file = .ok b) : ∀ v ∈ b.content, v.Canon := by
  rw [getSigningBlock_new] at h
  obtain ⟨e, _, h⟩ := Res.bind_eq_ok.mp h
  obtain ⟨_, _, _, _, _, hx, _⟩ := fromReader_ok h
  exact extractValues_canon hx

/-! ### The command's context -/

theorem cliAddDigest_ok {E : Env} {p : Profile} {m : Module} {file d : Bytes} {a : Algo} (c : DigestCtx)
    (h : m.digest E p file a = .ok d) : cliAddDigest E p m file a c = .ok (c.add a.toU32 d) := by
  unfold cliAddDigest; rw [h]

theorem cliCtx_get (d256 d384 : Bytes) (id : UInt32) :
    ((DigestCtx.new.add Algo.p256.toU32 d256).add Algo.p384.toU32 d384).get id = table d256 d384 id := by
  rw [DigestCtx.get_add, DigestCtx.get_add]
  unfold table Algo.toU32
  by_cases h1 : id = 0x0201
  · subst h1; rfl
  · by_cases h2 : id = 0x0202
    · subst h2; rfl
    · rw [if_neg (fun h => h2 h.symm), if_neg (fun h => h1 h.symm), if_neg h1, if_neg h2]; rfl

theorem cliV2_some {v : Verdict} {r : VResult} : cliV2 v = .ok (some r) ↔ v = .ok r ∧ v.allFlags = true := by
  cases v with
  | err e => cases e <;> simp [cliV2]
  | ok x =>
    simp only [cliV2, Verdict.allFlags]
    cases h1 : x.sigValid <;> cases h2 : x.digestValid <;> cases h3 : x.chainValid <;> cases h4 : x.trusted <;> simp

theorem cliStampFailed_iff {v : Verdict} : cliStampFailed v = false ↔ v.allFlags = true ∨ v.isNoSignature = true := by
  cases v with
  | err e => cases e <;> simp [cliStampFailed, Verdict.allFlags, Verdict.isNoSignature]
  | ok r => simp [cliStampFailed, Verdict.allFlags, Verdict.isNoSignature]

/-- The last part of the command. -/
theorem cli_decide {v w : Verdict} :
    (do
      let v2 ← cliV2 v
      let stampFailed := cliStampFailed w
      let fully := match v2 with
        | some r => r.sigValid && r.digestValid && r.chainValid && r.trusted
        | none => false
      if fully then
        if stampFailed then Res.err .verifyFailed else Res.ok ()
      else Res.err .verifyFailed) = Res.ok () ↔ v.allFlags = true ∧ (w.allFlags = true ∨ w.isNoSignature = true) := by
  rw [Res.bind_eq_ok, ← cliStampFailed_iff]
  constructor
  · rintro ⟨o, h1, h2⟩
    dsimp only at h2
    cases o with
    | none => simp at h2
    | some r =>
      refine ⟨(cliV2_some.mp h1).2, ?_⟩
      cases hw : cliStampFailed w
      · rfl
      · rw [hw] at h2
        split at h2
        · simp at h2
        · cases h2
  · rintro ⟨h1, h2⟩
    cases v with
    | err e => cases h1
    | ok r =>
      refine ⟨some r, cliV2_some.mpr ⟨rfl, h1⟩, ?_⟩
      dsimp only
      have h1' : (r.sigValid && r.digestValid && r.chainValid && r.trusted) = true := h1
      rw [h2, if_pos h1']
      rfl

/-- What the command does once block, roots and digests are there. -/
theorem cliVerify_of {E : Env} {p : Profile} {pem : Bytes} {root : Option Bytes} {now : Nat} {file : Bytes}
    {b : SigningBlock} {roots : Roots} {ps : List Bytes}
    (hb : (Module.new file).getSigningBlock p file = .ok b) (hr : cliRoots E pem root = .ok roots)
    (hd : ∀ E a, (Module.new file).digest E p file a = .ok (treeDigest (a.hash E) ps)) :
    ∃ c : DigestCtx, (∀ id, c.get id = table (treeDigest (Algo.p256.hash E) ps) (treeDigest (Algo.p384.hash E) ps) id) ∧
      (cliVerify E p pem root now file = .ok () ↔ (verifyV2 E roots now b (some c)).allFlags = true ∧
        ((verifySourceStamp E roots now b (some c)).allFlags = true ∨
          (verifySourceStamp E roots now b (some c)).isNoSignature = true)) := by
  refine ⟨_, cliCtx_get _ _, ?_⟩
  unfold cliVerify
  dsimp only
  rw [hb, hr, cliAddDigest_ok _ (hd E .p256)]
  simp only [Res.mapErr_ok, Res.ok_bind]
  rw [cliAddDigest_ok _ (hd E .p384)]
  simp only [Res.ok_bind]
  rw [if_neg (by simp [DigestCtx.add])]
  exact cli_decide

end Ksusig
