import Verif.SpecRoles
import Verif.Props.Confusion
import Verif.Props.Anatomy

/-! # Source stamps and V2 signatures are not told apart: C134 -/

namespace Ksusig.Props

open Ksusig Spec

theorem exact_of_parses {α : Type} {q : P α} {G : Bytes → α → Prop} (h : Exact q G) {enc : Bytes} {x : α} (hp : Parses q enc x) :
    G enc x := by
  have h1 := hp [] []
  rw [show ([] : Bytes) ++ enc ++ [] = [] ++ enc by simp] at h1
  obtain ⟨w, post, e, hg, hr⟩ := (h [] enc x _).mp h1
  have hl : w.length = enc.length := by
    have := congrArg Reader.pos hr
    simpa using this.symm
  have hpost : post = [] := by
    have := congrArg List.length e
    rw [List.length_append] at this
    exact List.length_eq_zero_iff.mp (by omega)
  rw [hpost, List.append_nil] at e
  rw [e]
  exact hg

/-- The V2 signer that the bytes of a stamp stand for. -/
def asSigner (s : StampBlock) : SignerV2 :=
  ⟨s.size, ⟨s.signedData.content.length, s.signedData.digests, s.signedData.certs, s.signedData.attrs, true⟩, s.sigs, s.pubKey⟩

theorem asSigner_toU8 (s : StampBlock) : (asSigner s).signedData.toU8 = s.signedData.toU8 := by
  show leBytes 4 s.signedData.content.length ++ s.signedData.content ++
    zeroPad s.signedData.content.length s.signedData.content = _
  rw [zeroPad_nil (Nat.le_refl _), List.append_nil]
  rfl

theorem isSigner_of_stamp {s : StampBlock} (h : s.WF) (hs : s.size < 2 ^ 32) : IsSigner s.toU8 (asSigner s) := by
  obtain ⟨h0, ⟨h1, h2, h3⟩, h4, h5⟩ := h
  have hc := SignedDataStamp.content_length (s := s.signedData) ⟨h1, h2, h3⟩
  have hz : s.signedData.size = s.signedData.digests.size + s.signedData.certs.size + s.signedData.attrs.size + 12 := rfl
  refine ⟨s.signedData.toU8, s.sigs.toU8, s.pubKey.toU8, rfl, hs, ?_, exact_of_parses Sigs.exact (Sigs.parses h4 (by omega)),
    exact_of_parses PubKey.exact (PubKey.parses h5 (by omega))⟩
  refine ⟨s.signedData.digests.toU8, s.signedData.certs.toU8, s.signedData.attrs.toU8, [], ?_, ?_, ?_,
    exact_of_parses Digests.exact (Digests.parses h1 (by omega)), exact_of_parses Certs.exact (Certs.parses h2 (by omega)),
    exact_of_parses Attrs.exact (Attrs.parses h3 (by omega)), rfl⟩
  · rw [List.append_nil]; rfl
  · rw [List.append_nil]; rfl
  · show s.signedData.content.length < _
    omega

theorem isContent_relabelled {s : StampBlock} (h : s.WF) (hs : s.size < 2 ^ 32 - 4) :
    IsContent (wirePair 0x7109871a (lp4 s.toU8))
      [.v2 ⟨4 + (lp4 s.toU8).length, 0x7109871a, ⟨s.toU8.length, [asSigner s]⟩⟩] := by
  have hl := StampBlock.toU8_length h
  have := IsContent.cons 0x7109871a (lp4 s.toU8) (.v2 ⟨4 + (lp4 s.toU8).length, 0x7109871a, ⟨s.toU8.length, [asSigner s]⟩⟩) [] []
    ⟨rfl, rfl, rfl, lp4 s.toU8, [], (List.append_nil _).symm, s.toU8, rfl, rfl, by show s.toU8.length < _; omega, by
      have e := Entries.more s.toU8.length s.toU8 [] (asSigner s) [] (by omega) (isSigner_of_stamp h (by omega))
        (by rw [Nat.sub_self]; exact .done)
      rwa [List.append_nil] at e⟩ .nil
  rwa [List.append_nil] at this

theorem getSigningBlock_frame (p : Profile) {a : Archive} {pairs : Bytes} {vs : List Value} (hc : IsContent pairs vs)
    (hsm : pairs.length + 24 ≤ 16384) (hok : a.Ok) (hclean : a.CleanAt (a.body.length + (wireFrame pairs).length))
    (hsz : a.body.length + (wireFrame pairs).length < 2 ^ 32) :
    (Module.new (a.signed (wireFrame pairs))).getSigningBlock p (a.signed (wireFrame pairs)) =
      .ok ⟨a.body.length, a.body.length + (wireFrame pairs).length, pairs.length + 24, pairs.length, vs, pairs.length + 24,
        Ksusig.magic⟩ := by
  simp only [Module.getSigningBlock, Module.getSigningBlockT, Module.new, Module.findEocd,
    findEocd_signed hok hclean, Res.ok_bind]
  rw [if_neg (by simp)]
  have hl := a.signed_length (wireFrame pairs)
  have hf := wireFrame_length' pairs
  simp only [Spec.Tail.eocd, u32_ofNat_toNat hsz]
  refine fromReader_iff.mpr ⟨a.body, pairs, a.cd ++ wireEocd a.tail (a.body.length + (wireFrame pairs).length), ?_, hsm, hc, ?_, ?_,
    ?_, ?_, ?_⟩
  · simp [Archive.signed]
  · omega
  · omega
  · omega
  · intro u hu _; omega
  · simp only [hf, Nat.add_assoc]

/-- C134. Nothing in a signed message says whether it is that of a V2 signature or that of a source stamp. If the sign command made
a source stamp for a module, then anyone can take the bytes of the stamp from the signed module and put them into the same module
in the place of a V2 signature, and the verify command accepts the result, at every time and for every root under which the
stamp's certificate is trusted. No V2 signature need have been made; and if none was, the module as it was signed is
refused. -/
theorem C134_stamp_as_signature {E : Env} {p q : Profile} {clock : Option UInt64} {m : ModuleSigner} {c : SignerConfig} {a : Archive}
    {file out : Bytes} (hin : SignInput a file) (hs : ∀ n, n ≤ 16392 → Signable a n) (hc : m.stamp = some c) (hsound : Sound E c)
    (hk : ∀ c, m.v2 = some c → Known c.algo) (h : cliSignModule E p clock m false file = (some out, .ok ())) :
    ∃ b s, out = a.signed b.toU8 ∧ (Module.new out).getSigningBlock q out = .ok b ∧ stamps b = [s] ∧
      (s.toU8.length ≤ 16344 → ∀ builtin root cert now, E.pemParse (Option.getD root builtin) = some ("CERTIFICATE", cert) →
        Trusted E [cert] now c.cert [] →
        cliVerify E q builtin root now (a.signed (relabelled s.toU8)) = .ok ()) ∧
      (m.v2 = none → ∀ builtin root now, cliVerify E q builtin root now out ≠ .ok ()) := by
  have hk' : ∀ c, m.v2 = some c ∨ m.stamp = some c → Known c.algo := by
    rintro c' (h' | h')
    · exact hk c' h'
    · rw [hc] at h'; cases h'; exact known_of_matching hsound.matching
  obtain ⟨r, hr, hcm⟩ := C25_sign_command (E := E) (p := p) (clock := clock) hin hs hk'
  rw [h] at hcm
  cases r with
  | err e => cases hcm
  | panic => cases hcm
  | ok b =>
  dsimp only at hcm
  injection hcm with hcm _
  injection hcm with hcm
  subst hcm
  have hmap : ((m.requiredAlgorithms.map fun al => (al, contentDigest E a al)).map fun x => Digest.new x.1 x.2) =
      m.requiredAlgorithms.map fun al => Digest.new al (contentDigest E a al) := by
    rw [List.map_map]; rfl
  have hsign : m.sign E p clock (pairDigests (m.requiredAlgorithms.map fun al => (al, contentDigest E a al))) = .ok b := by
    unfold pairDigests; rw [hmap]; exact hr
  have hb : Built p b := by
    refine sign_built ?_ hsign
    intro x hx
    obtain ⟨al, hal, rfl⟩ := List.mem_map.mp hx
    rcases ((C37_required_algorithms m).2 al).mp hal with ⟨c, hc, rfl⟩ | ⟨c, hc, rfl⟩
    · rcases hk' c (.inl hc) with h | h <;> simp [AlgoOk, h]
    · rcases hk' c (.inr hc) with h | h <;> simp [AlgoOk, h]
  have hsb := hs _ (built_length hb)
  have hget := getSigningBlock_signed q hb.wf hsb.comment hsb.cleanNew hsb.size
  obtain ⟨hv2, hst⟩ := signers_of_shape hsign
  rcases hst with ⟨h0, _⟩ | ⟨c', s, hc', hss, hmade⟩
  · rw [hc] at h0; cases h0
  rw [hc] at hc'
  cases hc'
  refine ⟨{ b with fileStart := a.body.length, fileEnd := a.body.length + b.toU8.length }, s, rfl, hget, hss, ?_, ?_⟩
  · intro hlen builtin root cert now hroot ht
    have hsw : s.WF := by
      have hm : s ∈ stamps b := by rw [hss]; simp
      unfold stamps at hm
      obtain ⟨v, hv, he⟩ := List.mem_filterMap.mp hm
      cases v with
      | stamp x =>
        have := hb.wf.content _ hv
        cases he
        exact this.2.2
      | _ => cases he
    have hsl := StampBlock.toU8_length hsw
    have hpl : (wirePair 0x7109871a (lp4 s.toU8)).length = s.toU8.length + 16 := by
      simp only [wirePair, lp4, List.length_append, leBytes_length]; omega
    have hfl := wireFrame_length' (wirePair 0x7109871a (lp4 s.toU8))
    have hsr := hs (relabelled s.toU8).length (by unfold relabelled; omega)
    have hg := getSigningBlock_frame q (isContent_relabelled hsw (by omega)) (by omega) hsr.comment hsr.cleanNew hsr.size
    have hsp : Split q (a.signed (relabelled s.toU8)) a.body (relabelled s.toU8) a.cd
        (wireEocd a.tail (a.body.length + (relabelled s.toU8).length)) :=
      ⟨rfl, _, findEocd_signed hsr.comment hsr.cleanNew, rfl, .inl ⟨_, hg, rfl, rfl⟩⟩
    refine C35_verify_command.mpr ⟨_, cert, _, _, hg, hroot, hsp.digest E _, hsp.digest E _, ?_, ?_, ?_⟩
    · simp [v2Signers]
    · intro g hgm
      have hgs : g = asSigner s := by simpa [v2Signers] using hgm
      subst hgs
      rw [patchOffset_wireEocd]
      have hmem : c.algo ∈ m.requiredAlgorithms := by
        rw [(C37_required_algorithms m).2]; exact .inr ⟨c, hc, rfl⟩
      have htab : table (contentDigest E a .p256) (contentDigest E a .p384) c.algo.toU32 = some (contentDigest E a c.algo) := by
        rcases known_of_matching hsound.matching with h | h <;> rw [h] <;> rfl
      obtain ⟨_, k2, k3⟩ := stampSigOk_made hsound hmade hmem htab
      obtain ⟨g, hg1, hg2, _⟩ := hmade.sig
      refine ⟨?_, ?_, ?_, _, _, hmade.certs, k3, ht⟩
      · show s.sigs.data ≠ []
        rw [hg1]; simp
      · intro x hx
        rw [asSigner_toU8]
        exact (k2 x hx).1
      · intro x hx
        have hx' : x = g := by
          have : x ∈ s.sigs.data := hx
          rw [hg1] at this; simpa using this
        subst hx'
        have hf := firstFor_map (D := contentDigest E a) hmem
        rw [← hmade.digests] at hf
        refine ⟨Digest.new c.algo (contentDigest E a c.algo), by rw [hg2]; exact hf, ?_⟩
        rw [hg2]
        exact htab
    · intro t rest ht
      simp [stamps] at ht
  · intro hnone builtin root now hv
    obtain ⟨b', _, _, _, hb', _, _, _, hne, _⟩ := C35_verify_command.mp hv
    rw [hget] at hb'
    cases hb'
    rcases hv2 with ⟨_, h0⟩ | ⟨c', _, hc', _⟩
    · exact hne h0
    · rw [hnone] at hc'; cases hc'

set_option maxRecDepth 100000 in
/-- A module signed with a source stamp only is refused, and accepted with the bytes of the stamp in the place of a V2 signature. -/
example : ∃ out b s, cliSignModule toyEnv .dev (some 5) ⟨none, some toyConfig, true, false⟩ false plainArchive.unsigned =
    (some out, .ok ()) ∧ (Module.new out).getSigningBlock .release out = .ok b ∧ stamps b = [s] ∧
    cliVerify toyEnv .release [7] none 0 out ≠ .ok () ∧
    cliVerify toyEnv .release [7] none 0 (plainArchive.signed (relabelled s.toU8)) = .ok () := by
  have hk : ∀ c, (⟨none, some toyConfig, true, false⟩ : ModuleSigner).v2 = some c ∨
      (⟨none, some toyConfig, true, false⟩ : ModuleSigner).stamp = some c → Known c.algo := by
    rintro c (h | h) <;> cases h
    exact known_of_matching toyConfig_sound.matching
  obtain ⟨r, hr, hc⟩ := C25_sign_command (E := toyEnv) (p := .dev) (clock := some 5) (m := ⟨none, some toyConfig, true, false⟩)
    plainArchive_input plainArchive_signable hk
  have hok : ((⟨none, some toyConfig, true, false⟩ : ModuleSigner).sign toyEnv .dev (some 5)
    (Digests.new ((⟨none, some toyConfig, true, false⟩ : ModuleSigner).requiredAlgorithms.map fun al =>
      Digest.new al (contentDigest toyEnv plainArchive al))) >>= fun b =>
        Res.ok (decide (b.toU8.length ≤ 16392) && (stamps b).all fun s => decide (s.toU8.length ≤ 16344))) = .ok true := by
    decide +kernel
  obtain ⟨b0, hb, hl⟩ := Res.bind_eq_ok.mp hok
  rw [hr] at hb
  subst hb
  have hc' : cliSignModule toyEnv .dev (some 5) ⟨none, some toyConfig, true, false⟩ false plainArchive.unsigned =
      (some (plainArchive.signed b0.toU8), .ok ()) := hc
  obtain ⟨b, s, _, h1, h2, h3, h4⟩ := C134_stamp_as_signature (q := .release) plainArchive_input plainArchive_signable rfl toyConfig_sound
    (fun c h => hk c (.inl h)) hc'
  simp only [Res.ok.injEq, Bool.and_eq_true, decide_eq_true_eq] at hl
  have hbb : Built .dev b0 := by
    refine sign_built (pairs := [(.p256, contentDigest toyEnv plainArchive .p256)]) ?_ hr
    intro x hx
    have : x = _ := List.mem_singleton.mp hx
    rw [this]; decide
  have hsb := plainArchive_signable _ hl.1
  have hg := getSigningBlock_signed .release hbb.wf hsb.comment hsb.cleanNew hsb.size
  rw [h1] at hg
  have hst : stamps b = stamps b0 := by cases hg; rfl
  refine ⟨_, b, s, hc', h1, h2, h4 rfl _ _ _, h3 ?_ [7] none [7] 0 rfl ⟨by simp, .inl (by simp [toyConfig])⟩⟩
  have := List.all_eq_true.mp hl.2 s (by rw [← hst, h2]; simp)
  simpa using this

/-! ### The other direction -/

/-- Reading in step: a decoded list whose encoding starts like that of a proper list of the announced length is that list. -/
theorem entries_lockstep {α : Type} {G : Bytes → α → Prop} {enc : α → Bytes} {len : α → Nat} {Ok : α → Prop}
    (hstep : ∀ w x y r1 r2, G w x → Ok y → enc x ++ r1 = enc y ++ r2 → x = y ∧ w.length = len y + 4) :
    ∀ {n : Nat} {ws : Bytes} {xs : List α}, Entries G n ws xs → ∀ (ys : List α) (r1 r2 : Bytes),
      n = (ys.map fun y => len y + 4).sum → (∀ y ∈ ys, Ok y) → xs.flatMap enc ++ r1 = ys.flatMap enc ++ r2 → xs = ys := by
  intro n ws xs h
  induction h with
  | done =>
    intro ys r1 r2 hn _ _
    cases ys with
    | nil => rfl
    | cons y ys => simp only [List.map_cons, List.sum_cons] at hn; omega
  | more n w ws x xs hpos hx _ ih =>
    intro ys r1 r2 hn hok he
    cases ys with
    | nil => simp only [List.map_nil, List.sum_nil] at hn; omega
    | cons y ys =>
      simp only [List.flatMap_cons, List.append_assoc] at he
      obtain ⟨rfl, hw⟩ := hstep w x y _ _ hx (hok y (by simp)) he
      simp only [List.map_cons, List.sum_cons] at hn
      rw [ih ys r1 r2 (by omega) (fun z hz => hok z (by simp [hz])) (List.append_cancel_left he)]

theorem digest_step (w : Bytes) (x y : Digest) (r1 r2 : Bytes) (hx : IsDigest w x) (hy : y.WF ∧ y.size < 2 ^ 32)
    (h : x.toU8 ++ r1 = y.toU8 ++ r2) : x = y ∧ w.length = y.size + 4 := by
  obtain ⟨hw, hs, hl, ha⟩ := hx
  have hz := hy.1.1
  rw [Digest.toU8_eq hy.1] at h
  simp only [Digest.toU8, Digest.content, List.append_assoc] at h
  obtain ⟨h1, h⟩ := List.append_inj h (by simp)
  obtain ⟨h2, h⟩ := List.append_inj h (by simp)
  obtain ⟨h3, h⟩ := List.append_inj h (by simp)
  have e1 := leBytes4_inj hs hy.2 h1
  have e3 := leBytes4_inj hl (by omega) h3
  obtain ⟨e4, _⟩ := List.append_inj h e3
  have e2 : x.algo = y.algo := by
    have := UInt32.toNat_inj.mp (leBytes4_inj x.algo.toU32.toNat_lt y.algo.toU32.toNat_lt h2)
    have := congrArg Algo.ofU32 this
    rwa [show Algo.ofU32 x.algo.toU32 = x.algo from ha.canon, show Algo.ofU32 y.algo.toU32 = y.algo from hy.1.2] at this
  refine ⟨?_, ?_⟩
  · cases x; cases y; simp only at e1 e2 e4; subst e1; subst e2; subst e4; rfl
  · rw [hw]; simp only [lp4, List.length_append, leBytes_length]; omega

theorem cert_step (w : Bytes) (x y : Cert) (r1 r2 : Bytes) (hx : IsCert w x) (hy : y.WF ∧ y.size < 2 ^ 32)
    (h : x.toU8 ++ r1 = y.toU8 ++ r2) : x = y ∧ w.length = y.size + 4 := by
  obtain ⟨hw, hs, hl⟩ := hx
  have hz : y.size = y.cert.length := hy.1
  rw [Cert.toU8_eq hy.1, Cert.toU8_eq (show x.WF from hs)] at h
  simp only [List.append_assoc] at h
  obtain ⟨h1, h⟩ := List.append_inj h (by simp)
  have e1 := leBytes4_inj hl hy.2 h1
  obtain ⟨e2, _⟩ := List.append_inj h (by omega)
  refine ⟨?_, ?_⟩
  · cases x; cases y; simp only at e1 e2; subst e1; subst e2; rfl
  · rw [hw]; simp only [lp4, List.length_append, leBytes_length]; omega

theorem attr_step (w : Bytes) (x y : Attr) (r1 r2 : Bytes) (hx : IsAttr w x) (hy : y.WF ∧ y.size < 2 ^ 32)
    (h : x.toU8 ++ r1 = y.toU8 ++ r2) : x = y ∧ w.length = y.size + 4 := by
  obtain ⟨hw, hs, hl⟩ := hx
  have hz : y.size = 4 + y.data.length := hy.1
  rw [Attr.toU8_eq hy.1, Attr.toU8_eq (show x.WF from hs)] at h
  simp only [List.append_assoc] at h
  obtain ⟨h1, h⟩ := List.append_inj h (by simp)
  obtain ⟨h2, h⟩ := List.append_inj h (by simp)
  have e1 := leBytes4_inj hl hy.2 h1
  have e2 := UInt32.toNat_inj.mp (leBytes4_inj x.id.toNat_lt y.id.toNat_lt h2)
  obtain ⟨e3, _⟩ := List.append_inj h (by omega)
  refine ⟨?_, ?_⟩
  · cases x; cases y; simp only at e1 e2 e3; subst e1; subst e2; subst e3; rfl
  · rw [hw]; simp only [wireAttr, lp4, List.length_append, leBytes_length]; omega

/-- A decoded stamp whose signed bytes start like the proper ones consists of the proper parts. -/
theorem signed_lockstep {w : Bytes} {t : SignedDataStamp} (ht : IsSignedStamp w t) {D : Digests} {C : Certs} {A : Attrs} (hD : D.WF)
    (hC : C.WF) (hA : A.WF) (hn : D.size + C.size + A.size < 2 ^ 32) {r1 r2 : Bytes}
    (h : t.digests.toU8 ++ t.certs.toU8 ++ t.attrs.toU8 ++ r1 = D.toU8 ++ C.toU8 ++ A.toU8 ++ r2) :
    t.digests = D ∧ t.certs = C ∧ t.attrs = A := by
  obtain ⟨d, c, a, rest, _, _, ⟨wd, _, _, d3, d4⟩, ⟨wc, _, c2, c3⟩, ⟨wa, _, a2, a3⟩⟩ := ht
  have hd' : ∀ y ∈ D.data, y.WF ∧ y.size < 2 ^ 32 := fun y hy => ⟨hD.2 y hy, by
    have := mem_size_lt (f := Digest.size) hy; rw [← hD.1] at this; omega⟩
  have hc' : ∀ y ∈ C.data, y.WF ∧ y.size < 2 ^ 32 := fun y hy => ⟨hC.2 y hy, by
    have := mem_size_lt (f := Cert.size) hy; rw [← hC.1] at this; omega⟩
  have ha' : ∀ y ∈ A.data, y.WF ∧ y.size < 2 ^ 32 := fun y hy => ⟨hA.2 y hy, by
    have := mem_size_lt (f := Attr.size) hy; rw [← hA.1] at this; omega⟩
  have h0 := h
  simp only [Digests.toU8, Digests.content, List.append_assoc] at h
  obtain ⟨h1, h⟩ := List.append_inj h (by simp)
  have e1 := leBytes4_inj d3 (by omega) h1
  rw [e1] at d4
  have e2 := entries_lockstep (len := Digest.size) digest_step d4 D.data _ _ hD.1 hd' h
  have eD : t.digests = D := by
    revert e1 e2; cases t.digests; cases D; intro e1 e2; simp only at e1 e2; subst e1; subst e2; rfl
  rw [eD, List.append_assoc, List.append_assoc, List.append_assoc, List.append_assoc] at h0
  replace h := List.append_cancel_left h0
  have h0 := h
  simp only [Certs.toU8, Certs.content, List.append_assoc] at h
  obtain ⟨h1, h⟩ := List.append_inj h (by simp)
  have e1 := leBytes4_inj c2 (by omega) h1
  rw [e1] at c3
  have e2 := entries_lockstep (len := Cert.size) cert_step c3 C.data _ _ hC.1 hc' h
  have eC : t.certs = C := by
    revert e1 e2; cases t.certs; cases C; intro e1 e2; simp only at e1 e2; subst e1; subst e2; rfl
  rw [eC] at h0
  replace h := List.append_cancel_left h0
  simp only [Attrs.toU8, Attrs.content, List.append_assoc] at h
  obtain ⟨h1, h⟩ := List.append_inj h (by simp)
  have e1 := leBytes4_inj a2 (by omega) h1
  rw [e1] at a3
  have e2 := entries_lockstep (len := Attr.size) attr_step a3 A.data _ _ hA.1 ha' h
  have eA : t.attrs = A := by
    revert e1 e2; cases t.attrs; cases A; intro e1 e2; simp only at e1 e2; subst e1; subst e2; rfl
  exact ⟨eD, eC, eA⟩

/-- C134. The other way round it cannot be done: the message of a V2 signature the tool makes ends in four zero bytes more than its
parts need, and no source stamp the decoder can return, from whatever bytes, has that message. So a stamp that verifies with such a
signature is a forgery of the signature. -/
theorem C134_signature_no_stamp {E : Env} {p : Profile} {clock : Option UInt64} {m : ModuleSigner} {pairs : List (Algo × Bytes)}
    {b : SigningBlock} (hp : ∀ x ∈ pairs, AlgoOk x.1)
    (h : m.sign E p clock (Digests.new (pairs.map fun x => Digest.new x.1 x.2)) = .ok b) {s : SignerV2} (hs : s ∈ v2Signers b)
    {t : StampBlock} (ht : CanDecode t) : t.signedData.toU8.drop 4 ≠ s.signedData.toU8.drop 4 := by
  intro he
  have hb : Built p b := sign_built hp h
  obtain ⟨v, hv, hsv⟩ := List.mem_flatMap.mp hs
  have hw := hb.wf.content v hv
  have hin := hb.wf.innerSize_le v hv
  cases v with
  | v2 x =>
    have hsw : s.WF := hw.2.2.2 s hsv
    have hxs : x.size = x.signers.size + 8 := hw.1
    have hmem := mem_size_lt (f := SignerV2.size) hsv
    rw [← hw.2.2.1] at hmem
    have hxi : x.size ≤ 16384 := hin
    obtain ⟨z0, ⟨z1, hD, hC, hA, _⟩, _, _⟩ := hsw
    obtain ⟨_, sd, _, _, _, _, _, _, hsd, _⟩ := ht
    have e1 : t.signedData.toU8.drop 4 = t.signedData.content := by
      rw [SignedDataStamp.toU8]; exact List.drop_left' (by simp)
    have e2 : s.signedData.toU8.drop 4 = s.signedData.content ++ zeroPad s.signedData.size s.signedData.content := by
      rw [SignedDataV2.toU8, List.append_assoc]; exact List.drop_left' (by simp)
    rw [e1, e2] at he
    have h3 := signed_lockstep hsd hD hC hA (by omega) (r1 := []) (r2 := zeroPad s.signedData.size s.signedData.content)
      (by rw [List.append_nil]; exact he)
    have hl := congrArg List.length he
    have hc : t.signedData.content = s.signedData.content := by
      unfold SignedDataStamp.content SignedDataV2.content; rw [h3.1, h3.2.1, h3.2.2]
    have hcl : s.signedData.content.length + 4 = s.signedData.size := SignedDataV2.content_length ⟨z1, hD, hC, hA, by assumption⟩
    rw [hc, List.length_append, zeroPad, List.length_replicate] at hl
    omega
  | _ => cases hsv

/-- A stamp built by the signer can be decoded; the message of a V2 signature over the same digests and certificate differs from its
message by the four bytes at the end only. -/
example : ∃ b s t, (⟨some toyStampConfig, some toyStampConfig, false, false⟩ : ModuleSigner).sign toyEnv .dev none
      (Digests.new ([(.p384, [1, 2])].map fun x => Digest.new x.1 x.2)) = .ok b ∧ s ∈ v2Signers b ∧ CanDecode t ∧
    s.signedData.toU8.drop 4 = t.signedData.toU8.drop 4 ++ [0, 0, 0, 0] := by
  have hok : ((⟨some toyStampConfig, some toyStampConfig, false, false⟩ : ModuleSigner).sign toyEnv .dev none
      (Digests.new ([(.p384, [1, 2])].map fun x => Digest.new x.1 x.2)) >>= fun b => Res.ok (decide
        (((v2Signers b).map fun s => s.signedData.toU8.drop 4) = (stamps b).map (fun t => t.signedData.toU8.drop 4 ++ [0, 0, 0, 0]) ∧
          (v2Signers b).length = 1))) = .ok true := by decide +kernel
  obtain ⟨b, hb, h⟩ := Res.bind_eq_ok.mp hok
  simp only [Res.ok.injEq, decide_eq_true_eq] at h
  obtain ⟨h1, h2⟩ := h
  have hbb : Built .dev b := sign_built (pairs := [(.p384, [1, 2])]) (by decide) hb
  match hs : v2Signers b, ht : stamps b with
  | [s], [t] =>
    rw [hs, ht] at h1
    have hm : t ∈ stamps b := by rw [ht]; simp
    obtain ⟨v, hv, he⟩ := List.mem_filterMap.mp hm
    have hw := hbb.wf.content _ hv
    have hi := hbb.wf.innerSize_le _ hv
    refine ⟨b, s, t, hb, by rw [hs]; simp, ?_, by simpa using h1⟩
    cases v with
    | stamp x =>
      cases he
      have hx : x.size = x.block.size + 8 := hw.1
      have hi' : x.size ≤ 16384 := hi
      exact ⟨_, exact_of_parses StampBlock.exact (StampBlock.parses hw.2.2 (by omega))⟩
    | _ => cases he
  | [], _ => rw [hs] at h2; simp at h2
  | _ :: _ :: _, _ => rw [hs] at h2; simp at h2
  | [_], [] => rw [hs, ht] at h1; simp at h1
  | [_], _ :: _ :: _ => rw [hs, ht] at h1; simp at h1

end Ksusig.Props
