import Verif.SpecMix
import Verif.Props.Roles

/-! # Signatures can be taken away, put together and reordered: C135 -/

namespace Ksusig.Props

open Ksusig Spec

theorem verify_frame {E : Env} {p : Profile} {builtin : Bytes} {root : Option Bytes} {now : Nat} {a : Archive} {pairs : Bytes}
    {vs : List Value} (hs : ∀ n, n ≤ 16392 → Signable a n) (h : Encodes pairs vs) :
    cliVerify E p builtin root now (a.signed (wireFrame pairs)) = .ok () ↔
      ∃ cert, E.pemParse (root.getD builtin) = some ("CERTIFICATE", cert) ∧ signersIn vs ≠ [] ∧
        (∀ s ∈ signersIn vs, GoodV2 E [cert] now (table (contentDigest E a .p256) (contentDigest E a .p384)) s) ∧
        ∀ s rest, stampsIn vs = s :: rest → GoodStamp E [cert] now (table (contentDigest E a .p256) (contentDigest E a .p384)) s := by
  have hfl := wireFrame_length' pairs
  have hsr := hs (wireFrame pairs).length (by have := h.2; omega)
  have hg := getSigningBlock_frame p h.1 h.2 hsr.comment hsr.cleanNew hsr.size
  have hsp : Split p (a.signed (wireFrame pairs)) a.body (wireFrame pairs) a.cd
      (wireEocd a.tail (a.body.length + (wireFrame pairs).length)) :=
    ⟨rfl, _, findEocd_signed hsr.comment hsr.cleanNew, rfl, .inl ⟨_, hg, rfl, rfl⟩⟩
  have hd : ∀ al, (Module.new (a.signed (wireFrame pairs))).digest E p (a.signed (wireFrame pairs)) al =
      .ok (contentDigest E a al) := by
    intro al
    rw [hsp.digest E al, patchOffset_wireEocd]; rfl
  rw [C35_verify_command]
  constructor
  · rintro ⟨b, cert, d1, d2, hb, hp, h1, h2, hne, hv, hst⟩
    rw [hg] at hb
    cases hb
    rw [hd] at h1 h2
    cases h1
    cases h2
    exact ⟨cert, hp, hne, hv, hst⟩
  · rintro ⟨cert, hp, hne, hv, hst⟩
    exact ⟨_, cert, _, _, hg, hp, hd _, hd _, hne, hv, hst⟩

theorem isContent_append {x y : Bytes} {us vs : List Value} (hx : IsContent x us) (hy : IsContent y vs) :
    IsContent (x ++ y) (us ++ vs) := by
  induction hx with
  | nil => exact hy
  | cons id value v rest vs hv _ ih =>
    rw [List.append_assoc, List.cons_append]
    exact .cons id value v _ _ hv ih

/-- C135. Which signatures a block holds together is not authenticated: the archive with a block is accepted exactly if the block
holds a V2 signer, each of its V2 signers occurs in some block the archive is accepted with, and its first source stamp, if it has
one, is the first of some block the archive is accepted with. -/
theorem C135_signer_by_signer {E : Env} {p : Profile} {builtin : Bytes} {root : Option Bytes} {now : Nat} {a : Archive}
    {pairs : Bytes} {vs : List Value} (hs : ∀ n, n ≤ 16392 → Signable a n) (h : Encodes pairs vs) :
    cliVerify E p builtin root now (a.signed (wireFrame pairs)) = .ok () ↔
      signersIn vs ≠ [] ∧ (∀ s ∈ signersIn vs, ∃ us, Passes E p builtin root now a us ∧ s ∈ signersIn us) ∧
      ∀ s, (stampsIn vs).head? = some s → ∃ us, Passes E p builtin root now a us ∧ (stampsIn us).head? = some s := by
  constructor
  · intro hv
    obtain ⟨_, _, hne, _⟩ := (verify_frame hs h).mp hv
    exact ⟨hne, fun s hm => ⟨vs, ⟨pairs, h, hv⟩, hm⟩, fun s hm => ⟨vs, ⟨pairs, h, hv⟩, hm⟩⟩
  · rintro ⟨hne, hv, hst⟩
    obtain ⟨s0, hs0⟩ := List.exists_mem_of_ne_nil _ hne
    obtain ⟨_, ⟨_, he0, hok0⟩, _⟩ := hv s0 hs0
    obtain ⟨cert, hp, _⟩ := (verify_frame hs he0).mp hok0
    refine (verify_frame hs h).mpr ⟨cert, hp, hne, fun s hm => ?_, fun s rest hm => ?_⟩
    · obtain ⟨_, ⟨_, he, hok⟩, hmem⟩ := hv s hm
      obtain ⟨cert', hp', _, hg, _⟩ := (verify_frame hs he).mp hok
      rw [hp] at hp'
      cases hp'
      exact hg s hmem
    · obtain ⟨us, ⟨_, he, hok⟩, hmem⟩ := hst s (by rw [hm]; rfl)
      obtain ⟨cert', hp', _, _, hg⟩ := (verify_frame hs he).mp hok
      rw [hp] at hp'
      cases hp'
      cases hus : stampsIn us with
      | nil => rw [hus] at hmem; cases hmem
      | cons x xs =>
        rw [hus] at hmem
        cases hmem
        exact hg _ _ hus

/-- C135. So anyone can take signatures away: if the archive is accepted with a block, it is accepted with every block that holds
some of the V2 signers of that block, in any order and number, and either no source stamp or the same first one; whatever else it
holds. -/
theorem C135_taken_away {E : Env} {p : Profile} {builtin : Bytes} {root : Option Bytes} {now : Nat} {a : Archive}
    {pairs pairs' : Bytes} {vs vs' : List Value} (hs : ∀ n, n ≤ 16392 → Signable a n) (h : Encodes pairs vs) (h' : Encodes pairs' vs')
    (hok : cliVerify E p builtin root now (a.signed (wireFrame pairs)) = .ok ()) (hne : signersIn vs' ≠ [])
    (hsub : ∀ s ∈ signersIn vs', s ∈ signersIn vs) (hst : stampsIn vs' = [] ∨ (stampsIn vs').head? = (stampsIn vs).head?) :
    cliVerify E p builtin root now (a.signed (wireFrame pairs')) = .ok () := by
  refine (C135_signer_by_signer hs h').mpr ⟨hne, fun s hm => ⟨vs, ⟨pairs, h, hok⟩, hsub s hm⟩, fun s hm => ⟨vs, ⟨pairs, h, hok⟩, ?_⟩⟩
  rcases hst with h0 | h0
  · rw [h0] at hm; cases hm
  · rw [← h0]; exact hm

/-- C135. And put them together: two contents the archive is accepted with, one after the other, are accepted, if they are not too
large for one block. -/
theorem C135_put_together {E : Env} {p : Profile} {builtin : Bytes} {root : Option Bytes} {now : Nat} {a : Archive}
    {pairs pairs' : Bytes} {vs vs' : List Value} (hs : ∀ n, n ≤ 16392 → Signable a n) (h : IsContent pairs vs) (h' : IsContent pairs' vs')
    (hsize : pairs.length + pairs'.length + 24 ≤ 16384)
    (hok : cliVerify E p builtin root now (a.signed (wireFrame pairs)) = .ok ())
    (hok' : cliVerify E p builtin root now (a.signed (wireFrame pairs')) = .ok ()) :
    cliVerify E p builtin root now (a.signed (wireFrame (pairs ++ pairs'))) = .ok () := by
  have e1 : Encodes pairs vs := ⟨h, by omega⟩
  have e2 : Encodes pairs' vs' := ⟨h', by omega⟩
  have e3 : Encodes (pairs ++ pairs') (vs ++ vs') := ⟨isContent_append h h', by rw [List.length_append]; omega⟩
  obtain ⟨_, _, hne, _⟩ := (verify_frame hs e1).mp hok
  have es : signersIn (vs ++ vs') = signersIn vs ++ signersIn vs' := by unfold signersIn; rw [List.flatMap_append]
  have et : stampsIn (vs ++ vs') = stampsIn vs ++ stampsIn vs' := by unfold stampsIn; rw [List.filterMap_append]
  refine (C135_signer_by_signer hs e3).mpr ⟨?_, fun s hm => ?_, fun s hm => ?_⟩
  · rw [es]; simp [hne]
  · rw [es, List.mem_append] at hm
    rcases hm with hm | hm
    · exact ⟨vs, ⟨pairs, e1, hok⟩, hm⟩
    · exact ⟨vs', ⟨pairs', e2, hok'⟩, hm⟩
  · rw [et] at hm
    cases hst : stampsIn vs with
    | nil => rw [hst, List.nil_append] at hm; exact ⟨vs', ⟨pairs', e2, hok'⟩, hm⟩
    | cons x xs =>
      rw [hst] at hm
      exact ⟨vs, ⟨pairs, e1, hok⟩, by rw [hst]; exact hm⟩

/-- C135. The same for the library's verdict on a block with given digests, so for both formats: a block is valid as a whole exactly
if each of its V2 signers occurs in a block that is, and its first source stamp, if it has one, is the first of a block that is. -/
theorem C135_library {E : Env} {added : List Bytes} {now : Nat} {c : DigestCtx} {b : SigningBlock} :
    (verifyAll E (storeOf E added) now b (some c)).isValid = true ↔
      (∀ s ∈ v2Signers b, ∃ b', (verifyAll E (storeOf E added) now b' (some c)).isValid = true ∧ s ∈ v2Signers b') ∧
      ∀ s, (stamps b).head? = some s →
        ∃ b', (verifyAll E (storeOf E added) now b' (some c)).isValid = true ∧ (stamps b').head? = some s := by
  constructor
  · intro h
    exact ⟨fun s hs => ⟨b, h, hs⟩, fun s hs => ⟨b, h, hs⟩⟩
  · rintro ⟨hv, hst⟩
    refine C34_valid_means_verified_partial.mpr ⟨fun s hs => ?_, fun s rest hs => ?_⟩
    · obtain ⟨b', h', hm⟩ := hv s hs
      exact (C34_valid_means_verified_partial.mp h').1 s hm
    · obtain ⟨b', h', hm⟩ := hst s (by rw [hs]; rfl)
      cases hb : stamps b' with
      | nil => rw [hb] at hm; cases hm
      | cons x xs =>
        rw [hb] at hm
        cases hm
        exact (C34_valid_means_verified_partial.mp h').2 _ _ hb

/-- A valid block with a V2 signer and a stamp. -/
example : (verifyAll toyEnv (storeOf toyEnv [[7]]) 0 (toyBlock [1, 2]) (some (toyCtx [1, 2]))).isValid = true ∧
    v2Signers (toyBlock [1, 2]) ≠ [] ∧ stamps (toyBlock [1, 2]) ≠ [] := by decide +kernel

/-! ### Cases -/

theorem encodes_wf {b : SigningBlock} (h : b.WF) : Encodes b.contentToU8 b.content := by
  have key : ∀ vs : List Value, (∀ v ∈ vs, v.WF ∧ v.innerSize ≤ 16384) → IsContent (vs.flatMap Value.toU8) vs := by
    intro vs
    induction vs with
    | nil => intro _; exact .nil
    | cons v vs ih =>
      intro hv
      obtain ⟨id, value, e, _, hi⟩ := exact_of_parses Value.exact (Value.parses (hv v (by simp)).1 (hv v (by simp)).2)
      rw [List.flatMap_cons, e]
      exact .cons id value v _ _ hi (ih fun x hx => hv x (by simp [hx]))
  refine ⟨key _ fun v hv => ⟨h.content v hv, h.innerSize_le v hv⟩, ?_⟩
  have hcl := content_length h.content
  have h1 := h.limit
  have h2 := h.sizeStart
  simp only [maxBlockSize] at h1
  unfold SigningBlock.contentToU8
  omega

/-- Signing an archive with one key as V2 signer, and as stamp if `st` is set. -/
theorem toy_signed (st : Bool) (hok : ((⟨some toyConfig, if st then some toyConfig else none, false, false⟩ : ModuleSigner).sign toyEnv .dev
    none (Digests.new [Digest.new .p256 (contentDigest toyEnv plainArchive .p256)]) >>= fun b =>
      Res.ok (decide (b.contentToU8.length ≤ 8000) && decide ((stamps b).length = if st then 1 else 0))) = .ok true) :
    ∃ pairs vs, Encodes pairs vs ∧ pairs.length ≤ 8000 ∧ (stampsIn vs).length = (if st then 1 else 0) ∧
      cliVerify toyEnv .dev [7] none 0 (plainArchive.signed (wireFrame pairs)) = .ok () := by
  obtain ⟨b, hb, hl⟩ := Res.bind_eq_ok.mp hok
  simp only [Res.ok.injEq, Bool.and_eq_true, decide_eq_true_eq] at hl
  have hm : (⟨some toyConfig, if st then some toyConfig else none, false, false⟩ : ModuleSigner).requiredAlgorithms = [.p256] := by
    cases st <;> decide
  have hsound : ∀ c, (⟨some toyConfig, if st then some toyConfig else none, false, false⟩ : ModuleSigner).v2 = some c ∨
      (⟨some toyConfig, if st then some toyConfig else none, false, false⟩ : ModuleSigner).stamp = some c → Sound toyEnv c := by
    cases st <;> (rintro c (h | h) <;> cases h) <;> exact toyConfig_sound
  obtain ⟨r, hr, hc⟩ := C25_sign_command (E := toyEnv) (p := .dev) (clock := none)
    (m := ⟨some toyConfig, if st then some toyConfig else none, false, false⟩) plainArchive_input plainArchive_signable
    fun c hc => known_of_matching (hsound c hc).matching
  rw [hm] at hr
  rw [show ([Algo.p256].map fun al => Digest.new al (contentDigest toyEnv plainArchive al)) =
    [Digest.new .p256 (contentDigest toyEnv plainArchive .p256)] from rfl, hb] at hr
  subst hr
  have hbb : Built .dev b := sign_built (pairs := [(.p256, contentDigest toyEnv plainArchive .p256)])
    (by intro x hx; rw [List.mem_singleton.mp hx]; decide) hb
  refine ⟨_, _, encodes_wf hbb.wf, hl.1, hl.2, ?_⟩
  rw [← wf_toU8 hbb.wf]
  refine (C25_sign_then_verify_partial plainArchive_input plainArchive_signable hsound hc).2.2 [7] none [7] 0 rfl (by simp) ?_ ?_
  · intro c h; cases h; exact ⟨by simp, .inl (by simp [toyConfig])⟩
  · cases st <;> (intro c h; cases h)
    exact ⟨by simp, .inl (by simp [toyConfig])⟩

set_option maxRecDepth 100000 in
/-- The contents of two signed versions of an archive, one with and one without a stamp, put together, and the stamp taken away
again. -/
example : ∃ pairs vs pairs' vs', Encodes pairs vs ∧ Encodes pairs' vs' ∧ stampsIn vs ≠ [] ∧ stampsIn vs' = [] ∧
    (∀ s ∈ signersIn vs', s ∈ signersIn vs) ∧ signersIn vs' ≠ [] ∧
    cliVerify toyEnv .dev [7] none 0 (plainArchive.signed (wireFrame pairs)) = .ok () ∧
    cliVerify toyEnv .dev [7] none 0 (plainArchive.signed (wireFrame pairs')) = .ok () := by
  obtain ⟨p1, v1, e1, l1, s1, k1⟩ := toy_signed true (by decide +kernel)
  obtain ⟨p2, v2, e2, l2, s2, k2⟩ := toy_signed false (by decide +kernel)
  have k3 := C135_put_together plainArchive_signable e1.1 e2.1 (by omega) k1 k2
  obtain ⟨_, _, hne, _⟩ := (verify_frame plainArchive_signable e2).mp k2
  have e3 : Encodes (p1 ++ p2) (v1 ++ v2) := ⟨isContent_append e1.1 e2.1, by rw [List.length_append]; omega⟩
  refine ⟨p1 ++ p2, v1 ++ v2, p2, v2, e3, e2, ?_, by simpa using s2, ?_, hne, k3, ?_⟩
  · intro h
    have : stampsIn v1 = [] := by unfold stampsIn at h ⊢; simp at h ⊢; exact h.1
    rw [this] at s1; cases s1
  · intro s hs; unfold signersIn at hs ⊢; rw [List.flatMap_append]; exact List.mem_append_right _ hs
  · exact C135_taken_away plainArchive_signable e3 e2 k3 hne
      (fun s hs => by unfold signersIn at hs ⊢; rw [List.flatMap_append]; exact List.mem_append_right _ hs) (.inl (by simpa using s2))

end Ksusig.Props
