import Verif.Model.Clock
import Verif.Props.Verify

/-!
# C102: the clock may move while a block is verified
-/

namespace Ksusig.Props

open Ksusig Spec

theorem verifyChain_at {E : Env} {roots : Roots} {now now' : Nat} {leaf : Bytes} {inters : List Bytes}
    (h : E.pki roots.anchors leaf inters now = E.pki roots.anchors leaf inters now') :
    verifyChain E roots now leaf inters = verifyChain E roots now' leaf inters := by
  unfold verifyChain
  rw [h]

theorem finishSigner_at {E : Env} {roots : Roots} {now now' idx : Nat} {pk : Bytes} {certs inters shown : List Bytes} {st : SigState}
    (h : ∀ leaf rest, certs = leaf :: rest → E.pki roots.anchors leaf inters now = E.pki roots.anchors leaf inters now') :
    finishSigner E roots now idx pk certs inters shown st = finishSigner E roots now' idx pk certs inters shown st := by
  cases certs with
  | nil => rfl
  | cons leaf rest =>
    unfold finishSigner
    dsimp only
    rw [verifyChain_at (h leaf rest rfl)]

theorem verifySigner_at {E : Env} {roots : Roots} {now now' idx : Nat} {ctx : Option DigestCtx} {s : SignerV2}
    (h : ∀ leaf rest, s.signedData.certs.data.map (·.cert) = leaf :: rest →
      E.pki roots.anchors leaf rest now = E.pki roots.anchors leaf rest now') :
    verifySigner E roots now ctx idx s = verifySigner E roots now' ctx idx s := by
  unfold verifySigner
  split
  · rfl
  · exact finishSigner_at fun leaf rest hc => by rw [hc]; exact h leaf rest hc

theorem verifyStamp_at {E : Env} {roots : Roots} {now now' : Nat} {ctx : Option DigestCtx} {s : StampBlock}
    (h : ∀ leaf rest, s.signedData.certs.data.map (·.cert) = leaf :: rest →
      E.pki roots.anchors leaf [] now = E.pki roots.anchors leaf [] now') :
    verifyStamp E roots now ctx s = verifyStamp E roots now' ctx s := by
  unfold verifyStamp
  split
  · rfl
  · dsimp only
    rw [finishSigner_at h]

theorem flatMap_zipIdx {α β : Type} (l : List α) (f : α → Nat → List β) (g : α → List β) (n : Nat)
    (h : ∀ (i : Nat) (a : α), l[i]? = some a → f a (n + i) = g a) : (l.zipIdx n).flatMap (fun x => f x.1 x.2) = l.flatMap g := by
  induction l generalizing n with
  | nil => rfl
  | cons a l ih =>
    rw [List.zipIdx_cons, List.flatMap_cons, List.flatMap_cons]
    rw [ih (n + 1) fun i b hb => by
      have := h (i + 1) b (by simpa using hb)
      rwa [show n + (i + 1) = n + 1 + i by omega] at this]
    have h0 := h 0 a rfl
    rw [Nat.add_zero] at h0
    rw [h0]

/-- C102. If the PKI library's answer for no chain of the block changes between the times at which the chains are checked and some
time `now`, the verdict is the one of a clock standing at `now`. In particular, what is proved for a clock that stands still holds
for every verification during which no certificate expires or becomes valid. -/
theorem C102_unchanged {E : Env} {roots : Roots} {clock clock' : Nat → Nat → Nat} {now : Nat} {b : SigningBlock}
    {ctx : Option DigestCtx}
    (hv : ∀ (i j : Nat) (s : SchemeV2) (g : SignerV2) (leaf : Bytes) (rest : List Bytes), b.content[i]? = some (.v2 s) →
      s.signers.data[j]? = some g → g.signedData.certs.data.map (·.cert) = leaf :: rest →
      E.pki roots.anchors leaf rest (clock i j) = E.pki roots.anchors leaf rest now)
    (hs : ∀ (i : Nat) (s : SourceStamp) (leaf : Bytes) (rest : List Bytes), b.content[i]? = some (.stamp s) →
      s.block.signedData.certs.data.map (·.cert) = leaf :: rest →
      E.pki roots.anchors leaf [] (clock' i 0) = E.pki roots.anchors leaf [] now) :
    verifyAllAt E roots clock clock' b ctx = verifyAll E roots now b ctx := by
  have h1 : v2ResultsAt E roots clock b ctx = v2Results E roots now b ctx := by
    unfold v2ResultsAt v2Results
    refine flatMap_zipIdx b.content (fun v i => match v with
      | .v2 s => s.signers.data.zipIdx.map fun x => verifySigner E roots (clock i x.2) ctx x.2 x.1
      | _ => []) _ 0 ?_
    intro i v hi
    cases v with
    | v2 s =>
      dsimp only
      apply List.map_congr_left
      intro x hx
      rw [List.mem_zipIdx_iff_getElem?] at hx
      rw [Nat.zero_add]
      exact verifySigner_at fun leaf rest hc => hv i x.2 s x.1 leaf rest hi hx hc
    | raw x => rfl
    | stamp x => rfl
    | elf x => rfl
  have h2 : ∀ (vs : List Value) (n : Nat), (∀ (i : Nat) (v : Value), vs[i]? = some v → b.content[n + i]? = some v) →
      stampLoopAt E roots clock' ctx n vs = stampLoop E roots now ctx vs := by
    intro vs
    induction vs with
    | nil => intros; rfl
    | cons v vs ih =>
      intro n hn
      have ih' := ih (n + 1) fun i w hw => by
        have := hn (i + 1) w (by simpa using hw)
        rwa [show n + (i + 1) = n + 1 + i by omega] at this
      cases v with
      | stamp s =>
        rw [stampLoopAt, stampLoop, verifyStamp_at fun leaf rest hc => hs n s leaf rest (hn 0 _ rfl) hc, ih']
      | raw x => rw [stampLoopAt, stampLoop, ih'] <;> (intro s h; cases h)
      | v2 x => rw [stampLoopAt, stampLoop, ih'] <;> (intro s h; cases h)
      | elf x => rw [stampLoopAt, stampLoop, ih'] <;> (intro s h; cases h)
  unfold verifyAllAt verifyAll verifyV2At verifySourceStampAt verifySourceStamp
  rw [h1, verifyV2_eq, h2 b.content 0 fun i v hi => by rwa [Nat.zero_add]]

/-- The clock of `Model/Verifier.lean`. -/
theorem C102_still (E : Env) (roots : Roots) (now : Nat) (b : SigningBlock) (ctx : Option DigestCtx) :
    verifyAllAt E roots (fun _ _ => now) (fun _ _ => now) b ctx = verifyAll E roots now b ctx :=
  C102_unchanged (fun _ _ _ _ _ _ _ _ _ => rfl) fun _ _ _ _ _ _ => rfl

theorem mem_v2ResultsAt {E : Env} {roots : Roots} {clock : Nat → Nat → Nat} {b : SigningBlock} {ctx : Option DigestCtx}
    {r : SignerResult} : r ∈ v2ResultsAt E roots clock b ctx ↔ ∃ (i j : Nat) (s : SchemeV2) (g : SignerV2),
      b.content[i]? = some (.v2 s) ∧ s.signers.data[j]? = some g ∧ r = verifySigner E roots (clock i j) ctx j g := by
  unfold v2ResultsAt
  rw [List.mem_flatMap]
  constructor
  · rintro ⟨⟨v, i⟩, hv, hr⟩
    rw [List.mem_zipIdx_iff_getElem?] at hv
    cases v with
    | v2 s =>
      obtain ⟨⟨g, j⟩, hg, rfl⟩ := List.mem_map.mp hr
      rw [List.mem_zipIdx_iff_getElem?] at hg
      exact ⟨i, j, s, g, hv, hg, rfl⟩
    | raw x => cases hr
    | stamp x => cases hr
    | elf x => cases hr
  · rintro ⟨i, j, s, g, hv, hg, rfl⟩
    refine ⟨(.v2 s, i), List.mem_zipIdx_iff_getElem?.mpr hv, List.mem_map.mpr ⟨(g, j), List.mem_zipIdx_iff_getElem?.mpr hg, rfl⟩⟩

/-- C102. With a clock that moves: V2 verification reports all four flags exactly when there is a signer and every signer is good
(C27) at the time at which its chain is checked. -/
theorem C102_v2_valid {E : Env} {added : List Bytes} {clock : Nat → Nat → Nat} {b : SigningBlock} {c : DigestCtx} :
    FullyValid (verifyV2At E (storeOf E added) clock b (some c)) ↔
      v2Signers b ≠ [] ∧ ∀ (i j : Nat) (s : SchemeV2) (g : SignerV2), b.content[i]? = some (.v2 s) →
        s.signers.data[j]? = some g → GoodV2 E added (clock i j) c.get g := by
  unfold verifyV2At
  rw [concludeVerify_valid]
  constructor
  · rintro ⟨h1, h2⟩
    constructor
    · obtain ⟨r, hr⟩ := List.exists_mem_of_ne_nil _ h1
      obtain ⟨i, j, s, g, hv, hg, -⟩ := mem_v2ResultsAt.mp hr
      apply List.ne_nil_of_mem (a := g)
      exact List.mem_flatMap.mpr ⟨_, List.mem_of_getElem? hv, List.mem_of_getElem? hg⟩
    · intro i j s g hv hg
      exact verifySigner_good.mp (h2 _ (mem_v2ResultsAt.mpr ⟨i, j, s, g, hv, hg, rfl⟩))
  · rintro ⟨h1, h2⟩
    constructor
    · obtain ⟨g, hg⟩ := List.exists_mem_of_ne_nil _ h1
      obtain ⟨v, hv, hg⟩ := List.mem_flatMap.mp hg
      obtain ⟨i, hi⟩ := List.getElem?_of_mem hv
      cases v with
      | v2 s =>
        obtain ⟨j, hj⟩ := List.getElem?_of_mem hg
        exact List.ne_nil_of_mem (mem_v2ResultsAt.mpr ⟨i, j, s, g, hi, hj, rfl⟩)
      | raw x => cases hg
      | stamp x => cases hg
      | elf x => cases hg
    · intro r hr
      obtain ⟨i, j, s, g, hv, hg, rfl⟩ := mem_v2ResultsAt.mp hr
      exact verifySigner_good.mpr (h2 i j s g hv hg)

theorem stampLoopAt_eq {E : Env} {roots : Roots} {clock : Nat → Nat → Nat} {ctx : Option DigestCtx} (vs : List Value) :
    ∀ n, (stampLoopAt E roots clock ctx n vs = [] ∧ ∀ s, Value.stamp s ∉ vs) ∨
      ∃ (i : Nat) (s : SourceStamp), vs[i]? = some (.stamp s) ∧ (∀ (k : Nat) (s' : SourceStamp), k < i → vs[k]? ≠ some (.stamp s')) ∧
        stampLoopAt E roots clock ctx n vs = [(verifyStamp E roots (clock (n + i) 0) ctx s.block).1] := by
  induction vs with
  | nil => intro n; exact .inl ⟨rfl, fun s h => by cases h⟩
  | cons v vs ih =>
    intro n
    have skip : (∀ s, v ≠ .stamp s) → stampLoopAt E roots clock ctx n (v :: vs) = stampLoopAt E roots clock ctx (n + 1) vs := by
      intro h
      cases v with
      | stamp s => exact absurd rfl (h s)
      | raw x => rfl
      | v2 x => rfl
      | elf x => rfl
    by_cases hv : ∃ s, v = .stamp s
    · obtain ⟨s, rfl⟩ := hv
      refine .inr ⟨0, s, rfl, fun k _ h => absurd h (Nat.not_lt_zero k), ?_⟩
      rw [stampLoopAt]
      simp only [verifyStamp_stop, if_true, Nat.add_zero]
    · have hne : ∀ s, v ≠ .stamp s := fun s h => hv ⟨s, h⟩
      rw [skip hne]
      rcases ih (n + 1) with ⟨h1, h2⟩ | ⟨i, s, h1, h2, h3⟩
      · refine .inl ⟨h1, fun s hs => ?_⟩
        rcases List.mem_cons.mp hs with h | h
        · exact hne s h.symm
        · exact h2 s h
      · refine .inr ⟨i + 1, s, by simpa using h1, ?_, ?_⟩
        · intro k s' hk h
          cases k with
          | zero =>
            simp only [List.getElem?_cons_zero, Option.some.injEq] at h
            exact hne s' h
          | succ k => exact h2 k s' (by omega) (by simpa using h)
        · rw [h3, show n + 1 + i = n + (i + 1) by omega]

/-- C102. Stamp verification reports all four flags exactly when there is a stamp and the first one is good (C55) at the time at
which its certificate is checked. -/
theorem C102_stamp_valid {E : Env} {added : List Bytes} {clock : Nat → Nat → Nat} {b : SigningBlock} {c : DigestCtx} :
    FullyValid (verifySourceStampAt E (storeOf E added) clock b (some c)) ↔
      ∃ (i : Nat) (s : SourceStamp), b.content[i]? = some (.stamp s) ∧
        (∀ (k : Nat) (s' : SourceStamp), k < i → b.content[k]? ≠ some (.stamp s')) ∧ GoodStamp E added (clock i 0) c.get s.block := by
  unfold verifySourceStampAt
  rw [concludeVerify_valid]
  rcases stampLoopAt_eq (E := E) (roots := storeOf E added) (clock := clock) (ctx := some c) b.content 0 with
    ⟨h1, h2⟩ | ⟨i, s, h1, h2, h3⟩
  · rw [h1]
    constructor
    · rintro ⟨h, -⟩; exact absurd rfl h
    · rintro ⟨i, s, h, -⟩; exact absurd (List.mem_of_getElem? h) (h2 s)
  · rw [h3, Nat.zero_add]
    constructor
    · rintro ⟨-, h⟩
      exact ⟨i, s, h1, h2, verifyStamp_good.mp (h _ (List.mem_singleton.mpr rfl))⟩
    · rintro ⟨i', s', h1', h2', h⟩
      have hi : i' = i := by
        rcases Nat.lt_trichotomy i' i with hlt | heq | hgt
        · exact absurd h1' (h2 i' s' hlt)
        · exact heq
        · exact absurd h1 (h2' i s hgt)
      subst hi
      rw [h1] at h1'
      cases h1'
      exact ⟨by simp, fun r hr => by rw [List.mem_singleton.mp hr]; exact verifyStamp_good.mpr h⟩

/-- The certificate `[7]` is good up to time 10, the certificate `[8]` from time 11 on. -/
def tickEnv : Env := { toyEnv with
  eeOk := fun _ => true
  pki := fun _ leaf _ now => if leaf = [7] then (if now ≤ 10 then .ok else .expired) else (if 11 ≤ now then .ok else .notYetValid) }

/-- A signer with key `k` that signed its signed data. -/
def keySigner (k : UInt8) (d : Bytes) : SignerV2 :=
  let signed := SignedDataV2.new (Digests.new [Digest.new .p256 d]) (Certs.new [Cert.new [k]]) (Attrs.new [])
  SignerV2.new signed (Sigs.new [Sig.new .p256 ([k] ++ toyHash 4 (signed.toU8.drop 4))]) (PubKey.new [k])

/-- Two signers. -/
def tickBlock : SigningBlock := blockOf [Value.newV2 (SignersV2.new [keySigner 7 [1, 2], keySigner 8 [1, 2]])]

/-- C102: so a block can be reported valid that would be valid at no single moment: the certificate of the first signer is checked
before it expires, that of the second after it has become valid. -/
theorem C102_no_single_moment :
    FullyValid (verifyV2At tickEnv (storeOf tickEnv [[9]]) (fun _ j => 10 + j) tickBlock (some (toyCtx [1, 2]))) ∧
    ∀ now, ¬ FullyValid (verifyV2 tickEnv (storeOf tickEnv [[9]]) now tickBlock (some (toyCtx [1, 2]))) := by
  constructor
  · rw [← allFlags_iff]; decide +kernel
  · intro now h
    have h := (C27_valid_v2_verdict.mp h).2
    have h7 := (h (keySigner 7 [1, 2]) (List.mem_cons_self ..)).cert
    have h8 := (h (keySigner 8 [1, 2]) (List.mem_cons_of_mem _ (List.mem_cons_self ..))).cert
    obtain ⟨l7, r7, e7, -, -, t7⟩ := h7
    obtain ⟨l8, r8, e8, -, -, t8⟩ := h8
    cases e7
    cases e8
    have a7 : now ≤ 10 := by
      rcases t7 with t | ⟨-, t⟩
      · exact absurd t (by decide)
      · by_cases hn : now ≤ 10
        · exact hn
        · simp [tickEnv, Cert.new, hn] at t
    have a8 : 11 ≤ now := by
      rcases t8 with t | ⟨-, t⟩
      · exact absurd t (by decide)
      · by_cases hn : 11 ≤ now
        · exact hn
        · simp [tickEnv, Cert.new, hn] at t
    omega

/-- The hypotheses of `C102_unchanged` with a clock that moves, and certificates that are checked. -/
example : verifyAllAt tickEnv (storeOf tickEnv [[9]]) (fun i j => i + j) (fun i _ => 8 + i) (toyBlock [1, 2])
    (some (toyCtx [1, 2])) = verifyAll tickEnv (storeOf tickEnv [[9]]) 3 (toyBlock [1, 2]) (some (toyCtx [1, 2])) := by
  decide +kernel

end Ksusig.Props
