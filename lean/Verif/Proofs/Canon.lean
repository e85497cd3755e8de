import Verif.Proofs.Accept
import Verif.Proofs.RoundTrip
import Verif.Proofs.ReadBlock
import Verif.Model.Verifier

/-!
# Every algorithm value in a decoded block is the one its identifier denotes
-/

namespace Ksusig

/-- Everything the parser returns satisfies `Q`. -/
def Post (p : P α) (Q : α → Prop) : Prop := ∀ r a r', p r = .ok (a, r') → Q a

theorem Post.bind {p : P α} {f : α → P β} {Q : α → Prop} {R : β → Prop} (h : Post p Q) (h' : ∀ a, Q a → Post (f a) R) :
    Post (p >>= f) R := by
  intro r b r' hb
  obtain ⟨a, r1, h1, h2⟩ := P.bind_ok hb
  exact h' a (h _ _ _ h1) _ _ _ h2

theorem Post.trivial (p : P α) : Post p fun _ => True := fun _ _ _ _ => True.intro

theorem Post.pure {a : α} {Q : α → Prop} (h : Q a) : Post (Pure.pure a : P α) Q := by
  intro r b r' hb
  cases hb
  exact h

theorem Post.then {p : P α} {f : α → P β} {R : β → Prop} (h' : ∀ a, Post (f a) R) : Post (p >>= f) R :=
  Post.bind (Post.trivial p) fun a _ => h' a

theorem Post.on {p : P α} {s : Reader} {Q : α → Prop} (h : Post p Q) : Post (P.on s p) Q := by
  intro r a r' ha
  obtain ⟨_, s', hs⟩ := P.on_ok ha
  exact h _ _ _ hs

theorem Post.loopTo {p : P α} {Q : α → Prop} {max : Nat} (h : Post p Q) : Post (P.loopTo p max) fun as => ∀ a ∈ as, Q a := by
  intro r as r' ha
  unfold P.loopTo at ha
  generalize r.data.length + 1 = f at ha
  revert r as
  induction f with
  | zero =>
    intro r as ha
    unfold P.whileLt at ha
    split at ha
    · cases ha
    · cases ha; intro a h; cases h
  | succ n ih =>
    intro r as ha
    unfold P.whileLt at ha
    dsimp only at ha
    split at ha
    · cases hp : p r with
      | ok x =>
        obtain ⟨a, r1⟩ := x
        rw [hp] at ha
        simp only [Res.bind_ok] at ha
        cases hw : P.whileLt p max n r1 with
        | ok y =>
          obtain ⟨bs, r2⟩ := y
          rw [hw] at ha
          cases ha
          intro b hb
          rcases List.mem_cons.mp hb with rfl | hb
          · exact h _ _ _ hp
          · exact ih _ _ hw b hb
        | err e => rw [hw] at ha; cases ha
        | panic => rw [hw] at ha; cases ha
      | err e => rw [hp] at ha; cases ha
      | panic => rw [hp] at ha; cases ha
    · cases ha; intro a h; cases h

/-- All digest and signature algorithms of a signer are canonical. -/
def CanonSigner (ds : List Digest) (ss : List Sig) : Prop := (∀ d ∈ ds, d.algo.Canon) ∧ ∀ s ∈ ss, s.algo.Canon

/-- All algorithms in the value are canonical. -/
def Value.Canon : Value → Prop
  | .v2 s => ∀ g ∈ s.signers.data, CanonSigner g.signedData.digests.data g.sigs.data
  | .stamp s => CanonSigner s.block.signedData.digests.data s.block.sigs.data
  | _ => True

theorem Digest.parse_canon : Post Digest.parse fun d => d.algo.Canon := by
  unfold Digest.parse
  exact Post.then fun _ => Post.then fun id => Post.then fun _ => Post.then fun _ => Post.pure (Algo.canon_ofU32 id)

theorem Sig.parse_canon : Post Sig.parse fun d => d.algo.Canon := by
  unfold Sig.parse
  exact Post.then fun _ => Post.then fun id => Post.then fun _ => Post.then fun _ => Post.pure (Algo.canon_ofU32 id)

theorem Digests.parse_canon : Post Digests.parse fun ds => ∀ d ∈ ds.data, d.algo.Canon := by
  unfold Digests.parse
  exact Post.then fun _ => Post.then fun _ => Post.bind (Post.on (Post.loopTo Digest.parse_canon)) fun _ h => Post.pure h

theorem Sigs.parse_canon : Post Sigs.parse fun ds => ∀ d ∈ ds.data, d.algo.Canon := by
  unfold Sigs.parse
  refine Post.then fun n => ?_
  split
  · exact Post.pure (by simp)
  · exact Post.then fun _ => Post.bind (Post.loopTo Sig.parse_canon) fun _ h => Post.pure h

theorem SignedDataV2.parse_canon : Post SignedDataV2.parse fun s => ∀ d ∈ s.digests.data, d.algo.Canon := by
  unfold SignedDataV2.parse
  exact Post.then fun _ => Post.then fun _ => Post.on (Post.bind Digests.parse_canon fun _ h =>
    Post.then fun _ => Post.then fun _ => Post.pure h)

theorem SignerV2.parse_canon : Post SignerV2.parse fun s => CanonSigner s.signedData.digests.data s.sigs.data := by
  unfold SignerV2.parse
  exact Post.then fun _ => Post.bind SignedDataV2.parse_canon fun _ h => Post.bind Sigs.parse_canon fun _ h' =>
    Post.then fun _ => Post.pure ⟨h, h'⟩

theorem SchemeV2.parse_canon (n : Nat) (id : UInt32) : Post (SchemeV2.parse n id) fun s => (Value.v2 s).Canon := by
  unfold SchemeV2.parse
  refine Post.bind (Q := fun s : SignersV2 => ∀ g ∈ s.data, CanonSigner g.signedData.digests.data g.sigs.data) ?_ fun _ h => Post.pure h
  unfold SignersV2.parse
  exact Post.then fun _ => Post.then fun _ => Post.bind (Post.on (Post.loopTo SignerV2.parse_canon)) fun _ h => Post.pure h

theorem SignedDataStamp.parse_canon : Post SignedDataStamp.parse fun s => ∀ d ∈ s.digests.data, d.algo.Canon := by
  unfold SignedDataStamp.parse
  exact Post.then fun _ => Post.then fun _ => Post.on (Post.bind Digests.parse_canon fun _ h =>
    Post.then fun _ => Post.then fun _ => Post.pure h)

theorem SourceStamp.parse_canon (n : Nat) (id : UInt32) : Post (SourceStamp.parse n id) fun s => (Value.stamp s).Canon := by
  unfold SourceStamp.parse
  refine Post.bind (Q := fun s : StampBlock => CanonSigner s.signedData.digests.data s.sigs.data) ?_ fun _ h => Post.pure h
  unfold StampBlock.parse
  exact Post.then fun _ => Post.then fun _ => Post.on (Post.bind SignedDataStamp.parse_canon fun _ h => Post.bind Sigs.parse_canon fun _ h' =>
    Post.then fun _ => Post.pure ⟨h, h'⟩)

theorem Value.parse_canon : Post Value.parse Value.Canon := by
  unfold Value.parse
  refine Post.then fun n => ?_
  split
  · intro r a r' h; cases h
  · refine Post.then fun id => ?_
    split
    · intro r a r' h; cases h
    · refine Post.then fun s => ?_
      unfold Value.parseBody
      split
      · exact Post.bind (Post.on (SchemeV2.parse_canon _ _)) fun _ h => Post.pure h
      · split
        · exact Post.bind (Post.on (SourceStamp.parse_canon _ _)) fun _ h => Post.pure h
        · split
          · exact Post.then fun _ => Post.pure True.intro
          · exact Post.pure True.intro

theorem extractValues_canon {d : Bytes} {vs : List Value} (h : extractValues d = .ok vs) : ∀ v ∈ vs, v.Canon := by
  unfold extractValues at h
  cases hw : P.loopTo Value.parse d.length (Reader.new d) with
  | ok x =>
    obtain ⟨ws, r⟩ := x
    rw [hw] at h
    cases h
    exact Post.loopTo Value.parse_canon _ _ _ hw
  | err e => rw [hw] at h; cases h
  | panic => rw [hw] at h; cases h

theorem storedAlgos_canon {b : SigningBlock} (h : ∀ v ∈ b.content, v.Canon) : ∀ a ∈ storedAlgos b, a.Canon := by
  intro a ha
  unfold storedAlgos at ha
  obtain ⟨v, hv, ha⟩ := List.mem_flatMap.mp ha
  have hc := h v hv
  cases v with
  | raw r => cases ha
  | elf r => cases ha
  | v2 s =>
    obtain ⟨g, hg, ha⟩ := List.mem_flatMap.mp ha
    obtain ⟨d, hd, rfl⟩ := List.mem_map.mp ha
    exact (hc g hg).1 d hd
  | stamp s =>
    obtain ⟨d, hd, rfl⟩ := List.mem_map.mp ha
    exact hc.1 d hd

theorem Algo.canon_inj {a b : Algo} (ha : a.Canon) (hb : b.Canon) (h : a.toU32 = b.toU32) : a = b := by
  rw [← show Algo.ofU32 a.toU32 = a from ha, h]; exact hb

end Ksusig
