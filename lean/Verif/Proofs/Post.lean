import Verif.Proofs.ReadBlock

/-! What parsed digest lists are like: they announce at least the bytes they hold. -/

namespace Ksusig

/-- Every value the parser returns satisfies `Q`. -/
def PostIn (p : P α) (Q : α → Prop) : Prop := ∀ r r' a, r.pos ≤ r.data.length → p r = .ok (a, r') → Q a

namespace PostIn

theorem trivial (p : P α) : PostIn p fun _ => True := fun _ _ _ _ _ => True.intro

theorem pure {a : α} {Q : α → Prop} (h : Q a) : PostIn (Pure.pure a : P α) Q := by
  intro r r' b _ hb
  cases hb
  exact h

theorem bind {n : Nat} {p : P α} {f : α → P β} {w : α → Nat} {Q1 : α → Prop} {Q : β → Prop} (hg : Good n p w) (hp : PostIn p Q1)
    (hf : ∀ a, Q1 a → PostIn (f a) Q) : PostIn (p >>= f) Q := by
  intro r r' b hr h
  rw [P.bind_def] at h
  obtain ⟨⟨a, r1⟩, h1, h2⟩ := Res.bind_eq_ok.mp h
  obtain ⟨hd, _, _, hl⟩ := hg.ok hr h1
  exact hf a (hp r r1 a hr h1) r1 r' b (by rw [hd]; exact hl) h2

theorem whileLt {n : Nat} {item : P α} {w : α → Nat} {Q : α → Prop} (hg : Good n item w) (h : PostIn item Q) (max : Nat) :
    ∀ fuel, PostIn (P.whileLt item max fuel) fun l => ∀ x ∈ l, Q x := by
  intro fuel
  induction fuel with
  | zero =>
    intro r r' l _ hl
    unfold P.whileLt at hl
    split at hl
    · cases hl
    · cases hl; intro x hx; cases hx
  | succ k ih =>
    intro r r' l hr hl
    unfold P.whileLt at hl
    split at hl
    · obtain ⟨⟨a, r1⟩, h1, h2⟩ := Res.bind_eq_ok.mp hl
      obtain ⟨⟨as, r2⟩, h3, h4⟩ := Res.bind_eq_ok.mp h2
      cases h4
      obtain ⟨hd, _, _, hle⟩ := hg.ok hr h1
      intro x hx
      rcases List.mem_cons.mp hx with rfl | hx
      · exact h r r1 x hr h1
      · exact ih r1 _ as (by rw [hd]; exact hle) h3 x hx
    · cases hl; intro x hx; cases hx

theorem loopTo {n : Nat} {item : P α} {w : α → Nat} {Q : α → Prop} (hg : Good n item w) (h : PostIn item Q) (max : Nat) :
    PostIn (P.loopTo item max) fun l => ∀ x ∈ l, Q x := by
  intro r r' l hr hl
  exact whileLt hg h max _ r r' l hr hl

theorem on {q : P α} {Q : α → Prop} (h : PostIn q Q) (s : Reader) (hs : s.pos ≤ s.data.length) : PostIn (P.on s q) Q := by
  intro r r' a _ ha
  unfold P.on at ha
  split at ha
  · rename_i x r2 hq
    cases ha
    exact h s r2 a hs hq
  · cases ha
  · cases ha

/-- `as_slice` followed by a parser on the slice, of which only the value is kept. -/
theorem sub {m : Nat} {q : P α} {Q : α → Prop} {k : α → P β} {R : β → Prop} (hq : PostIn q Q) (hk : ∀ a, Q a → PostIn (k a) R) :
    PostIn (P.asSlice m >>= fun s => P.on s q >>= k) R := by
  intro r r' b hr h
  rw [P.bind_def] at h
  obtain ⟨⟨s, r1⟩, h1, h2⟩ := Res.bind_eq_ok.mp h
  rw [P.asSlice_eq] at h1
  split at h1
  · rename_i d hd
    cases h1
    obtain ⟨_, hle, _, _⟩ := slice?_eq_some hd
    dsimp only at h2
    rw [P.bind_def] at h2
    obtain ⟨⟨a, r2⟩, h3, h4⟩ := Res.bind_eq_ok.mp h2
    have hqa := on hq ⟨d, 0⟩ (Nat.zero_le _) _ _ _ hle h3
    have hr2 : r2 = ⟨r.data, r.pos + m⟩ := by
      unfold P.on at h3
      split at h3
      · cases h3; rfl
      · cases h3
      · cases h3
    subst hr2
    exact hk a hqa _ _ _ hle h4
  · cases h1

end PostIn

/-- The list announces at least the bytes of its entries, and all announced sizes fit their fields. -/
def Digests.Fits (d : Digests) : Prop :=
  (d.data.map Digest.weight).sum ≤ d.size ∧ d.size < 2 ^ 32 ∧ ∀ x ∈ d.data, x.size < 2 ^ 32

theorem readSize_lt {r r' : Reader} {n : Nat} (h : P.readSize r = .ok (n, r')) : n < 2 ^ 32 := by
  unfold P.readSize P.readLe at h
  rw [P.bind_def] at h
  obtain ⟨⟨x, r3⟩, h5, h6⟩ := Res.bind_eq_ok.mp h
  cases h6
  unfold P.getTo at h5
  split at h5
  · rename_i y hy
    cases h5
    obtain ⟨_, _, hyl, _⟩ := slice?_eq_some hy
    have := leNat_lt x
    have hx4 : x.length = 4 := by omega
    rw [hx4] at this
    exact this
  · cases h5

theorem Digest.post : PostIn Digest.parse fun d => d.size < 2 ^ 32 := by
  refine .bind .readSize (fun _ _ _ _ h => readSize_lt h) fun size hsz => ?_
  exact .bind .readU32 (.trivial _) fun _ _ => .bind .readSize (.trivial _) fun n _ => .bind (.getTo n) (.trivial _) fun _ _ =>
    .pure hsz

theorem Digests.post : PostIn Digests.parse Digests.Fits := by
  intro r r' d hr h
  unfold Digests.parse at h
  rw [P.bind_def] at h
  obtain ⟨⟨size, r1⟩, h1, h2⟩ := Res.bind_eq_ok.mp h
  have hsz := readSize_lt h1
  obtain ⟨_, _, _, hl1⟩ := Good.readSize.ok hr h1
  dsimp only at h2
  rw [P.bind_def, P.asSlice_eq] at h2
  split at h2
  · rename_i x hx
    obtain ⟨_, _, hxl, _⟩ := slice?_eq_some hx
    rw [Res.bind_ok] at h2
    dsimp only at h2
    rw [P.bind_def] at h2
    obtain ⟨⟨ds, r2⟩, h3, h4⟩ := Res.bind_eq_ok.mp h2
    cases h4
    refine ⟨?_, hsz, PostIn.on (PostIn.loopTo Digest.good Digest.post size) _ (Nat.zero_le _) _ _ _ (slice?_eq_some hx).2.1 h3⟩
    unfold P.on at h3
    split at h3
    · rename_i ds' r3 hq
      cases h3
      obtain ⟨_, _, hw, hle⟩ := (Good.loopTo Digest.good (fun a => by simp only [Digest.weight]; omega) size).ok
        (Nat.zero_le _) hq
      dsimp only at hw hle ⊢
      omega
    · cases h3
    · cases h3
  · cases h2

theorem PostIn.sub0 {m : Nat} {q : P α} {Q : α → Prop} (hq : PostIn q Q) : PostIn (P.asSlice m >>= fun s => P.on s q) Q := by
  have := PostIn.sub (m := m) (k := fun s => (Pure.pure s : P α)) hq fun a ha => .pure ha
  intro r r' b hr h
  refine this r r' b hr ?_
  rw [← h]
  simp only [P.bind_def]
  congr 1
  funext x
  cases x with
  | mk s r1 =>
    dsimp only
    cases P.on s q r1 with
    | ok y => rfl
    | err e => rfl
    | panic => rfl

theorem SignedDataV2.post : PostIn SignedDataV2.parse fun s => s.digests.Fits := by
  refine .bind .readSize (.trivial _) fun size _ => ?_
  exact .sub0 (.bind Digests.good Digests.post fun d hd => .bind Certs.good (.trivial _) fun c _ =>
    .bind Attrs.good (.trivial _) fun a _ => .pure hd)

theorem SignedDataStamp.post : PostIn SignedDataStamp.parse fun s => s.digests.Fits := by
  refine .bind .readSize (.trivial _) fun size _ => ?_
  exact .sub0 (.bind Digests.good Digests.post fun d hd => .bind Certs.good (.trivial _) fun c _ =>
    .bind Attrs.good (.trivial _) fun a _ => .pure hd)

theorem SignerV2.post : PostIn SignerV2.parse fun s => s.signedData.digests.Fits :=
  .bind .readSize (.trivial _) fun _ _ => .bind SignedDataV2.good SignedDataV2.post fun _ hd =>
    .bind Sigs.good (.trivial _) fun _ _ => .bind PubKey.good (.trivial _) fun _ _ => .pure hd

theorem SchemeV2.post (size : Nat) (id : UInt32) :
    PostIn (SchemeV2.parse size id) fun s => ∀ g ∈ s.signers.data, g.signedData.digests.Fits := by
  have : PostIn SignersV2.parse fun s => ∀ g ∈ s.data, g.signedData.digests.Fits := by
    refine .bind .readSize (.trivial _) fun size _ => ?_
    intro r r' b hr h
    rw [P.bind_def] at h
    obtain ⟨⟨s, r1⟩, h1, h2⟩ := Res.bind_eq_ok.mp h
    dsimp only at h2
    have hr1 : s.pos ≤ s.data.length ∧ r1.pos ≤ r1.data.length := by
      rw [P.asSlice_eq] at h1
      split at h1
      · rename_i d hd
        cases h1
        exact ⟨Nat.zero_le _, (slice?_eq_some hd).2.1⟩
      · cases h1
    rw [P.bind_def] at h2
    obtain ⟨⟨l, r2⟩, h3, h4⟩ := Res.bind_eq_ok.mp h2
    cases h4
    exact PostIn.on (PostIn.loopTo SignerV2.good SignerV2.post _) s hr1.1 _ _ _ hr1.2 h3
  exact .bind SignersV2.good this fun s hs => .pure hs

theorem SourceStamp.post (size : Nat) (id : UInt32) :
    PostIn (SourceStamp.parse size id) fun s => s.block.signedData.digests.Fits := by
  have : PostIn StampBlock.parse fun s => s.signedData.digests.Fits := by
    refine .bind .readSize (.trivial _) fun size _ => ?_
    exact .sub0 (.bind SignedDataStamp.good SignedDataStamp.post fun _ hd => .bind Sigs.good (.trivial _) fun _ _ =>
      .bind PubKey.good (.trivial _) fun _ _ => .pure hd)
  exact .bind StampBlock.good this fun s hs => .pure hs

/-- All digest lists of the value announce at least the bytes of their entries. -/
def Value.Fits : Value → Prop
  | .v2 s => ∀ g ∈ s.signers.data, g.signedData.digests.Fits
  | .stamp s => s.block.signedData.digests.Fits
  | _ => True

theorem Value.post : PostIn Value.parse Value.Fits := by
  refine .bind .readSizeU64 (.trivial _) fun ps _ => ?_
  split
  · intro r r' a _ h; cases h
  · refine .bind .readU32 (.trivial _) fun id _ => ?_
    split
    · intro r r' a _ h; cases h
    · intro r r' v hr h
      rw [P.bind_def] at h
      obtain ⟨⟨s, r1⟩, h1, h2⟩ := Res.bind_eq_ok.mp h
      dsimp only at h2
      have hr1 : s.pos ≤ s.data.length ∧ r1.pos ≤ r1.data.length := by
        rw [P.asSlice_eq] at h1
        split at h1
        · rename_i d hd
          cases h1
          exact ⟨Nat.zero_le _, (slice?_eq_some hd).2.1⟩
        · cases h1
      unfold Value.parseBody at h2
      split at h2
      · rw [P.bind_def] at h2
        obtain ⟨⟨x, r2⟩, h3, h4⟩ := Res.bind_eq_ok.mp h2
        cases h4
        exact PostIn.on (SchemeV2.post ps id) s hr1.1 _ _ _ hr1.2 h3
      · split at h2
        · rw [P.bind_def] at h2
          obtain ⟨⟨x, r2⟩, h3, h4⟩ := Res.bind_eq_ok.mp h2
          cases h4
          exact PostIn.on (SourceStamp.post ps id) s hr1.1 _ _ _ hr1.2 h3
        · split at h2
          · rw [P.bind_def] at h2
            obtain ⟨⟨x, r2⟩, h3, h4⟩ := Res.bind_eq_ok.mp h2
            cases h4
            exact True.intro
          · cases h2
            exact True.intro

theorem extractValues_fits {d : Bytes} {vs : List Value} (h : extractValues d = .ok vs) : ∀ v ∈ vs, v.Fits := by
  unfold extractValues at h
  split at h
  · rename_i l r hl
    cases h
    exact PostIn.loopTo Value.good Value.post _ _ _ _ (Nat.zero_le _) hl
  · cases h
  · cases h

/-- In a block read from a file, every digest list announces at least the bytes of its entries. -/
theorem fromReader_fits {p : Profile} {file : Bytes} {fl eo : Nat} {b : SigningBlock}
    (h : SigningBlock.fromReader p file fl eo = .ok b) : ∀ v ∈ b.content, v.Fits := by
  obtain ⟨pre, pairs, post, rfl, hm, hx, _⟩ := fromReader_ok h
  exact extractValues_fits hx

end Ksusig
