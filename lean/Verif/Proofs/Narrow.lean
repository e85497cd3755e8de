import Verif.Model.Narrow
import Verif.SpecNarrow
import Verif.Proofs.Grammar
import Verif.Proofs.Robust

/-! The 64-bit and the 32-bit decoder side by side. -/

namespace Ksusig

open Spec

/-- On readers of at most 16 KiB, `q` succeeds exactly where `q'` succeeds with a value that is not `W`. -/
def Twin (W : α → Prop) (q q' : P α) : Prop :=
  ∀ r : Reader, r.pos ≤ r.data.length → r.data.length ≤ 16384 → ∀ a r', q r = .ok (a, r') ↔ q' r = .ok (a, r') ∧ ¬ W a

theorem Twin.refl (q : P α) : Twin (fun _ => False) q q := by
  intro r _ _ a r'
  simp

theorem P.bind_ok_iff {q : P α} {f : α → P β} {r r' : Reader} {b : β} :
    (q >>= f) r = .ok (b, r') ↔ ∃ a r1, q r = .ok (a, r1) ∧ f a r1 = .ok (b, r') := by
  rw [P.bind_def]
  cases q r with
  | ok x =>
    obtain ⟨a, r1⟩ := x
    constructor
    · exact fun h => ⟨a, r1, rfl, h⟩
    · rintro ⟨a', r1', h, h'⟩; cases h; exact h'
  | err e => simp
  | panic => simp

theorem Twin.bind {q q' : P α} {f f' : α → P β} {W1 : α → Prop} {W : β → Prop} {w : α → Nat} (hg : Good 0 q w) (hq : Twin W1 q q')
    (hf : ∀ a, Twin W (f a) (f' a)) (hw : ∀ a r b r', f' a r = .ok (b, r') → W1 a → W b) : Twin W (q >>= f) (q' >>= f') := by
  intro r hr hl b r'
  rw [P.bind_ok_iff, P.bind_ok_iff]
  constructor
  · rintro ⟨a, r1, h1, h2⟩
    obtain ⟨hd, _, _, hp⟩ := hg.ok hr h1
    obtain ⟨h3, h4⟩ := (hq r hr hl a r1).mp h1
    obtain ⟨h5, h6⟩ := (hf a r1 (by rw [hd]; exact hp) (by rw [hd]; exact hl) b r').mp h2
    exact ⟨⟨a, r1, h3, h5⟩, h6⟩
  · rintro ⟨⟨a, r1, h1, h2⟩, h3⟩
    have h4 := (hq r hr hl a r1).mpr ⟨h1, fun h => h3 (hw a r1 b r' h2 h)⟩
    obtain ⟨hd, _, _, hp⟩ := hg.ok hr h4
    exact ⟨a, r1, h4, (hf a r1 (by rw [hd]; exact hp) (by rw [hd]; exact hl) b r').mpr ⟨h2, h3⟩⟩

theorem Twin.pure {W : α → Prop} (a : α) (h : ¬ W a) : Twin W (Pure.pure a : P α) (Pure.pure a) := by
  intro r _ _ b r'
  simp only [P.pure_def, Res.ok.injEq, Prod.mk.injEq]
  constructor
  · rintro ⟨rfl, rfl⟩; exact ⟨⟨rfl, rfl⟩, h⟩
  · exact fun h => h.1

/-- Inserting the rest of a computation that only packs the value. -/
theorem Twin.map {q q' : P α} {W1 : α → Prop} {W : β → Prop} {g : α → β} (hq : Twin W1 q q') (hw : ∀ a, W (g a) ↔ W1 a) :
    Twin W (q >>= fun a => Pure.pure (g a)) (q' >>= fun a => Pure.pure (g a)) := by
  intro r hr hl b r'
  rw [P.bind_ok_iff, P.bind_ok_iff]
  constructor
  · rintro ⟨a, r1, h1, h2⟩
    obtain ⟨h3, h4⟩ := (hq r hr hl a r1).mp h1
    refine ⟨⟨a, r1, h3, h2⟩, ?_⟩
    cases h2
    rw [hw]; exact h4
  · rintro ⟨⟨a, r1, h1, h2⟩, h3⟩
    refine ⟨a, r1, (hq r hr hl a r1).mpr ⟨h1, ?_⟩, h2⟩
    cases h2
    rw [hw] at h3; exact h3

/-- A loop that ends well has come to its end. -/
theorem loop_reaches {item : P α} {max : Nat} : ∀ {f : Nat} {r : Reader} {l : List α} {r' : Reader},
    P.whileLt item max f r = .ok (l, r') → max ≤ r'.pos
  | 0, r, l, r', h => by
    rw [P.whileLt] at h
    dsimp only at h
    split at h
    · cases h
    · cases h; omega
  | f + 1, r, l, r', h => by
    rw [P.whileLt] at h
    dsimp only at h
    split at h
    · cases hi : item r with
      | ok x =>
        obtain ⟨a, r1⟩ := x
        rw [hi] at h
        simp only [Res.bind_ok] at h
        cases hw : P.whileLt item max f r1 with
        | ok y =>
          obtain ⟨as, r2⟩ := y
          rw [hw] at h
          cases h
          exact loop_reaches hw
        | err e => rw [hw] at h; cases h
        | panic => rw [hw] at h; cases h
      | err e => rw [hi] at h; cases h
      | panic => rw [hi] at h; cases h
    · cases h; omega

/-- The loops on the enclosing reader. -/
theorem Twin.loopHere {item : P α} {w : α → Nat} (hg : Good 0 item w) (hpos : ∀ a, 1 ≤ w a) (p : Profile) (size : Nat) (g : List α → β)
    {W : β → Prop} (hW : ∀ l, W (g l) ↔ Huge size) :
    Twin W (P.getPos >>= fun pos => P.loopTo item (pos + size) >>= fun l => Pure.pure (g l))
      (P.getPos >>= fun pos => Narrow.sum p pos size >>= fun max => P.loopTo item max >>= fun l => Pure.pure (g l)) := by
  intro r hr hl b r'
  have e1 : (P.getPos >>= fun pos => P.loopTo item (pos + size) >>= fun l => Pure.pure (g l) : P β) r =
      (P.loopTo item (r.pos + size) >>= fun l => Pure.pure (g l) : P β) r := rfl
  have e2 : (P.getPos >>= fun pos => Narrow.sum p pos size >>= fun max => P.loopTo item max >>= fun l => Pure.pure (g l) : P β) r =
      (Narrow.sum p r.pos size >>= fun max => P.loopTo item max >>= fun l => Pure.pure (g l) : P β) r := rfl
  rw [e1, e2]
  have reach : ∀ a r1, P.loopTo item (r.pos + size) r = .ok (a, r1) → r.pos + size ≤ 16384 := by
    intro a r1 h
    have h1 : r.pos + size ≤ r1.pos := loop_reaches h
    have h2 := ((Good.loopTo hg hpos (r.pos + size)).ok hr h).2.2.2
    omega
  by_cases h : r.pos + size < 2 ^ 32
  · have e3 : (Narrow.sum p r.pos size >>= fun max => P.loopTo item max >>= fun l => Pure.pure (g l) : P β) r =
        (P.loopTo item (r.pos + size) >>= fun l => Pure.pure (g l) : P β) r := by
      rw [P.bind_def]
      unfold Narrow.sum Narrow.uadd
      rw [if_pos h]
      rfl
    rw [e3]
    constructor
    · intro hq
      refine ⟨hq, ?_⟩
      obtain ⟨a, r1, h1, h2⟩ := P.bind_ok_iff.mp hq
      have := reach a r1 h1
      cases h2
      rw [hW]
      unfold Huge
      omega
    · exact fun h => h.1
  · constructor
    · intro hq
      obtain ⟨a, r1, h1, _⟩ := P.bind_ok_iff.mp hq
      have := reach a r1 h1
      omega
    · rintro ⟨hq, hn⟩
      exfalso
      obtain ⟨m, r0, _, hq⟩ := P.bind_ok_iff.mp hq
      obtain ⟨a, r1, _, h2⟩ := P.bind_ok_iff.mp hq
      cases h2
      rw [hW] at hn
      exact hn (by unfold Huge; omega)

theorem certs_twin (p : Profile) : Twin (fun c => Huge c.size) Certs.parse (Narrow.certs p) := by
  refine Twin.bind Good.readSize (Twin.refl _) (fun size => ?_) (fun _ _ _ _ _ h => h.elim)
  exact Twin.loopHere Cert.good (fun a => by simp only [Cert.weight]; omega) p size (fun cs => (⟨size, cs⟩ : Certs)) fun _ => Iff.rfl

theorem attrs_twin (p : Profile) : Twin (fun c => Huge c.size) Attrs.parse (Narrow.attrs p) := by
  refine Twin.bind Good.readSize (Twin.refl _) (fun size => ?_) (fun _ _ _ _ _ h => h.elim)
  exact Twin.loopHere Attr.good (fun a => by simp only [Attr.weight]; omega) p size (fun cs => (⟨size, cs⟩ : Attrs)) fun _ => Iff.rfl

theorem sigs_twin (p : Profile) : Twin (fun c => Huge c.size) Sigs.parse (Narrow.sigs p) := by
  refine Twin.bind Good.readSize (Twin.refl _) (fun size => ?_) (fun _ _ _ _ _ h => h.elim)
  by_cases h : size = 0
  · rw [if_pos h, if_pos h]
    exact Twin.pure _ (by simp [Huge, h])
  · rw [if_neg h, if_neg h]
    exact Twin.loopHere Sig.good (fun a => by simp only [Sig.weight]; omega) p size (fun cs => (⟨size, cs⟩ : Sigs)) fun _ => Iff.rfl

/-- A parser on its own slice. -/
theorem Twin.sub {n : Nat} {q q' : P α} {W : α → Prop} (h : Twin W q q') :
    Twin W (P.asSlice n >>= fun s => P.on s q) (P.asSlice n >>= fun s => P.on s q') := by
  intro r hr hl a r'
  rw [P.bind_def, P.bind_def, P.asSlice_eq]
  cases hs : slice? r.data r.pos (r.pos + n) with
  | none => simp
  | some d =>
    obtain ⟨_, h2, _, h4⟩ := slice?_eq_some hs
    simp only [Res.bind_ok]
    unfold P.on
    have := h ⟨d, 0⟩ (Nat.zero_le _) (by simp only; omega)
    constructor
    · intro hq
      cases hx : q ⟨d, 0⟩ with
      | ok x =>
        obtain ⟨b, s'⟩ := x
        rw [hx] at hq
        obtain ⟨h5, h6⟩ := (this b s').mp hx
        rw [h5]
        cases hq
        exact ⟨rfl, h6⟩
      | err e => rw [hx] at hq; cases hq
      | panic => rw [hx] at hq; cases hq
    · rintro ⟨hq, hn⟩
      cases hx : q' ⟨d, 0⟩ with
      | ok x =>
        obtain ⟨b, s'⟩ := x
        rw [hx] at hq
        have hn' : ¬ W b := by cases hq; exact hn
        rw [(this b s').mpr ⟨hx, hn'⟩]
        exact hq
      | err e => rw [hx] at hq; cases hq
      | panic => rw [hx] at hq; cases hq

theorem parts_twin (p : Profile) (g : Digests → Certs → Attrs → α) {W : α → Prop}
    (hW : ∀ d c a, W (g d c a) ↔ Huge c.size ∨ Huge a.size) :
    Twin W (Digests.parse >>= fun d => Certs.parse >>= fun c => Attrs.parse >>= fun a => (Pure.pure (g d c a) : P α))
      (Digests.parse >>= fun d => Narrow.certs p >>= fun c => Narrow.attrs p >>= fun a => (Pure.pure (g d c a) : P α)) := by
  refine Twin.bind Digests.good (Twin.refl _) (fun d => ?_) (fun _ _ _ _ _ h => h.elim)
  intro r hr hl b r'
  rw [P.bind_ok_iff, P.bind_ok_iff]
  constructor
  · rintro ⟨c, r1, h1, h2⟩
    obtain ⟨hd, _, _, hp⟩ := Certs.good.ok hr h1
    obtain ⟨a, r2, h3, h4⟩ := P.bind_ok_iff.mp h2
    obtain ⟨h5, h6⟩ := (certs_twin p r hr hl c r1).mp h1
    obtain ⟨h7, h8⟩ := (attrs_twin p r1 (by rw [hd]; exact hp) (by rw [hd]; exact hl) a r2).mp h3
    refine ⟨⟨c, r1, h5, P.bind_ok_iff.mpr ⟨a, r2, h7, h4⟩⟩, ?_⟩
    cases h4
    rw [hW]
    rintro (h | h)
    · exact h6 h
    · exact h8 h
  · rintro ⟨⟨c, r1, h1, h2⟩, hn⟩
    obtain ⟨a, r2, h3, h4⟩ := P.bind_ok_iff.mp h2
    have hn' : ¬ (Huge c.size ∨ Huge a.size) := by
      cases h4
      rw [hW] at hn
      exact hn
    have h5 := (certs_twin p r hr hl c r1).mpr ⟨h1, fun h => hn' (.inl h)⟩
    obtain ⟨hd, _, _, hp⟩ := Certs.good.ok hr h5
    have h6 := (attrs_twin p r1 (by rw [hd]; exact hp) (by rw [hd]; exact hl) a r2).mpr ⟨h3, fun h => hn' (.inr h)⟩
    exact ⟨c, r1, h5, P.bind_ok_iff.mpr ⟨a, r2, h6, h4⟩⟩

theorem signedV2_twin (p : Profile) : Twin (fun s => Huge s.certs.size ∨ Huge s.attrs.size) SignedDataV2.parse (Narrow.signedV2 p) := by
  refine Twin.bind Good.readSize (Twin.refl _) (fun size => ?_) (fun _ _ _ _ _ h => h.elim)
  exact Twin.sub (parts_twin p (fun d c a => (⟨size, d, c, a, true⟩ : SignedDataV2)) fun _ _ _ => Iff.rfl)

theorem signedStamp_twin (p : Profile) :
    Twin (fun s => Huge s.certs.size ∨ Huge s.attrs.size) SignedDataStamp.parse (Narrow.signedStamp p) := by
  refine Twin.bind Good.readSize (Twin.refl _) (fun size => ?_) (fun _ _ _ _ _ h => h.elim)
  exact Twin.sub (parts_twin p (fun d c a => (⟨d, c, a⟩ : SignedDataStamp)) fun _ _ _ => Iff.rfl)

/-- Signed data, signatures, key. -/
theorem triple_twin {q q' : P α} {W1 : α → Prop} {w : α → Nat} (hg : Good 0 q w) (hq : Twin W1 q q') (p : Profile)
    (g : α → Sigs → PubKey → β) {W : β → Prop} (hW : ∀ d s k, W (g d s k) ↔ W1 d ∨ Huge s.size) :
    Twin W (q >>= fun d => Sigs.parse >>= fun s => PubKey.parse >>= fun k => (Pure.pure (g d s k) : P β))
      (q' >>= fun d => Narrow.sigs p >>= fun s => PubKey.parse >>= fun k => (Pure.pure (g d s k) : P β)) := by
  intro r hr hl b r'
  rw [P.bind_ok_iff, P.bind_ok_iff]
  constructor
  · rintro ⟨c, r1, h1, h2⟩
    obtain ⟨hd, _, _, hp⟩ := hg.ok hr h1
    obtain ⟨a, r2, h3, h4⟩ := P.bind_ok_iff.mp h2
    obtain ⟨h5, h6⟩ := (hq r hr hl c r1).mp h1
    obtain ⟨h7, h8⟩ := (sigs_twin p r1 (by rw [hd]; exact hp) (by rw [hd]; exact hl) a r2).mp h3
    refine ⟨⟨c, r1, h5, P.bind_ok_iff.mpr ⟨a, r2, h7, h4⟩⟩, ?_⟩
    obtain ⟨k, r3, _, h9⟩ := P.bind_ok_iff.mp h4
    cases h9
    rw [hW]
    rintro (h | h)
    · exact h6 h
    · exact h8 h
  · rintro ⟨⟨c, r1, h1, h2⟩, hn⟩
    obtain ⟨a, r2, h3, h4⟩ := P.bind_ok_iff.mp h2
    have hn' : ¬ (W1 c ∨ Huge a.size) := by
      obtain ⟨k, r3, _, h9⟩ := P.bind_ok_iff.mp h4
      cases h9
      rw [hW] at hn
      exact hn
    have h5 := (hq r hr hl c r1).mpr ⟨h1, fun h => hn' (.inl h)⟩
    obtain ⟨hd, _, _, hp⟩ := hg.ok hr h5
    have h6 := (sigs_twin p r1 (by rw [hd]; exact hp) (by rw [hd]; exact hl) a r2).mpr ⟨h3, fun h => hn' (.inr h)⟩
    exact ⟨c, r1, h5, P.bind_ok_iff.mpr ⟨a, r2, h6, h4⟩⟩

theorem signerV2_twin (p : Profile) :
    Twin (fun g => (Huge g.signedData.certs.size ∨ Huge g.signedData.attrs.size) ∨ Huge g.sigs.size) SignerV2.parse (Narrow.signerV2 p) := by
  refine Twin.bind Good.readSize (Twin.refl _) (fun size => ?_) (fun _ _ _ _ _ h => h.elim)
  exact triple_twin SignedDataV2.good (signedV2_twin p) p (fun d s k => (⟨size, d, s, k⟩ : SignerV2)) fun _ _ _ => Iff.rfl

theorem stampBlock_twin (p : Profile) :
    Twin (fun g => (Huge g.signedData.certs.size ∨ Huge g.signedData.attrs.size) ∨ Huge g.sigs.size) StampBlock.parse
      (Narrow.stampBlock p) := by
  refine Twin.bind Good.readSize (Twin.refl _) (fun size => ?_) (fun _ _ _ _ _ h => h.elim)
  exact Twin.sub (triple_twin SignedDataStamp.good (signedStamp_twin p) p (fun d s k => (⟨size, d, s, k⟩ : StampBlock)) fun _ _ _ => Iff.rfl)

/-- Loops over a slice. -/
theorem Twin.whileLt {item item' : P α} {W : α → Prop} {w : α → Nat} (hg : Good 0 item w) (h : Twin W item item') (max : Nat) :
    ∀ (f : Nat) (r : Reader), r.pos ≤ r.data.length → r.data.length ≤ 16384 → ∀ l r',
      P.whileLt item max f r = .ok (l, r') ↔ P.whileLt item' max f r = .ok (l, r') ∧ ¬ ∃ a ∈ l, W a
  | 0, r, hr, hl, l, r' => by
    rw [P.whileLt, P.whileLt]
    dsimp only
    split
    · simp
    · simp only [Res.ok.injEq, Prod.mk.injEq]
      constructor
      · rintro ⟨rfl, rfl⟩; simp
      · exact fun h => h.1
  | f + 1, r, hr, hl, l, r' => by
    rw [P.whileLt, P.whileLt]
    by_cases hlt : r.pos < max
    · simp only [hlt, if_true]
      constructor
      · intro hq
        cases hi : item r with
        | err e => rw [hi] at hq; cases hq
        | panic => rw [hi] at hq; cases hq
        | ok x =>
          obtain ⟨a, r1⟩ := x
          rw [hi] at hq
          simp only [Res.bind_ok] at hq
          obtain ⟨h1, h2⟩ := (h r hr hl a r1).mp hi
          obtain ⟨hd, _, _, hp⟩ := hg.ok hr hi
          have ih := Twin.whileLt hg h max f r1 (by rw [hd]; exact hp) (by rw [hd]; exact hl)
          rw [h1]
          simp only [Res.bind_ok]
          cases hw : P.whileLt item max f r1 with
          | err e => rw [hw] at hq; cases hq
          | panic => rw [hw] at hq; cases hq
          | ok y =>
            obtain ⟨as, r2⟩ := y
            rw [hw] at hq
            obtain ⟨h3, h4⟩ := (ih as r2).mp hw
            rw [h3]
            cases hq
            refine ⟨rfl, ?_⟩
            rintro ⟨x, hx, hWx⟩
            rcases List.mem_cons.mp hx with rfl | hx
            · exact h2 hWx
            · exact h4 ⟨x, hx, hWx⟩
      · rintro ⟨hq, hn⟩
        cases hi : item' r with
        | err e => rw [hi] at hq; cases hq
        | panic => rw [hi] at hq; cases hq
        | ok x =>
          obtain ⟨a, r1⟩ := x
          rw [hi] at hq
          simp only [Res.bind_ok] at hq
          cases hw : P.whileLt item' max f r1 with
          | err e => rw [hw] at hq; cases hq
          | panic => rw [hw] at hq; cases hq
          | ok y =>
            obtain ⟨as, r2⟩ := y
            rw [hw] at hq
            have hl' : l = a :: as := by cases hq; rfl
            have hr' : r' = r2 := by cases hq; rfl
            subst hl' hr'
            have h1 := (h r hr hl a r1).mpr ⟨hi, fun hW => hn ⟨a, List.mem_cons_self, hW⟩⟩
            obtain ⟨hd, _, _, hp⟩ := hg.ok hr h1
            have h2 := (Twin.whileLt hg h max f r1 (by rw [hd]; exact hp) (by rw [hd]; exact hl) as r').mpr
              ⟨hw, fun ⟨x, hx, hW⟩ => hn ⟨x, List.mem_cons_of_mem _ hx, hW⟩⟩
            rw [h1]
            simp only [Res.bind_ok]
            rw [h2]
            rfl
    · simp only [hlt, if_false, Res.ok.injEq, Prod.mk.injEq]
      constructor
      · rintro ⟨rfl, rfl⟩; simp
      · exact fun h => h.1

theorem signersV2_twin (p : Profile) :
    Twin (fun s => ∃ g ∈ s.data, (Huge g.signedData.certs.size ∨ Huge g.signedData.attrs.size) ∨ Huge g.sigs.size) SignersV2.parse
      (Narrow.signersV2 p) := by
  refine Twin.bind Good.readSize (Twin.refl _) (fun size => ?_) (fun _ _ _ _ _ h => h.elim)
  intro r hr hl a r'
  rw [P.bind_def, P.bind_def, P.asSlice_eq]
  cases hs : slice? r.data r.pos (r.pos + size) with
  | none => simp
  | some d =>
    obtain ⟨_, h2, _, h4⟩ := slice?_eq_some hs
    simp only [Res.bind_ok]
    rw [P.bind_def, P.bind_def]
    unfold P.on P.loopTo
    have := Twin.whileLt SignerV2.good (signerV2_twin p) d.length (d.length + 1) ⟨d, 0⟩ (Nat.zero_le _) (by simp only; omega)
    dsimp only
    constructor
    · intro hq
      cases hx : P.whileLt SignerV2.parse d.length (d.length + 1) ⟨d, 0⟩ with
      | ok x =>
        obtain ⟨b, s'⟩ := x
        rw [hx] at hq
        obtain ⟨h5, h6⟩ := (this b s').mp hx
        rw [h5]
        cases hq
        exact ⟨rfl, h6⟩
      | err e => rw [hx] at hq; cases hq
      | panic => rw [hx] at hq; cases hq
    · rintro ⟨hq, hn⟩
      cases hx : P.whileLt (Narrow.signerV2 p) d.length (d.length + 1) ⟨d, 0⟩ with
      | ok x =>
        obtain ⟨b, s'⟩ := x
        rw [hx] at hq
        cases hq
        rw [(this b s').mpr ⟨hx, hn⟩]
        rfl
      | err e => rw [hx] at hq; cases hq
      | panic => rw [hx] at hq; cases hq

theorem weight_pos : ∀ l : List SectionEntry, l.length ≤ (l.map SectionEntry.weight).sum
  | [] => by simp
  | x :: xs => by
    have := weight_pos xs
    have h6 : 1 ≤ x.weight := by simp only [SectionEntry.weight]; omega
    simp only [List.length_cons, List.map_cons, List.sum_cons]
    omega

theorem elfInfo_twin (size : Nat) (id : UInt32) : Twin (fun _ => False) (ElfSectionInfo.parse size id) (Narrow.elfInfo size id) := by
  refine Twin.bind Good.readU32 (Twin.refl _) (fun c => ?_) (fun _ _ _ _ _ h => h)
  intro r hr hl e r'
  have e1 : (Narrow.reserve c.toNat >>= fun _ => P.repeatN SectionEntry.parse c.toNat >>= fun ss => (Pure.pure ⟨size, id, c, ss⟩ : P ElfSectionInfo)) r =
      if c.toNat * 32 < 2 ^ 31 then (P.repeatN SectionEntry.parse c.toNat >>= fun ss => (Pure.pure ⟨size, id, c, ss⟩ : P ElfSectionInfo)) r
      else .panic := by
    rw [P.bind_def]
    unfold Narrow.reserve
    split <;> rfl
  have e2 : (do Narrow.reserve c.toNat; let ss ← P.repeatN SectionEntry.parse c.toNat; return ⟨size, id, c, ss⟩ : P ElfSectionInfo) r =
      (Narrow.reserve c.toNat >>= fun _ => P.repeatN SectionEntry.parse c.toNat >>= fun ss => (Pure.pure ⟨size, id, c, ss⟩ : P ElfSectionInfo)) r := rfl
  rw [e2, e1]
  constructor
  · intro h
    refine ⟨?_, fun h => h⟩
    obtain ⟨l, r1, h1, _⟩ := P.bind_ok_iff.mp h
    have h2 := (Good.repeatN SectionEntry.good c.toNat).ok hr h1
    have h3 : ∀ (n : Nat) (r : Reader) (l : List SectionEntry) (r1 : Reader), P.repeatN SectionEntry.parse n r = .ok (l, r1) → l.length = n := by
      intro n
      induction n with
      | zero => intro r l r1 h; cases h; rfl
      | succ n ih =>
        intro r l r1 h
        obtain ⟨a, r2, _, h⟩ := P.bind_ok_iff.mp h
        obtain ⟨as, r3, h4, h⟩ := P.bind_ok_iff.mp h
        cases h
        simp [ih _ _ _ h4]
    have h4 := h3 _ _ _ _ h1
    have h5 := weight_pos l
    rw [if_pos (by omega)]
    exact h
  · rintro ⟨h, _⟩
    split at h
    · exact h
    · cases h

/-- The value of a pair, on its own slice. -/
theorem parseBody_twin (p : Profile) (n : Nat) (id : UInt32) (value : Bytes) (hv : value.length ≤ 16384) (r : Reader) (v : Value) (r' : Reader) :
    Value.parseBody n id ⟨value, 0⟩ r = .ok (v, r') ↔ Narrow.parseBody p n id ⟨value, 0⟩ r = .ok (v, r') ∧ ¬ HasHuge v := by
  have key : ∀ {β : Type} (q q' : P β) (g : β → Value) (W : β → Prop), Twin W q q' → (∀ b, HasHuge (g b) ↔ W b) →
      ((P.on ⟨value, 0⟩ q >>= fun s => (Pure.pure (g s) : P Value)) r = .ok (v, r') ↔
        (P.on ⟨value, 0⟩ q' >>= fun s => (Pure.pure (g s) : P Value)) r = .ok (v, r') ∧ ¬ HasHuge v) := by
    intro β q q' g W hq hW
    have e : ∀ q : P β, (P.on ⟨value, 0⟩ q >>= fun s => (Pure.pure (g s) : P Value)) r = .ok (v, r') ↔
        r' = r ∧ ∃ b s', q ⟨value, 0⟩ = .ok (b, s') ∧ v = g b := by
      intro q
      rw [P.bind_ok_iff]
      unfold P.on
      constructor
      · rintro ⟨b, r1, h1, h2⟩
        cases hx : q ⟨value, 0⟩ with
        | ok x =>
          obtain ⟨b', s'⟩ := x
          rw [hx] at h1
          cases h1
          cases h2
          exact ⟨rfl, b, s', rfl, rfl⟩
        | err e => rw [hx] at h1; cases h1
        | panic => rw [hx] at h1; cases h1
      · rintro ⟨rfl, b, s', h1, rfl⟩
        exact ⟨b, r', by rw [h1], rfl⟩
    rw [e, e]
    constructor
    · rintro ⟨rfl, b, s', h1, rfl⟩
      obtain ⟨h2, h3⟩ := (hq ⟨value, 0⟩ (Nat.zero_le _) hv b s').mp h1
      exact ⟨⟨rfl, b, s', h2, rfl⟩, by rw [hW]; exact h3⟩
    · rintro ⟨⟨rfl, b, s', h1, rfl⟩, h2⟩
      rw [hW] at h2
      exact ⟨rfl, b, s', (hq ⟨value, 0⟩ (Nat.zero_le _) hv b s').mpr ⟨h1, h2⟩, rfl⟩
  unfold Value.parseBody Narrow.parseBody
  by_cases h1 : id = v2BlockId
  · rw [if_pos h1, if_pos h1]
    refine key _ _ Value.v2 _ (Twin.map (g := fun s => (⟨n, id, s⟩ : SchemeV2)) (W := fun s => HasHuge (.v2 s)) (signersV2_twin p) ?_) fun _ => Iff.rfl
    intro s
    simp only [HasHuge, or_assoc]
  · rw [if_neg h1, if_neg h1]
    by_cases h2 : id = stampBlockId
    · rw [if_pos h2, if_pos h2]
      refine key _ _ Value.stamp _ (Twin.map (g := fun s => (⟨n, id, s⟩ : SourceStamp)) (W := fun s => HasHuge (.stamp s)) (stampBlock_twin p) ?_) fun _ => Iff.rfl
      intro s
      simp only [HasHuge, or_assoc]
    · rw [if_neg h2, if_neg h2]
      by_cases h3 : id = elfInfoBlockId
      · rw [if_pos h3, if_pos h3]
        exact key _ _ Value.elf _ (elfInfo_twin n id) fun _ => Iff.rfl
      · rw [if_neg h3, if_neg h3]
        constructor
        · intro h
          refine ⟨h, ?_⟩
          cases h
          simp [HasHuge]
        · exact fun h => h.1

theorem narrow_body_size {p : Profile} {n : Nat} {id : UInt32} {s r r' : Reader} {v : Value}
    (h : Narrow.parseBody p n id s r = .ok (v, r')) : v.innerSize = n := by
  unfold Narrow.parseBody at h
  split at h
  · obtain ⟨x, r1, h1, h2⟩ := P.bind_ok_iff.mp h
    cases h2
    unfold P.on at h1
    cases hx : Narrow.schemeV2 p n id s with
    | ok y =>
      obtain ⟨y, s'⟩ := y
      rw [hx] at h1
      cases h1
      obtain ⟨z, r2, _, h3⟩ := P.bind_ok_iff.mp hx
      cases h3
      rfl
    | err e => rw [hx] at h1; cases h1
    | panic => rw [hx] at h1; cases h1
  · split at h
    · obtain ⟨x, r1, h1, h2⟩ := P.bind_ok_iff.mp h
      cases h2
      unfold P.on at h1
      cases hx : Narrow.sourceStamp p n id s with
      | ok y =>
        obtain ⟨y, s'⟩ := y
        rw [hx] at h1
        cases h1
        obtain ⟨z, r2, _, h3⟩ := P.bind_ok_iff.mp hx
        cases h3
        rfl
      | err e => rw [hx] at h1; cases h1
      | panic => rw [hx] at h1; cases h1
    · split at h
      · obtain ⟨x, r1, h1, h2⟩ := P.bind_ok_iff.mp h
        cases h2
        unfold P.on at h1
        cases hx : Narrow.elfInfo n id s with
        | ok y =>
          obtain ⟨y, s'⟩ := y
          rw [hx] at h1
          cases h1
          obtain ⟨z, r2, _, h3⟩ := P.bind_ok_iff.mp hx
          obtain ⟨z', r3, _, h3⟩ := P.bind_ok_iff.mp h3
          obtain ⟨z'', r4, _, h3⟩ := P.bind_ok_iff.mp h3
          cases h3
          rfl
        | err e => rw [hx] at h1; cases h1
        | panic => rw [hx] at h1; cases h1
      · cases h
        rfl

/-- What follows the size of a pair. -/
def pairRest (body : Nat → UInt32 → Reader → P Value) (n : Nat) : P Value :=
  if n > maxPairSize then P.fail .pairTooLarge
  else do
    let pairId ← P.readU32
    if n < 4 then P.fail .pairTooSmall
    else do
      let value ← P.asSlice (n - 4)
      body n pairId value

theorem pairRest_ok {body : Nat → UInt32 → Reader → P Value} {n : Nat} {r r' : Reader} {v : Value} :
    pairRest body n r = .ok (v, r') ↔ n ≤ 16384 ∧ 4 ≤ n ∧ ∃ id r1 d, P.readU32 r = .ok (id, r1) ∧
      slice? r1.data r1.pos (r1.pos + (n - 4)) = some d ∧ body n id ⟨d, 0⟩ ⟨r1.data, r1.pos + (n - 4)⟩ = .ok (v, r') := by
  unfold pairRest
  by_cases h1 : n > maxPairSize
  · rw [if_pos h1]
    simp only [maxPairSize] at h1
    constructor
    · intro h; cases h
    · rintro ⟨h, _⟩; omega
  · rw [if_neg h1, P.bind_ok_iff]
    simp only [maxPairSize] at h1
    by_cases h2 : n < 4
    · constructor
      · rintro ⟨a, r1, _, h⟩; rw [if_pos h2] at h; cases h
      · rintro ⟨_, h, _⟩; omega
    · constructor
      · rintro ⟨a, r1, h3, h⟩
        rw [if_neg h2, P.bind_ok_iff] at h
        obtain ⟨d, r2, h4, h5⟩ := h
        rw [P.asSlice_eq] at h4
        cases hs : slice? r1.data r1.pos (r1.pos + (n - 4)) with
        | none => rw [hs] at h4; cases h4
        | some x =>
          rw [hs] at h4
          cases h4
          exact ⟨by omega, by omega, a, r1, x, h3, hs, h5⟩
      · rintro ⟨_, _, a, r1, d, h3, h4, h5⟩
        refine ⟨a, r1, h3, ?_⟩
        rw [if_neg h2, P.bind_ok_iff]
        refine ⟨⟨d, 0⟩, ⟨r1.data, r1.pos + (n - 4)⟩, ?_, h5⟩
        rw [P.asSlice_eq, h4]

theorem value_parse_eq : Value.parse = P.readSizeU64 >>= pairRest Value.parseBody := rfl

theorem narrow_parse_eq (p : Profile) : Narrow.parse p = P.readLe 8 >>= fun n => pairRest (Narrow.parseBody p) (n % 2 ^ 32) := by
  funext r
  show (Narrow.readSizeU64 >>= fun n => pairRest (Narrow.parseBody p) n) r = _
  rw [P.bind_def, P.bind_def]
  unfold Narrow.readSizeU64
  rw [P.bind_def]
  cases P.readLe 8 r with
  | ok x => obtain ⟨n, r1⟩ := x; rfl
  | err e => rfl
  | panic => rfl

theorem readLe_ok {n x : Nat} {r r' : Reader} :
    P.readLe n r = .ok (x, r') ↔ ∃ d, slice? r.data r.pos (r.pos + n) = some d ∧ x = leNat d ∧ r' = ⟨r.data, r.pos + n⟩ := by
  show (P.getTo n >>= fun d => (Pure.pure (leNat d) : P Nat)) r = _ ↔ _
  rw [P.bind_ok_iff]
  constructor
  · rintro ⟨d, r1, h1, h2⟩
    obtain ⟨h3, rfl⟩ := P.getTo_ok h1
    cases h2
    exact ⟨d, h3, rfl, rfl⟩
  · rintro ⟨d, h1, rfl, rfl⟩
    refine ⟨d, ⟨r.data, r.pos + n⟩, ?_, rfl⟩
    unfold P.getTo
    rw [h1]

/-- One pair. -/
theorem parse_twin (p : Profile) (r : Reader) (v : Value) (r' : Reader) :
    Value.parse r = .ok (v, r') ↔ Narrow.parse p r = .ok (v, r') ∧
      slice? r.data r.pos (r.pos + 8) = some (leBytes 8 v.innerSize) ∧ ¬ HasHuge v := by
  rw [value_parse_eq, narrow_parse_eq, P.bind_ok_iff, P.bind_ok_iff]
  constructor
  · rintro ⟨n, r1, h1, h2⟩
    have h1' : P.readLe 8 r = .ok (n, r1) := h1
    obtain ⟨d, h3, rfl, rfl⟩ := readLe_ok.mp h1'
    obtain ⟨h4, h5, id, r2, d2, h6, h7, h8⟩ := pairRest_ok.mp h2
    obtain ⟨_, h9, _, h10⟩ := slice?_eq_some h7
    have hv : d2.length ≤ 16384 := by omega
    obtain ⟨h11, h12⟩ := (parseBody_twin p _ id d2 hv _ v r').mp h8
    have hin := narrow_body_size h11
    have hmod : leNat d % 2 ^ 32 = leNat d := Nat.mod_eq_of_lt (by omega)
    have hd8 : d.length = 8 := by have := (slice?_eq_some h3).2.2.2; omega
    refine ⟨⟨leNat d, _, h1', ?_⟩, ?_, h12⟩
    · rw [hmod]
      exact pairRest_ok.mpr ⟨h4, h5, id, r2, d2, h6, h7, h11⟩
    · rw [h3, hin]
      have := leBytes_leNat d
      rw [hd8] at this
      rw [this]
  · rintro ⟨⟨n, r1, h1, h2⟩, h3, hn⟩
    obtain ⟨d, h4, rfl, rfl⟩ := readLe_ok.mp h1
    obtain ⟨h5, h6, id, r2, d2, h7, h8, h9⟩ := pairRest_ok.mp h2
    have hin := narrow_body_size h9
    rw [h4] at h3
    cases h3
    rw [leNat_leBytes_of_lt (by omega)] at *
    have hmod : v.innerSize % 2 ^ 32 = v.innerSize := hin.symm
    rw [hmod] at h8 h9 h5 h6
    obtain ⟨_, h10, _, h11⟩ := slice?_eq_some h8
    refine ⟨v.innerSize, _, h1, pairRest_ok.mpr ⟨h5, h6, id, r2, d2, h7, h8, ?_⟩⟩
    refine (parseBody_twin p _ id d2 ?_ _ v r').mpr ⟨h9, hn⟩
    omega

theorem isValue_inner {id : UInt32} {value : Bytes} {v : Value} (h : IsValue id value v) : v.innerSize = 4 + value.length := by
  have hb : Value.parseBody (4 + value.length) id ⟨value, 0⟩ ⟨[], 0⟩ = .ok (v, ⟨[], 0⟩) := Value.parseBody_iff.mpr ⟨rfl, h⟩
  by_cases hv : value.length ≤ 16384
  · exact narrow_body_size ((parseBody_twin .release _ id value hv _ v _).mp hb).1
  · cases v with
    | v2 s => exact h.2.2.1
    | stamp s => exact h.2.2.1
    | elf e => exact h.2.2.1
    | raw x => obtain ⟨rfl, _⟩ := h; rfl

theorem value_advance {r r' : Reader} {v : Value} (hr : r.pos ≤ r.data.length) (h : Value.parse r = .ok (v, r')) :
    r' = ⟨r.data, r.pos + (8 + v.innerSize)⟩ ∧ r.pos + (8 + v.innerSize) ≤ r.data.length := by
  have e : r = ⟨r.data.take r.pos ++ r.data.drop r.pos, (r.data.take r.pos).length⟩ := by
    rw [List.take_append_drop, List.length_take, Nat.min_eq_left hr]
  rw [e] at h
  obtain ⟨w, post, h1, ⟨id, value, rfl, _, hv⟩, h2⟩ := (Value.exact _ _ _ _).mp h
  have hin := isValue_inner hv
  rw [List.take_append_drop, List.length_take, Nat.min_eq_left hr] at h2
  have hw : (wirePair id value).length = 8 + v.innerSize := by
    rw [hin]
    simp [wirePair, leBytes_length]
  have hlen := congrArg List.length h1
  rw [List.length_drop, List.length_append, hw] at hlen
  rw [hw] at h2
  exact ⟨h2, by omega⟩

theorem drop_slice {d x : Bytes} {a n : Nat} (h : slice? d a (a + n) = some x) : d.drop a = x ++ d.drop (a + n) := by
  obtain ⟨_, _, h3, _⟩ := slice?_eq_some h
  rw [h3, Nat.add_sub_cancel_left, ← List.drop_drop, List.take_append_drop]

theorem pairs_twin (p : Profile) (d : Bytes) : ∀ (f pos : Nat), pos ≤ d.length → ∀ (vs : List Value) (r' : Reader),
    P.whileLt Value.parse d.length f ⟨d, pos⟩ = .ok (vs, r') ↔ P.whileLt (Narrow.parse p) d.length f ⟨d, pos⟩ = .ok (vs, r') ∧
      Framed (d.drop pos) vs ∧ ∀ v ∈ vs, ¬ HasHuge v := by
  have stop : ∀ pos, ¬ pos < d.length → ∀ (vs : List Value) (r' : Reader), (Res.ok ([], (⟨d, pos⟩ : Reader)) : Res (List Value × Reader)) = .ok (vs, r') ↔
      (Res.ok ([], (⟨d, pos⟩ : Reader)) : Res (List Value × Reader)) = .ok (vs, r') ∧ Framed (d.drop pos) vs ∧ ∀ v ∈ vs, ¬ HasHuge v := by
    intro pos hp vs r'
    constructor
    · intro h
      refine ⟨h, ?_⟩
      cases h
      exact ⟨List.drop_eq_nil_of_le (by omega), by simp⟩
    · exact fun h => h.1
  intro f
  induction f with
  | zero =>
    intro pos hp vs r'
    rw [P.whileLt, P.whileLt]
    dsimp only
    by_cases hlt : pos < d.length
    · simp [hlt]
    · simp only [hlt, if_false]
      exact stop pos hlt vs r'
  | succ f ih =>
    intro pos hp vs r'
    rw [P.whileLt, P.whileLt]
    dsimp only
    by_cases hlt : pos < d.length
    · simp only [hlt, if_true]
      constructor
      · intro hq
        cases hi : Value.parse ⟨d, pos⟩ with
        | err e => rw [hi] at hq; cases hq
        | panic => rw [hi] at hq; cases hq
        | ok x =>
          obtain ⟨v, r1⟩ := x
          rw [hi] at hq
          simp only [Res.bind_ok] at hq
          obtain ⟨h1, h2, h3⟩ := (parse_twin p _ v r1).mp hi
          obtain ⟨rfl, ha2⟩ := value_advance (r := ⟨d, pos⟩) hp hi
          rw [h1]
          simp only [Res.bind_ok]
          dsimp only at hq ha2 h2
          cases hw : P.whileLt Value.parse d.length f ⟨d, pos + (8 + v.innerSize)⟩ with
          | err e => rw [hw] at hq; cases hq
          | panic => rw [hw] at hq; cases hq
          | ok y =>
            obtain ⟨as, r2⟩ := y
            obtain ⟨h4, h5, h6⟩ := (ih _ ha2 as r2).mp hw
            rw [hw] at hq
            rw [h4]
            cases hq
            refine ⟨rfl, ⟨(d.drop (pos + 8)).take v.innerSize, d.drop (pos + (8 + v.innerSize)), ?_, ?_, h5⟩, ?_⟩
            · rw [drop_slice h2, List.append_assoc]
              congr 1
              rw [show pos + (8 + v.innerSize) = (pos + 8) + v.innerSize by omega, ← List.drop_drop (i := v.innerSize) (j := pos + 8), List.take_append_drop]
            · rw [List.length_take, List.length_drop]; omega
            · intro x hx
              rcases List.mem_cons.mp hx with rfl | hx
              · exact h3
              · exact h6 x hx
      · rintro ⟨hq, hF, hn⟩
        cases hi : Narrow.parse p ⟨d, pos⟩ with
        | err e => rw [hi] at hq; cases hq
        | panic => rw [hi] at hq; cases hq
        | ok x =>
          obtain ⟨v, r1⟩ := x
          rw [hi] at hq
          simp only [Res.bind_ok] at hq
          cases hw : P.whileLt (Narrow.parse p) d.length f r1 with
          | err e => rw [hw] at hq; cases hq
          | panic => rw [hw] at hq; cases hq
          | ok y =>
            obtain ⟨as, r2⟩ := y
            rw [hw] at hq
            have hl' : vs = v :: as := by cases hq; rfl
            have hr' : r' = r2 := by cases hq; rfl
            subst hl' hr'
            obtain ⟨payload, rest, hd, hp2, hF2⟩ := hF
            have hs : slice? d pos (pos + 8) = some (leBytes 8 v.innerSize) := by
              have hlen := congrArg List.length hd
              simp only [List.length_drop, List.length_append, leBytes_length] at hlen
              rw [slice?_of_le (by omega) (by omega), hd, Nat.add_sub_cancel_left, List.append_assoc]
              rw [List.take_left' (leBytes_length 8 _)]
            have h1 := (parse_twin p ⟨d, pos⟩ v r1).mpr ⟨hi, hs, hn v List.mem_cons_self⟩
            obtain ⟨rfl, ha2⟩ := value_advance (r := ⟨d, pos⟩) hp h1
            dsimp only at hw ha2
            have hrest : d.drop (pos + (8 + v.innerSize)) = rest := by
              rw [← List.drop_drop, hd, List.drop_left' (by simp [leBytes_length, hp2])]
            have h2 := (ih _ ha2 as r').mpr ⟨hw, by rw [hrest]; exact hF2, fun x hx => hn x (List.mem_cons_of_mem _ hx)⟩
            rw [h1]
            simp only [Res.bind_ok]
            rw [h2]
            rfl
    · simp only [hlt, if_false]
      exact stop pos hlt vs r'

theorem extract_twin (p : Profile) (d : Bytes) (vs : List Value) :
    extractValues d = .ok vs ↔ Narrow.extractValues p d = .ok vs ∧ Framed d vs ∧ ∀ v ∈ vs, ¬ HasHuge v := by
  unfold extractValues Narrow.extractValues
  have h := pairs_twin p d (d.length + 1) 0 (Nat.zero_le _)
  have e : ∀ q : P Value, P.loopTo q d.length (Reader.new d) = P.whileLt q d.length (d.length + 1) ⟨d, 0⟩ := fun q => rfl
  rw [e, e]
  constructor
  · intro hq
    cases hx : P.whileLt Value.parse d.length (d.length + 1) ⟨d, 0⟩ with
    | ok x =>
      obtain ⟨l, r'⟩ := x
      rw [hx] at hq
      obtain ⟨h1, h2, h3⟩ := (h l r').mp hx
      rw [h1]
      cases hq
      exact ⟨rfl, h2, h3⟩
    | err e => rw [hx] at hq; cases hq
    | panic => rw [hx] at hq; cases hq
  · rintro ⟨hq, h2, h3⟩
    cases hx : P.whileLt (Narrow.parse p) d.length (d.length + 1) ⟨d, 0⟩ with
    | ok x =>
      obtain ⟨l, r'⟩ := x
      rw [hx] at hq
      have hl : l = vs := by cases hq; rfl
      subst hl
      rw [(h l r').mpr ⟨hx, h2, h3⟩]
    | err e => rw [hx] at hq; cases hq
    | panic => rw [hx] at hq; cases hq

/-- The bytes of a block with both sizes and all pair sizes as read. -/
def Shape (d : Bytes) (b : SigningBlock) : Prop :=
  ∃ content, d = leBytes 8 b.sizeStart ++ content ++ leBytes 8 b.sizeEnd ++ Ksusig.magic ∧ Framed content b.content

theorem full_narrow_size {p : Profile} {d : Bytes} {b : SigningBlock} (h : Narrow.parseFullBlock p d = .ok b) :
    b.sizeStart = b.sizeEnd ∧ b.sizeEnd < 2 ^ 32 ∧ b.fileStart = 0 ∧ b.fileEnd = d.length := by
  unfold Narrow.parseFullBlock at h
  split at h
  · cases h
  · obtain ⟨m, _, h⟩ := Res.bind_eq_ok.mp h
    split at h
    · cases h
    · obtain ⟨s0, _, h⟩ := Res.bind_eq_ok.mp h
      obtain ⟨s1, _, h⟩ := Res.bind_eq_ok.mp h
      obtain ⟨_, _, h⟩ := Res.bind_eq_ok.mp h
      split at h
      · cases h
      · rename_i heq
        split at h
        · cases h
        · obtain ⟨e, _, h⟩ := Res.bind_eq_ok.mp h
          split at h
          · cases h
          · obtain ⟨i, _, h⟩ := Res.bind_eq_ok.mp h
            obtain ⟨c, _, h⟩ := Res.bind_eq_ok.mp h
            cases h
            refine ⟨?_, ?_, rfl, rfl⟩
            · exact Classical.not_not.mp heq
            · exact Nat.mod_lt _ (by omega)

theorem quarters {d : Bytes} (h : 32 ≤ d.length) : ∃ s0 inner s1 m : Bytes, d = s0 ++ inner ++ s1 ++ m ∧ s0.length = 8 ∧ s1.length = 8 ∧ m.length = 16 := by
  refine ⟨d.take 8, (d.drop 8).take (d.length - 32), (d.drop (d.length - 24)).take 8, d.drop (d.length - 16), ?_, ?_, ?_, ?_⟩
  · have e1 : d.drop (d.length - 24) = (d.drop (d.length - 24)).take 8 ++ d.drop (d.length - 16) := by
      rw [show d.length - 16 = (d.length - 24) + 8 by omega, ← List.drop_drop, List.take_append_drop]
    have e2 : d.drop 8 = (d.drop 8).take (d.length - 32) ++ d.drop (d.length - 24) := by
      rw [show d.length - 24 = 8 + (d.length - 32) by omega, ← List.drop_drop (i := d.length - 32) (j := 8), List.take_append_drop]
    rw [List.append_assoc, List.append_assoc, ← e1, ← e2, List.take_append_drop]
  · simp; omega
  · simp; omega
  · simp; omega

theorem quarter_slices {s0 inner s1 m : Bytes} (h0 : s0.length = 8) (h1 : s1.length = 8) (hm : m.length = 16) :
    slice? (s0 ++ inner ++ s1 ++ m) ((s0 ++ inner ++ s1 ++ m).length - 16) (s0 ++ inner ++ s1 ++ m).length = some m ∧
    slice? (s0 ++ inner ++ s1 ++ m) 0 8 = some s0 ∧
    slice? (s0 ++ inner ++ s1 ++ m) ((s0 ++ inner ++ s1 ++ m).length - 16 - 8) ((s0 ++ inner ++ s1 ++ m).length - 16) = some s1 ∧
    slice? (s0 ++ inner ++ s1 ++ m) 8 ((s0 ++ inner ++ s1 ++ m).length - 16 - 8) = some inner := by
  have hl : (s0 ++ inner ++ s1 ++ m).length = inner.length + 32 := by simp; omega
  rw [hl]
  refine ⟨?_, ?_, ?_, ?_⟩
  · rw [slice?_of_le (by omega) (by omega), List.drop_left' (by simp; omega), List.take_of_length_le (by omega)]
  · rw [slice?_of_le (by omega) (by omega), List.drop_zero, List.append_assoc, List.append_assoc, List.take_left' (by omega)]
  · rw [slice?_of_le (by omega) (by omega), List.append_assoc, List.drop_left' (by simp; omega), List.take_left' (by omega)]
  · rw [slice?_of_le (by omega) (by omega), List.append_assoc, List.append_assoc, List.drop_left' (by omega), List.take_left' (by omega)]

/-- What `parse_full_block` takes, on both. -/
def FullOk (sz : Bytes → Nat) (ex : Bytes → Res (List Value)) (d : Bytes) (b : SigningBlock) : Prop :=
  ∃ s0 inner s1 c, d = s0 ++ inner ++ s1 ++ Ksusig.magic ∧ s0.length = 8 ∧ s1.length = 8 ∧ sz s0 = sz s1 ∧ sz s1 = inner.length + 24 ∧
    ex inner = .ok c ∧ b = ⟨0, d.length, sz s0, inner.length, c, sz s1, Ksusig.magic⟩

theorem magic_len : Ksusig.magic.length = 16 := rfl

theorem full_ok {p : Profile} {d : Bytes} {b : SigningBlock} : parseFullBlock p d = .ok b ↔ FullOk leNat extractValues d b := by
  constructor
  · intro h
    unfold parseFullBlock at h
    split at h
    · cases h
    · rename_i hlen
      obtain ⟨s0, inner, s1, m, rfl, h0, h1, hm⟩ := quarters (d := d) (by omega)
      obtain ⟨e1, e2, e3, e4⟩ := quarter_slices (inner := inner) h0 h1 hm
      rw [e1, e2, e3, e4] at h
      obtain ⟨m', hx, h⟩ := Res.bind_eq_ok.mp h
      cases hx
      split at h
      · cases h
      · rename_i hmag
        have hmag := Classical.not_not.mp hmag
        subst hmag
        obtain ⟨x, hx, h⟩ := Res.bind_eq_ok.mp h
        cases hx
        obtain ⟨x, hx, h⟩ := Res.bind_eq_ok.mp h
        cases hx
        obtain ⟨_, _, h⟩ := Res.bind_eq_ok.mp h
        split at h
        · cases h
        · rename_i heq
          have heq := Classical.not_not.mp heq
          split at h
          · cases h
          · split at h
            · cases h
            · rename_i hq
              have hq := Classical.not_not.mp hq
              obtain ⟨x, hx, h⟩ := Res.bind_eq_ok.mp h
              cases hx
              obtain ⟨c, hc, h⟩ := Res.bind_eq_ok.mp h
              cases h
              have hl : (s0 ++ inner ++ s1 ++ Ksusig.magic).length = inner.length + 32 := by simp [magic_len]; omega
              refine ⟨s0, inner, s1, c, rfl, h0, h1, heq, by omega, hc, ?_⟩
              congr 1
              omega
  · rintro ⟨s0, inner, s1, c, rfl, h0, h1, heq, hs, hc, rfl⟩
    obtain ⟨e1, e2, e3, e4⟩ := quarter_slices (inner := inner) h0 h1 magic_len
    have hl : (s0 ++ inner ++ s1 ++ Ksusig.magic).length = inner.length + 32 := by simp [magic_len]; omega
    unfold parseFullBlock
    rw [if_neg (by omega), e1, e2, e3, e4]
    refine Res.bind_eq_ok.mpr ⟨Ksusig.magic, rfl, ?_⟩
    rw [if_neg (fun h => h rfl)]
    refine Res.bind_eq_ok.mpr ⟨s0, rfl, ?_⟩
    refine Res.bind_eq_ok.mpr ⟨s1, rfl, ?_⟩
    refine Res.bind_eq_ok.mpr ⟨(), ?_, ?_⟩
    · unfold debugAssert
      simp [heq]
    · rw [if_neg (fun h => h heq), if_neg (by omega), if_neg (fun h => h (by omega))]
      refine Res.bind_eq_ok.mpr ⟨inner, rfl, ?_⟩
      refine Res.bind_eq_ok.mpr ⟨c, hc, ?_⟩
      rw [show leNat s1 - 8 - 16 = inner.length by omega]

/-- A size field as a 32-bit machine takes it. -/
def narrowSize (s : Bytes) : Nat := Narrow.asUsize (leNat s)

theorem full_narrow_ok {p : Profile} {d : Bytes} {b : SigningBlock} (hd : d.length < 2 ^ 32) :
    Narrow.parseFullBlock p d = .ok b ↔ FullOk narrowSize (Narrow.extractValues p) d b := by
  constructor
  · intro h
    unfold Narrow.parseFullBlock at h
    split at h
    · cases h
    · rename_i hlen
      obtain ⟨s0, inner, s1, m, rfl, h0, h1, hm⟩ := quarters (d := d) (by omega)
      obtain ⟨e1, e2, e3, e4⟩ := quarter_slices (inner := inner) h0 h1 hm
      rw [e1, e2, e3, e4] at h
      obtain ⟨m', hx, h⟩ := Res.bind_eq_ok.mp h
      cases hx
      split at h
      · cases h
      · rename_i hmag
        have hmag := Classical.not_not.mp hmag
        subst hmag
        obtain ⟨x, hx, h⟩ := Res.bind_eq_ok.mp h
        cases hx
        obtain ⟨x, hx, h⟩ := Res.bind_eq_ok.mp h
        cases hx
        obtain ⟨_, _, h⟩ := Res.bind_eq_ok.mp h
        split at h
        · cases h
        · rename_i heq
          have heq := Classical.not_not.mp heq
          split at h
          · cases h
          · obtain ⟨e, he, h⟩ := Res.bind_eq_ok.mp h
            split at h
            · cases h
            · rename_i hq
              have hq := Classical.not_not.mp hq
              obtain ⟨x, hx, h⟩ := Res.bind_eq_ok.mp h
              cases hx
              obtain ⟨c, hc, h⟩ := Res.bind_eq_ok.mp h
              cases h
              have hl : (s0 ++ inner ++ s1 ++ Ksusig.magic).length = inner.length + 32 := by simp [magic_len]; omega
              have hlt : narrowSize s1 < 2 ^ 32 := Nat.mod_lt _ (by omega)
              have hee : e = narrowSize s1 + 8 := by
                unfold Narrow.uadd at he
                split at he
                · cases he; rfl
                · rename_i hov
                  have hov : ¬ narrowSize s1 + 8 < 2 ^ 32 := hov
                  exfalso
                  cases p
                  · cases he
                  · have he := Res.ok.inj he
                    have hl32 : inner.length + 32 = e := hl ▸ hq
                    have he : narrowSize s1 + 8 - 2 ^ 32 = e := he
                    omega
              have hc8 : narrowSize s1 - 8 - 16 = inner.length := by omega
              refine ⟨s0, inner, s1, c, rfl, h0, h1, heq, by omega, hc, ?_⟩
              show (⟨0, _, narrowSize s0, narrowSize s1 - 8 - 16, c, narrowSize s1, Ksusig.magic⟩ : SigningBlock) = _
              rw [hc8]
  · rintro ⟨s0, inner, s1, c, rfl, h0, h1, heq, hs, hc, rfl⟩
    obtain ⟨e1, e2, e3, e4⟩ := quarter_slices (inner := inner) h0 h1 magic_len
    have hl : (s0 ++ inner ++ s1 ++ Ksusig.magic).length = inner.length + 32 := by simp [magic_len]; omega
    unfold Narrow.parseFullBlock
    rw [if_neg (by omega), e1, e2, e3, e4]
    refine Res.bind_eq_ok.mpr ⟨Ksusig.magic, rfl, ?_⟩
    rw [if_neg (fun h => h rfl)]
    refine Res.bind_eq_ok.mpr ⟨s0, rfl, ?_⟩
    refine Res.bind_eq_ok.mpr ⟨s1, rfl, ?_⟩
    refine Res.bind_eq_ok.mpr ⟨(), ?_, ?_⟩
    · show debugAssert p (narrowSize s0 == narrowSize s1) = _
      unfold debugAssert
      simp [heq]
    · have hlow : ¬ narrowSize s1 < 8 + 16 := by omega
      have hlow : ¬ Narrow.asUsize (leNat s1) < 8 + 16 := hlow
      rw [if_neg (fun h => h heq), if_neg hlow]
      refine Res.bind_eq_ok.mpr ⟨narrowSize s1 + 8, ?_, ?_⟩
      · show Narrow.uadd p (narrowSize s1) 8 = _
        unfold Narrow.uadd
        rw [if_pos (by omega)]
      · rw [if_neg (fun h => h (by omega))]
        refine Res.bind_eq_ok.mpr ⟨inner, rfl, ?_⟩
        refine Res.bind_eq_ok.mpr ⟨c, hc, ?_⟩
        have hc8 : narrowSize s1 - 8 - 16 = inner.length := by omega
        show (Res.ok (⟨0, _, narrowSize s0, narrowSize s1 - 8 - 16, c, narrowSize s1, Ksusig.magic⟩ : SigningBlock)) = _
        rw [hc8]

theorem full_twin (p : Profile) (d : Bytes) (hd : d.length < 2 ^ 32) (b : SigningBlock) :
    parseFullBlock p d = .ok b ↔ Narrow.parseFullBlock p d = .ok b ∧ Shape d b ∧ ∀ v ∈ b.content, ¬ HasHuge v := by
  rw [full_ok, full_narrow_ok hd]
  constructor
  · rintro ⟨s0, inner, s1, c, rfl, h0, h1, heq, hs, hc, rfl⟩
    have hl : (s0 ++ inner ++ s1 ++ Ksusig.magic).length = inner.length + 32 := by simp [magic_len]; omega
    obtain ⟨h2, h3, h4⟩ := (extract_twin p inner c).mp hc
    have hm1 : narrowSize s1 = leNat s1 := Nat.mod_eq_of_lt (by omega)
    have hm0 : narrowSize s0 = leNat s0 := Nat.mod_eq_of_lt (by omega)
    refine ⟨⟨s0, inner, s1, c, rfl, h0, h1, by rw [hm0, hm1]; exact heq, by rw [hm1]; exact hs, h2, by rw [hm0, hm1]⟩, ⟨inner, ?_, h3⟩, h4⟩
    have e0 := leBytes_leNat s0
    have e1 := leBytes_leNat s1
    rw [h0] at e0
    rw [h1] at e1
    rw [e0, e1]
  · rintro ⟨⟨s0, inner, s1, c, rfl, h0, h1, heq, hs, hc, rfl⟩, ⟨content, hd2, hF⟩, hn⟩
    have hl : (s0 ++ inner ++ s1 ++ Ksusig.magic).length = inner.length + 32 := by simp [magic_len]; omega
    dsimp only at heq hs hd2 hF hn
    rw [List.append_assoc, List.append_assoc, List.append_assoc, List.append_assoc] at hd2
    have hd3 := List.append_inj hd2 (by rw [h0, leBytes_length])
    obtain ⟨ha, hd3⟩ := hd3
    have hlen := congrArg List.length hd3
    simp only [List.length_append, leBytes_length, h1] at hlen
    obtain ⟨hb, hd4⟩ := List.append_inj hd3 (by omega)
    obtain ⟨hcc, _⟩ := List.append_inj hd4 (by rw [h1, leBytes_length])
    subst hb
    have hm1 : leNat s1 = narrowSize s1 := by
      have := congrArg leNat hcc
      rw [leNat_leBytes_of_lt (by have : narrowSize s1 < 2 ^ 32 := Nat.mod_lt _ (by omega)
                                  omega)] at this
      exact this
    have hm0 : leNat s0 = narrowSize s0 := by
      have := congrArg leNat ha
      rw [leNat_leBytes_of_lt (by have : narrowSize s0 < 2 ^ 32 := Nat.mod_lt _ (by omega)
                                  omega)] at this
      exact this
    refine ⟨s0, inner, s1, c, rfl, h0, h1, by omega, by omega, (extract_twin p inner c).mpr ⟨hc, hF, hn⟩, ?_⟩
    rw [← hm0, ← hm1]

/-- The body of the `from_reader` loop, on both. -/
def atWith (pf : Bytes → Res SigningBlock) (file : Bytes) (fl ws : Nat) (window : Bytes) (pos size : Nat) : Res SigningBlock :=
  if size > maxBlockSize then .err .blockTooLarge
  else if size > fl then .err .blockExceedsFile
  else
    let blockEnd := pos + 16
    if blockEnd < size + 8 then
      if ws + blockEnd < size + 8 then .err .beyondData
      else do
        let start := ws + blockEnd - (size + 8)
        let full ← readExactAt file start (size + 8)
        let sig ← pf full
        .ok { sig with fileStart := start, fileEnd := ws + blockEnd }
    else do
      let start := blockEnd - (size + 8)
      let full ← Res.ofOption .beyondData (slice? window start blockEnd)
      let sig ← pf full
      .ok { sig with fileStart := ws + start, fileEnd := ws + blockEnd }

theorem at_eq (p : Profile) (file : Bytes) (fl ws : Nat) (window : Bytes) (pos : Nat) (s : Bytes) :
    fromReaderAt p file fl ws window pos s = atWith (parseFullBlock p) file fl ws window pos (leNat s) := rfl

theorem at_narrow_eq (p : Profile) (file : Bytes) (fl ws : Nat) (window : Bytes) (pos : Nat) (s : Bytes) :
    Narrow.fromReaderAt p file fl ws window pos s = atWith (Narrow.parseFullBlock p) file fl ws window pos (narrowSize s) := rfl

/-- Where the bytes of the block come from. -/
theorem atWith_eq (pf : Bytes → Res SigningBlock) {file window : Bytes} {fl ws n pos size : Nat}
    (hw : slice? file ws (ws + n) = some window) (hpos : pos + 16 ≤ n) :
    (∃ e, atWith pf file fl ws window pos size = .err e ∧ e.isMissing = false ∧ ¬ (size ≤ 16384 ∧ size ≤ fl ∧ size + 8 ≤ ws + pos + 16)) ∨
      (size ≤ 16384 ∧ size ≤ fl ∧ size + 8 ≤ ws + pos + 16 ∧ ∃ full,
      slice? file (ws + pos + 16 - (size + 8)) (ws + pos + 16 - (size + 8) + (size + 8)) = some full ∧
      atWith pf file fl ws window pos size = (pf full).bind fun sig =>
        .ok { sig with fileStart := ws + pos + 16 - (size + 8), fileEnd := ws + pos + 16 }) := by
  obtain ⟨_, hfl, _, _⟩ := slice?_eq_some hw
  unfold atWith
  by_cases h1 : size > maxBlockSize
  · rw [if_pos h1]
    simp only [maxBlockSize] at h1
    exact .inl ⟨_, rfl, rfl, by omega⟩
  · rw [if_neg h1]
    simp only [maxBlockSize] at h1
    by_cases h2 : size > fl
    · rw [if_pos h2]
      exact .inl ⟨_, rfl, rfl, by omega⟩
    · rw [if_neg h2]
      dsimp only
      by_cases h3 : ws + (pos + 16) < size + 8
      · rw [if_pos (by omega), if_pos h3]
        exact .inl ⟨_, rfl, rfl, by omega⟩
      · refine .inr ⟨by omega, by omega, by omega, (file.drop (ws + pos + 16 - (size + 8))).take (size + 8), ?_, ?_⟩
        · rw [slice?_of_le (by omega) (by omega), Nat.add_sub_cancel_left]
        · by_cases h4 : pos + 16 < size + 8
          · rw [if_pos h4, if_neg h3]
            unfold readExactAt
            rw [slice?_of_le (by omega) (by omega), Nat.add_sub_cancel_left, ← Nat.add_assoc]
            rfl
          · rw [if_neg h4, window_slice hw (by omega) (by omega)]
            rw [slice?_of_le (by omega) (by omega)]
            rw [show ws + (pos + 16 - (size + 8)) = ws + pos + 16 - (size + 8) by omega,
              show ws + (pos + 16) = ws + pos + 16 by omega,
              show ws + pos + 16 - (ws + pos + 16 - (size + 8)) = size + 8 by omega]
            rfl

/-- Sizes as written, and no list that is said to be enormous. -/
def Plain (file : Bytes) (b : SigningBlock) : Prop := SizesAsWritten file b ∧ ∀ v ∈ b.content, ¬ HasHuge v

theorem slice_split {d x : Bytes} {a n : Nat} (h : slice? d a (a + n) = some x) :
    ∃ pre post, d = pre ++ x ++ post ∧ pre.length = a ∧ x.length = n := by
  obtain ⟨_, h2, h3, h4⟩ := slice?_eq_some h
  refine ⟨d.take a, d.drop (a + n), ?_, by simp; omega, by omega⟩
  rw [List.append_assoc, ← drop_slice h, List.take_append_drop]

theorem shape_len {d : Bytes} {b : SigningBlock} {content : Bytes} (h : d = leBytes 8 b.sizeStart ++ content ++ leBytes 8 b.sizeEnd ++ Ksusig.magic) :
    d.length = content.length + 32 := by
  rw [h]
  simp only [List.length_append, leBytes_length, magic_len]
  omega

/-- At a magic. -/
theorem at_twin (p : Profile) {file window s : Bytes} {fl ws n pos : Nat} (hw : slice? file ws (ws + n) = some window) (hpos : pos + 16 ≤ n)
    (h8 : 8 ≤ pos) (hs : slice? window (pos - 8) (pos - 8 + 8) = some s) (b : SigningBlock) :
    fromReaderAt p file fl ws window pos s = .ok b ↔ Narrow.fromReaderAt p file fl ws window pos s = .ok b ∧ Plain file b := by
  rw [at_eq, at_narrow_eq]
  have hs' : slice? file (ws + pos - 8) (ws + pos - 8 + 8) = some s := by
    rw [window_slice hw (by omega) (by omega)] at hs
    rw [show ws + pos - 8 = ws + (pos - 8) by omega]
    rw [Nat.add_assoc]
    exact hs
  have hs8 : s.length = 8 := by have := (slice?_eq_some hs').2.2.2; omega
  constructor
  · intro h
    rcases atWith_eq (parseFullBlock p) (fl := fl) (size := leNat s) hw hpos with ⟨e, he, _⟩ | ⟨h1, h2, h3, full, h4, h5⟩
    · rw [he] at h; cases h
    · have hm : narrowSize s = leNat s := Nat.mod_eq_of_lt (by omega)
      rw [h5] at h
      obtain ⟨sig, h6, h7⟩ := Res.bind_eq_ok.mp h
      have hfull : full.length = leNat s + 8 := by have := (slice?_eq_some h4).2.2.2; omega
      obtain ⟨h8', h9, h10⟩ := (full_twin p full (by omega) sig).mp h6
      refine ⟨?_, ?_⟩
      · rw [hm]
        rcases atWith_eq (Narrow.parseFullBlock p) (fl := fl) (size := leNat s) hw hpos with ⟨e, he, _, hno⟩ | ⟨_, _, _, full', h4', h5'⟩
        · exact absurd ⟨h1, h2, h3⟩ hno
        · rw [h4] at h4'
          cases h4'
          rw [h5', h8']
          exact h7
      · cases h7
        obtain ⟨content, hc, hF⟩ := h9
        obtain ⟨pre, post, hd, hp1, hp2⟩ := slice_split h4
        have hlen := shape_len hc
        refine ⟨⟨pre, content, post, by rw [hd, hc], hp1.symm, ?_, hF⟩, h10⟩
        show ws + pos + 16 = _
        omega
  · rintro ⟨h, ⟨pre, content, post, hd, ha, hb, hF⟩, hn⟩
    rcases atWith_eq (Narrow.parseFullBlock p) (fl := fl) (size := narrowSize s) hw hpos with ⟨e, he, _⟩ | ⟨h1, h2, h3, full, h4, h5⟩
    · rw [he] at h; cases h
    · rw [h5] at h
      obtain ⟨sig, h6, h7⟩ := Res.bind_eq_ok.mp h
      have hfull : full.length = narrowSize s + 8 := by have := (slice?_eq_some h4).2.2.2; omega
      obtain ⟨_, hsz, _, _⟩ := full_narrow_size h6
      have h7 := Res.ok.inj h7
      subst h7
      dsimp only at hd ha hb hF hn
      have hl : (leBytes 8 sig.sizeStart ++ content ++ leBytes 8 sig.sizeEnd ++ Ksusig.magic).length = content.length + 32 := shape_len (b := sig) rfl
      have hsame : full = leBytes 8 sig.sizeStart ++ content ++ leBytes 8 sig.sizeEnd ++ Ksusig.magic := by
        obtain ⟨pre', post', hd', hp1, hp2⟩ := slice_split h4
        rw [hd'] at hd
        rw [List.append_assoc, List.append_assoc pre] at hd
        obtain ⟨_, hd⟩ := List.append_inj hd (by omega)
        exact (List.append_inj hd (by omega)).1
      have h64 := (full_twin p full (by omega) sig).mpr ⟨h6, ⟨content, hsame, hF⟩, hn⟩
      have hm : leNat s = narrowSize s := by
        have : s = leBytes 8 sig.sizeEnd := by
          obtain ⟨pre', post', hd', hp1, hp2⟩ := slice_split hs'
          rw [hd'] at hd
          rw [show pre ++ (leBytes 8 sig.sizeStart ++ content ++ leBytes 8 sig.sizeEnd ++ Ksusig.magic) ++ post =
            (pre ++ leBytes 8 sig.sizeStart ++ content) ++ (leBytes 8 sig.sizeEnd ++ (Ksusig.magic ++ post)) by simp [List.append_assoc]] at hd
          rw [List.append_assoc pre'] at hd
          obtain ⟨_, hd⟩ := List.append_inj hd (by simp only [List.length_append, leBytes_length]; omega)
          exact (List.append_inj hd (by rw [leBytes_length]; omega)).1
        have h := congrArg leNat this
        rw [leNat_leBytes_of_lt (by omega)] at h
        have : narrowSize s = leNat s := Nat.mod_eq_of_lt (by omega)
        omega
      rw [hm]
      rcases atWith_eq (parseFullBlock p) (fl := fl) (size := narrowSize s) hw hpos with ⟨e, he, _, hno⟩ | ⟨_, _, _, full', h4', h5'⟩
      · exact absurd ⟨h1, h2, h3⟩ hno
      · rw [h4] at h4'
        cases h4'
        rw [h5', h64]
        rfl

theorem scan_twin (p : Profile) {file window : Bytes} {fl ws n : Nat} (hw : slice? file ws (ws + n) = some window) (b : SigningBlock) :
    ∀ k, k + 15 ≤ n → (fromReaderScan p file fl ws window k = .ok b ↔ Narrow.fromReaderScan p file fl ws window k = .ok b ∧ Plain file b) := by
  intro k
  induction k with
  | zero =>
    intro _
    rw [fromReaderScan, Narrow.fromReaderScan]
    simp
  | succ k ih =>
    intro hk
    have ih := ih (by omega)
    rw [fromReaderScan, Narrow.fromReaderScan]
    cases hm : slice? window k (k + 16) with
    | none => exact ih
    | some m =>
      dsimp only
      by_cases h1 : m = Ksusig.magic
      · rw [if_pos h1, if_pos h1]
        by_cases h2 : k < 8
        · rw [if_pos h2, if_pos h2]
          exact ih
        · rw [if_neg h2, if_neg h2]
          cases hs : slice? window (k - 8) (k - 8 + 8) with
          | none => exact ih
          | some s => exact at_twin p hw (by omega) (by omega) hs b
      · rw [if_neg h1, if_neg h1]
        exact ih

theorem reader_twin (p : Profile) (file : Bytes) (fl eo : Nat) (b : SigningBlock) :
    SigningBlock.fromReader p file fl eo = .ok b ↔ Narrow.fromReader p file fl eo = .ok b ∧ Plain file b := by
  unfold SigningBlock.fromReader Narrow.fromReader
  dsimp only
  by_cases h : min (fl - eo) maxWindow < 16 + 8
  · rw [if_pos h, if_pos h]
    simp
  · rw [if_neg h, if_neg h]
    unfold readExactAt
    cases hw : slice? file (fl - eo - min (fl - eo) maxWindow) (fl - eo - min (fl - eo) maxWindow + min (fl - eo) maxWindow) with
    | none =>
      constructor
      · intro h; cases h
      · rintro ⟨h, _⟩; cases h
    | some w => exact scan_twin p hw b _ (by omega)

end Ksusig
