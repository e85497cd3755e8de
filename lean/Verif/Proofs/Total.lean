import Verif.Model.SigningBlock
import Verif.Proofs.Bytes
import Verif.Spec

/-! Every parser terminates, never panics, stays in bounds, only moves forward, and stores no more bytes
than it consumes. -/

namespace Ksusig

/-- Not exhausted fuel, and not one of the errors that stand for "unsigned". -/
def Err.real : Err → Bool
  | .fuel => false
  | .magicNotFound => false
  | .moduleIsRaw => false
  | _ => true

theorem Err.real_ne {e : Err} (h : e.real = true) : e ≠ .fuel := by rintro rfl; cases h

/-- With `n` bytes of credit: a successful run moves forward inside the data by at least `w a - n`; failures
are real errors, never a panic and never exhausted fuel. -/
def Good (n : Nat) (p : P α) (w : α → Nat) : Prop :=
  ∀ r : Reader, r.pos ≤ r.data.length →
    match p r with
    | .ok (a, r') => r'.data = r.data ∧ r.pos ≤ r'.pos ∧ r.pos + w a ≤ r'.pos + n ∧ r'.pos ≤ r.data.length
    | .err e => e.real = true
    | .panic => False

theorem P.asSlice_eq (m : Nat) (r : Reader) : P.asSlice m r = match slice? r.data r.pos (r.pos + m) with
      | some d => .ok (⟨d, 0⟩, ⟨r.data, r.pos + m⟩)
      | none => .err .outOfBounds := by
  unfold P.asSlice
  rw [P.bind_def]
  unfold P.getTo
  cases slice? r.data r.pos (r.pos + m) <;> rfl

namespace Good

theorem ok {n : Nat} {p : P α} {w : α → Nat} (h : Good n p w) {r r' : Reader} {a : α}
    (hr : r.pos ≤ r.data.length) (he : p r = .ok (a, r')) :
    r'.data = r.data ∧ r.pos ≤ r'.pos ∧ r.pos + w a ≤ r'.pos + n ∧ r'.pos ≤ r.data.length := by
  have := h r hr
  rw [he] at this
  exact this

theorem pure {n : Nat} {a : α} {w : α → Nat} (h : w a ≤ n) : Good n (Pure.pure a : P α) w := by
  intro r hr
  exact ⟨rfl, Nat.le_refl _, by omega, hr⟩

theorem fail {n : Nat} {e : Err} {w : α → Nat} (h : e.real = true) : Good n (P.fail e : P α) w := by
  intro r _; exact h

theorem bind {n : Nat} {p : P α} {f : α → P β} {w1 : α → Nat} {w : β → Nat}
    (hp : Good 0 p w1) (hf : ∀ a, Good (n + w1 a) (f a) w) : Good n (p >>= f) w := by
  intro r hr
  rw [P.bind_def]
  have h1 := hp r hr
  cases hpr : p r with
  | ok x =>
    obtain ⟨a, r1⟩ := x
    rw [hpr] at h1
    obtain ⟨hd, hm, hw, hl⟩ := h1
    have h2 := hf a r1 (by rw [hd]; exact hl)
    simp only [Res.bind_ok]
    cases hfr : f a r1 with
    | ok y =>
      obtain ⟨b, r2⟩ := y
      rw [hfr] at h2
      obtain ⟨hd2, hm2, hw2, hl2⟩ := h2
      exact ⟨by rw [hd2, hd], by omega, by omega, by rw [hd] at hl2; exact hl2⟩
    | err e => rw [hfr] at h2; exact h2
    | panic => rw [hfr] at h2; exact h2
  | err e => rw [hpr] at h1; exact h1
  | panic => rw [hpr] at h1; exact h1

theorem bindPure {n : Nat} {p : P α} {g : α → β} {w1 : α → Nat} {w : β → Nat}
    (hp : Good 0 p w1) (h : ∀ a, w (g a) ≤ n + w1 a) : Good n (p >>= fun x => Pure.pure (g x)) w :=
  bind hp fun a => Good.pure (h a)

theorem mono {n : Nat} {p : P α} {w w' : α → Nat} (h : Good n p w) (hw : ∀ a, w' a ≤ w a) : Good n p w' := by
  intro r hr
  have := h r hr
  split at this
  · rename_i a r' heq
    have hw := hw a
    exact ⟨this.1, this.2.1, by omega, this.2.2.2⟩
  · exact this
  · exact this.elim

theorem getTo (n : Nat) : Good 0 (P.getTo n) (fun d => max n d.length) := by
  intro r hr
  unfold P.getTo
  cases h : slice? r.data r.pos (r.pos + n) with
  | none => simp [Err.real]
  | some d =>
    obtain ⟨_, h2, _, h4⟩ := slice?_eq_some h
    simp only
    refine ⟨trivial, by omega, by omega, h2⟩

theorem readLe (n : Nat) : Good 0 (P.readLe n) (fun _ => n) :=
  bindPure (getTo n) fun a => by omega

theorem readSize : Good 0 P.readSize (fun _ => 4) := readLe 4
theorem readSizeU64 : Good 0 P.readSizeU64 (fun _ => 8) := readLe 8
theorem readU16 : Good 0 P.readU16 (fun _ => 2) := bindPure (readLe 2) fun _ => by omega
theorem readU32 : Good 0 P.readU32 (fun _ => 4) := bindPure (readLe 4) fun _ => by omega
theorem readU64 : Good 0 P.readU64 (fun _ => 8) := bindPure (readLe 8) fun _ => by omega

theorem getPos : Good 0 P.getPos (fun _ => 0) := by
  intro r hr; exact ⟨rfl, Nat.le_refl _, by simp, hr⟩

/-- Parsing a sub-slice: the consumption of the inner parser is covered by the slice. -/
theorem sub {n m : Nat} {q : Reader → P α} {w1 : α → Nat} {k : α → P β} {w : β → Nat}
    (hq : ∀ s, Good 0 (q s) w1) (hk : ∀ a, Good (n + w1 a) (k a) w) :
    Good n (do let s ← P.asSlice m; let x ← P.on s (q s); k x) w := by
  intro r hr
  rw [P.bind_def]
  rw [P.asSlice_eq]
  cases hsl : slice? r.data r.pos (r.pos + m) with
  | none => simp [Err.real]
  | some d =>
    obtain ⟨_, h2, _, h4⟩ := slice?_eq_some hsl
    simp only [Res.bind_ok]
    have h1 := hq ⟨d, 0⟩ ⟨d, 0⟩ (Nat.zero_le _)
    rw [P.bind_def]
    unfold P.on
    cases hqr : q ⟨d, 0⟩ ⟨d, 0⟩ with
    | ok x =>
      obtain ⟨a, r1⟩ := x
      rw [hqr] at h1
      obtain ⟨_, hm, hw, hl⟩ := h1
      simp only [Res.bind_ok]
      simp only at hw hl hm
      have h3 := hk a ⟨r.data, r.pos + m⟩ h2
      cases hkr : k a ⟨r.data, r.pos + m⟩ with
      | ok y =>
        obtain ⟨b, r2⟩ := y
        rw [hkr] at h3
        obtain ⟨hd2, hm2, hw2, hl2⟩ := h3
        simp only at hd2 hm2 hw2 hl2
        exact ⟨hd2, by omega, by omega, hl2⟩
      | err e => rw [hkr] at h3; exact h3
      | panic => rw [hkr] at h3; exact h3
    | err e => rw [hqr] at h1; exact h1
    | panic => rw [hqr] at h1; exact h1

theorem sub' {n m : Nat} {q : P α} {w : α → Nat} (hq : Good n q w) :
    Good n (do let s ← P.asSlice m; P.on s q) w := by
  intro r hr
  rw [P.bind_def]
  rw [P.asSlice_eq]
  cases hsl : slice? r.data r.pos (r.pos + m) with
  | none => simp [Err.real]
  | some d =>
    obtain ⟨_, h2, _, h4⟩ := slice?_eq_some hsl
    simp only [Res.bind_ok]
    have h1 := hq ⟨d, 0⟩ (Nat.zero_le _)
    unfold P.on
    cases hqr : q ⟨d, 0⟩ with
    | ok x =>
      obtain ⟨a, r1⟩ := x
      rw [hqr] at h1
      obtain ⟨_, hm, hw, hl⟩ := h1
      simp only at hw hl hm
      exact ⟨rfl, by omega, by simp only; omega, h2⟩
    | err e => rw [hqr] at h1; exact h1
    | panic => rw [hqr] at h1; exact h1

theorem whileLt {item : P α} {w1 : α → Nat} (h : Good 0 item w1) (hpos : ∀ a, 1 ≤ w1 a) (max : Nat) :
    ∀ (f : Nat) (r : Reader), r.pos ≤ r.data.length → r.data.length < r.pos + f →
      match P.whileLt item max f r with
      | .ok (l, r') => r'.data = r.data ∧ r.pos ≤ r'.pos ∧ r.pos + (l.map w1).sum ≤ r'.pos ∧
          r'.pos ≤ r.data.length
      | .err e => e.real = true
      | .panic => False := by
  intro f
  induction f with
  | zero => intro r hr hf; omega
  | succ f ih =>
    intro r hr hf
    rw [P.whileLt]
    by_cases hlt : r.pos < max
    · simp only [hlt, if_true]
      have h1 := h r hr
      cases hir : item r with
      | ok x =>
        obtain ⟨a, r1⟩ := x
        rw [hir] at h1
        obtain ⟨hd, hm, hw, hl⟩ := h1
        have hp := hpos a
        have h2 := ih r1 (by rw [hd]; exact hl) (by rw [hd]; omega)
        simp only [Res.bind_ok]
        cases hwr : P.whileLt item max f r1 with
        | ok y =>
          obtain ⟨l, r2⟩ := y
          rw [hwr] at h2
          obtain ⟨hd2, hm2, hw2, hl2⟩ := h2
          simp only [Res.bind_ok, List.map_cons, List.sum_cons]
          exact ⟨by rw [hd2, hd], by omega, by omega, by rw [hd] at hl2; exact hl2⟩
        | err e => rw [hwr] at h2; exact h2
        | panic => rw [hwr] at h2; exact h2
      | err e => rw [hir] at h1; exact h1
      | panic => rw [hir] at h1; exact h1
    · simp only [hlt, if_false]
      exact ⟨trivial, Nat.le_refl _, by simp, hr⟩

theorem loopTo {item : P α} {w1 : α → Nat} (h : Good 0 item w1) (hpos : ∀ a, 1 ≤ w1 a) (max : Nat) :
    Good 0 (P.loopTo item max) (fun l => (l.map w1).sum) := by
  intro r hr
  unfold P.loopTo
  have := whileLt h hpos max (r.data.length + 1) r hr (by omega)
  cases hw : P.whileLt item max (r.data.length + 1) r with
  | ok x => rw [hw] at this; exact this
  | err e => rw [hw] at this; exact this
  | panic => rw [hw] at this; exact this

theorem repeatN {item : P α} {w1 : α → Nat} (h : Good 0 item w1) (n : Nat) :
    Good 0 (P.repeatN item n) (fun l => (l.map w1).sum) := by
  induction n with
  | zero => exact Good.pure (by simp)
  | succ n ih =>
    refine bind h fun a => ?_
    exact bindPure ih fun l => by simp

end Good

/-! ### The parsers -/

theorem Digest.good : Good 0 Digest.parse Digest.weight := by
  refine .bind .readSize fun size => .bind .readU32 fun id => .bind .readSize fun n => ?_
  exact .bindPure (.getTo n) fun d => by simp only [Digest.weight]; omega

theorem Digests.good : Good 0 Digests.parse Digests.weight := by
  refine .bind .readSize fun size => ?_
  refine Good.sub (q := fun _ => P.loopTo Digest.parse size) (k := fun ds => Pure.pure (⟨size, ds⟩ : Digests))
    (fun _ => .loopTo Digest.good (fun a => by simp only [Digest.weight]; omega) _) fun l => ?_
  exact .pure (by simp only [Digests.weight]; omega)

theorem Cert.good : Good 0 Cert.parse Cert.weight := by
  refine .bind .readSize fun size => ?_
  exact .bindPure (.getTo _) fun d => by simp only [Cert.weight]; omega

theorem Certs.good : Good 0 Certs.parse Certs.weight := by
  refine .bind .readSize fun size => .bind .getPos fun pos => ?_
  exact .bindPure (.loopTo Cert.good (fun a => by simp only [Cert.weight]; omega) _) fun l => by
    simp only [Certs.weight]; omega

theorem Attr.good : Good 0 Attr.parse Attr.weight := by
  refine .bind .readSize fun size => .bind .readU32 fun id => ?_
  split
  · exact .fail (by decide)
  · exact .bindPure (.getTo _) fun d => by simp only [Attr.weight]; omega

theorem Attrs.good : Good 0 Attrs.parse Attrs.weight := by
  refine .bind .readSize fun size => .bind .getPos fun pos => ?_
  exact .bindPure (.loopTo Attr.good (fun a => by simp only [Attr.weight]; omega) _) fun l => by
    simp only [Attrs.weight]; omega

theorem Sig.good : Good 0 Sig.parse Sig.weight := by
  refine .bind .readSize fun size => .bind .readU32 fun id => .bind .readSize fun n => ?_
  exact .bindPure (.getTo n) fun d => by simp only [Sig.weight]; omega

theorem Sigs.good : Good 0 Sigs.parse Sigs.weight := by
  refine .bind .readSize fun size => ?_
  split
  · exact .pure (by simp [Sigs.weight])
  · refine .bind .getPos fun pos => ?_
    exact .bindPure (.loopTo Sig.good (fun a => by simp only [Sig.weight]; omega) _) fun l => by
      simp only [Sigs.weight]; omega

theorem PubKey.good : Good 0 PubKey.parse PubKey.weight := by
  refine .bind .readSize fun size => ?_
  exact .bindPure (.getTo _) fun d => by simp only [PubKey.weight]; omega

theorem SignedDataV2.good :
    Good 0 SignedDataV2.parse (fun s => 4 + (s.digests.weight + s.certs.weight + s.attrs.weight)) := by
  refine .bind .readSize fun size => Good.sub' ?_
  refine .bind Digests.good fun d => .bind Certs.good fun c => .bindPure Attrs.good fun a => ?_
  simp only; omega

theorem SignedDataStamp.good :
    Good 0 SignedDataStamp.parse (fun s => 4 + (s.digests.weight + s.certs.weight + s.attrs.weight)) := by
  refine .bind .readSize fun size => Good.sub' ?_
  refine .bind Digests.good fun d => .bind Certs.good fun c => .bindPure Attrs.good fun a => ?_
  simp only; omega

theorem SignerV2.good : Good 0 SignerV2.parse SignerV2.weight := by
  refine .bind .readSize fun size => .bind SignedDataV2.good fun sd => .bind Sigs.good fun ss =>
    .bindPure PubKey.good fun k => ?_
  simp only [SignerV2.weight]; omega

theorem SignersV2.good : Good 0 SignersV2.parse (fun s => 4 + (s.data.map SignerV2.weight).sum) := by
  refine .bind .readSize fun size => ?_
  refine Good.sub (q := fun s => P.loopTo SignerV2.parse s.data.length) (k := fun ss => Pure.pure (⟨size, ss⟩ : SignersV2))
    (fun _ => .loopTo SignerV2.good (fun a => by simp only [SignerV2.weight]; omega) _) fun l => ?_
  exact .pure (by simp only; omega)

theorem SchemeV2.good (size : Nat) (id : UInt32) :
    Good 0 (SchemeV2.parse size id) (fun s => 4 + (s.signers.data.map SignerV2.weight).sum) :=
  .bindPure SignersV2.good fun s => by simp only; omega

theorem StampBlock.good : Good 0 StampBlock.parse StampBlock.weight := by
  refine .bind .readSize fun size => Good.sub' ?_
  refine .bind SignedDataStamp.good fun sd => .bind Sigs.good fun ss => .bindPure PubKey.good fun k => ?_
  simp only [StampBlock.weight]; omega

theorem SourceStamp.good (size : Nat) (id : UInt32) :
    Good 0 (SourceStamp.parse size id) (fun s => s.block.weight) :=
  .bindPure StampBlock.good fun s => by simp only; omega

theorem SectionEntry.good : Good 0 SectionEntry.parse SectionEntry.weight := by
  refine .bind .readU16 fun n => .bind (.getTo _) fun name => ?_
  split
  · refine .bind .readU64 fun o => .bindPure .readU64 fun s => ?_
    simp only [SectionEntry.weight]; omega
  · exact .fail (by decide)

theorem ElfSectionInfo.good (size : Nat) (id : UInt32) :
    Good 0 (ElfSectionInfo.parse size id) (fun e => 4 + (e.sections.map SectionEntry.weight).sum) := by
  refine .bind .readU32 fun c => .bindPure (.repeatN SectionEntry.good _) fun l => ?_
  simp only; omega

theorem Value.good_on (s : Reader) (hs : s.pos = 0) {q : P α} {w : α → Nat} (g : α → Value) (hq : Good 0 q w)
    (hw : ∀ a, (g a).weight ≤ 12 + w a) :
    Good (12 + s.data.length) (P.on s q >>= fun x => (Pure.pure (g x) : P Value)) Value.weight := by
  intro r hr
  have h1 := hq s (by omega)
  rw [P.bind_def]
  unfold P.on
  cases hqr : q s with
  | ok x =>
    obtain ⟨a, r1⟩ := x
    rw [hqr] at h1
    obtain ⟨_, _, h3, h4⟩ := h1
    have := hw a
    simp only [Res.bind_ok, P.pure_def]
    exact ⟨trivial, Nat.le_refl _, by omega, hr⟩
  | err e => rw [hqr] at h1; exact h1
  | panic => rw [hqr] at h1; exact h1

theorem Value.good_body (ps : Nat) (id : UInt32) (s : Reader) (hs : s.pos = 0) :
    Good (12 + s.data.length) (Value.parseBody ps id s) Value.weight := by
  unfold Value.parseBody
  split
  · exact Value.good_on s hs Value.v2 (SchemeV2.good ps id) fun a => by simp only [Value.weight]; omega
  · split
    · exact Value.good_on s hs Value.stamp (SourceStamp.good ps id) fun a => by simp only [Value.weight]; omega
    · split
      · exact Value.good_on s hs Value.elf (ElfSectionInfo.good ps id) fun a => by simp only [Value.weight]; omega
      · exact .pure (by simp only [Value.weight]; omega)

theorem Value.good : Good 0 Value.parse Value.weight := by
  refine .bind .readSizeU64 fun ps => ?_
  split
  · exact .fail (by decide)
  · refine .bind .readU32 fun id => ?_
    split
    · exact .fail (by decide)
    · intro r hr
      rw [P.bind_def, P.asSlice_eq]
      cases hsl : slice? r.data r.pos (r.pos + (ps - 4)) with
      | none => simp [Err.real]
      | some d =>
        obtain ⟨_, h2, _, h4⟩ := slice?_eq_some hsl
        simp only [Res.bind_ok]
        have h1 := Value.good_body ps id ⟨d, 0⟩ rfl ⟨r.data, r.pos + (ps - 4)⟩ h2
        cases hv : Value.parseBody ps id ⟨d, 0⟩ ⟨r.data, r.pos + (ps - 4)⟩ with
        | ok x =>
          obtain ⟨v, r1⟩ := x
          rw [hv] at h1
          obtain ⟨h5, h6, h7, h8⟩ := h1
          simp only at h5 h6 h7 h8
          exact ⟨h5, by omega, by omega, h8⟩
        | err e => rw [hv] at h1; exact h1
        | panic => rw [hv] at h1; exact h1

theorem extractValues_total (d : Bytes) :
    match extractValues d with
    | .ok vs => (vs.map Value.weight).sum ≤ d.length
    | .err e => e.real = true
    | .panic => False := by
  have h := Good.loopTo Value.good (fun a => by cases a <;> simp only [Value.weight] <;> omega) d.length
    (Reader.new d) (Nat.zero_le _)
  unfold extractValues
  cases hl : P.loopTo Value.parse d.length (Reader.new d) with
  | ok x =>
    obtain ⟨vs, r⟩ := x
    rw [hl] at h
    obtain ⟨_, _, h3, h4⟩ := h
    simp only [Reader.new] at h3 h4
    simp only; omega
  | err e => rw [hl] at h; exact h
  | panic => rw [hl] at h; exact h

end Ksusig
