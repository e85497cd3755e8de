import Verif.Proofs.Narrow
import Verif.Proofs.NoElf
import Verif.Proofs.Anatomy

/-! The 32-bit decoder never mistakes a bad block for a missing one; end record, offsets and digests of files below 4 GiB. -/

namespace Ksusig

open Spec

/-- Failures of `q` do not read "unsigned". -/
def NoMiss (q : P α) : Prop := ∀ r e, q r = .err e → e.isMissing = false

namespace NoMiss

theorem pure (a : α) : NoMiss (Pure.pure a : P α) := by
  intro r e h
  cases h

theorem fail {e : Err} (h : e.isMissing = false) : NoMiss (P.fail e : P α) := by
  intro r e' h'
  cases h'
  exact h

theorem bind {q : P α} {f : α → P β} (h : NoMiss q) (h' : ∀ a, NoMiss (f a)) : NoMiss (q >>= f) := by
  intro r e he
  rw [P.bind_def] at he
  cases hq : q r with
  | ok x =>
    obtain ⟨a, r1⟩ := x
    rw [hq] at he
    exact h' a r1 e he
  | err e' =>
    rw [hq] at he
    cases he
    exact h r e hq
  | panic => rw [hq] at he; cases he

theorem ite {c : Prop} [Decidable c] {q q' : P α} (h : NoMiss q) (h' : NoMiss q') : NoMiss (if c then q else q') := by
  split
  · exact h
  · exact h'

theorem getTo (n : Nat) : NoMiss (P.getTo n) := by
  intro r e h
  unfold P.getTo at h
  split at h
  · cases h
  · cases h; rfl

theorem asSlice (n : Nat) : NoMiss (P.asSlice n) := bind (getTo n) fun _ => pure _
theorem readLe (n : Nat) : NoMiss (P.readLe n) := bind (getTo n) fun _ => pure _
theorem readSize : NoMiss P.readSize := readLe 4
theorem readU16 : NoMiss P.readU16 := bind (readLe 2) fun _ => pure _
theorem readU32 : NoMiss P.readU32 := bind (readLe 4) fun _ => pure _
theorem readU64 : NoMiss P.readU64 := bind (readLe 8) fun _ => pure _

theorem getPos : NoMiss P.getPos := by
  intro r e h
  cases h

theorem on (s : Reader) {q : P α} (h : NoMiss q) : NoMiss (P.on s q) := by
  intro r e he
  unfold P.on at he
  cases hq : q s with
  | ok x => rw [hq] at he; cases he
  | err e' => rw [hq] at he; cases he; exact h s e hq
  | panic => rw [hq] at he; cases he

theorem whileLt {item : P α} (h : NoMiss item) (max : Nat) : ∀ f, NoMiss (P.whileLt item max f)
  | 0 => by
    intro r e he
    rw [P.whileLt] at he
    dsimp only at he
    split at he
    · cases he; rfl
    · cases he
  | f + 1 => by
    intro r e he
    rw [P.whileLt] at he
    dsimp only at he
    split at he
    · cases hi : item r with
      | ok x =>
        obtain ⟨a, r1⟩ := x
        rw [hi] at he
        simp only [Res.bind_ok] at he
        cases hw : P.whileLt item max f r1 with
        | ok y => rw [hw] at he; cases he
        | err e' =>
          rw [hw] at he
          cases he
          exact whileLt h max f r1 e hw
        | panic => rw [hw] at he; cases he
      | err e' => rw [hi] at he; cases he; exact h r e hi
      | panic => rw [hi] at he; cases he
    · cases he

theorem loopTo {item : P α} (h : NoMiss item) (max : Nat) : NoMiss (P.loopTo item max) := fun r e he => whileLt h max _ r e he

theorem repeatN {item : P α} (h : NoMiss item) : ∀ n, NoMiss (P.repeatN item n)
  | 0 => pure _
  | n + 1 => bind h fun _ => bind (repeatN h n) fun _ => pure _

theorem sum (p : Profile) (a b : Nat) : NoMiss (Narrow.sum p a b) := by
  intro r e he
  unfold Narrow.sum Narrow.uadd at he
  split at he
  · cases he
  · rename_i h
    split at h
    · cases h
    · cases p <;> cases h
  · cases he

theorem reserve (n : Nat) : NoMiss (Narrow.reserve n) := by
  intro r e he
  unfold Narrow.reserve at he
  split at he <;> cases he

theorem digest : NoMiss Digest.parse := bind readSize fun _ => bind readU32 fun _ => bind readSize fun _ => bind (getTo _) fun _ => pure _
theorem digests : NoMiss Digests.parse := bind readSize fun _ => bind (asSlice _) fun _ => bind (on _ (loopTo digest _)) fun _ => pure _
theorem cert : NoMiss Cert.parse := bind readSize fun _ => bind (getTo _) fun _ => pure _
theorem sig : NoMiss Sig.parse := bind readSize fun _ => bind readU32 fun _ => bind readSize fun _ => bind (getTo _) fun _ => pure _
theorem attr : NoMiss Attr.parse := bind readSize fun _ => bind readU32 fun _ => ite (fail rfl) (bind (getTo _) fun _ => pure _)
theorem pubKey : NoMiss PubKey.parse := bind readSize fun _ => bind (getTo _) fun _ => pure _

theorem certs (p : Profile) : NoMiss (Narrow.certs p) :=
  bind readSize fun _ => bind getPos fun _ => bind (sum _ _ _) fun _ => bind (loopTo cert _) fun _ => pure _
theorem attrs (p : Profile) : NoMiss (Narrow.attrs p) :=
  bind readSize fun _ => bind getPos fun _ => bind (sum _ _ _) fun _ => bind (loopTo attr _) fun _ => pure _
theorem sigs (p : Profile) : NoMiss (Narrow.sigs p) :=
  bind readSize fun _ => ite (pure _) (bind getPos fun _ => bind (sum _ _ _) fun _ => bind (loopTo sig _) fun _ => pure _)
theorem signedV2 (p : Profile) : NoMiss (Narrow.signedV2 p) :=
  bind readSize fun _ => bind (asSlice _) fun _ => on _ (bind digests fun _ => bind (certs p) fun _ => bind (attrs p) fun _ => pure _)
theorem signerV2 (p : Profile) : NoMiss (Narrow.signerV2 p) :=
  bind readSize fun _ => bind (signedV2 p) fun _ => bind (sigs p) fun _ => bind pubKey fun _ => pure _
theorem signersV2 (p : Profile) : NoMiss (Narrow.signersV2 p) :=
  bind readSize fun _ => bind (asSlice _) fun _ => bind (on _ (loopTo (signerV2 p) _)) fun _ => pure _
theorem signedStamp (p : Profile) : NoMiss (Narrow.signedStamp p) :=
  bind readSize fun _ => bind (asSlice _) fun _ => on _ (bind digests fun _ => bind (certs p) fun _ => bind (attrs p) fun _ => pure _)
theorem stampBlock (p : Profile) : NoMiss (Narrow.stampBlock p) :=
  bind readSize fun _ => bind (asSlice _) fun _ => on _ (bind (signedStamp p) fun _ => bind (sigs p) fun _ => bind pubKey fun _ => pure _)
theorem section' : NoMiss SectionEntry.parse :=
  bind readU16 fun _ => bind (getTo _) fun _ => ite (bind readU64 fun _ => bind readU64 fun _ => pure _) (fail rfl)
theorem elfInfo (n : Nat) (id : UInt32) : NoMiss (Narrow.elfInfo n id) :=
  bind readU32 fun _ => bind (reserve _) fun _ => bind (repeatN section' _) fun _ => pure _
theorem parseBody (p : Profile) (n : Nat) (id : UInt32) (s : Reader) : NoMiss (Narrow.parseBody p n id s) :=
  ite (bind (on _ (bind (signersV2 p) fun _ => pure _)) fun _ => pure _)
    (ite (bind (on _ (bind (stampBlock p) fun _ => pure _)) fun _ => pure _) (ite (bind (on _ (elfInfo _ _)) fun _ => pure _) (pure _)))
theorem parse (p : Profile) : NoMiss (Narrow.parse p) :=
  bind (bind (readLe 8) fun _ => pure _) fun _ => ite (fail rfl) (bind readU32 fun _ => ite (fail rfl) (bind (asSlice _) fun _ => parseBody _ _ _ _))

end NoMiss

theorem extract_not_missing {p : Profile} {d : Bytes} {e : Err} (h : Narrow.extractValues p d = .err e) : e.isMissing = false := by
  unfold Narrow.extractValues at h
  cases hl : P.loopTo (Narrow.parse p) d.length (Reader.new d) with
  | ok x => rw [hl] at h; cases h
  | err e' => rw [hl] at h; cases h; exact NoMiss.loopTo (NoMiss.parse p) _ _ _ hl
  | panic => rw [hl] at h; cases h

theorem bind_err {x : Res α} {f : α → Res β} {e : Err} : (x >>= f) = .err e ↔ x = .err e ∨ ∃ a, x = .ok a ∧ f a = .err e := by
  cases x with
  | ok a => simp
  | err e' => simp
  | panic => simp

theorem ofOption_err {x : Option α} {e e' : Err} (h : Res.ofOption e x = .err e') : e' = e := by
  cases x <;> cases h
  rfl

/-- With the magic at its end. -/
theorem full_not_missing {p : Profile} {d : Bytes} {e : Err} (hm : slice? d (d.length - 16) d.length = some Ksusig.magic)
    (h : Narrow.parseFullBlock p d = .err e) : e.isMissing = false := by
  unfold Narrow.parseFullBlock at h
  split at h
  · cases h; rfl
  · rw [hm] at h
    rcases bind_err.mp h with h | ⟨m, hx, h⟩
    · cases h
    · cases hx
      rw [if_neg (fun h => h rfl)] at h
      rcases bind_err.mp h with h | ⟨m, _, h⟩
      · cases ofOption_err h; rfl
      · rcases bind_err.mp h with h | ⟨m, _, h⟩
        · cases ofOption_err h; rfl
        · rcases bind_err.mp h with h | ⟨m, _, h⟩
          · unfold debugAssert at h
            split at h <;> cases h
          · split at h
            · cases h; rfl
            · split at h
              · cases h; rfl
              · rcases bind_err.mp h with h | ⟨m, _, h⟩
                · unfold Narrow.uadd at h
                  split at h
                  · cases h
                  · cases p <;> cases h
                · split at h
                  · cases h; rfl
                  · rcases bind_err.mp h with h | ⟨m, _, h⟩
                    · cases ofOption_err h; rfl
                    · rcases bind_err.mp h with h | ⟨m, _, h⟩
                      · exact extract_not_missing h
                      · cases h

/-- At a magic. -/
theorem at_not_missing {p : Profile} {file window s : Bytes} {fl ws n pos : Nat} (hw : slice? file ws (ws + n) = some window) (hpos : pos + 16 ≤ n)
    (hm : slice? window pos (pos + 16) = some Ksusig.magic) {e : Err} (h : Narrow.fromReaderAt p file fl ws window pos s = .err e) : e.isMissing = false := by
  rw [at_narrow_eq] at h
  rcases atWith_eq (Narrow.parseFullBlock p) (fl := fl) (size := narrowSize s) hw hpos with ⟨e', he, hm', _⟩ | ⟨h1, h2, h3, full, h4, h5⟩
  · rw [he] at h
    cases h
    exact hm'
  · rw [h5] at h
    rcases bind_err.mp h with h | ⟨m, _, h⟩
    · have hlen : full.length = narrowSize s + 8 := by have := (slice?_eq_some h4).2.2.2; omega
      by_cases hs : 8 ≤ narrowSize s
      · refine full_not_missing ?_ h
        rw [window_slice h4 (by omega) (by omega), hlen]
        rw [window_slice hw (by omega) (by omega)] at hm
        rw [← hm]
        congr 1 <;> omega
      · unfold Narrow.parseFullBlock at h
        rw [if_pos (by omega)] at h
        cases h
        rfl
    · cases h

theorem scan_missing (p : Profile) {file window : Bytes} {fl ws n : Nat} (hw : slice? file ws (ws + n) = some window) :
    ∀ k, k + 15 ≤ n → ((∃ e, fromReaderScan p file fl ws window k = .err e ∧ e.isMissing = true) ↔
      ∃ e, Narrow.fromReaderScan p file fl ws window k = .err e ∧ e.isMissing = true) := by
  intro k
  induction k with
  | zero =>
    intro _
    rw [fromReaderScan, Narrow.fromReaderScan]
  | succ k ih =>
    intro hk
    have ih := ih (by omega)
    rw [fromReaderScan, Narrow.fromReaderScan]
    cases hm : slice? window k (k + 16) with
    | none => exact ih
    | some m =>
      dsimp only
      by_cases h1 : m = Ksusig.magic
      · rw [if_pos h1, if_pos h1]
        by_cases h2 : k < 8
        · rw [if_pos h2, if_pos h2]
          exact ih
        · rw [if_neg h2, if_neg h2]
          cases hs : slice? window (k - 8) (k - 8 + 8) with
          | none => exact ih
          | some s =>
            subst h1
            dsimp only
            constructor
            · rintro ⟨e, he, hmiss⟩
              rw [Err.real_present (fromReaderAt_real hw hm he)] at hmiss
              cases hmiss
            · rintro ⟨e, he, hmiss⟩
              rw [at_not_missing hw (by omega) hm he] at hmiss
              cases hmiss
      · rw [if_neg h1, if_neg h1]
        exact ih

theorem reader_missing (p : Profile) (file : Bytes) (fl eo : Nat) :
    (∃ e, SigningBlock.fromReader p file fl eo = .err e ∧ e.isMissing = true) ↔ ∃ e, Narrow.fromReader p file fl eo = .err e ∧ e.isMissing = true := by
  unfold SigningBlock.fromReader Narrow.fromReader
  dsimp only
  by_cases h : min (fl - eo) maxWindow < 16 + 8
  · rw [if_pos h, if_pos h]
  · rw [if_neg h, if_neg h]
    unfold readExactAt
    cases hw : slice? file (fl - eo - min (fl - eo) maxWindow) (fl - eo - min (fl - eo) maxWindow + min (fl - eo) maxWindow) with
    | none =>
      constructor <;> rintro ⟨e, he, hm⟩ <;> cases he <;> cases hm
    | some w => exact scan_missing p hw _ (by omega)

theorem bind_same {x : Res α} {f g : α → Res β} (h : ∀ a, f a = g a) : (x >>= f) = (x >>= g) := by
  rw [funext h]

theorem bind_same' {x : Res α} {f g : α → Res β} (h : ∀ a, x = .ok a → f a = g a) : (x >>= f) = (x >>= g) := by
  cases x with
  | ok a => exact h a rfl
  | err e => rfl
  | panic => rfl

/-- The end record. -/
theorem eocdAt_eq (p : Profile) {buffer : Bytes} {offset bo fl : Nat} (h : bo + offset + 65557 < 2 ^ 32) :
    Narrow.parseEocdAt p buffer offset bo fl = parseEocdAt buffer offset bo fl := by
  unfold Narrow.parseEocdAt parseEocdAt
  refine bind_same fun data => ?_
  by_cases hd : data.length < minEocdSize
  · rw [if_pos hd, if_pos hd]
  rw [if_neg hd, if_neg hd]
  refine bind_same fun _ => ?_
  refine bind_same fun _ => ?_
  refine bind_same fun _ => ?_
  refine bind_same fun _ => ?_
  refine bind_same fun _ => ?_
  refine bind_same fun _ => ?_
  refine bind_same fun _ => ?_
  refine bind_same fun commentLen => ?_
  have hc := commentLen.toNat_lt
  have e : Narrow.uadd p (bo + offset) (minEocdSize + commentLen.toNat) = .ok (bo + offset + (minEocdSize + commentLen.toNat)) := by
    unfold Narrow.uadd
    rw [if_pos (by simp only [minEocdSize]; omega)]
  dsimp only
  rw [e]
  rfl

theorem eocdScan_eq (p : Profile) {buffer : Bytes} {bo fl : Nat} : ∀ k, bo + k + 65557 < 2 ^ 32 →
    Narrow.findEocdScan p buffer bo fl k = findEocdScan buffer bo fl k := by
  intro k
  induction k with
  | zero => intro _; rfl
  | succ k ih =>
    intro h
    rw [Narrow.findEocdScan, findEocdScan, ih (by omega), eocdAt_eq p (by omega)]
    rfl

theorem findEocd_eq (p : Profile) {file : Bytes} (h : file.length + 65557 < 2 ^ 32) : Narrow.findEocd p file file.length = findEocd file file.length := by
  unfold Narrow.findEocd findEocd
  by_cases h22 : file.length < minEocdSize
  · rw [if_pos h22, if_pos h22]
  · rw [if_neg h22, if_neg h22]
    refine bind_same' fun b hb => ?_
    have hs := readExactAt_ok hb
    have hl := (slice?_eq_some hs).2.2.2
    refine eocdScan_eq p _ ?_
    simp only [minEocdSize, maxCommentLen] at *
    omega

theorem narrow_len {file : Bytes} (h : file.length + 65557 < 2 ^ 32) : Narrow.fileLen file = file.length := Nat.mod_eq_of_lt (by omega)

theorem block_twin (p : Profile) {file : Bytes} (h : file.length + 65557 < 2 ^ 32) (b : SigningBlock) :
    (Module.new file).getSigningBlock p file = .ok b ↔ Narrow.getSigningBlock p file = .ok b ∧ Plain file b := by
  have e : (Module.new file).getSigningBlock p file = (findEocd file file.length >>= fun eocd =>
      SigningBlock.fromReader p file file.length (file.length - eocd.cdOffset.toNat)) := rfl
  unfold Narrow.getSigningBlock
  rw [e, narrow_len h, findEocd_eq p h]
  cases findEocd file file.length with
  | ok eocd => exact reader_twin p file _ _ b
  | err e' =>
    constructor
    · intro h; cases h
    · rintro ⟨h, _⟩; cases h
  | panic =>
    constructor
    · intro h; cases h
    · rintro ⟨h, _⟩; cases h

theorem block_missing (p : Profile) {file : Bytes} (h : file.length + 65557 < 2 ^ 32) :
    (∃ e, (Module.new file).getSigningBlock p file = .err e ∧ e.isMissing = true) ↔
      ∃ e, Narrow.getSigningBlock p file = .err e ∧ e.isMissing = true := by
  have e : (Module.new file).getSigningBlock p file = (findEocd file file.length >>= fun eocd =>
      SigningBlock.fromReader p file file.length (file.length - eocd.cdOffset.toNat)) := rfl
  unfold Narrow.getSigningBlock
  rw [e, narrow_len h, findEocd_eq p h]
  cases findEocd file file.length with
  | ok eocd => exact reader_missing p file _ _
  | err e' => exact Iff.rfl
  | panic => exact Iff.rfl

/-- What the offsets of a module are like. -/
theorem offsets_shape {p : Profile} {file : Bytes} {o : FileOffsets} (h : (Module.new file).getOffsets p file = .ok o) :
    o.startContent = 0 ∧ o.stopEocd = file.length ∧ o.startEocd ≤ file.length ∧ file.length ≤ o.startEocd + 65557 ∧ o.startCd < 2 ^ 32 + file.length := by
  unfold Module.getOffsets Module.getOffsetsT at h
  obtain ⟨eocd, h1, h⟩ := Res.bind_eq_ok.mp h
  have h1 : findEocd file file.length = .ok eocd := h1
  have hpos : eocd.fileOffset ≤ file.length ∧ file.length ≤ eocd.fileOffset + 65557 := by
    rcases Nat.lt_or_ge file.length 22 with hl | hl
    · rw [findEocd_small hl] at h1; cases h1
    · rcases findEocd_spec (file := file) (fl := file.length) (Nat.le_refl _) hl with ⟨h', _⟩ | ⟨k, g1, g2, g3, h'⟩
      · rw [h'] at h1; cases h1
      · rw [h'] at h1
        cases h1
        have hk : k ≤ file.length := by
          rw [List.take_length] at g2
          rcases Nat.lt_or_ge file.length k with hlt | hge
          · exfalso
            obtain ⟨g4, _⟩ := g2
            have := (slice?_eq_some g4).2.1
            omega
          · exact hge
        exact ⟨hk, g1⟩
  have hc := eocd.cdOffset.toNat_lt
  cases hb : (Module.new file).getSigningBlockT p file file with
  | ok b =>
    rw [hb] at h
    cases h
    have hb' : (findEocd file file.length >>= fun eocd =>
      SigningBlock.fromReader p file file.length (file.length - eocd.cdOffset.toNat)) = .ok b := hb
    obtain ⟨eocd', _, h3⟩ := Res.bind_eq_ok.mp hb'
    obtain ⟨pre, pairs, post, _, _, _, g4, g5, _, _, g8⟩ := fromReader_iff.mp h3
    refine ⟨rfl, rfl, hpos.1, hpos.2, ?_⟩
    have : b.fileEnd = pre.length + pairs.length + 32 := by rw [g8]
    show b.fileEnd < _
    omega
  | err e =>
    rw [hb] at h
    dsimp only at h
    split at h
    · cases h
      refine ⟨rfl, rfl, hpos.1, hpos.2, ?_⟩
      show eocd.cdOffset.toNat < _
      omega
    · cases h
  | panic => rw [hb] at h; cases h

theorem take_same {l : List α} {a b : Nat} (h : l.length ≤ a) (h' : l.length ≤ b) : l.take a = l.take b := by
  rw [List.take_of_length_le h, List.take_of_length_le h']

/-- The digests of a file with these offsets. -/
theorem digestNarrow_eq (E : Env) (p : Profile) {file : Bytes} (hf : file.length + 65557 < 2 ^ 32) {o : FileOffsets}
    (h : o.startContent = 0 ∧ o.stopEocd = file.length ∧ o.startEocd ≤ file.length ∧ file.length ≤ o.startEocd + 65557 ∧ o.startCd < 2 ^ 32 + file.length)
    (hcd : o.startCd < 2 ^ 32) (a : Algo) : Narrow.digestModule E p file o a = digestModule E p fullReads fullReads file o a := by
  obtain ⟨h1, h2, h3, h4, _⟩ := h
  have hu : ∀ b, Narrow.usub p b 0 = usub p b 0 := fun b => by simp [Narrow.usub, usub]
  have h5 : Narrow.usub p o.stopEocd o.startEocd = .ok (file.length - o.startEocd) := by
    unfold Narrow.usub; rw [h2, if_pos h3]
  have h6 : usub .dev o.stopEocd o.startEocd = .ok (file.length - o.startEocd) := by
    unfold usub; rw [h2, if_pos h3]
  unfold Narrow.digestModule digestModule
  rw [h1, hu]
  cases usub p o.stopContent 0 with
  | err e => rfl
  | panic => rfl
  | ok n1 =>
    simp only [Res.ok_bind]
    rw [h5, h6]
    have hlt : file.length - o.startEocd < 2 ^ 31 := by omega
    simp only [Res.ok_bind, hlt, if_true]
    by_cases hle : o.startCd ≤ o.stopCd
    · have e1 : Narrow.usub p o.stopCd o.startCd = .ok (o.stopCd - o.startCd) := by unfold Narrow.usub; rw [if_pos hle]
      have e2 : usub p o.stopCd o.startCd = .ok (o.stopCd - o.startCd) := by unfold usub; rw [if_pos hle]
      rw [e1, e2]
    · cases p with
      | dev =>
        have e1 : Narrow.usub .dev o.stopCd o.startCd = .panic := by unfold Narrow.usub; rw [if_neg hle]
        have e2 : usub .dev o.stopCd o.startCd = .panic := by unfold usub; rw [if_neg hle]
        rw [e1, e2]
      | release =>
        have e1 : Narrow.usub .release o.stopCd o.startCd = .ok (2 ^ 32 + o.stopCd - o.startCd) := by unfold Narrow.usub; rw [if_neg hle]
        have e2 : usub .release o.stopCd o.startCd = .ok (2 ^ 64 + o.stopCd - o.startCd) := by unfold usub; rw [if_neg hle]
        rw [e1, e2]
        simp only [Res.ok_bind]
        have e3 : digestRegion E fullReads file o.startCd (2 ^ 32 + o.stopCd - o.startCd) a =
            digestRegion E fullReads file o.startCd (2 ^ 64 + o.stopCd - o.startCd) a := by
          unfold digestRegion
          rw [take_same (b := 2 ^ 64 + o.stopCd - o.startCd)]
          · rw [List.length_drop]; omega
          · rw [List.length_drop]; omega
        rw [e3]

/-- Offsets. -/
theorem offsets_twin {p : Profile} {file : Bytes} (hf : file.length + 65557 < 2 ^ 32) {o : FileOffsets}
    (h : (Module.new file).getOffsets p file = .ok o) : Narrow.getOffsets p file = .ok o ∧ o.startCd < 2 ^ 32 := by
  have h0 := h
  unfold Module.getOffsets Module.getOffsetsT at h
  obtain ⟨eocd, h1, h⟩ := Res.bind_eq_ok.mp h
  have h1 : findEocd file file.length = .ok eocd := h1
  have hc := eocd.cdOffset.toNat_lt
  unfold Narrow.getOffsets
  rw [narrow_len hf, findEocd_eq p hf, h1]
  simp only [Res.ok_bind]
  cases hb : (Module.new file).getSigningBlockT p file file with
  | ok b =>
    rw [hb] at h
    rw [((block_twin p hf b).mp hb).1]
    refine ⟨h, ?_⟩
    cases h
    have hb' : (findEocd file file.length >>= fun eocd =>
      SigningBlock.fromReader p file file.length (file.length - eocd.cdOffset.toNat)) = .ok b := hb
    obtain ⟨eocd', _, h3⟩ := Res.bind_eq_ok.mp hb'
    obtain ⟨pre, pairs, post, _, _, _, g4, g5, _, _, g8⟩ := fromReader_iff.mp h3
    have : b.fileEnd = pre.length + pairs.length + 32 := by rw [g8]
    show b.fileEnd < _
    omega
  | err e =>
    rw [hb] at h
    dsimp only at h
    cases hm : e.isMissing with
    | true =>
      rw [hm] at h
      obtain ⟨e', he', hm'⟩ := (block_missing p hf).mp ⟨e, hb, hm⟩
      rw [he']
      dsimp only
      rw [hm']
      refine ⟨h, ?_⟩
      cases h
      exact hc
    | false => rw [hm] at h; cases h
  | panic => rw [hb] at h; cases h

theorem digest_twin {E : Env} {p : Profile} {file : Bytes} (hf : file.length + 65557 < 2 ^ 32) {o : FileOffsets}
    (h : (Module.new file).getOffsets p file = .ok o) (a : Algo) : Narrow.digest E p file a = (Module.new file).digest E p file a := by
  obtain ⟨h1, h2⟩ := offsets_twin hf h
  have h3 : (Module.new file).getOffsetsT p file file file = .ok o := h
  unfold Narrow.digest Module.digest Module.digestT
  rw [h1, h3]
  exact digestNarrow_eq E p hf (offsets_shape h) h2 a

/-- Slices that end within a prefix. -/
theorem slice_take {d : Bytes} {a b n : Nat} (h : b ≤ n) : slice? (d.take n) a b = slice? d a b := by
  by_cases hab : a ≤ b ∧ b ≤ d.length
  · rw [slice?_of_le hab.1 hab.2, slice?_of_le hab.1 (by rw [List.length_take]; omega), List.drop_take, List.take_take]
    congr 2
    omega
  · unfold slice?
    rw [if_neg (by rw [List.length_take]; omega), if_neg hab]

end Ksusig
