import Verif.Model.Messages
import Verif.Proofs.Anatomy
import Verif.Proofs.NarrowMiss

/-! Which errors the decoder returns, and which words their texts contain. -/

namespace Ksusig

open Spec

/-- Failures of `q` are in `S`. -/
def Among (S : Err → Bool) (q : P α) : Prop := ∀ r e, q r = .err e → S e = true

/-- The errors of the pairs of a block. -/
def Err.ofPairs : Err → Bool
  | .outOfBounds | .pairTooLarge | .pairTooSmall | .invalidSize | .invalidUtf8 | .fuel => true
  | _ => false

namespace Among

variable {S : Err → Bool}

theorem pure (a : α) : Among S (Pure.pure a : P α) := by
  intro r e h
  cases h

theorem fail {e : Err} (h : S e = true) : Among S (P.fail e : P α) := by
  intro r e' h'
  cases h'
  exact h

theorem bind {q : P α} {f : α → P β} (h : Among S q) (h' : ∀ a, Among S (f a)) : Among S (q >>= f) := by
  intro r e he
  rw [P.bind_def] at he
  cases hq : q r with
  | ok x =>
    obtain ⟨a, r1⟩ := x
    rw [hq] at he
    exact h' a r1 e he
  | err e' =>
    rw [hq] at he
    cases he
    exact h r e hq
  | panic => rw [hq] at he; cases he

theorem ite {c : Prop} [Decidable c] {q q' : P α} (h : Among S q) (h' : Among S q') : Among S (if c then q else q') := by
  split
  · exact h
  · exact h'

theorem getTo (hS : S .outOfBounds = true) (n : Nat) : Among S (P.getTo n) := by
  intro r e h
  unfold P.getTo at h
  split at h
  · cases h
  · cases h; exact hS

theorem getPos : Among S P.getPos := by
  intro r e h
  cases h

theorem on (s : Reader) {q : P α} (h : Among S q) : Among S (P.on s q) := by
  intro r e he
  unfold P.on at he
  cases hq : q s with
  | ok x => rw [hq] at he; cases he
  | err e' => rw [hq] at he; cases he; exact h s e hq
  | panic => rw [hq] at he; cases he

theorem whileLt (hS : S .fuel = true) {item : P α} (h : Among S item) (max : Nat) : ∀ f, Among S (P.whileLt item max f)
  | 0 => by
    intro r e he
    rw [P.whileLt] at he
    dsimp only at he
    split at he
    · cases he; exact hS
    · cases he
  | f + 1 => by
    intro r e he
    rw [P.whileLt] at he
    dsimp only at he
    split at he
    · cases hi : item r with
      | ok x =>
        obtain ⟨a, r1⟩ := x
        rw [hi] at he
        simp only [Res.bind_ok] at he
        cases hw : P.whileLt item max f r1 with
        | ok y => rw [hw] at he; cases he
        | err e' =>
          rw [hw] at he
          cases he
          exact whileLt hS h max f r1 e hw
        | panic => rw [hw] at he; cases he
      | err e' => rw [hi] at he; cases he; exact h r e hi
      | panic => rw [hi] at he; cases he
    · cases he

theorem repeatN {item : P α} (h : Among S item) : ∀ n, Among S (P.repeatN item n)
  | 0 => pure _
  | n + 1 => bind h fun _ => bind (repeatN h n) fun _ => pure _

theorem get (n : Nat) : Among Err.ofPairs (P.getTo n) := getTo rfl n
theorem asSlice (n : Nat) : Among Err.ofPairs (P.asSlice n) := bind (get n) fun _ => pure _
theorem readLe (n : Nat) : Among Err.ofPairs (P.readLe n) := bind (get n) fun _ => pure _
theorem readSize : Among Err.ofPairs P.readSize := readLe 4
theorem readU16 : Among Err.ofPairs P.readU16 := bind (readLe 2) fun _ => pure _
theorem readU32 : Among Err.ofPairs P.readU32 := bind (readLe 4) fun _ => pure _
theorem readU64 : Among Err.ofPairs P.readU64 := bind (readLe 8) fun _ => pure _
theorem loopTo {item : P α} (h : Among Err.ofPairs item) (max : Nat) : Among Err.ofPairs (P.loopTo item max) :=
  fun r e he => whileLt rfl h max _ r e he

theorem digest : Among Err.ofPairs Digest.parse := bind readSize fun _ => bind readU32 fun _ => bind readSize fun _ => bind (get _) fun _ => pure _
theorem digests : Among Err.ofPairs Digests.parse := bind readSize fun _ => bind (asSlice _) fun _ => bind (on _ (loopTo digest _)) fun _ => pure _
theorem cert : Among Err.ofPairs Cert.parse := bind readSize fun _ => bind (get _) fun _ => pure _
theorem sig : Among Err.ofPairs Sig.parse := bind readSize fun _ => bind readU32 fun _ => bind readSize fun _ => bind (get _) fun _ => pure _
theorem attr : Among Err.ofPairs Attr.parse := bind readSize fun _ => bind readU32 fun _ => ite (fail rfl) (bind (get _) fun _ => pure _)
theorem pubKey : Among Err.ofPairs PubKey.parse := bind readSize fun _ => bind (get _) fun _ => pure _
theorem certs : Among Err.ofPairs Certs.parse :=
  bind readSize fun _ => bind getPos fun _ => bind (loopTo cert _) fun _ => pure _
theorem attrs : Among Err.ofPairs Attrs.parse :=
  bind readSize fun _ => bind getPos fun _ => bind (loopTo attr _) fun _ => pure _
theorem sigs : Among Err.ofPairs Sigs.parse :=
  bind readSize fun _ => ite (pure _) (bind getPos fun _ => bind (loopTo sig _) fun _ => pure _)
theorem signedV2 : Among Err.ofPairs SignedDataV2.parse :=
  bind readSize fun _ => bind (asSlice _) fun _ => on _ (bind digests fun _ => bind certs fun _ => bind attrs fun _ => pure _)
theorem signerV2 : Among Err.ofPairs SignerV2.parse :=
  bind readSize fun _ => bind signedV2 fun _ => bind sigs fun _ => bind pubKey fun _ => pure _
theorem signersV2 : Among Err.ofPairs SignersV2.parse :=
  bind readSize fun _ => bind (asSlice _) fun _ => bind (on _ (loopTo signerV2 _)) fun _ => pure _
theorem signedStamp : Among Err.ofPairs SignedDataStamp.parse :=
  bind readSize fun _ => bind (asSlice _) fun _ => on _ (bind digests fun _ => bind certs fun _ => bind attrs fun _ => pure _)
theorem stampBlock : Among Err.ofPairs StampBlock.parse :=
  bind readSize fun _ => bind (asSlice _) fun _ => on _ (bind signedStamp fun _ => bind sigs fun _ => bind pubKey fun _ => pure _)
theorem section' : Among Err.ofPairs SectionEntry.parse :=
  bind readU16 fun _ => bind (get _) fun _ => ite (bind readU64 fun _ => bind readU64 fun _ => pure _) (fail rfl)
theorem elfInfo (n : Nat) (id : UInt32) : Among Err.ofPairs (ElfSectionInfo.parse n id) :=
  bind readU32 fun _ => bind (repeatN section' _) fun _ => pure _
theorem parseBody (n : Nat) (id : UInt32) (s : Reader) : Among Err.ofPairs (Value.parseBody n id s) :=
  ite (bind (on _ (bind signersV2 fun _ => pure _)) fun _ => pure _)
    (ite (bind (on _ (bind stampBlock fun _ => pure _)) fun _ => pure _) (ite (bind (on _ (elfInfo _ _)) fun _ => pure _) (pure _)))
theorem value : Among Err.ofPairs Value.parse :=
  bind (readLe 8) fun _ => ite (fail rfl) (bind readU32 fun _ => ite (fail rfl) (bind (asSlice _) fun _ => parseBody _ _ _))

end Among

theorem extract_among {d : Bytes} {e : Err} (h : extractValues d = .err e) : e.texts ≠ [] := by
  have hr : e.real = true := by
    have := extractValues_total d
    rw [h] at this
    exact this
  unfold extractValues at h
  cases hl : P.loopTo Value.parse d.length (Reader.new d) with
  | ok x => rw [hl] at h; cases h
  | err e' =>
    rw [hl] at h
    cases h
    have := Among.loopTo Among.value _ _ _ hl
    revert this hr
    cases e <;> decide
  | panic => rw [hl] at h; cases h

theorem parseFull_among {p : Profile} {d : Bytes} {e : Err} (h : parseFullBlock p d = .err e) : e.texts ≠ [] := by
  unfold parseFullBlock at h
  split at h
  · cases h; decide
  rcases bind_err.mp h with h | ⟨m, _, h⟩
  · rw [ofOption_err h]; decide
  split at h
  · cases h; decide
  rcases bind_err.mp h with h | ⟨s0, _, h⟩
  · rw [ofOption_err h]; decide
  dsimp only at h
  rcases bind_err.mp h with h | ⟨s1, _, h⟩
  · rw [ofOption_err h]; decide
  rcases bind_err.mp h with h | ⟨_, _, h⟩
  · unfold debugAssert at h
    cases p <;> revert h <;> cases (leNat s0 == leNat s1) <;> intro h <;> cases h
  split at h
  · cases h; decide
  split at h
  · cases h; decide
  split at h
  · cases h; decide
  rcases bind_err.mp h with h | ⟨inner, _, h⟩
  · rw [ofOption_err h]; decide
  rcases bind_err.mp h with h | ⟨vs, _, h⟩
  · exact extract_among h
  · cases h

theorem readerAt_among {p : Profile} {file w s : Bytes} {fl ws t : Nat} {e : Err}
    (h : fromReaderAt p file fl ws w t s = .err e) : e.texts ≠ [] := by
  unfold fromReaderAt at h
  dsimp only at h
  split at h
  · cases h; decide
  split at h
  · cases h; decide
  split at h
  · split at h
    · cases h; decide
    rcases bind_err.mp h with h | ⟨full, _, h⟩
    · rw [ofOption_err h]; decide
    rcases bind_err.mp h with h | ⟨b, _, h⟩
    · exact parseFull_among h
    · cases h
  · rcases bind_err.mp h with h | ⟨full, _, h⟩
    · rw [ofOption_err h]; decide
    rcases bind_err.mp h with h | ⟨b, _, h⟩
    · exact parseFull_among h
    · cases h

theorem readerScan_among {p : Profile} {file w : Bytes} {fl ws : Nat} {e : Err} :
    ∀ k, fromReaderScan p file fl ws w k = .err e → e.texts ≠ []
  | 0 => fun h => by cases h; decide
  | k + 1 => fun h => by
    rw [fromReaderScan] at h
    split at h
    · exact readerScan_among k h
    · split at h
      · split at h
        · exact readerScan_among k h
        · split at h
          · exact readerScan_among k h
          · exact readerAt_among h
      · exact readerScan_among k h

theorem reader_among {p : Profile} {file : Bytes} {fl eo : Nat} {e : Err}
    (h : SigningBlock.fromReader p file fl eo = .err e) : e.texts ≠ [] := by
  unfold SigningBlock.fromReader at h
  dsimp only at h
  split at h
  · cases h; decide
  rcases bind_err.mp h with h | ⟨w, _, h⟩
  · rw [ofOption_err h]; decide
  · exact readerScan_among _ h

theorem eocdScan_among {buffer : Bytes} {o fl : Nat} {e : Err} : ∀ k, findEocdScan buffer o fl k = .err e → e.texts ≠ []
  | 0 => fun h => by cases h; decide
  | k + 1 => fun h => by
    rw [findEocdScan] at h
    split at h
    · split at h
      · cases h
      · exact eocdScan_among k h
      · cases h
    · exact eocdScan_among k h

theorem eocd_among {file : Bytes} {fl : Nat} {e : Err} (h : findEocd file fl = .err e) : e.texts ≠ [] := by
  unfold findEocd at h
  split at h
  · cases h; decide
  dsimp only at h
  rcases bind_err.mp h with h | ⟨w, _, h⟩
  · rw [ofOption_err h]; decide
  · exact eocdScan_among _ h

theorem block_among {p : Profile} {m : Module} {f1 f2 : Bytes} {e : Err} (h : m.getSigningBlockT p f1 f2 = .err e) : e.texts ≠ [] := by
  unfold Module.getSigningBlockT at h
  split at h
  · cases h
  split at h
  · cases h; decide
  rcases bind_err.mp h with h | ⟨r, _, h⟩
  · exact eocd_among h
  · exact reader_among h

/-- Every template can be filled. -/
theorem filled_exists : ∀ t : List Piece, ∃ m, Filled t m
  | [] => ⟨[], rfl⟩
  | .lit s :: t => let ⟨r, h⟩ := filled_exists t; ⟨s.toList ++ r, r, rfl, h⟩
  | .num :: t => let ⟨r, h⟩ := filled_exists t; ⟨['0'] ++ r, ['0'], r, by simp, by simp, rfl, h⟩

theorem says_exists {e : Err} (h : e.texts ≠ []) : ∃ m, e.Says m := by
  cases ht : e.texts with
  | nil => exact absurd ht h
  | cons t ts =>
    obtain ⟨m, hm⟩ := filled_exists t
    exact ⟨m, t, by rw [ht]; exact List.mem_cons_self, hm⟩

/-- The fixed texts do not have the character. -/
def Piece.lacks (c : Char) : Piece → Bool
  | .lit s => !s.toList.contains c
  | .num => true

theorem filled_lacks {c : Char} (hc : c.isDigit = false) : ∀ {t : List Piece} {m : List Char}, t.all (Piece.lacks c) = true →
    Filled t m → c ∉ m
  | [], m, _, h => by cases h; simp
  | .lit s :: t, m, ha, ⟨r, h1, h2⟩ => by
    simp only [List.all_cons, Bool.and_eq_true] at ha
    subst h1
    have := ha.1
    simp only [Piece.lacks, Bool.not_eq_true', List.contains_eq_mem, decide_eq_false_iff_not] at this
    simp only [List.mem_append, not_or]
    exact ⟨this, filled_lacks hc ha.2 h2⟩
  | .num :: t, m, ha, ⟨d, r, _, hd, h1, h2⟩ => by
    simp only [List.all_cons, Bool.and_eq_true] at ha
    subst h1
    simp only [List.mem_append, not_or]
    refine ⟨fun hm => ?_, filled_lacks hc ha.2 h2⟩
    have := hd c hm
    rw [hc] at this
    cases this

/-- Any error but the two: no text has a capital M. -/
theorem lacks_M {e : Err} (h : e.isMissing = false) : ∀ t ∈ e.texts, t.all (Piece.lacks 'M') = true := by
  revert h
  cases e <;> decide +kernel

end Ksusig
