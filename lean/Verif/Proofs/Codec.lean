import Verif.Model.SigningBlock
import Verif.Proofs.Bytes

/-! Round-trip machinery: a parser applied anywhere inside a larger buffer. -/

namespace Ksusig

/-- `p` reads exactly `enc` and returns `a`, wherever `enc` stands in the reader. -/
def Parses (p : P α) (enc : Bytes) (a : α) : Prop :=
  ∀ pre post, p ⟨pre ++ enc ++ post, pre.length⟩ =
    .ok (a, ⟨pre ++ enc ++ post, pre.length + enc.length⟩)

namespace Parses

theorem pure (a : α) : Parses (Pure.pure a : P α) [] a := by
  intro pre post; simp

theorem bind {p : P α} {f : α → P β} {e1 e2 : Bytes} {a : α} {b : β}
    (hp : Parses p e1 a) (hf : Parses (f a) e2 b) : Parses (p >>= f) (e1 ++ e2) b := by
  intro pre post
  have h1 := hp pre (e2 ++ post)
  have h2 := hf (pre ++ e1) post
  simp only [List.append_assoc, List.length_append] at h1 h2 ⊢
  rw [P.bind_def, h1]
  simp only [Res.bind_ok, h2, Nat.add_assoc]

/-- Last step of a sequence: `do let x ← p; return g x`. -/
theorem bindPure {p : P α} {g : α → β} {e : Bytes} {a : α} (hp : Parses p e a) :
    Parses (p >>= fun x => Pure.pure (g x)) e (g a) := by
  have := bind (f := fun x => Pure.pure (g x)) hp (Parses.pure (g a))
  simpa using this

theorem getTo {n : Nat} {enc : Bytes} (h : enc.length = n) : Parses (P.getTo n) enc enc := by
  intro pre post
  subst h
  simp [P.getTo, slice?]

theorem readLe {n x : Nat} (h : x < 256 ^ n) : Parses (P.readLe n) (leBytes n x) x := by
  have := bindPure (g := leNat) (getTo (leBytes_length n x))
  rwa [leNat_leBytes_of_lt h] at this

theorem readSize {x : Nat} (h : x < 2 ^ 32) : Parses P.readSize (leBytes 4 x) x :=
  readLe (by simpa using h)

theorem readSizeU64 {x : Nat} (h : x < 2 ^ 64) : Parses P.readSizeU64 (leBytes 8 x) x :=
  readLe (by simpa using h)

theorem readU32 (x : UInt32) : Parses P.readU32 (leBytes 4 x.toNat) x := by
  have := bindPure (g := UInt32.ofNat) (readLe (n := 4) (x := x.toNat) (by have := x.toNat_lt; simpa using this))
  rwa [UInt32.ofNat_toNat] at this

theorem readU16 (x : UInt16) : Parses P.readU16 (leBytes 2 x.toNat) x := by
  have := bindPure (g := UInt16.ofNat) (readLe (n := 2) (x := x.toNat) (by have := x.toNat_lt; simpa using this))
  rwa [UInt16.ofNat_toNat] at this

theorem readU64 (x : UInt64) : Parses P.readU64 (leBytes 8 x.toNat) x := by
  have := bindPure (g := UInt64.ofNat) (readLe (n := 8) (x := x.toNat) (by have := x.toNat_lt; simpa using this))
  rwa [UInt64.ofNat_toNat] at this

/-- The `while` loop over a list of encoded items. -/
theorem whileLt {item : P α} {enc : α → Bytes} (l : List α)
    (h : ∀ a ∈ l, Parses item (enc a) a) (hpos : ∀ a ∈ l, 0 < (enc a).length) :
    ∀ (n : Nat) (pre post : Bytes), l.length ≤ n →
      P.whileLt item (pre.length + (l.flatMap enc).length) n ⟨pre ++ l.flatMap enc ++ post, pre.length⟩ =
        .ok (l, ⟨pre ++ l.flatMap enc ++ post, pre.length + (l.flatMap enc).length⟩) := by
  induction l with
  | nil => intro n pre post _; cases n <;> simp [P.whileLt]
  | cons a l ih =>
    intro n pre post hn
    cases n with
    | zero => simp at hn
    | succ n =>
      have ha := h a (by simp) pre (l.flatMap enc ++ post)
      have hp := hpos a (by simp)
      have ih' := ih (fun b hb => h b (by simp [hb])) (fun b hb => hpos b (by simp [hb])) n (pre ++ enc a) post
        (by simp at hn; omega)
      simp only [List.flatMap_cons, List.append_assoc, List.length_append] at ha ih' ⊢
      rw [P.whileLt]
      have : pre.length < pre.length + ((enc a).length + (l.flatMap enc).length) := by omega
      simp only [this, if_true, ha, Res.bind_ok]
      rw [← Nat.add_assoc, ih']
      simp

theorem length_le_flatMap {enc : α → Bytes} (l : List α) (hpos : ∀ a ∈ l, 0 < (enc a).length) :
    l.length ≤ (l.flatMap enc).length := by
  induction l with
  | nil => simp
  | cons a l ih =>
    have := hpos a (by simp)
    have := ih fun b hb => hpos b (by simp [hb])
    simp only [List.length_cons, List.flatMap_cons, List.length_append]; omega

theorem loopTo {item : P α} {enc : α → Bytes} (l : List α)
    (h : ∀ a ∈ l, Parses item (enc a) a) (hpos : ∀ a ∈ l, 0 < (enc a).length) (pre post : Bytes) :
    P.loopTo item (pre.length + (l.flatMap enc).length) ⟨pre ++ l.flatMap enc ++ post, pre.length⟩ =
      .ok (l, ⟨pre ++ l.flatMap enc ++ post, pre.length + (l.flatMap enc).length⟩) := by
  unfold P.loopTo
  apply whileLt l h hpos
  have := length_le_flatMap l hpos
  simp only [List.length_append]; omega

/-- `let pos ← get_pos(); loop until pos + size` on the enclosing reader. -/
theorem loopHere {item : P α} {enc : α → Bytes} {l : List α} {size : Nat} {k : List α → P β} {e2 : Bytes} {b : β}
    (h : ∀ a ∈ l, Parses item (enc a) a) (hpos : ∀ a ∈ l, 0 < (enc a).length)
    (hsize : size = (l.flatMap enc).length) (hk : Parses (k l) e2 b) :
    Parses (do let pos ← P.getPos; let cs ← P.loopTo item (pos + size); k cs) (l.flatMap enc ++ e2) b := by
  intro pre post
  have h1 := loopTo l h hpos pre (e2 ++ post)
  have h2 := hk (pre ++ l.flatMap enc) post
  subst hsize
  simp only [List.append_assoc, List.length_append] at h1 h2 ⊢
  rw [P.bind_def]
  simp only [P.getPos, Res.bind_ok]
  rw [P.bind_def, h1]
  simp only [Res.bind_ok, h2, Nat.add_assoc]

/-- `let data = data.as_slice(n); …` -/
theorem sub {q : Reader → P α} {n : Nat} {enc : Bytes} {a : α} {r : Reader} {k : α → P β} {e2 : Bytes} {b : β}
    (hn : enc.length = n) (h : q ⟨enc, 0⟩ ⟨enc, 0⟩ = .ok (a, r)) (hk : Parses (k a) e2 b) :
    Parses (do let s ← P.asSlice n; let x ← P.on s (q s); k x) (enc ++ e2) b := by
  have hs : Parses (P.asSlice n) enc ⟨enc, 0⟩ := by
    unfold P.asSlice; exact bindPure (g := fun d => (⟨d, 0⟩ : Reader)) (getTo hn)
  refine bind hs ?_
  have ho : Parses (P.on ⟨enc, 0⟩ (q ⟨enc, 0⟩)) [] a := by
    intro pre post; simp [P.on, h]
  exact bind (e1 := []) ho hk

theorem sub' {q : P α} {n : Nat} {enc : Bytes} {a : α} {r : Reader}
    (hn : enc.length = n) (h : q ⟨enc, 0⟩ = .ok (a, r)) :
    Parses (do let s ← P.asSlice n; P.on s q) enc a := by
  have hs : Parses (P.asSlice n) enc ⟨enc, 0⟩ := by
    unfold P.asSlice; exact bindPure (g := fun d => (⟨d, 0⟩ : Reader)) (getTo hn)
  have ho : Parses (P.on ⟨enc, 0⟩ q) [] a := by
    intro pre post; simp [P.on, h]
  have := bind (f := fun s => P.on s q) hs ho
  simpa using this

/-- A parser run on a fresh reader over its encoding plus trailing bytes. -/
theorem run {p : P α} {enc : Bytes} {a : α} (h : Parses p enc a) (post : Bytes) :
    p ⟨enc ++ post, 0⟩ = .ok (a, ⟨enc ++ post, enc.length⟩) := by
  simpa using h [] post

theorem repeatN {item : P α} {enc : α → Bytes} (l : List α) (h : ∀ a ∈ l, Parses item (enc a) a) :
    Parses (P.repeatN item l.length) (l.flatMap enc) l := by
  induction l with
  | nil => exact Parses.pure []
  | cons a l ih =>
    have h1 := h a (by simp)
    have h2 := ih fun b hb => h b (by simp [hb])
    exact bind h1 (bindPure (g := fun as => a :: as) h2)

end Parses
end Ksusig
