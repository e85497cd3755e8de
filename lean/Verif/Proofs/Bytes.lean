import Verif.Model.Basic

/-! Helper lemmas about little-endian integers and slices. -/

namespace Ksusig

@[simp] theorem leBytes_length (n x : Nat) : (leBytes n x).length = n := by
  induction n generalizing x with
  | zero => rfl
  | succ n ih => simp [leBytes, ih]

theorem leNat_leBytes (n x : Nat) : leNat (leBytes n x) = x % 256 ^ n := by
  induction n generalizing x with
  | zero => simp [leBytes, leNat, Nat.mod_one]
  | succ n ih =>
    simp only [leBytes, leNat, ih, UInt8.toNat_ofNat']
    rw [show 256 ^ (n + 1) = 256 * 256 ^ n by rw [Nat.pow_succ, Nat.mul_comm], Nat.mod_mul]

theorem leNat_leBytes_of_lt {n x : Nat} (h : x < 256 ^ n) : leNat (leBytes n x) = x := by
  rw [leNat_leBytes, Nat.mod_eq_of_lt h]

theorem leNat_lt (b : Bytes) : leNat b < 256 ^ b.length := by
  induction b with
  | nil => simp [leNat]
  | cons x xs ih =>
    have := x.toNat_lt
    simp only [leNat, List.length_cons, Nat.pow_succ]
    omega

theorem leBytes_leNat (b : Bytes) : leBytes b.length (leNat b) = b := by
  induction b with
  | nil => rfl
  | cons x xs ih =>
    have hx := x.toNat_lt
    simp only [List.length_cons, leBytes, leNat]
    have h1 : (x.toNat + 256 * leNat xs) / 256 = leNat xs := by omega
    have h2 : UInt8.ofNat (x.toNat + 256 * leNat xs) = x := by
      apply UInt8.toNat_inj.mp
      simp
    rw [h1, h2, ih]

theorem leBytes_inj {n x y : Nat} (hx : x < 256 ^ n) (hy : y < 256 ^ n)
    (h : leBytes n x = leBytes n y) : x = y := by
  rw [← leNat_leBytes_of_lt hx, ← leNat_leBytes_of_lt hy, h]

theorem slice?_append (pre mid post : Bytes) :
    slice? (pre ++ mid ++ post) pre.length (pre.length + mid.length) = some mid := by
  simp [slice?]

theorem slice?_eq_some {d m : Bytes} {a b : Nat} (h : slice? d a b = some m) :
    a ≤ b ∧ b ≤ d.length ∧ m = (d.drop a).take (b - a) ∧ m.length = b - a := by
  unfold slice? at h
  split at h
  · rename_i hc
    cases h
    refine ⟨hc.1, hc.2, rfl, ?_⟩
    simp
    omega
  · cases h

theorem slice?_of_le {d : Bytes} {a b : Nat} (h1 : a ≤ b) (h2 : b ≤ d.length) :
    slice? d a b = some ((d.drop a).take (b - a)) := by
  simp [slice?, h1, h2]

theorem slice?_eq_none {d : Bytes} {a b : Nat} (h : slice? d a b = none) : b < a ∨ d.length < b := by
  unfold slice? at h
  split at h
  · cases h
  · rename_i hc; omega

/-- Splitting a list at a successful slice. -/
theorem slice?_split {d m : Bytes} {a b : Nat} (h : slice? d a b = some m) :
    d = d.take a ++ m ++ d.drop b := by
  obtain ⟨h1, h2, h3, _⟩ := slice?_eq_some h
  subst h3
  have : d.drop b = (d.drop a).drop (b - a) := by rw [List.drop_drop]; congr 1; omega
  rw [this, List.append_assoc, List.take_append_drop, List.take_append_drop]

theorem zeroPad_nil {size : Nat} {c : Bytes} (h : size ≤ c.length) : zeroPad size c = [] := by
  simp [zeroPad, Nat.sub_eq_zero_of_le h]

@[simp] theorem zeroPad_length (size : Nat) (c : Bytes) : (zeroPad size c).length = size - c.length := by
  simp [zeroPad]

/-- The folds that compute sizes are sums. -/
theorem foldl_add_eq_sum (f : α → Nat) (l : List α) (k : Nat) :
    l.foldl (fun acc x => acc + f x) k = k + (l.map f).sum := by
  induction l generalizing k with
  | nil => simp
  | cons x xs ih => simp [ih, Nat.add_assoc]

theorem foldl_add4_eq_sum (f : α → Nat) (l : List α) (k : Nat) :
    l.foldl (fun acc x => acc + f x + 4) k = k + (l.map fun x => f x + 4).sum := by
  have := foldl_add_eq_sum (fun x => f x + 4) l k
  simpa [Nat.add_assoc] using this

theorem flatMap_length_eq_sum (enc : α → List β) (l : List α) :
    (l.flatMap enc).length = (l.map fun x => (enc x).length).sum := by
  induction l with
  | nil => rfl
  | cons x xs ih => simp [ih]

theorem le_sum_of_mem {l : List Nat} {x : Nat} (h : x ∈ l) : x ≤ l.sum := by
  induction l with
  | nil => cases h
  | cons y ys ih =>
    rcases List.mem_cons.mp h with h | h
    · subst h; simp
    · have := ih h; simp; omega

theorem map_sum_congr {l : List α} {f g : α → Nat} (h : ∀ x ∈ l, f x = g x) :
    (l.map f).sum = (l.map g).sum := by
  rw [List.map_congr_left h]

end Ksusig
