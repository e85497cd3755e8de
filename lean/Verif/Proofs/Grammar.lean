import Verif.SpecGrammar
import Verif.Proofs.Accept
import Verif.Proofs.RoundTrip
import Verif.Proofs.ReadBlock
import Verif.Proofs.Layout

/-! The decoder accepts exactly the grammar: a calculus of parsers with their exact languages. -/

namespace Ksusig

open Spec

/-- `p` succeeds exactly on inputs that go on with a word of `G`, uses exactly that word and returns its meaning. -/
def Exact (p : P α) (G : Bytes → α → Prop) : Prop :=
  ∀ (pre rest : Bytes) (a : α) (r' : Reader), p ⟨pre ++ rest, pre.length⟩ = .ok (a, r') ↔
    ∃ w post, rest = w ++ post ∧ G w a ∧ r' = ⟨pre ++ rest, pre.length + w.length⟩

namespace Exact

theorem congr {p : P α} {G H : Bytes → α → Prop} (h : Exact p G) (hGH : ∀ w a, G w a ↔ H w a) : Exact p H := by
  intro pre rest a r'
  rw [h]
  constructor
  · rintro ⟨w, post, h1, h2, h3⟩; exact ⟨w, post, h1, (hGH _ _).mp h2, h3⟩
  · rintro ⟨w, post, h1, h2, h3⟩; exact ⟨w, post, h1, (hGH _ _).mpr h2, h3⟩

theorem pure (a : α) : Exact (Pure.pure a : P α) (fun w b => w = [] ∧ b = a) := by
  intro pre rest b r'
  rw [P.pure_def]
  constructor
  · intro h; cases h; exact ⟨[], rest, rfl, ⟨rfl, rfl⟩, rfl⟩
  · rintro ⟨w, post, h1, ⟨rfl, rfl⟩, rfl⟩; rfl

theorem fail (e : Err) : Exact (P.fail e : P α) (fun _ _ => False) := by
  intro pre rest b r'
  constructor
  · intro h; cases h
  · rintro ⟨w, post, h1, h, _⟩; exact h.elim

theorem bind {p : P α} {f : α → P β} {G : Bytes → α → Prop} {H : α → Bytes → β → Prop}
    (hp : Exact p G) (hf : ∀ a, Exact (f a) (H a)) :
    Exact (p >>= f) (fun w b => ∃ w1 w2 a, w = w1 ++ w2 ∧ G w1 a ∧ H a w2 b) := by
  intro pre rest b r'
  constructor
  · intro h
    obtain ⟨a, r1, h1, h2⟩ := P.bind_ok h
    obtain ⟨w1, post1, rfl, hG, rfl⟩ := (hp pre rest a r1).mp h1
    have e : (⟨pre ++ (w1 ++ post1), pre.length + w1.length⟩ : Reader) =
        ⟨(pre ++ w1) ++ post1, (pre ++ w1).length⟩ := by simp
    rw [e] at h2
    obtain ⟨w2, post2, rfl, hH, rfl⟩ := (hf a _ _ _ _).mp h2
    exact ⟨w1 ++ w2, post2, by simp, ⟨w1, w2, a, rfl, hG, hH⟩, by simp [Nat.add_assoc]⟩
  · rintro ⟨w, post, rfl, ⟨w1, w2, a, rfl, hG, hH⟩, rfl⟩
    rw [P.bind_def, (hp pre _ a _).mpr ⟨w1, w2 ++ post, by simp, hG, rfl⟩]
    simp only [Res.bind_ok]
    have e : (⟨pre ++ (w1 ++ w2 ++ post), pre.length + w1.length⟩ : Reader) =
        ⟨(pre ++ w1) ++ (w2 ++ post), (pre ++ w1).length⟩ := by simp
    rw [e, hf a]
    exact ⟨w2, post, rfl, hH, by simp [Nat.add_assoc]⟩

theorem bindPure {p : P α} {g : α → β} {G : Bytes → α → Prop} (hp : Exact p G) :
    Exact (p >>= fun x => Pure.pure (g x)) (fun w b => ∃ a, G w a ∧ b = g a) := by
  refine (bind hp fun a => Exact.pure (g a)).congr fun w b => ?_
  constructor
  · rintro ⟨w1, w2, a, rfl, h1, rfl, rfl⟩; exact ⟨a, by simpa using h1, rfl⟩
  · rintro ⟨a, h1, rfl⟩; exact ⟨w, [], a, by simp, h1, rfl, rfl⟩

theorem getTo (n : Nat) : Exact (P.getTo n) (fun w d => w = d ∧ d.length = n) := by
  intro pre rest d r'
  constructor
  · intro h
    obtain ⟨h1, rfl⟩ := P.getTo_ok h
    dsimp only at h1
    obtain ⟨_, h2, h3, h4⟩ := slice?_eq_some h1
    simp only [List.length_append] at h2
    simp only [List.drop_left, Nat.add_sub_cancel_left] at h3
    refine ⟨d, rest.drop n, ?_, ⟨rfl, by omega⟩, ?_⟩
    · rw [h3, List.take_append_drop]
    · simp; omega
  · rintro ⟨w, post, rfl, ⟨rfl, rfl⟩, rfl⟩
    have := Parses.getTo (n := w.length) (enc := w) rfl pre post
    simpa using this

theorem readLe (n : Nat) : Exact (P.readLe n) (fun w x => w = leBytes n x ∧ x < 256 ^ n) := by
  refine (bindPure (g := leNat) (getTo n)).congr fun w x => ?_
  constructor
  · rintro ⟨d, ⟨rfl, rfl⟩, rfl⟩; exact ⟨(leBytes_leNat w).symm, leNat_lt w⟩
  · rintro ⟨rfl, h⟩; exact ⟨_, ⟨rfl, leBytes_length n x⟩, (leNat_leBytes_of_lt h).symm⟩

theorem readSize : Exact P.readSize (fun w x => w = leBytes 4 x ∧ x < 2 ^ 32) := by
  refine (readLe 4).congr fun w x => ?_
  simp

theorem readSizeU64 : Exact P.readSizeU64 (fun w x => w = leBytes 8 x ∧ x < 2 ^ 64) := by
  refine (readLe 8).congr fun w x => ?_
  simp

theorem readU32 : Exact P.readU32 (fun w x => w = leBytes 4 x.toNat) := by
  refine (bindPure (g := UInt32.ofNat) (readLe 4)).congr fun w x => ?_
  constructor
  · rintro ⟨y, ⟨rfl, h⟩, rfl⟩
    rw [UInt32.toNat_ofNat', Nat.mod_eq_of_lt (by simpa using h)]
  · rintro rfl
    exact ⟨x.toNat, ⟨rfl, by have := x.toNat_lt; simpa using this⟩, by simp⟩

theorem readU16 : Exact P.readU16 (fun w x => w = leBytes 2 x.toNat) := by
  refine (bindPure (g := UInt16.ofNat) (readLe 2)).congr fun w x => ?_
  constructor
  · rintro ⟨y, ⟨rfl, h⟩, rfl⟩
    rw [UInt16.toNat_ofNat', Nat.mod_eq_of_lt (by simpa using h)]
  · rintro rfl
    exact ⟨x.toNat, ⟨rfl, by have := x.toNat_lt; simpa using this⟩, by simp⟩

theorem readU64 : Exact P.readU64 (fun w x => w = leBytes 8 x.toNat) := by
  refine (bindPure (g := UInt64.ofNat) (readLe 8)).congr fun w x => ?_
  constructor
  · rintro ⟨y, ⟨rfl, h⟩, rfl⟩
    rw [UInt64.toNat_ofNat', Nat.mod_eq_of_lt (by simpa using h)]
  · rintro rfl
    exact ⟨x.toNat, ⟨rfl, by have := x.toNat_lt; simpa using this⟩, by simp⟩

/-- What a parser does on its own slice. -/
theorem alone {p : P α} {G : Bytes → α → Prop} (h : Exact p G) (d : Bytes) (a : α) :
    (∃ s', p ⟨d, 0⟩ = .ok (a, s')) ↔ ∃ w rest, d = w ++ rest ∧ G w a := by
  constructor
  · rintro ⟨s', hs⟩
    obtain ⟨w, post, h1, h2, _⟩ := (h [] d a s').mp hs
    exact ⟨w, post, h1, h2⟩
  · rintro ⟨w, rest, rfl, h2⟩
    exact ⟨_, (h [] (w ++ rest) a _).mpr ⟨w, rest, rfl, h2, rfl⟩⟩

theorem sub {n : Nat} {q : Reader → P α} {H : Bytes → α → Prop}
    (hq : ∀ d a, d.length = n → ((∃ s', q ⟨d, 0⟩ ⟨d, 0⟩ = .ok (a, s')) ↔ H d a)) :
    Exact (P.asSlice n >>= fun s => P.on s (q s)) (fun w a => w.length = n ∧ H w a) := by
  intro pre rest a r'
  constructor
  · intro h
    obtain ⟨s, r1, h1, h2⟩ := P.bind_ok h
    obtain ⟨d, h3, rfl, rfl⟩ := P.asSlice_ok h1
    obtain ⟨rfl, s', h4⟩ := P.on_ok h2
    dsimp only at h3
    obtain ⟨w, post, h5, ⟨rfl, h6⟩, h7⟩ := (getTo n pre rest d ⟨pre ++ rest, pre.length + n⟩).mp (by
      unfold P.getTo; dsimp only; rw [h3])
    exact ⟨w, post, h5, ⟨h6, (hq _ _ h6).mp ⟨s', h4⟩⟩, h7⟩
  · rintro ⟨w, post, rfl, ⟨hl, hH⟩, rfl⟩
    obtain ⟨s', hs⟩ := (hq _ _ hl).mpr hH
    have h1 := (getTo n pre (w ++ post) w ⟨pre ++ (w ++ post), pre.length + w.length⟩).mpr ⟨w, post, rfl, ⟨rfl, hl⟩, rfl⟩
    obtain ⟨h2, h3⟩ := P.getTo_ok h1
    dsimp only at h2
    rw [P.bind_def, P.asSlice_eq]
    dsimp only
    rw [h2]
    simp only [Res.bind_ok, P.on, hs, hl]

end Exact

theorem P.assoc (p : P α) (f : α → P β) (g : β → P γ) : (p >>= f >>= g) = (p >>= fun a => f a >>= g) := by
  funext r
  simp only [P.bind_def]
  cases p r with
  | ok x => obtain ⟨a, r1⟩ := x; simp only [Res.bind_ok]
  | err e => rfl
  | panic => rfl

theorem Entries.bound {item : Bytes → α → Prop} (hpos : ∀ w a, item w a → 0 < w.length) {n : Nat} {w : Bytes} {l : List α}
    (h : Entries item n w l) : l.length ≤ w.length := by
  induction h with
  | done => simp
  | more n w ws a as _ hw _ ih => have := hpos _ _ hw; simp; omega

namespace Exact

theorem whileLt {item : P α} {G : Bytes → α → Prop} (h : Exact item G) (hpos : ∀ w a, G w a → 0 < w.length) :
    ∀ (f n : Nat) (pre rest : Bytes) (l : List α) (r' : Reader), rest.length < f →
      (P.whileLt item (pre.length + n) f ⟨pre ++ rest, pre.length⟩ = .ok (l, r') ↔
        ∃ w post, rest = w ++ post ∧ Entries G n w l ∧ r' = ⟨pre ++ rest, pre.length + w.length⟩) := by
  intro f
  induction f with
  | zero => intro n pre rest l r' hf; omega
  | succ f ih =>
    intro n pre rest l r' hf
    rw [P.whileLt]
    dsimp only
    by_cases hn : 0 < n
    · rw [if_pos (by omega)]
      constructor
      · intro hh
        cases hi : item ⟨pre ++ rest, pre.length⟩ with
        | err e => rw [hi] at hh; cases hh
        | panic => rw [hi] at hh; cases hh
        | ok x =>
          obtain ⟨a, r1⟩ := x
          rw [hi] at hh
          simp only [Res.bind_ok] at hh
          obtain ⟨w1, post1, rfl, hG, rfl⟩ := (h pre rest a r1).mp hi
          have hp := hpos _ _ hG
          cases hw : P.whileLt item (pre.length + n) f ⟨pre ++ (w1 ++ post1), pre.length + w1.length⟩ with
          | err e => rw [hw] at hh; cases hh
          | panic => rw [hw] at hh; cases hh
          | ok y =>
            obtain ⟨as, r2⟩ := y
            rw [hw] at hh
            cases hh
            by_cases hle : w1.length ≤ n
            · have e : (⟨pre ++ (w1 ++ post1), pre.length + w1.length⟩ : Reader) =
                  ⟨(pre ++ w1) ++ post1, (pre ++ w1).length⟩ := by simp
              rw [e, show pre.length + n = (pre ++ w1).length + (n - w1.length) by simp; omega] at hw
              obtain ⟨w2, post2, rfl, hE, rfl⟩ := (ih (n - w1.length) (pre ++ w1) post1 as _ (by simp at hf; omega)).mp hw
              exact ⟨w1 ++ w2, post2, by simp, .more n w1 w2 a as hn hG hE, by simp [Nat.add_assoc]⟩
            · have hstop : ∀ (g : Nat) , P.whileLt item (pre.length + n) g
                  ⟨pre ++ (w1 ++ post1), pre.length + w1.length⟩ =
                    .ok ([], ⟨pre ++ (w1 ++ post1), pre.length + w1.length⟩) := by
                intro g
                cases g with
                | zero => rw [P.whileLt]; dsimp only; rw [if_neg (by omega)]
                | succ g => rw [P.whileLt]; dsimp only; rw [if_neg (by omega)]
              rw [hstop] at hw
              cases hw
              exact ⟨w1, post1, rfl, by
                have := Entries.more (item := G) n w1 [] a [] hn hG (by
                  rw [show n - w1.length = 0 by omega]; exact .done)
                simpa using this, rfl⟩
      · rintro ⟨w, post, rfl, hE, rfl⟩
        cases hE with
        | done => omega
        | more _ w1 ws a as _ hG hE =>
          have hp := hpos _ _ hG
          rw [(h pre _ a _).mpr ⟨w1, ws ++ post, by simp, hG, rfl⟩]
          simp only [Res.bind_ok]
          by_cases hle : w1.length ≤ n
          · have e : (⟨pre ++ (w1 ++ ws ++ post), pre.length + w1.length⟩ : Reader) =
                ⟨(pre ++ w1) ++ (ws ++ post), (pre ++ w1).length⟩ := by simp
            rw [e, show pre.length + n = (pre ++ w1).length + (n - w1.length) by simp; omega]
            rw [(ih (n - w1.length) (pre ++ w1) (ws ++ post) as _ (by simp at hf ⊢; omega)).mpr ⟨ws, post, rfl, hE, rfl⟩]
            simp [Nat.add_assoc]
          · rw [show n - w1.length = 0 by omega] at hE
            cases hE with
            | done =>
              have hstop : P.whileLt item (pre.length + n) f
                  ⟨pre ++ (w1 ++ [] ++ post), pre.length + w1.length⟩ =
                    .ok ([], ⟨pre ++ (w1 ++ [] ++ post), pre.length + w1.length⟩) := by
                cases f with
                | zero => rw [P.whileLt]; dsimp only; rw [if_neg (by omega)]
                | succ g => rw [P.whileLt]; dsimp only; rw [if_neg (by omega)]
              rw [hstop]
              simp
            | more _ _ _ _ _ h0 _ _ => omega
    · have hn0 : n = 0 := by omega
      subst hn0
      rw [if_neg (by omega)]
      constructor
      · intro hh; cases hh; exact ⟨[], rest, rfl, .done, rfl⟩
      · rintro ⟨w, post, rfl, hE, rfl⟩
        cases hE with
        | done => simp
        | more _ _ _ _ _ h0 _ _ => omega

/-- The loop on the enclosing reader. -/
theorem loopHere {item : P α} {G : Bytes → α → Prop} (h : Exact item G) (hpos : ∀ w a, G w a → 0 < w.length) (n : Nat) :
    Exact (P.getPos >>= fun pos => P.loopTo item (pos + n)) (Entries G n) := by
  intro pre rest l r'
  rw [P.bind_def]
  simp only [P.getPos, Res.bind_ok, P.loopTo]
  exact whileLt h hpos _ n pre rest l r' (by simp; omega)

/-- The loop over a slice. -/
theorem loopSub {item : P α} {G : Bytes → α → Prop} (h : Exact item G) (hpos : ∀ w a, G w a → 0 < w.length) (d : Bytes)
    (l : List α) :
    (∃ s', P.loopTo item d.length ⟨d, 0⟩ = .ok (l, s')) ↔ Entries G d.length d l := by
  have key := whileLt h hpos (d.length + 1) d.length [] d l
  simp only [List.nil_append, List.length_nil, Nat.zero_add] at key
  constructor
  · rintro ⟨s', hs⟩
    obtain ⟨w, post, h1, h2, _⟩ := (key s' (by omega)).mp hs
    have hle : d.length ≤ w.length := entries_le h2
    have : post = [] := by
      have := congrArg List.length h1; simp at this
      exact List.length_eq_zero_iff.mp (by omega)
    subst this
    simp at h1; subst h1; exact h2
  · intro hE
    exact ⟨_, (key _ (by omega)).mpr ⟨d, [], by simp, hE, rfl⟩⟩
where
  entries_le {G : Bytes → α → Prop} {n : Nat} {w : Bytes} {l : List α} (h : Entries G n w l) : n ≤ w.length := by
    induction h with
    | done => simp
    | more n w ws a as _ _ _ ih => simp; omega

end Exact

/-! ### The parts of a block -/

theorem algoOk_ofU32 (x : UInt32) : AlgoOk (Algo.ofU32 x) := by
  unfold AlgoOk Algo.ofU32
  split
  · simp
  · split
    · simp
    · rename_i h1 h2
      constructor <;> · intro h; cases h; simp_all

theorem ofU32_toU32 {a : Algo} (h : AlgoOk a) : Algo.ofU32 a.toU32 = a := by
  cases a with
  | p256 => rfl
  | p384 => rfl
  | unknown x =>
    have h1 : x ≠ 0x0201 := fun e => h.1 (by rw [e])
    have h2 : x ≠ 0x0202 := fun e => h.2 (by rw [e])
    simp [Algo.toU32, Algo.ofU32, h1, h2]

theorem Digest.exact : Exact Digest.parse IsDigest := by
  refine (Exact.bind .readSize fun size => .bind .readU32 fun id => .bind .readSize fun n =>
    .bindPure (g := fun x => (⟨size, Algo.ofU32 id, x⟩ : Digest)) (.getTo n)).congr fun w d => ?_
  constructor
  · rintro ⟨_, _, size, rfl, ⟨rfl, hs⟩, _, _, id, rfl, rfl, _, _, n, rfl, ⟨rfl, hn⟩, x, ⟨rfl, rfl⟩, rfl⟩
    refine ⟨?_, hs, hn, algoOk_ofU32 id⟩
    simp [lp4, (C11_toU32 id)]
  · rintro ⟨rfl, hs, hn, ha⟩
    refine ⟨_, _, d.size, (List.append_assoc _ _ _), ⟨rfl, hs⟩, _, _, d.algo.toU32, rfl, rfl, _, _, d.digest.length, rfl, ⟨rfl, hn⟩,
      d.digest, ⟨rfl, rfl⟩, ?_⟩
    rw [ofU32_toU32 ha]
where
  C11_toU32 (x : UInt32) : (Algo.ofU32 x).toU32 = x := by
    unfold Algo.ofU32
    split
    · rename_i h; simp [Algo.toU32, h]
    · split
      · rename_i h; simp [Algo.toU32, h]
      · rfl

theorem Sig.exact : Exact Sig.parse IsSig := by
  refine (Exact.bind .readSize fun size => .bind .readU32 fun id => .bind .readSize fun n =>
    .bindPure (g := fun x => (⟨size, Algo.ofU32 id, x⟩ : Sig)) (.getTo n)).congr fun w d => ?_
  constructor
  · rintro ⟨_, _, size, rfl, ⟨rfl, hs⟩, _, _, id, rfl, rfl, _, _, n, rfl, ⟨rfl, hn⟩, x, ⟨rfl, rfl⟩, rfl⟩
    refine ⟨?_, hs, hn, algoOk_ofU32 id⟩
    simp [lp4, (Digest.exact.C11_toU32 id)]
  · rintro ⟨rfl, hs, hn, ha⟩
    refine ⟨_, _, d.size, (List.append_assoc _ _ _), ⟨rfl, hs⟩, _, _, d.algo.toU32, rfl, rfl, _, _, d.signature.length, rfl,
      ⟨rfl, hn⟩, d.signature, ⟨rfl, rfl⟩, ?_⟩
    rw [ofU32_toU32 ha]

theorem Cert.exact : Exact Cert.parse IsCert := by
  refine (Exact.bind .readSize fun size => .bindPure (g := fun x => (⟨size, x⟩ : Cert)) (.getTo size)).congr fun w d => ?_
  constructor
  · rintro ⟨_, _, size, rfl, ⟨rfl, hs⟩, x, ⟨rfl, rfl⟩, rfl⟩
    exact ⟨rfl, rfl, hs⟩
  · rintro ⟨rfl, h1, h2⟩
    obtain ⟨size, cert⟩ := d
    dsimp only at h1 h2 ⊢
    subst h1
    exact ⟨_, _, cert.length, rfl, ⟨rfl, h2⟩, cert, ⟨rfl, rfl⟩, rfl⟩

theorem PubKey.exact : Exact PubKey.parse IsKey := by
  refine (Exact.bind .readSize fun size => .bindPure (g := fun x => (⟨size, x⟩ : PubKey)) (.getTo size)).congr fun w d => ?_
  constructor
  · rintro ⟨_, _, size, rfl, ⟨rfl, hs⟩, x, ⟨rfl, rfl⟩, rfl⟩
    exact ⟨rfl, rfl, hs⟩
  · rintro ⟨rfl, h1, h2⟩
    obtain ⟨size, cert⟩ := d
    dsimp only at h1 h2 ⊢
    subst h1
    exact ⟨_, _, cert.length, rfl, ⟨rfl, h2⟩, cert, ⟨rfl, rfl⟩, rfl⟩

theorem Attr.exact : Exact Attr.parse IsAttr := by
  have h1 : ∀ (size : Nat) (id : UInt32), Exact (if size < 4 then P.fail .invalidSize else
      P.getTo (size - 4) >>= fun d => (Pure.pure (⟨size, id, d⟩ : Attr) : P Attr))
      (fun w a => 4 ≤ size ∧ w.length = size - 4 ∧ a = ⟨size, id, w⟩) := by
    intro size id
    split
    · exact (Exact.fail _).congr fun w a => ⟨False.elim, fun h => by omega⟩
    · refine (Exact.bindPure (g := fun d => (⟨size, id, d⟩ : Attr)) (.getTo (size - 4))).congr fun w a => ?_
      constructor
      · rintro ⟨d, ⟨rfl, h⟩, rfl⟩; exact ⟨by omega, h, rfl⟩
      · rintro ⟨_, h, rfl⟩; exact ⟨w, ⟨rfl, h⟩, rfl⟩
  refine (Exact.bind .readSize fun size => .bind .readU32 fun id => h1 size id).congr fun w a => ?_
  constructor
  · rintro ⟨_, _, size, rfl, ⟨rfl, hs⟩, _, x, id, rfl, rfl, h4, hx, rfl⟩
    refine ⟨?_, by dsimp only; omega, hs⟩
    have : 4 + (size - 4) = size := by omega
    simp [wireAttr, lp4, hx, this]
  · rintro ⟨rfl, hs, hl⟩
    obtain ⟨size, id, data⟩ := a
    dsimp only at hs hl ⊢
    subst hs
    refine ⟨_, _, 4 + data.length, ?_, ⟨rfl, hl⟩, _, data, id, rfl, rfl, by omega, by omega, rfl⟩
    simp [wireAttr, lp4]

theorem isDigest_pos {w : Bytes} {d : Digest} (h : IsDigest w d) : 0 < w.length := by rw [h.1]; simp; omega
theorem isSig_pos {w : Bytes} {d : Sig} (h : IsSig w d) : 0 < w.length := by rw [h.1]; simp; omega
theorem isCert_pos {w : Bytes} {d : Cert} (h : IsCert w d) : 0 < w.length := by rw [h.1]; simp [lp4]; omega
theorem isAttr_pos {w : Bytes} {d : Attr} (h : IsAttr w d) : 0 < w.length := by rw [h.1]; simp [wireAttr, lp4]; omega

theorem Digests.exact : Exact Digests.parse IsDigests := by
  have e : Digests.parse = P.readSize >>= fun size =>
      (P.asSlice size >>= fun s => P.on s (P.loopTo Digest.parse size)) >>= fun ds => Pure.pure (⟨size, ds⟩ : Digests) := by
    unfold Digests.parse; congr 1; funext size; rw [P.assoc]
  rw [e]
  refine (Exact.bind .readSize fun size => Exact.bindPure (g := fun ds => (⟨size, ds⟩ : Digests))
    (Exact.sub (H := fun d l => Entries IsDigest size d l) fun d a hl => ?_)).congr fun w d => ?_
  · have := Exact.loopSub Digest.exact (fun w a h => isDigest_pos h) d a
    rw [hl] at this
    exact this
  · constructor
    · rintro ⟨_, inner, size, rfl, ⟨rfl, hs⟩, l, ⟨rfl, hE⟩, rfl⟩
      exact ⟨inner, rfl, rfl, hs, hE⟩
    · rintro ⟨inner, rfl, h1, h2, h3⟩
      obtain ⟨size, data⟩ := d
      dsimp only at h1 h2 h3
      subst h1
      exact ⟨_, inner, inner.length, rfl, ⟨rfl, h2⟩, data, ⟨rfl, h3⟩, rfl⟩

theorem Certs.exact : Exact Certs.parse IsCerts := by
  have e : Certs.parse = P.readSize >>= fun size =>
      (P.getPos >>= fun pos => P.loopTo Cert.parse (pos + size)) >>= fun ds => Pure.pure (⟨size, ds⟩ : Certs) := by
    unfold Certs.parse; congr 1
  rw [e]
  refine (Exact.bind .readSize fun size => Exact.bindPure (g := fun ds => (⟨size, ds⟩ : Certs))
    (Exact.loopHere Cert.exact (fun w a h => isCert_pos h) size)).congr fun w d => ?_
  constructor
  · rintro ⟨_, inner, size, rfl, ⟨rfl, hs⟩, l, hE, rfl⟩
    exact ⟨inner, rfl, hs, hE⟩
  · rintro ⟨inner, rfl, h2, h3⟩
    exact ⟨_, inner, d.size, rfl, ⟨rfl, h2⟩, d.data, h3, rfl⟩

theorem Attrs.exact : Exact Attrs.parse IsAttrs := by
  have e : Attrs.parse = P.readSize >>= fun size =>
      (P.getPos >>= fun pos => P.loopTo Attr.parse (pos + size)) >>= fun ds => Pure.pure (⟨size, ds⟩ : Attrs) := by
    unfold Attrs.parse; congr 1
  rw [e]
  refine (Exact.bind .readSize fun size => Exact.bindPure (g := fun ds => (⟨size, ds⟩ : Attrs))
    (Exact.loopHere Attr.exact (fun w a h => isAttr_pos h) size)).congr fun w d => ?_
  constructor
  · rintro ⟨_, inner, size, rfl, ⟨rfl, hs⟩, l, hE, rfl⟩
    exact ⟨inner, rfl, hs, hE⟩
  · rintro ⟨inner, rfl, h2, h3⟩
    exact ⟨_, inner, d.size, rfl, ⟨rfl, h2⟩, d.data, h3, rfl⟩

theorem Sigs.exact : Exact Sigs.parse IsSigs := by
  have e : Sigs.parse = P.readSize >>= fun size => if size = 0 then Pure.pure (⟨size, []⟩ : Sigs) else
      (P.getPos >>= fun pos => P.loopTo Sig.parse (pos + size)) >>= fun ds => Pure.pure (⟨size, ds⟩ : Sigs) := by
    unfold Sigs.parse; congr 1
  rw [e]
  have h1 : ∀ size, Exact (if size = 0 then Pure.pure (⟨size, []⟩ : Sigs) else
      (P.getPos >>= fun pos => P.loopTo Sig.parse (pos + size)) >>= fun ds => Pure.pure (⟨size, ds⟩ : Sigs))
      (fun w s => s.size = size ∧ Entries IsSig size w s.data) := by
    intro size
    split
    · rename_i h0
      refine (Exact.pure _).congr fun w s => ?_
      subst h0
      constructor
      · rintro ⟨rfl, rfl⟩; exact ⟨rfl, .done⟩
      · rintro ⟨h, hE⟩
        obtain ⟨sz, data⟩ := s
        dsimp only at h hE
        subst h
        generalize hz : 0 = z at hE
        cases hE with
        | done => exact ⟨rfl, rfl⟩
        | more _ _ _ _ _ h0 _ _ => omega
    · refine (Exact.bindPure (g := fun ds => (⟨size, ds⟩ : Sigs))
        (Exact.loopHere Sig.exact (fun w a h => isSig_pos h) size)).congr fun w d => ?_
      constructor
      · rintro ⟨l, hE, rfl⟩; exact ⟨rfl, hE⟩
      · rintro ⟨h, hE⟩; exact ⟨d.data, hE, by cases d; simp_all⟩
  refine (Exact.bind .readSize h1).congr fun w d => ?_
  constructor
  · rintro ⟨_, inner, size, rfl, ⟨rfl, hs⟩, h, hE⟩
    exact ⟨inner, by rw [h], by rw [h]; exact hs, by rw [h]; exact hE⟩
  · rintro ⟨inner, rfl, h2, h3⟩
    exact ⟨_, inner, d.size, rfl, ⟨rfl, h2⟩, rfl, h3⟩

/-- Digests, certificates, attributes. -/
theorem signedParts_exact (g : Digests → Certs → Attrs → α) :
    Exact (Digests.parse >>= fun d => Certs.parse >>= fun c => Attrs.parse >>= fun a => (Pure.pure (g d c a) : P α))
      (fun w x => ∃ d c a d' c' a', w = d ++ c ++ a ∧ IsDigests d d' ∧ IsCerts c c' ∧ IsAttrs a a' ∧ x = g d' c' a') := by
  refine (Exact.bind Digests.exact fun d => .bind Certs.exact fun c => .bindPure (g := g d c) Attrs.exact).congr fun w x => ?_
  constructor
  · rintro ⟨d, _, d', rfl, hd, c, a, c', rfl, hc, a', ha, rfl⟩
    exact ⟨d, c, a, d', c', a', by simp, hd, hc, ha, rfl⟩
  · rintro ⟨d, c, a, d', c', a', rfl, hd, hc, ha, rfl⟩
    exact ⟨d, c ++ a, d', by simp, hd, c, a, c', rfl, hc, a', ha, rfl⟩

theorem SignedDataV2.exact : Exact SignedDataV2.parse IsSignedV2 := by
  refine (Exact.bind .readSize fun size => Exact.sub
    (q := fun _ => Digests.parse >>= fun d => Certs.parse >>= fun c => Attrs.parse >>= fun a =>
      (Pure.pure (⟨size, d, c, a, true⟩ : SignedDataV2) : P SignedDataV2))
    fun d a hl => (signedParts_exact fun d c a => (⟨size, d, c, a, true⟩ : SignedDataV2)).alone d a).congr fun w s => ?_
  constructor
  · rintro ⟨_, _, size, rfl, ⟨rfl, hs⟩, hl, _, rest, rfl, d, c, a, d', c', a', rfl, hd, hc, ha, rfl⟩
    subst hl
    exact ⟨d, c, a, rest, rfl, rfl, hs, hd, hc, ha, rfl⟩
  · rintro ⟨d, c, a, rest, rfl, h1, h2, hd, hc, ha, h3⟩
    obtain ⟨size, d', c', a', pad⟩ := s
    dsimp only at h1 h2 hd hc ha h3
    subst h1 h3
    exact ⟨_, _, _, rfl, ⟨rfl, h2⟩, rfl, d ++ c ++ a, rest, rfl, d, c, a, d', c', a', rfl, hd, hc, ha, rfl⟩

theorem SignedDataStamp.exact : Exact SignedDataStamp.parse IsSignedStamp := by
  refine (Exact.bind .readSize fun size => Exact.sub
    (q := fun _ => Digests.parse >>= fun d => Certs.parse >>= fun c => Attrs.parse >>= fun a =>
      (Pure.pure (⟨d, c, a⟩ : SignedDataStamp) : P SignedDataStamp))
    fun d a hl => (signedParts_exact fun d c a => (⟨d, c, a⟩ : SignedDataStamp)).alone d a).congr fun w s => ?_
  constructor
  · rintro ⟨_, _, size, rfl, ⟨rfl, hs⟩, hl, _, rest, rfl, d, c, a, d', c', a', rfl, hd, hc, ha, rfl⟩
    subst hl
    exact ⟨d, c, a, rest, rfl, hs, hd, hc, ha⟩
  · rintro ⟨d, c, a, rest, rfl, h2, hd, hc, ha⟩
    obtain ⟨d', c', a'⟩ := s
    exact ⟨_, _, _, rfl, ⟨rfl, h2⟩, rfl, d ++ c ++ a, rest, rfl, d, c, a, d', c', a', rfl, hd, hc, ha, rfl⟩

theorem SignerV2.exact : Exact SignerV2.parse IsSigner := by
  refine (Exact.bind .readSize fun size => .bind SignedDataV2.exact fun sd => .bind Sigs.exact fun ss =>
    .bindPure (g := fun k => (⟨size, sd, ss, k⟩ : SignerV2)) PubKey.exact).congr fun w s => ?_
  constructor
  · rintro ⟨_, _, size, rfl, ⟨rfl, hs⟩, d, _, d', rfl, hd, g, k, g', rfl, hg, k', hk, rfl⟩
    exact ⟨d, g, k, by simp, hs, hd, hg, hk⟩
  · rintro ⟨d, g, k, rfl, hs, hd, hg, hk⟩
    exact ⟨_, d ++ (g ++ k), s.size, by simp, ⟨rfl, hs⟩, d, g ++ k, _, rfl, hd, g, k, _, rfl, hg, _, hk, rfl⟩

theorem isSigner_pos {w : Bytes} {d : SignerV2} (h : IsSigner w d) : 0 < w.length := by
  obtain ⟨_, _, _, rfl, _⟩ := h; simp; omega

theorem SignersV2.exact : Exact SignersV2.parse IsSigners := by
  have e : SignersV2.parse = P.readSize >>= fun size =>
      (P.asSlice size >>= fun s => P.on s (P.loopTo SignerV2.parse s.data.length)) >>= fun ds =>
        Pure.pure (⟨size, ds⟩ : SignersV2) := by
    unfold SignersV2.parse; congr 1; funext size; rw [P.assoc]
  rw [e]
  refine (Exact.bind .readSize fun size => Exact.bindPure (g := fun ds => (⟨size, ds⟩ : SignersV2))
    (Exact.sub (q := fun s => P.loopTo SignerV2.parse s.data.length) (H := fun d l => Entries IsSigner size d l)
      fun d a hl => ?_)).congr fun w d => ?_
  · have := Exact.loopSub SignerV2.exact (fun w a h => isSigner_pos h) d a
    rw [← hl]
    exact this
  · constructor
    · rintro ⟨_, inner, size, rfl, ⟨rfl, hs⟩, l, ⟨rfl, hE⟩, rfl⟩
      exact ⟨inner, rfl, rfl, hs, hE⟩
    · rintro ⟨inner, rfl, h1, h2, h3⟩
      obtain ⟨size, data⟩ := d
      dsimp only at h1 h2 h3
      subst h1
      exact ⟨_, inner, inner.length, rfl, ⟨rfl, h2⟩, data, ⟨rfl, h3⟩, rfl⟩

theorem StampBlock.exact : Exact StampBlock.parse IsStamp := by
  have inner : ∀ size, Exact (SignedDataStamp.parse >>= fun sd => Sigs.parse >>= fun ss => PubKey.parse >>= fun k =>
      (Pure.pure (⟨size, sd, ss, k⟩ : StampBlock) : P StampBlock))
      (fun w s => ∃ d g k, w = d ++ g ++ k ∧ IsSignedStamp d s.signedData ∧ IsSigs g s.sigs ∧ IsKey k s.pubKey ∧ s.size = size) := by
    intro size
    refine (Exact.bind SignedDataStamp.exact fun sd => .bind Sigs.exact fun ss =>
      .bindPure (g := fun k => (⟨size, sd, ss, k⟩ : StampBlock)) PubKey.exact).congr fun w s => ?_
    constructor
    · rintro ⟨d, _, d', rfl, hd, g, k, g', rfl, hg, k', hk, rfl⟩
      exact ⟨d, g, k, by simp, hd, hg, hk, rfl⟩
    · rintro ⟨d, g, k, rfl, hd, hg, hk, rfl⟩
      exact ⟨d, g ++ k, _, by simp, hd, g, k, _, rfl, hg, _, hk, rfl⟩
  refine (Exact.bind .readSize fun size => Exact.sub
    (q := fun _ => SignedDataStamp.parse >>= fun sd => Sigs.parse >>= fun ss => PubKey.parse >>= fun k =>
      (Pure.pure (⟨size, sd, ss, k⟩ : StampBlock) : P StampBlock))
    fun d a hl => (inner size).alone d a).congr fun w s => ?_
  constructor
  · rintro ⟨_, _, size, rfl, ⟨rfl, hs⟩, hl, _, rest, rfl, d, g, k, rfl, hd, hg, hk, h⟩
    subst h
    rw [← hl] at hs ⊢
    exact ⟨d, g, k, rest, rfl, hl, by rw [← hl]; exact hs, hd, hg, hk⟩
  · rintro ⟨d, g, k, rest, rfl, h1, h2, hd, hg, hk⟩
    exact ⟨_, _, s.size, by rw [lp4, h1], ⟨rfl, h2⟩, h1, d ++ g ++ k, rest, rfl, d, g, k, rfl, hd, hg, hk, rfl⟩

theorem SectionEntry.exact : Exact SectionEntry.parse (fun w e =>
    w = wireSection (e.name, e.offset, e.size) ∧ e.nameLen.toNat = e.name.length ∧ validUtf8 e.name = true) := by
  have h1 : ∀ (n : UInt16) (name : Bytes), Exact (if validUtf8 name then
      P.readU64 >>= fun off => P.readU64 >>= fun sz => (Pure.pure (⟨n, name, off, sz⟩ : SectionEntry) : P SectionEntry)
      else P.fail .invalidUtf8)
      (fun w e => validUtf8 name = true ∧ e.nameLen = n ∧ e.name = name ∧ w = leBytes 8 e.offset.toNat ++ leBytes 8 e.size.toNat) := by
    intro n name
    split
    · rename_i hv
      refine (Exact.bind .readU64 fun off => .bindPure (g := fun sz => (⟨n, name, off, sz⟩ : SectionEntry)) .readU64).congr
        fun w e => ?_
      constructor
      · rintro ⟨_, _, off, rfl, rfl, sz, rfl, rfl⟩; exact ⟨hv, rfl, rfl, rfl⟩
      · rintro ⟨_, rfl, rfl, rfl⟩; exact ⟨_, _, e.offset, rfl, rfl, e.size, rfl, rfl⟩
    · rename_i hv
      exact (Exact.fail _).congr fun w a => ⟨False.elim, fun h => absurd h.1 hv⟩
  refine (Exact.bind .readU16 fun n => .bind (.getTo n.toNat) fun name => h1 n name).congr fun w e => ?_
  constructor
  · rintro ⟨_, _, n, rfl, rfl, _, _, name, rfl, ⟨rfl, hl⟩, hv, rfl, rfl, rfl⟩
    exact ⟨by simp [wireSection, hl], hl.symm, hv⟩
  · rintro ⟨rfl, hl, hv⟩
    exact ⟨_, _, e.nameLen, by rw [wireSection, hl]; simp only [List.append_assoc], rfl, _, _, e.name, rfl,
      ⟨rfl, hl.symm⟩, hv, rfl, rfl, rfl⟩

theorem Exact.repeatN {item : P α} {G : Bytes → α → Prop} (h : Exact item G) : ∀ n,
    Exact (P.repeatN item n) (fun w l => l.length = n ∧ ∃ ws : List Bytes, w = ws.flatten ∧ ws.length = l.length ∧
      ∀ (i : Nat) (x : Bytes) (a : α), ws[i]? = some x → l[i]? = some a → G x a)
  | 0 => by
    refine (Exact.pure (α := List α) []).congr fun w l => ?_
    constructor
    · rintro ⟨rfl, rfl⟩; exact ⟨rfl, [], rfl, rfl, fun i x a h => by simp at h⟩
    · rintro ⟨h1, ws, rfl, h2, _⟩
      have := List.length_eq_zero_iff.mp h1
      subst this
      have := List.length_eq_zero_iff.mp h2
      subst this
      exact ⟨rfl, rfl⟩
  | n + 1 => by
    refine (Exact.bind h fun a => .bindPure (g := fun as => a :: as) (Exact.repeatN h n)).congr fun w l => ?_
    constructor
    · rintro ⟨w1, _, a, rfl, hG, as, ⟨h1, ws, rfl, h2, h3⟩, rfl⟩
      refine ⟨by simp [h1], w1 :: ws, by simp, by simp [h2], ?_⟩
      intro i x b hx hb
      cases i with
      | zero => simp at hx hb; rw [← hx, ← hb]; exact hG
      | succ i => exact h3 i x b (by simpa using hx) (by simpa using hb)
    · rintro ⟨h1, ws, rfl, h2, h3⟩
      cases l with
      | nil => simp at h1
      | cons a as =>
        cases ws with
        | nil => simp at h2
        | cons w1 ws =>
          exact ⟨w1, ws.flatten, a, by simp, h3 0 w1 a (by simp) (by simp), as,
            ⟨by simpa using h1, ws, rfl, by simpa using h2, fun i x b hx hb => h3 (i + 1) x b (by simpa using hx) (by simpa using hb)⟩,
            rfl⟩

theorem sections_flat (l : List SectionEntry) : ∀ w : Bytes,
    (∃ ws : List Bytes, w = ws.flatten ∧ ws.length = l.length ∧
      ∀ (i : Nat) (x : Bytes) (e : SectionEntry), ws[i]? = some x → l[i]? = some e →
        (x = wireSection (e.name, e.offset, e.size) ∧ e.nameLen.toNat = e.name.length ∧ validUtf8 e.name = true)) ↔
    (w = (l.map fun e => (e.name, e.offset, e.size)).flatMap wireSection ∧
      ∀ e ∈ l, e.nameLen.toNat = e.name.length ∧ validUtf8 e.name = true) := by
  induction l with
  | nil =>
    intro w
    constructor
    · rintro ⟨ws, rfl, h, _⟩
      have := List.length_eq_zero_iff.mp h
      subst this
      simp
    · rintro ⟨rfl, _⟩; exact ⟨[], rfl, rfl, by simp⟩
  | cons e l ih =>
    intro w
    constructor
    · rintro ⟨ws, rfl, h, hw⟩
      cases ws with
      | nil => simp at h
      | cons x ws =>
        obtain ⟨h1, h2, h3⟩ := hw 0 x e (by simp) (by simp)
        obtain ⟨h4, h5⟩ := (ih ws.flatten).mp ⟨ws, rfl, by simpa using h, fun i y e' hy he => hw (i + 1) y e' (by simpa using hy) (by simpa using he)⟩
        refine ⟨by simp [h1, h4], ?_⟩
        intro e' he'
        rcases List.mem_cons.mp he' with rfl | he'
        · exact ⟨h2, h3⟩
        · exact h5 e' he'
    · rintro ⟨rfl, h⟩
      obtain ⟨ws, h1, h2, h3⟩ := (ih _).mpr ⟨rfl, fun e' he' => h e' (by simp [he'])⟩
      refine ⟨wireSection (e.name, e.offset, e.size) :: ws, by simp [h1], by simp [h2], ?_⟩
      intro i x e' hx he
      cases i with
      | zero =>
        simp at hx he
        subst hx he
        exact ⟨rfl, h e (by simp)⟩
      | succ i => exact h3 i x e' (by simpa using hx) (by simpa using he)

theorem ElfSectionInfo.exact (size : Nat) (id : UInt32) : Exact (ElfSectionInfo.parse size id) (fun w e =>
    e.id = id ∧ e.size = size ∧ w = leBytes 4 e.sections.length ++
      (e.sections.map fun x => (x.name, x.offset, x.size)).flatMap wireSection ∧ e.count.toNat = e.sections.length ∧
      ∀ x ∈ e.sections, x.nameLen.toNat = x.name.length ∧ validUtf8 x.name = true) := by
  refine (Exact.bind .readU32 fun c => .bindPure (g := fun ss => (⟨size, id, c, ss⟩ : ElfSectionInfo))
    (Exact.repeatN SectionEntry.exact c.toNat)).congr fun w e => ?_
  constructor
  · rintro ⟨_, _, c, rfl, rfl, ss, ⟨hl, hw⟩, rfl⟩
    obtain ⟨rfl, h⟩ := (sections_flat ss _).mp hw
    exact ⟨rfl, rfl, by rw [hl], hl.symm, h⟩
  · rintro ⟨rfl, rfl, rfl, hc, h⟩
    exact ⟨_, _, e.count, by rw [← hc], rfl, e.sections, ⟨hc.symm, (sections_flat _ _).mpr ⟨rfl, h⟩⟩, rfl⟩

/-- The value of a pair, on its own slice. -/
theorem Value.parseBody_iff {id : UInt32} {value : Bytes} {r r' : Reader} {v : Value} :
    Value.parseBody (4 + value.length) id ⟨value, 0⟩ r = .ok (v, r') ↔ r' = r ∧ IsValue id value v := by
  have on_iff : ∀ {α : Type} (q : P α) (g : α → Value),
      (P.on ⟨value, 0⟩ q >>= fun s => (Pure.pure (g s) : P Value)) r = .ok (v, r') ↔
        r' = r ∧ ∃ a, (∃ s', q ⟨value, 0⟩ = .ok (a, s')) ∧ v = g a := by
    intro α q g
    constructor
    · intro h
      obtain ⟨a, r1, h1, h2⟩ := P.bind_ok h
      obtain ⟨rfl, s', h3⟩ := P.on_ok h1
      rw [P.pure_def] at h2
      cases h2
      exact ⟨rfl, a, ⟨s', h3⟩, rfl⟩
    · rintro ⟨rfl, a, ⟨s', h⟩, rfl⟩
      rw [P.bind_def]
      simp only [P.on, h, Res.bind_ok, P.pure_def]
  unfold Value.parseBody
  split
  · rename_i hid
    have hid' : id = 0x7109871a := hid
    rw [on_iff]
    refine and_congr_right fun _ => ?_
    constructor
    · rintro ⟨s, hs, rfl⟩
      obtain ⟨w, rest, h1, s', h2, rfl⟩ := ((Exact.bindPure (g := fun s => (⟨4 + value.length, id, s⟩ : SchemeV2))
        SignersV2.exact).alone value s).mp hs
      exact ⟨hid', rfl, rfl, w, rest, h1, h2⟩
    · intro h
      cases v with
      | v2 s =>
        obtain ⟨h0, h1, h2, w, rest, h3, h4⟩ := h
        obtain ⟨size, i, ss⟩ := s
        dsimp only at h1 h2 h4
        subst h1 h2
        exact ⟨_, ((Exact.bindPure (g := fun s => (⟨4 + value.length, i, s⟩ : SchemeV2))
          SignersV2.exact).alone value _).mpr ⟨w, rest, h3, ss, h4, rfl⟩, rfl⟩
      | stamp s => rw [hid'] at h; exact absurd h.1 (by decide)
      | elf s => rw [hid'] at h; exact absurd h.1 (by decide)
      | raw s => exact absurd hid' h.2.1
  · rename_i hid1
    split
    · rename_i hid
      have hid' : id = 0x6dff800d := hid
      rw [on_iff]
      refine and_congr_right fun _ => ?_
      constructor
      · rintro ⟨s, hs, rfl⟩
        obtain ⟨w, rest, h1, s', h2, rfl⟩ := ((Exact.bindPure (g := fun s => (⟨4 + value.length, id, s⟩ : SourceStamp))
          StampBlock.exact).alone value s).mp hs
        exact ⟨hid', rfl, rfl, w, rest, h1, h2⟩
      · intro h
        cases v with
        | stamp s =>
          obtain ⟨h0, h1, h2, w, rest, h3, h4⟩ := h
          obtain ⟨size, i, ss⟩ := s
          dsimp only at h1 h2 h4
          subst h1 h2
          exact ⟨_, ((Exact.bindPure (g := fun s => (⟨4 + value.length, i, s⟩ : SourceStamp))
            StampBlock.exact).alone value _).mpr ⟨w, rest, h3, ss, h4, rfl⟩, rfl⟩
        | v2 s => exact absurd h.1 hid1
        | elf s => rw [hid'] at h; exact absurd h.1 (by decide)
        | raw s => exact absurd hid' h.2.2.1
    · rename_i hid2
      split
      · rename_i hid
        have hid' : id = 0x4c45534b := hid
        rw [on_iff]
        refine and_congr_right fun _ => ?_
        constructor
        · rintro ⟨e, hs, rfl⟩
          obtain ⟨w, rest, h1, h2, h3, rfl, h4, h5⟩ := ((ElfSectionInfo.exact (4 + value.length) id).alone value e).mp hs
          refine ⟨hid', h2, h3, e.sections.map (fun x => (x.name, x.offset, x.size)), rest, by simpa using h1, ?_, ?_, by simpa using h4,
            rfl, fun x hx => (h5 x hx).1⟩
          · rw [List.length_map, ← h4]; exact e.count.toNat_lt
          · intro x hx
            obtain ⟨y, hy, rfl⟩ := List.mem_map.mp hx
            obtain ⟨h6, h7⟩ := h5 y hy
            refine ⟨?_, h7⟩
            dsimp only
            rw [← h6]; exact y.nameLen.toNat_lt
        · intro h
          cases v with
          | elf e =>
            obtain ⟨h0, h1, h2, es, rest, h3, h4, h5, h6, rfl, h7⟩ := h
            rw [List.length_map] at h6
            refine ⟨e, ((ElfSectionInfo.exact (4 + value.length) id).alone value e).mpr ⟨_, rest, h3, h1, h2, by simp, h6, ?_⟩, rfl⟩
            intro x hx
            exact ⟨h7 x hx, (h5 (x.name, x.offset, x.size) (List.mem_map.mpr ⟨x, hx, rfl⟩)).2⟩
          | v2 s => exact absurd h.1 hid1
          | stamp s => exact absurd h.1 hid2
          | raw s => exact absurd hid' h.2.2.2
      · rename_i hid3
        rw [P.pure_def]
        constructor
        · intro h; cases h; exact ⟨rfl, rfl, hid1, hid2, hid3⟩
        · rintro ⟨rfl, h⟩
          cases v with
          | raw s => obtain ⟨rfl, _⟩ := h; rfl
          | v2 s => exact absurd h.1 hid1
          | stamp s => exact absurd h.1 hid2
          | elf s => exact absurd h.1 hid3

theorem Value.exact : Exact Value.parse (fun w v => ∃ id value, w = wirePair id value ∧ 4 + value.length ≤ 16384 ∧
    IsValue id value v) := by
  intro pre rest v r'
  have hmp : maxPairSize = 16384 := rfl
  constructor
  · intro h
    obtain ⟨ps, r1, h1, h2⟩ := P.bind_ok h
    obtain ⟨w1, p1, rfl, ⟨rfl, hlt⟩, rfl⟩ := (Exact.readSizeU64 _ _ _ _).mp h1
    split at h2
    · cases h2
    · rename_i hmax
      obtain ⟨id, r2, h3, h4⟩ := P.bind_ok h2
      rw [show (⟨pre ++ (leBytes 8 ps ++ p1), pre.length + (leBytes 8 ps).length⟩ : Reader) =
        ⟨(pre ++ leBytes 8 ps) ++ p1, (pre ++ leBytes 8 ps).length⟩ by simp] at h3
      obtain ⟨w2, p2, rfl, rfl, rfl⟩ := (Exact.readU32 _ _ _ _).mp h3
      split at h4
      · cases h4
      · rename_i hmin
        obtain ⟨s, r3, h5, h6⟩ := P.bind_ok h4
        obtain ⟨value, c1, rfl, rfl⟩ := P.asSlice_ok h5
        dsimp only at c1 h6
        rw [show (pre ++ leBytes 8 ps ++ (leBytes 4 id.toNat ++ p2)) = (pre ++ leBytes 8 ps ++ leBytes 4 id.toNat) ++ p2 by simp,
          show (pre ++ leBytes 8 ps).length + (leBytes 4 id.toNat).length = (pre ++ leBytes 8 ps ++ leBytes 4 id.toNat).length by simp] at c1
        obtain ⟨_, h8, h9, h10⟩ := slice?_eq_some c1
        rw [List.drop_left, Nat.add_sub_cancel_left] at h9
        rw [Nat.add_sub_cancel_left] at h10
        obtain ⟨rfl, hv⟩ := Value.parseBody_iff.mp (by rw [show 4 + value.length = ps by omega]; exact h6)
        have hp2 : p2 = value ++ p2.drop (ps - 4) := by rw [h9, List.take_append_drop]
        refine ⟨wirePair id value, p2.drop (ps - 4), ?_, ⟨id, value, rfl, by omega, hv⟩, ?_⟩
        · rw [wirePair, show 4 + value.length = ps by omega]
          conv => lhs; rw [hp2]
          simp
        · simp [wirePair]; omega
  · rintro ⟨w, post, rfl, ⟨id, value, rfl, hl, hv⟩, rfl⟩
    have h1 := Parses.readSizeU64 (x := 4 + value.length) (by omega) pre (leBytes 4 id.toNat ++ value ++ post)
    have h2 := Parses.readU32 id (pre ++ leBytes 8 (4 + value.length)) (value ++ post)
    have h3 := slice?_append (pre ++ leBytes 8 (4 + value.length) ++ leBytes 4 id.toNat) value post
    unfold Value.parse
    rw [show pre ++ (wirePair id value ++ post) = pre ++ leBytes 8 (4 + value.length) ++ (leBytes 4 id.toNat ++ value ++ post) by
      simp [wirePair]]
    rw [P.bind_def, h1]
    simp only [Res.bind_ok]
    rw [if_neg (by omega)]
    rw [show pre ++ leBytes 8 (4 + value.length) ++ (leBytes 4 id.toNat ++ value ++ post) =
      pre ++ leBytes 8 (4 + value.length) ++ leBytes 4 id.toNat ++ (value ++ post) by simp]
    rw [← List.length_append, P.bind_def, h2]
    simp only [Res.bind_ok]
    rw [if_neg (by omega), P.bind_def, P.asSlice_eq]
    dsimp only
    rw [← List.length_append, show 4 + value.length - 4 = value.length by omega, ← List.append_assoc, h3]
    simp only [Res.bind_ok]
    rw [Value.parseBody_iff.mpr ⟨rfl, hv⟩]
    simp [wirePair]
    omega

theorem entries_content {w : Bytes} {vs : List Value} (hw : w.length ≤ 16384) :
    Entries (fun w v => ∃ id value, w = wirePair id value ∧ 4 + value.length ≤ 16384 ∧ IsValue id value v) w.length w vs ↔
      IsContent w vs := by
  constructor
  · intro h
    generalize hn : w.length = n at h
    clear hw
    induction h with
    | done => exact .nil
    | more n w ws a as h0 hi hE ih =>
      obtain ⟨id, value, rfl, _, hv⟩ := hi
      exact .cons id value a ws as hv (ih (by simp at hn ⊢; omega))
  · intro h
    induction h with
    | nil => exact .done
    | cons id value v rest vs hv hc ih =>
      have hl : (wirePair id value).length = 12 + value.length := by simp [wirePair]; omega
      rw [List.length_append, hl] at hw
      refine .more _ _ _ _ _ (by rw [List.length_append, hl]; omega) ⟨id, value, rfl, by omega, hv⟩ ?_
      rw [List.length_append, Nat.add_sub_cancel_left]
      exact ih (by omega)

/-- The pairs of a block. -/
theorem extractValues_iff {d : Bytes} {vs : List Value} (hd : d.length ≤ 16384) : extractValues d = .ok vs ↔ IsContent d vs := by
  have h := Exact.loopSub Value.exact (fun w a h => by obtain ⟨id, value, rfl, _⟩ := h; simp [wirePair]; omega) d vs
  rw [entries_content hd] at h
  rw [← h]
  unfold extractValues Reader.new
  cases hl : P.loopTo Value.parse d.length ⟨d, 0⟩ with
  | ok x => obtain ⟨a, r⟩ := x; constructor <;> intro hh
            · cases hh; exact ⟨r, rfl⟩
            · obtain ⟨s', hs⟩ := hh; cases hs; rfl
  | err e => constructor <;> intro hh
             · cases hh
             · obtain ⟨s', hs⟩ := hh; cases hs
  | panic => constructor <;> intro hh
             · cases hh
             · obtain ⟨s', hs⟩ := hh; cases hs

theorem parseFullBlock_frame (p : Profile) (pairs : Bytes) (hl : pairs.length + 24 ≤ 16384) :
    parseFullBlock p (wireFrame pairs) = (extractValues pairs).bind fun content =>
      .ok ⟨0, pairs.length + 32, pairs.length + 24, pairs.length, content, pairs.length + 24, Ksusig.magic⟩ := by
  have hwl := wireFrame_length' pairs
  have hsz : leNat (leBytes 8 (pairs.length + 24)) = pairs.length + 24 :=
    leNat_leBytes_of_lt (by have : (256 : Nat) ^ 8 = 2 ^ 64 := by decide
                            omega)
  have h1 : (wireFrame pairs).drop ((wireFrame pairs).length - 16) = Ksusig.magic := by
    rw [hwl, wireFrame]
    rw [show pairs.length + 32 - 16 = (leBytes 8 (pairs.length + 24) ++ pairs ++ leBytes 8 (pairs.length + 24)).length by
      simp; omega, List.drop_left]
    rfl
  have h2 : (wireFrame pairs).take 8 = leBytes 8 (pairs.length + 24) := by
    rw [wireFrame, List.append_assoc, List.append_assoc]
    rw [List.take_append_of_le_length (by simp), List.take_of_length_le (by simp)]
  have h3 : ((wireFrame pairs).drop ((wireFrame pairs).length - 24)).take 8 = leBytes 8 (pairs.length + 24) := by
    rw [hwl, wireFrame, List.append_assoc]
    rw [show pairs.length + 32 - 24 = (leBytes 8 (pairs.length + 24) ++ pairs).length by simp; omega, List.drop_left]
    rw [List.take_append_of_le_length (by simp), List.take_of_length_le (by simp)]
  have h4 : ((wireFrame pairs).drop 8).take ((wireFrame pairs).length - 32) = pairs := by
    rw [hwl, wireFrame, List.append_assoc, List.append_assoc, List.drop_append_of_le_length (by simp)]
    rw [List.drop_of_length_le (by simp), List.nil_append]
    rw [show pairs.length + 32 - 32 = pairs.length by omega, List.take_left]
  rw [parseFullBlock_eq p _ (by omega), h1, h2, h3, h4, hsz]
  rw [if_neg (by simp), if_neg (by simp), if_neg (by omega), if_neg (by omega), hwl]
  rw [show pairs.length + 32 - 8 = pairs.length + 24 by omega, show pairs.length + 32 - 32 = pairs.length by omega]

theorem frame_magic (pre pairs post : Bytes) :
    slice? (pre ++ wireFrame pairs ++ post) (pre.length + pairs.length + 16) (pre.length + pairs.length + 32) =
      some Ksusig.magic := by
  have := slice?_append (pre ++ (leBytes 8 (pairs.length + 24) ++ pairs ++ leBytes 8 (pairs.length + 24)))
    Ksusig.magic post
  rw [show pre ++ (leBytes 8 (pairs.length + 24) ++ pairs ++ leBytes 8 (pairs.length + 24)) ++ Ksusig.magic ++
    post = pre ++ wireFrame pairs ++ post by simp [wireFrame, Ksusig.magic]] at this
  rw [show (pre ++ (leBytes 8 (pairs.length + 24) ++ pairs ++ leBytes 8 (pairs.length + 24))).length =
    pre.length + pairs.length + 16 by simp; omega] at this
  exact this

theorem frame_tail (pre pairs post : Bytes) :
    slice? (pre ++ wireFrame pairs ++ post) (pre.length + pairs.length + 8) (pre.length + pairs.length + 16) =
      some (leBytes 8 (pairs.length + 24)) := by
  have := slice?_append (pre ++ (leBytes 8 (pairs.length + 24) ++ pairs)) (leBytes 8 (pairs.length + 24))
    (Ksusig.magic ++ post)
  rw [show pre ++ (leBytes 8 (pairs.length + 24) ++ pairs) ++ leBytes 8 (pairs.length + 24) ++
    (Ksusig.magic ++ post) = pre ++ wireFrame pairs ++ post by simp [wireFrame, Ksusig.magic]] at this
  rw [show (pre ++ (leBytes 8 (pairs.length + 24) ++ pairs)).length = pre.length + pairs.length + 8 by simp; omega,
    leBytes_length] at this
  exact this

theorem frame_whole (pre pairs post : Bytes) :
    slice? (pre ++ wireFrame pairs ++ post) pre.length (pre.length + (pairs.length + 32)) = some (wireFrame pairs) := by
  rw [← wireFrame_length' pairs]; exact slice?_append pre _ post

/-- Exactly what `from_u8` accepts. -/
theorem fromU8_iff {p : Profile} {d : Bytes} {b : SigningBlock} : SigningBlock.fromU8 p d = .ok b ↔
    ∃ pre pairs post, d = pre ++ wireFrame pairs ++ post ∧ pairs.length + 24 ≤ 16384 ∧ IsContent pairs b.content ∧
      (∀ u, MagicAt d u → u ≤ pre.length + pairs.length + 16) ∧
      b = ⟨0, pairs.length + 32, pairs.length + 24, pairs.length, b.content, pairs.length + 24, Ksusig.magic⟩ := by
  have hmb : maxBlockSize = 16384 := rfl
  constructor
  · intro h
    obtain ⟨pre, pairs, post, h1, h2, h3, h4, h5⟩ := fromU8_ok h
    exact ⟨pre, pairs, post, h1, h2, (extractValues_iff (by omega)).mp h3, h4, h5⟩
  · rintro ⟨pre, pairs, post, hd, hl, hc, hlast, hb⟩
    have hwl := wireFrame_length' pairs
    have hdl : d.length = pre.length + (pairs.length + 32) + post.length := by
      rw [hd]; simp only [List.length_append, hwl]
    have hsz : leNat (leBytes 8 (pairs.length + 24)) = pairs.length + 24 :=
      leNat_leBytes_of_lt (by have : (256 : Nat) ^ 8 = 2 ^ 64 := by decide
                              omega)
    have f1 : MagicAt d (pre.length + pairs.length + 16) := by
      unfold MagicAt; rw [hd]; exact frame_magic pre pairs post
    have f2 : (d.drop (pre.length + pairs.length + 16 - 8)).take 8 = leBytes 8 (pairs.length + 24) := by
      have h := (slice?_eq_some (frame_tail pre pairs post)).2.2.1
      rw [← hd] at h
      rw [h]
      rw [show pre.length + pairs.length + 16 - 8 = pre.length + pairs.length + 8 by omega,
        show pre.length + pairs.length + 16 - (pre.length + pairs.length + 8) = 8 by omega]
    unfold SigningBlock.fromU8
    rw [if_neg (by omega)]
    rcases fromU8Scan_cases p d (d.length - 16) (by omega) with ⟨_, h⟩ | ⟨t, h1, h2, h3, h4, h5⟩
    · exact absurd f1 (h _ (by omega) (by omega))
    · have ht : t = pre.length + pairs.length + 16 := by
        rcases Nat.lt_trichotomy t (pre.length + pairs.length + 16) with hlt | heq | hgt
        · exact absurd f1 (h4 _ hlt (by omega))
        · exact heq
        · have := hlast t h3; omega
      subst ht
      rw [h5, fromU8At_eq p d _ (by omega) (by omega) (by rw [f2, hsz]; omega), f2, hsz]
      dsimp only
      rw [if_neg (by omega), if_neg (by omega)]
      have f3 : (d.drop (pre.length + pairs.length + 16 + 8 - (pairs.length + 24))).take (pairs.length + 24 + 8) =
          wireFrame pairs := by
        rw [show pre.length + pairs.length + 16 + 8 - (pairs.length + 24) = pre.length by omega, hd, List.append_assoc,
          List.drop_left, show pairs.length + 24 + 8 = (wireFrame pairs).length by omega, List.take_left]
      rw [f3, parseFullBlock_frame p pairs hl, (extractValues_iff (by omega)).mpr hc]
      simp only [Res.bind_ok]
      rw [← hb]

theorem fromReader_window {p : Profile} {file : Bytes} {fl eo : Nat} {b : SigningBlock}
    (h : SigningBlock.fromReader p file fl eo = .ok b) :
    fl - eo ≤ file.length ∧ fl - eo + 24 ≤ b.fileEnd + 16777216 := by
  unfold SigningBlock.fromReader at h
  dsimp only at h
  generalize hse : fl - eo = se at *
  split at h
  · cases h
  · rename_i hbig
    have hmw : maxWindow = 16777216 := rfl
    obtain ⟨w, hw, h⟩ := Res.bind_eq_ok.mp h
    have hw := readExactAt_ok hw
    have hwf := (slice?_eq_some hw).2.1
    refine ⟨by omega, ?_⟩
    rcases fromReaderScan_cases p file fl (se - min se maxWindow) w (min se maxWindow - 16 + 1) with
      ⟨h1, _⟩ | ⟨t, s, h1, h2, h3, h4, h5, h6⟩
    · rw [h1] at h; cases h
    · rw [h6] at h
      unfold fromReaderAt at h
      dsimp only at h
      split at h
      · cases h
      · split at h
        · cases h
        · split at h
          · split at h
            · cases h
            · obtain ⟨full, hf, h⟩ := Res.bind_eq_ok.mp h
              obtain ⟨sig, hp, h⟩ := Res.bind_eq_ok.mp h
              cases h
              dsimp only
              omega
          · obtain ⟨full, hf, h⟩ := Res.bind_eq_ok.mp h
            obtain ⟨sig, hp, h⟩ := Res.bind_eq_ok.mp h
            cases h
            dsimp only
            omega

/-- Reading a frame whose magic is in the window and the last one before the search end; the frame itself may start before the
window. -/
theorem fromReader_frame_any (p : Profile) (pre pairs post : Bytes) {file : Bytes} {fl eo : Nat}
    (hfile : file = pre ++ wireFrame pairs ++ post)
    (hlim : pairs.length + 24 ≤ maxBlockSize) (hle : fl - eo ≤ file.length)
    (hend : pre.length + (pairs.length + 32) ≤ fl - eo)
    (hwin : fl - eo + 24 ≤ pre.length + (pairs.length + 32) + maxWindow)
    (hlast : ∀ u, u + 16 ≤ fl - eo → MagicAt file u → u ≤ pre.length + pairs.length + 16) :
    SigningBlock.fromReader p file fl eo =
      (parseFullBlock p (wireFrame pairs) >>= fun sig =>
        .ok { sig with fileStart := pre.length, fileEnd := pre.length + (pairs.length + 32) }) := by
  have hmb : maxBlockSize = 16384 := rfl
  have hwl := wireFrame_length' pairs
  unfold SigningBlock.fromReader
  dsimp only
  have hfl : fl - eo ≤ fl := Nat.sub_le _ _
  generalize fl - eo = se at *
  generalize hws : min se maxWindow = ws
  have hmw : maxWindow = 16777216 := rfl
  rw [if_neg (by omega)]
  have hsl : slice? file (se - ws) (se - ws + ws) = some ((file.drop (se - ws)).take ws) := by
    rw [slice?_of_le (by omega) (by omega)]; simp
  have hread : readExactAt file (se - ws) ws = .ok ((file.drop (se - ws)).take ws) := by
    unfold readExactAt; rw [hsl]; rfl
  generalize (file.drop (se - ws)).take ws = w at hread hsl
  generalize hst : se - ws = st at *
  rw [hread]
  simp only [Res.ok_bind]
  have f1 : slice? file (pre.length + pairs.length + 16) (pre.length + pairs.length + 32) = some Ksusig.magic := by
    rw [hfile]; exact frame_magic pre pairs post
  have f2 : slice? file (pre.length + pairs.length + 8) (pre.length + pairs.length + 16) =
      some (leBytes 8 (pairs.length + 24)) := by
    rw [hfile]; exact frame_tail pre pairs post
  have f3 : slice? file pre.length (pre.length + (pairs.length + 32)) = some (wireFrame pairs) := by
    rw [hfile]; exact frame_whole pre pairs post
  have w1 : MagicAt w (pre.length + pairs.length + 16 - st) := by
    unfold MagicAt
    rw [window_slice hsl (by omega) (by omega), ← f1]; congr 1 <;> omega
  have w2 : slice? w (pre.length + pairs.length + 16 - st - 8) (pre.length + pairs.length + 16 - st) =
      some (leBytes 8 (pairs.length + 24)) := by
    rw [window_slice hsl (by omega) (by omega), ← f2]; congr 1 <;> omega
  rcases fromReaderScan_cases p file fl st w (ws - 16 + 1) with ⟨_, h⟩ | ⟨t, s, h1, h2, h3, h4, h5, h6⟩
  · exact absurd w1 (h _ (by omega) (by omega))
  · have ht : t = pre.length + pairs.length + 16 - st := by
      rcases Nat.lt_trichotomy t (pre.length + pairs.length + 16 - st) with hlt | heq | hgt
      · exact absurd w1 (h5 _ hlt (by omega))
      · exact heq
      · exfalso
        have := hlast (st + t) (by omega) (by
          unfold MagicAt at h3 ⊢
          rw [window_slice hsl (by omega) (by omega)] at h3
          exact h3)
        omega
    subst ht
    rw [w2] at h4
    cases h4
    rw [h6]
    unfold fromReaderAt
    have hsz : leNat (leBytes 8 (pairs.length + 24)) = pairs.length + 24 :=
      leNat_leBytes_of_lt (by have : (256 : Nat) ^ 8 = 2 ^ 64 := by decide
                              omega)
    simp only [hsz]
    rw [if_neg (by omega), if_neg (by omega)]
    by_cases hstr : pre.length + pairs.length + 16 - st + 16 < pairs.length + 24 + 8
    · rw [if_pos hstr, if_neg (by omega)]
      have e1 : st + (pre.length + pairs.length + 16 - st + 16) - (pairs.length + 24 + 8) = pre.length := by omega
      rw [e1]
      unfold readExactAt
      rw [show pre.length + (pairs.length + 24 + 8) = pre.length + (pairs.length + 32) by omega, f3]
      simp only [Res.ofOption_some, Res.ok_bind]
      rw [show st + (pre.length + pairs.length + 16 - st + 16) = pre.length + (pairs.length + 32) by omega]
    · rw [if_neg hstr]
      have w3 : slice? w (pre.length - st) (pre.length + (pairs.length + 32) - st) = some (wireFrame pairs) := by
        rw [window_slice hsl (by omega) (by omega), show st + (pre.length - st) = pre.length by omega,
          show st + (pre.length + (pairs.length + 32) - st) = pre.length + (pairs.length + 32) by omega]
        exact f3
      rw [show pre.length + pairs.length + 16 - st + 16 - (pairs.length + 24 + 8) = pre.length - st by omega,
        show pre.length + pairs.length + 16 - st + 16 = pre.length + (pairs.length + 32) - st by omega, w3]
      simp only [Res.ofOption_some, Res.ok_bind]
      rw [show st + (pre.length - st) = pre.length by omega,
        show st + (pre.length + (pairs.length + 32) - st) = pre.length + (pairs.length + 32) by omega]

/-- Exactly what `from_reader` accepts. -/
theorem fromReader_iff {p : Profile} {file : Bytes} {fl eo : Nat} {b : SigningBlock} :
    SigningBlock.fromReader p file fl eo = .ok b ↔
    ∃ pre pairs post, file = pre ++ wireFrame pairs ++ post ∧ pairs.length + 24 ≤ 16384 ∧ IsContent pairs b.content ∧
      fl - eo ≤ file.length ∧ pre.length + pairs.length + 32 ≤ fl - eo ∧
      fl - eo + 24 ≤ pre.length + pairs.length + 32 + 16777216 ∧
      (∀ u, u + 16 ≤ fl - eo → MagicAt file u → u ≤ pre.length + pairs.length + 16) ∧
      b = ⟨pre.length, pre.length + pairs.length + 32, pairs.length + 24, pairs.length, b.content, pairs.length + 24,
        Ksusig.magic⟩ := by
  have hmb : maxBlockSize = 16384 := rfl
  have hmw : maxWindow = 16777216 := rfl
  constructor
  · intro h
    obtain ⟨pre, pairs, post, h1, h2, h3, h4, h5, h6⟩ := fromReader_ok h
    obtain ⟨h7, h8⟩ := fromReader_window h
    have h9 : b.fileEnd = pre.length + pairs.length + 32 := by rw [h6]
    exact ⟨pre, pairs, post, h1, h2, (extractValues_iff (by omega)).mp h3, h7, h4, by omega, h5, h6⟩
  · rintro ⟨pre, pairs, post, hd, hl, hc, hle, hend, hwin, hlast, hb⟩
    rw [fromReader_frame_any p pre pairs post hd (by omega) hle (by omega) (by omega) hlast, parseFullBlock_frame p pairs hl,
      (extractValues_iff (by omega)).mpr hc]
    simp only [Res.bind_ok, Res.ok_bind]
    rw [hb, show pre.length + (pairs.length + 32) = pre.length + pairs.length + 32 by omega]

end Ksusig
