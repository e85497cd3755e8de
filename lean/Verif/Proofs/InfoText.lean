import Verif.Proofs.Text

/-! The same for the info command. -/

namespace Ksusig

open Spec

theorem intercalate_unbroken {sep : List Char} (hs : '\n' ∉ sep) : ∀ {l : List (List Char)}, (∀ x ∈ l, '\n' ∉ x) → '\n' ∉ List.intercalate sep l
  | [], _ => by simp
  | [a], h => by simpa using h a List.mem_cons_self
  | a :: b :: as, h => by
    have ih := intercalate_unbroken hs (l := b :: as) fun x hx => h x (List.mem_cons_of_mem _ hx)
    have ha := h a List.mem_cons_self
    simp only [List.intercalate, List.intersperse, List.flatten_cons] at ih ⊢
    exact lit_append ha (lit_append hs ih)

theorem verr_unbroken {W : Words} (hW : Unbroken W) {stamp : Bool} {e : VErr} {t : List Char} (h : e.Says W stamp t) : '\n' ∉ t := by
  cases e <;> simp only [VErr.Says] at h
  · rw [h]; decide +kernel
  · obtain ⟨m, hm, rfl⟩ := h
    exact lit_append (by decide +kernel) (hW.2.2.2 m hm)
  · rename_i es
    obtain ⟨ms, hl, hm, rfl⟩ := h
    refine lit_append (by decide +kernel) (intercalate_unbroken (by decide +kernel) fun x hx => ?_)
    obtain ⟨i, hi, rfl⟩ := List.getElem_of_mem hx
    have hi' : i < es.length := by omega
    have : (es[i], ms[i]) ∈ es.zip ms := by
      rw [List.mem_iff_getElem]
      exact ⟨i, by simp; omega, by simp⟩
    exact signerErr_unbroken hW (hm _ this)

theorem iline_unbroken {W : Words} (hW : Unbroken W) {l : ILine} {t : List (List Char)} (h : l.Says W t) : ∀ s ∈ t, '\n' ∉ s := by
  have hf := hW.1
  have h0 : '\n' ∉ ([] : List Char) := by simp
  cases l <;> simp only [ILine.Says] at h
  case warning =>
    obtain ⟨m, hm, rfl⟩ := h
    have := warn_unbroken hW hm
    simp only [List.forall_mem_singleton]
    unbroken
  case v2Unavailable =>
    obtain ⟨m, hm, rfl⟩ := h
    have := verr_unbroken hW hm
    simp only [List.forall_mem_cons, List.not_mem_nil, false_implies, implies_true, and_true]
    refine ⟨not_false, ?_⟩
    unbroken
  case notFound => rw [h]; intro s hs; cases hs
  all_goals
    rw [h]
    simp only [List.forall_mem_cons, List.not_mem_nil, false_implies, implies_true, and_true]
    repeat' with_reducible apply And.intro
  all_goals first | exact not_false | unbroken | exact h0

/-- The number of a kind of line. -/
def ILine.kind : ILine → Nat
  | .fileSize _ => 0 | .found => 1 | .location .. => 2 | .size _ => 3 | .contents => 4 | .v2Entry => 5 | .stampEntry => 6 | .elfEntry _ => 7
  | .unknownEntry _ => 8 | .v2Flags .. => 9 | .leaf _ => 10 | .chainLength _ => 11 | .chainCert .. => 12 | .noChain => 13 | .warning .. => 14
  | .v2Unavailable _ => 15 | .stampFlags .. => 16 | .stampLeaf _ => 17 | .notFound => 18

/-- How the lines of a kind begin; `true` if that is all. -/
def infoShapes : Nat → List (String × Bool)
  | 0 => [("File: ", false), ("File size: ", false), ("", true)]
  | 1 => [("✓ KSU signing block found", true)]
  | 2 => [("  Location: ", false)]
  | 3 => [("  Size: ", false), ("", true)]
  | 4 => [("Signing block contents:", true)]
  | 5 => [("  ✓ V2 Signature Scheme", true)]
  | 6 => [("  ✓ Source Stamp", true)]
  | 7 => [("  ✓ ELF Section Info (", false)]
  | 8 => [("  • Unknown Block (ID: 0x", false)]
  | 9 => [("", true), ("V2 Certificate details:", true), ("  Signature valid: ", false), ("  Content integrity verified: ", false),
      ("  Certificate chain valid: ", false), ("  Trusted: ", false)]
  | 10 => [("  Leaf certificate: ", false)]
  | 11 => [("  Certificate chain: ", false)]
  | 12 => [("    ", false)]
  | 13 => [("  Certificate chain: none (self-signed or single cert)", true)]
  | 14 => [("    ⚠ Signer #", false)]
  | 15 => [("", true), ("ℹ V2 certificate info unavailable: ", false)]
  | 16 => [("", true), ("Source Stamp certificate details:", true), ("  Signature valid: ", false), ("  Certificate chain valid: ", false),
      ("  Trusted: ", false)]
  | 17 => [("  Stamp certificate: ", false)]
  | _ => []

theorem ikind_lt (l : ILine) : l.kind < 19 := by cases l <;> simp only [ILine.kind] <;> decide

macro "ishape" : tactic => `(tactic| (simp only [List.forall_mem_cons, List.not_mem_nil, false_implies, implies_true, and_true,
  ILine.kind, infoShapes, List.any_cons, List.any_nil, Bool.or_false, Bool.or_eq_true, List.append_assoc, fits_pre, fits_true, fits_empty,
  true_or, or_true, and_self]))

theorem isays_fits {W : Words} {l : ILine} {t : List (List Char)} (h : l.Says W t) : ∀ s ∈ t, (infoShapes l.kind).any (fits s) = true := by
  cases l <;> simp only [ILine.Says] at h
  case warning =>
    obtain ⟨m, hm, rfl⟩ := h
    ishape
  case v2Unavailable =>
    obtain ⟨m, hm, rfl⟩ := h
    ishape
  case notFound => rw [h]; intro s hs; cases hs
  all_goals
    rw [h]
    ishape

theorem istream_mem {W : Words} {s : List Char} : ∀ {ls : List ILine} {prev : Option ILine} {t : List (List Char)}, InfoLinesSay W prev ls t → s ∈ t →
    s = "  Warnings:".toList ∨ ∃ l ∈ ls, ∃ a, l.Says W a ∧ s ∈ a
  | [], _, t, h, hs => by rw [InfoLinesSay] at h; subst h; cases hs
  | l :: ls, prev, t, h, hs => by
    obtain ⟨a, r, h1, h2, rfl⟩ := h
    rw [List.mem_append, List.mem_append] at hs
    rcases hs with (hs | hs) | hs
    · left
      unfold infoHeading at hs
      split at hs
      · split at hs
        · cases hs
        · exact List.mem_singleton.mp hs
      · cases hs
    · exact .inr ⟨l, List.mem_cons_self, a, h1, hs⟩
    · rcases istream_mem h2 hs with h | ⟨l', hl, x⟩
      · exact .inl h
      · exact .inr ⟨l', List.mem_cons_of_mem _ hl, x⟩

theorem mem_istream {W : Words} {l : ILine} : ∀ {ls : List ILine} {prev : Option ILine} {t : List (List Char)}, InfoLinesSay W prev ls t → l ∈ ls →
    ∃ a, l.Says W a ∧ ∀ s ∈ a, s ∈ t
  | [], _, _, _, hl => by cases hl
  | l' :: ls, prev, t, h, hl => by
    obtain ⟨a, r, h1, h2, rfl⟩ := h
    rcases List.mem_cons.mp hl with rfl | hl
    · exact ⟨a, h1, fun s hs => by simp [hs]⟩
    · obtain ⟨a', h3, h4⟩ := mem_istream h2 hl
      exact ⟨a', h3, fun s hs => by simp [h4 s hs]⟩

/-- The kinds of lines that can be worded like this. -/
def infoKindsOf (s : List Char) : List Nat := (List.range 19).filter fun k => (infoShapes k).any (fits s)

theorem info_line {W : Words} (hW : Unbroken W) {ls : List ILine} {t : List (List Char)} (h : InfoLinesSay W none ls t) {s : List Char}
    (hs : s ≠ "  Warnings:".toList) :
    (IsLine s (unlines t) → ∃ l a, l ∈ ls ∧ l.Says W a ∧ s ∈ a ∧ l.kind ∈ infoKindsOf s) ∧
    ∀ l ∈ ls, (∀ a, l.Says W a → s ∈ a) → IsLine s (unlines t) := by
  have hu : ∀ x ∈ t, '\n' ∉ x := by
    intro x hx
    rcases istream_mem h hx with rfl | ⟨l, _, a, h1, h2⟩
    · decide +kernel
    · exact iline_unbroken hW h1 x h2
  rw [isLine_unlines hu]
  constructor
  · intro hm
    rcases istream_mem h hm with h | ⟨l, hl, a, ha, hx⟩
    · exact absurd h hs
    · refine ⟨l, a, hl, ha, hx, ?_⟩
      unfold infoKindsOf
      rw [List.mem_filter, List.mem_range]
      exact ⟨ikind_lt l, isays_fits ha s hx⟩
  · intro l hl ha
    obtain ⟨a, h2, h3⟩ := mem_istream h hl
    exact h3 s (ha a h2)

end Ksusig
