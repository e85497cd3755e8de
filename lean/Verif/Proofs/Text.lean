import Verif.SpecText

/-! Lines of texts, and which lines of the reports they can be. -/

namespace Ksusig

open Spec

/-! ## Lines -/

/-- The first line break is where it is. -/
theorem first_break {a b r s : List Char} (ha : '\n' ∉ a) (hb : '\n' ∉ b) (h : a ++ '\n' :: r = b ++ '\n' :: s) : a = b ∧ r = s := by
  rcases List.append_eq_append_iff.mp h with ⟨c, h1, h2⟩ | ⟨c, h1, h2⟩
  · cases c with
    | nil => simp at h1 h2; exact ⟨h1.symm, h2⟩
    | cons x c =>
      rw [List.cons_append, List.cons.injEq] at h2
      subst h1
      rw [← h2.1] at hb
      simp at hb
  · cases c with
    | nil => simp at h1 h2; exact ⟨h1, h2.symm⟩
    | cons x c =>
      rw [List.cons_append, List.cons.injEq] at h2
      subst h1
      rw [← h2.1] at ha
      simp at ha

theorem isLine_unlines {s : List Char} : ∀ {ls : List (List Char)}, (∀ l ∈ ls, '\n' ∉ l) → (IsLine s (unlines ls) ↔ s ∈ ls)
  | [], _ => by
    constructor
    · rintro ⟨_, pre, post, h, _⟩
      simp [unlines] at h
    · intro h; cases h
  | l :: ls, hl => by
    have hu : unlines (l :: ls) = l ++ '\n' :: unlines ls := by simp [unlines]
    have ih := isLine_unlines (s := s) (ls := ls) fun x hx => hl x (List.mem_cons_of_mem _ hx)
    have hl0 := hl l List.mem_cons_self
    rw [hu]
    constructor
    · rintro ⟨hs, pre, post, h, hp⟩
      rcases hp with rfl | ⟨p, rfl⟩
      · rw [List.nil_append] at h
        rw [(first_break hl0 hs h).1]
        exact List.mem_cons_self
      · refine List.mem_cons_of_mem _ (ih.mp ⟨hs, ?_⟩)
        have h' : l ++ '\n' :: unlines ls = p ++ '\n' :: (s ++ '\n' :: post) := by rw [h]; simp
        rcases List.append_eq_append_iff.mp h' with ⟨c, h1, h2⟩ | ⟨c, h1, h2⟩
        · cases c with
          | nil =>
            simp only [List.nil_append, List.cons.injEq, true_and] at h2
            exact ⟨[], post, by rw [h2]; simp, .inl rfl⟩
          | cons x c =>
            rw [List.cons_append, List.cons.injEq] at h2
            exact ⟨c ++ ['\n'], post, by rw [h2.2]; simp, .inr ⟨c, rfl⟩⟩
        · cases c with
          | nil =>
            simp only [List.nil_append, List.cons.injEq, true_and] at h2
            exact ⟨[], post, by rw [← h2]; simp, .inl rfl⟩
          | cons x c =>
            rw [List.cons_append, List.cons.injEq] at h2
            exfalso
            apply hl0
            rw [h1, ← h2.1]
            simp
    · intro h
      rcases List.mem_cons.mp h with rfl | h
      · exact ⟨hl0, [], unlines ls, by simp, .inl rfl⟩
      · obtain ⟨hs, pre, post, h1, h2⟩ := ih.mpr h
        refine ⟨hs, l ++ '\n' :: pre, post, by rw [h1]; simp, ?_⟩
        rcases h2 with rfl | ⟨p, rfl⟩
        · exact .inr ⟨l, rfl⟩
        · exact .inr ⟨l ++ '\n' :: p, by simp⟩

/-! ## No line breaks -/

theorem decimal_unbroken (n : Nat) : '\n' ∉ decimal n := by
  intro h
  have := Nat.isDigit_of_mem_toDigits (by decide) (by decide) h
  exact absurd this (by decide)

theorem boolText_unbroken (b : Bool) : '\n' ∉ boolText b := by cases b <;> decide +kernel

theorem hexDigit_unbroken (n : Nat) : hexDigit n ≠ '\n' := by
  unfold hexDigit
  split <;> decide

theorem hexNat_unbroken (n : Nat) : '\n' ∉ hexNat n := by
  induction n using Nat.strongRecOn with
  | ind n ih =>
    rw [hexNat]
    split
    · simp only [List.mem_singleton]
      exact fun h => hexDigit_unbroken n h.symm
    · rename_i hn
      rw [List.mem_append, List.mem_singleton]
      rintro (h | h)
      · exact ih (n / 16) (by omega) h
      · exact hexDigit_unbroken _ h.symm

theorem display_unbroken (a : Algo) : '\n' ∉ a.display := by
  unfold Algo.display
  simp only [List.mem_append, not_or]
  refine ⟨⟨⟨by decide +kernel, hexNat_unbroken _⟩, by decide +kernel⟩, ?_⟩
  split
  · decide +kernel
  · decide +kernel
  · unfold hexNat4
    simp only [List.mem_append, not_or, List.mem_replicate]
    exact ⟨by decide +kernel, fun h => absurd h.2 (by decide), hexNat_unbroken _⟩

theorem describe_unbroken {W : Words} (hW : Unbroken W) (c : Bytes) : '\n' ∉ describeCertificate W c := by
  unfold describeCertificate
  split
  · rename_i s i b a h
    obtain ⟨h1, h2, h3, h4⟩ := hW.2.2.1 c s i b a h
    simp only [List.mem_append, not_or]
    exact ⟨⟨⟨⟨⟨⟨⟨by decide +kernel, h1⟩, by decide +kernel⟩, h2⟩, by decide +kernel⟩, h3⟩, by decide +kernel⟩, h4⟩
  · simp only [List.mem_append, not_or]
    exact ⟨⟨by decide +kernel, decimal_unbroken _⟩, by decide +kernel⟩

theorem link_unbroken {W : Words} (hW : Unbroken W) (i : Nat) (c : Bytes) : '\n' ∉ describeLink W i c := by
  unfold describeLink
  simp only [List.mem_append, not_or]
  exact ⟨⟨⟨⟨⟨by decide +kernel, decimal_unbroken _⟩, by decide +kernel⟩, decimal_unbroken _⟩, by decide +kernel⟩, describe_unbroken hW c⟩

theorem lit_append {l m : List Char} (hl : '\n' ∉ l) (hm : '\n' ∉ m) : '\n' ∉ l ++ m := by
  simp only [List.mem_append, not_or]
  exact ⟨hl, hm⟩

theorem signerErr_unbroken {W : Words} (hW : Unbroken W) {stamp : Bool} {e : SignerErr} {t : List Char} (h : e.Says W stamp t) : '\n' ∉ t := by
  cases e <;> simp only [SignerErr.Says] at h
  · rw [h]; decide +kernel
  · obtain ⟨m, hm, rfl⟩ := h
    exact lit_append (by decide +kernel) (hW.2.2.2 m hm)
  · rw [h]; cases stamp <;> decide +kernel
  · rcases h with rfl | ⟨m, hm, rfl | rfl⟩
    · decide +kernel
    · exact lit_append (by decide +kernel) (hW.2.2.2 m hm)
    · exact lit_append (by decide +kernel) (hW.2.2.2 m hm)

theorem chainMsg_unbroken {W : Words} (hW : Unbroken W) {e : ChainMsg} {t : List Char} (h : e.Says W t) : '\n' ∉ t := by
  cases e <;> simp only [ChainMsg.Says] at h
  · rw [h]; decide +kernel
  · obtain ⟨m, hm, rfl⟩ := h
    exact lit_append (by decide +kernel) (hW.2.2.2 m hm)
  · rw [h]; decide +kernel
  · rw [h]; decide +kernel
  · rw [h]; decide +kernel
  · rw [h]; decide +kernel
  · obtain ⟨m, hm, rfl⟩ := h
    exact lit_append (by decide +kernel) (hW.2.2.2 m hm)

theorem warn_unbroken {W : Words} (hW : Unbroken W) {stamp : Bool} {w : Warn} {t : List Char} (h : w.Says W stamp t) : '\n' ∉ t := by
  cases w <;> simp only [Warn.Says] at h
  · rw [h]
    exact lit_append (by decide +kernel) (display_unbroken _)
  · rw [h]; cases stamp <;> decide +kernel
  · rw [h]; decide +kernel
  · exact chainMsg_unbroken hW h

theorem reason_unbroken (n : Nat) : '\n' ∉ reasonText n := by
  unfold reasonText
  split <;> decide +kernel

theorem join_unbroken : ∀ {l : List (List Char)}, (∀ x ∈ l, '\n' ∉ x) → '\n' ∉ joinComma l
  | [], _ => by simp [joinComma]
  | [a], h => h a List.mem_cons_self
  | a :: b :: as, h => by
    rw [joinComma]
    · refine lit_append (lit_append (h a List.mem_cons_self) (by decide +kernel)) (join_unbroken fun x hx => h x (List.mem_cons_of_mem _ hx))
    · simp

theorem digestName_unbroken (a : Algo) : '\n' ∉ digestName a := by
  cases a
  · decide +kernel
  · decide +kernel
  · exact (show '\n' ∉ "SHA2-512".toList by decide +kernel)

theorem lit_unbroken {s : String} {l : List Char} (h : s.toList = l) (hl : (l.all fun c => c != '\n') = true) : '\n' ∉ s.toList := by
  subst h
  intro hm
  have := List.all_eq_true.mp hl _ hm
  simp at this

macro "unbroken" : tactic => `(tactic| (repeat' with_reducible apply lit_append) <;> first
  | with_reducible exact decimal_unbroken _ | with_reducible exact boolText_unbroken _ | with_reducible exact digestName_unbroken _
  | with_reducible exact hexNat_unbroken _ | with_reducible exact describe_unbroken (by assumption) _
  | with_reducible exact link_unbroken (by assumption) _ _ | with_reducible assumption
  | exact lit_unbroken String.toList_ofList (by decide +kernel) | decide +kernel)

theorem vline_unbroken {W : Words} (hW : Unbroken W) {l : VLine} {t : List (List Char)} (h : l.Says W t) : ∀ s ∈ t, '\n' ∉ s := by
  have hf := hW.1
  have hr := hW.2.1
  cases l <;> simp only [VLine.Says] at h
  case notComputed =>
    obtain ⟨m, hm, rfl⟩ := h
    have := hW.2.2.2 m hm
    simp only [List.forall_mem_singleton]
    unbroken
  case v2Failed =>
    rcases h with rfl | ⟨m, hm, rfl⟩
    · decide +kernel
    · have := hW.2.2.2 m hm
      simp only [List.forall_mem_singleton]
      unbroken
  case v2Failure =>
    obtain ⟨m, hm, rfl⟩ := h
    have := signerErr_unbroken hW hm
    simp only [List.forall_mem_singleton]
    unbroken
  case signerWarning =>
    obtain ⟨m, hm, rfl⟩ := h
    have := warn_unbroken hW hm
    simp only [List.forall_mem_singleton]
    unbroken
  case warning =>
    obtain ⟨m, mark, hm, hk, rfl⟩ := h
    have := warn_unbroken hW hm
    have hk' : '\n' ∉ mark := by rcases hk with rfl | rfl <;> decide +kernel
    simp only [List.forall_mem_singleton]
    unbroken
  case stampWarning =>
    obtain ⟨m, hm, rfl⟩ := h
    have := warn_unbroken hW hm
    simp only [List.forall_mem_singleton]
    unbroken
  case stampError =>
    rcases h with rfl | ⟨m, hm, rfl⟩
    · decide +kernel
    · have := hW.2.2.2 m hm
      simp only [List.forall_mem_singleton]
      unbroken
  case stampFailure =>
    obtain ⟨m, hm, rfl⟩ := h
    have := signerErr_unbroken hW hm
    simp only [List.forall_mem_singleton]
    unbroken
  case stampFailed reasons _ _ _ _ =>
    rw [h]
    have : '\n' ∉ joinComma (reasons.map reasonText) := join_unbroken fun x hx => by
      obtain ⟨n, _, rfl⟩ := List.mem_map.mp hx
      exact reason_unbroken n
    simp only [List.forall_mem_cons, List.not_mem_nil, false_implies, implies_true, and_true]
    refine ⟨?_, ?_, ?_, ?_, ?_⟩ <;> unbroken
  all_goals
    rw [h]
    simp only [List.forall_mem_cons, List.not_mem_nil, false_implies, implies_true, and_true]
    repeat' with_reducible apply And.intro
  all_goals first | unbroken | decide

/-- A string as a list of characters, in a form that is quick to compute with. -/
macro "chars!" s:str : term => do
  let cs := s.getString.toList.toArray.map fun c => Lean.Syntax.mkCharLit c
  `([$cs,*])

/-! ## Which line a text belongs to -/

/-- The number of a kind of line. -/
def VLine.kind : VLine → Nat
  | .start => 0 | .blockFound => 1 | .customRoot => 2 | .computed _ => 3 | .notComputed _ => 4 | .noDigests => 5 | .digestsComputed => 6
  | .v2NotFound => 7 | .v2Failed => 8 | .v2Failure .. => 9 | .v2Passed => 10 | .v2Count _ => 11 | .signer .. => 12 | .signerCert _ => 13
  | .chainLength _ => 14 | .chainCert .. => 15 | .signerWarning _ => 16 | .overall .. => 17 | .warning .. => 18 | .digestMismatch => 19
  | .chainInvalid => 20 | .untrusted => 21 | .v2Invalid => 22 | .stampPassed .. => 23 | .stampCert _ => 24 | .stampFailed .. => 25
  | .stampTampered => 26 | .stampUntrusted => 27 | .stampWarning .. => 28 | .stampNotFound => 29 | .stampError => 30 | .stampFailure _ => 31
  | .stampPresent => 32 | .onlyV2 => 33 | .success => 34

/-- How the lines of a kind begin; `true` if that is all. -/
def shapes : Nat → List (String × Bool)
  | 0 => [("Verifying module signature...", true), ("File: ", false), ("", true)]
  | 1 => [("✓ Signing block found", true)]
  | 2 => [("✓ Using custom root certificate: ", false)]
  | 3 => [("✓ Computed ", false)]
  | 4 => [("⚠ Could not compute ", false)]
  | 5 => [("✗ Could not compute any digests for verification", true)]
  | 6 => [("✓ File digests computed", true)]
  | 7 => [("ℹ V2 signature not found", true)]
  | 8 => [("✗ V2 signature verification failed:", false)]
  | 9 => [("  Signer #", false)]
  | 10 => [("✓ V2 signature verification passed", true)]
  | 11 => [("  Signers verified: ", false)]
  | 12 => [("  ─── Signer #", false), ("    Signature valid: ", false), ("    Digest valid: ", false),
      ("    Certificate chain valid: ", false), ("    Trusted: ", false)]
  | 13 => [("    Certificate: ", false)]
  | 14 => [("    Chain: ", false)]
  | 15 => [("      Chain[", false)]
  | 16 => [("      ⚠ ", false)]
  | 17 => [("  ─── Overall ───", true), ("  Digest valid: ", false), ("  Certificate chain valid: ", false), ("  Trusted: ", false)]
  | 18 => [("    ⚠ Signer #", false), ("    • Signer #", false)]
  | 19 => [("✗ Digest mismatch: file content may have been tampered", true)]
  | 20 => [("✗ Certificate chain invalid", true)]
  | 21 => [("✗ Untrusted certificate: not signed by trusted root", true)]
  | 22 => [("✗ V2 signature invalid", true)]
  | 23 => [("✓ Source Stamp verification passed", true), ("  Signature valid: ", false), ("  Digest valid: ", false),
      ("  Certificate chain valid: ", false), ("  Trusted: ", false)]
  | 24 => [("  Stamp certificate: ", false)]
  | 25 => [("⚠ Source Stamp verification FAILED: ", false), ("  Signature valid: ", false), ("  Digest valid: ", false),
      ("  Certificate chain valid: ", false), ("  Trusted: ", false)]
  | 26 => [("  ⚠ WARNING: Module content may have been tampered with!", true)]
  | 27 => [("  ⚠ WARNING: Certificate is not signed by a trusted root!", true)]
  | 28 => [("  ⚠ Signer #", false)]
  | 29 => [("ℹ Source Stamp not found", true)]
  | 30 => [("✗ Source Stamp verification ", false)]
  | 31 => [("  ✗ ", false)]
  | 32 => [("⚠ WARNING: Source Stamp present but verification failed!", true)]
  | 33 => [("", true), ("⚠ Module V2 signature verified, but Source Stamp verification FAILED!", true),
      ("  V2 checks passed: signature, digest, chain, trust", true), ("  Source Stamp: VERIFICATION FAILED - may indicate tampering", true)]
  | 34 => [("", true), ("✓ Module signature verification successful!", true), ("  All checks passed: signature, digest, chain, trust", true)]
  | _ => []

/-- `shapes` in characters. -/
def charShapes : Nat → List (List Char × Bool)
  | 0 => [(chars!"Verifying module signature...", true), (chars!"File: ", false), ([], true)]
  | 1 => [(chars!"✓ Signing block found", true)]
  | 2 => [(chars!"✓ Using custom root certificate: ", false)]
  | 3 => [(chars!"✓ Computed ", false)]
  | 4 => [(chars!"⚠ Could not compute ", false)]
  | 5 => [(chars!"✗ Could not compute any digests for verification", true)]
  | 6 => [(chars!"✓ File digests computed", true)]
  | 7 => [(chars!"ℹ V2 signature not found", true)]
  | 8 => [(chars!"✗ V2 signature verification failed:", false)]
  | 9 => [(chars!"  Signer #", false)]
  | 10 => [(chars!"✓ V2 signature verification passed", true)]
  | 11 => [(chars!"  Signers verified: ", false)]
  | 12 => [(chars!"  ─── Signer #", false), (chars!"    Signature valid: ", false), (chars!"    Digest valid: ", false),
      (chars!"    Certificate chain valid: ", false), (chars!"    Trusted: ", false)]
  | 13 => [(chars!"    Certificate: ", false)]
  | 14 => [(chars!"    Chain: ", false)]
  | 15 => [(chars!"      Chain[", false)]
  | 16 => [(chars!"      ⚠ ", false)]
  | 17 => [(chars!"  ─── Overall ───", true), (chars!"  Digest valid: ", false), (chars!"  Certificate chain valid: ", false), (chars!"  Trusted: ", false)]
  | 18 => [(chars!"    ⚠ Signer #", false), (chars!"    • Signer #", false)]
  | 19 => [(chars!"✗ Digest mismatch: file content may have been tampered", true)]
  | 20 => [(chars!"✗ Certificate chain invalid", true)]
  | 21 => [(chars!"✗ Untrusted certificate: not signed by trusted root", true)]
  | 22 => [(chars!"✗ V2 signature invalid", true)]
  | 23 => [(chars!"✓ Source Stamp verification passed", true), (chars!"  Signature valid: ", false), (chars!"  Digest valid: ", false),
      (chars!"  Certificate chain valid: ", false), (chars!"  Trusted: ", false)]
  | 24 => [(chars!"  Stamp certificate: ", false)]
  | 25 => [(chars!"⚠ Source Stamp verification FAILED: ", false), (chars!"  Signature valid: ", false), (chars!"  Digest valid: ", false),
      (chars!"  Certificate chain valid: ", false), (chars!"  Trusted: ", false)]
  | 26 => [(chars!"  ⚠ WARNING: Module content may have been tampered with!", true)]
  | 27 => [(chars!"  ⚠ WARNING: Certificate is not signed by a trusted root!", true)]
  | 28 => [(chars!"  ⚠ Signer #", false)]
  | 29 => [(chars!"ℹ Source Stamp not found", true)]
  | 30 => [(chars!"✗ Source Stamp verification ", false)]
  | 31 => [(chars!"  ✗ ", false)]
  | 32 => [(chars!"⚠ WARNING: Source Stamp present but verification failed!", true)]
  | 33 => [([], true), (chars!"⚠ Module V2 signature verified, but Source Stamp verification FAILED!", true),
      (chars!"  V2 checks passed: signature, digest, chain, trust", true), (chars!"  Source Stamp: VERIFICATION FAILED - may indicate tampering", true)]
  | 34 => [([], true), (chars!"✓ Module signature verification successful!", true), (chars!"  All checks passed: signature, digest, chain, trust", true)]
  | _ => []

theorem cons_chars {s : String} {l : List Char} {b : Bool} {r : List (String × Bool)} {r' : List (List Char × Bool)} (h : s.toList = l)
    (hr : r.map (fun x => (x.1.toList, x.2)) = r') : ((s, b) :: r).map (fun x => (x.1.toList, x.2)) = (l, b) :: r' := by
  rw [List.map_cons, h, hr]

theorem shapes_chars : ∀ k, (shapes k).map (fun x => (x.1.toList, x.2)) = charShapes k
  | 0 => by repeat' first | with_reducible exact List.map_nil | with_reducible exact String.toList_ofList | apply cons_chars
  | 1 => by repeat' first | with_reducible exact List.map_nil | with_reducible exact String.toList_ofList | apply cons_chars
  | 2 => by repeat' first | with_reducible exact List.map_nil | with_reducible exact String.toList_ofList | apply cons_chars
  | 3 => by repeat' first | with_reducible exact List.map_nil | with_reducible exact String.toList_ofList | apply cons_chars
  | 4 => by repeat' first | with_reducible exact List.map_nil | with_reducible exact String.toList_ofList | apply cons_chars
  | 5 => by repeat' first | with_reducible exact List.map_nil | with_reducible exact String.toList_ofList | apply cons_chars
  | 6 => by repeat' first | with_reducible exact List.map_nil | with_reducible exact String.toList_ofList | apply cons_chars
  | 7 => by repeat' first | with_reducible exact List.map_nil | with_reducible exact String.toList_ofList | apply cons_chars
  | 8 => by repeat' first | with_reducible exact List.map_nil | with_reducible exact String.toList_ofList | apply cons_chars
  | 9 => by repeat' first | with_reducible exact List.map_nil | with_reducible exact String.toList_ofList | apply cons_chars
  | 10 => by repeat' first | with_reducible exact List.map_nil | with_reducible exact String.toList_ofList | apply cons_chars
  | 11 => by repeat' first | with_reducible exact List.map_nil | with_reducible exact String.toList_ofList | apply cons_chars
  | 12 => by repeat' first | with_reducible exact List.map_nil | with_reducible exact String.toList_ofList | apply cons_chars
  | 13 => by repeat' first | with_reducible exact List.map_nil | with_reducible exact String.toList_ofList | apply cons_chars
  | 14 => by repeat' first | with_reducible exact List.map_nil | with_reducible exact String.toList_ofList | apply cons_chars
  | 15 => by repeat' first | with_reducible exact List.map_nil | with_reducible exact String.toList_ofList | apply cons_chars
  | 16 => by repeat' first | with_reducible exact List.map_nil | with_reducible exact String.toList_ofList | apply cons_chars
  | 17 => by repeat' first | with_reducible exact List.map_nil | with_reducible exact String.toList_ofList | apply cons_chars
  | 18 => by repeat' first | with_reducible exact List.map_nil | with_reducible exact String.toList_ofList | apply cons_chars
  | 19 => by repeat' first | with_reducible exact List.map_nil | with_reducible exact String.toList_ofList | apply cons_chars
  | 20 => by repeat' first | with_reducible exact List.map_nil | with_reducible exact String.toList_ofList | apply cons_chars
  | 21 => by repeat' first | with_reducible exact List.map_nil | with_reducible exact String.toList_ofList | apply cons_chars
  | 22 => by repeat' first | with_reducible exact List.map_nil | with_reducible exact String.toList_ofList | apply cons_chars
  | 23 => by repeat' first | with_reducible exact List.map_nil | with_reducible exact String.toList_ofList | apply cons_chars
  | 24 => by repeat' first | with_reducible exact List.map_nil | with_reducible exact String.toList_ofList | apply cons_chars
  | 25 => by repeat' first | with_reducible exact List.map_nil | with_reducible exact String.toList_ofList | apply cons_chars
  | 26 => by repeat' first | with_reducible exact List.map_nil | with_reducible exact String.toList_ofList | apply cons_chars
  | 27 => by repeat' first | with_reducible exact List.map_nil | with_reducible exact String.toList_ofList | apply cons_chars
  | 28 => by repeat' first | with_reducible exact List.map_nil | with_reducible exact String.toList_ofList | apply cons_chars
  | 29 => by repeat' first | with_reducible exact List.map_nil | with_reducible exact String.toList_ofList | apply cons_chars
  | 30 => by repeat' first | with_reducible exact List.map_nil | with_reducible exact String.toList_ofList | apply cons_chars
  | 31 => by repeat' first | with_reducible exact List.map_nil | with_reducible exact String.toList_ofList | apply cons_chars
  | 32 => by repeat' first | with_reducible exact List.map_nil | with_reducible exact String.toList_ofList | apply cons_chars
  | 33 => by repeat' first | with_reducible exact List.map_nil | with_reducible exact String.toList_ofList | apply cons_chars
  | 34 => by repeat' first | with_reducible exact List.map_nil | with_reducible exact String.toList_ofList | apply cons_chars
  | _ + 35 => rfl

/-- A text has a shape. -/
def fits (s : List Char) (x : String × Bool) : Bool := if x.2 then s == x.1.toList else x.1.toList.isPrefixOf s

theorem fits_true (s : String) : fits s.toList (s, true) = true := by simp [fits]

theorem fits_pre (s : String) (r : List Char) : fits (s.toList ++ r) (s, false) = true := by
  rw [fits, if_neg (by simp), List.isPrefixOf_iff_prefix]
  exact List.prefix_append _ _

theorem fits_false {s : String} {t : List Char} (r : List Char) (h : t = s.toList ++ r) : fits t (s, false) = true := by
  rw [h]
  exact fits_pre s r

theorem fits_empty : fits [] ("", true) = true := by decide +kernel

theorem kind_lt (l : VLine) : l.kind < 35 := by cases l <;> simp only [VLine.kind] <;> decide

macro "shape" : tactic => `(tactic| (simp only [List.forall_mem_cons, List.not_mem_nil, false_implies, implies_true, and_true,
  VLine.kind, shapes, List.any_cons, List.any_nil, Bool.or_false, Bool.or_eq_true, List.append_assoc, fits_pre, fits_true, fits_empty,
  true_or, or_true, and_self]))

theorem link_fits (W : Words) (i : Nat) (c : Bytes) : fits ("      ".toList ++ describeLink W i c) ("      Chain[", false) = true := by
  refine fits_false (decimal i ++ ("]: ".toList ++ (decimal c.length ++ (" bytes; ".toList ++ describeCertificate W c)))) ?_
  unfold describeLink
  generalize decimal i = x, decimal c.length = y, describeCertificate W c = z
  have h := congrArg (· ++ (x ++ ("]: ".toList ++ (y ++ (" bytes; ".toList ++ z)))))
    (show "      Chain[".toList = "      ".toList ++ "Chain[".toList by decide +kernel)
  revert h
  generalize "      Chain[".toList = l1, "      ".toList = l2, "Chain[".toList = l3, "]: ".toList = l4, " bytes; ".toList = l5
  intro h
  rw [h]
  simp only [List.append_assoc]

/-- The text of a line has one of the shapes of its kind. -/
theorem says_fits {W : Words} {l : VLine} {t : List (List Char)} (h : l.Says W t) : ∀ s ∈ t, (shapes l.kind).any (fits s) = true := by
  cases l <;> simp only [VLine.Says] at h
  case notComputed =>
    obtain ⟨m, hm, rfl⟩ := h
    shape
  case v2Failed =>
    rcases h with rfl | ⟨m, hm, rfl⟩
    · decide +kernel
    · rw [show ("✗ V2 signature verification failed: ".toList) = "✗ V2 signature verification failed:".toList ++ [' '] by decide +kernel]
      shape
  case v2Failure =>
    obtain ⟨m, hm, rfl⟩ := h
    shape
  case signerWarning =>
    obtain ⟨m, hm, rfl⟩ := h
    shape
  case warning =>
    obtain ⟨m, mark, hm, hk, rfl⟩ := h
    simp only [VLine.kind, shapes,
      show ("    ⚠ Signer #") = "    ⚠ " ++ "Signer #" by decide +kernel, show ("    • Signer #") = "    • " ++ "Signer #" by decide +kernel]
    rcases hk with rfl | rfl
    · simp only [List.forall_mem_singleton, List.any_cons, Bool.or_eq_true]
      exact .inl (fits_false (decimal _ ++ (": ".toList ++ m)) (by rw [String.toList_append]; simp only [List.append_assoc]; rfl))
    · simp only [List.forall_mem_singleton, List.any_cons, Bool.or_eq_true]
      exact .inr (.inl (fits_false (decimal _ ++ (": ".toList ++ m)) (by rw [String.toList_append]; simp only [List.append_assoc]; rfl)))
  case stampWarning =>
    obtain ⟨m, hm, rfl⟩ := h
    shape
  case stampError =>
    rcases h with rfl | ⟨m, hm, rfl⟩
    · decide +kernel
    · simp only [List.forall_mem_singleton, VLine.kind, shapes, List.any_cons, List.any_nil, Bool.or_false]
      refine fits_false ("error: ".toList ++ m) ?_
      rw [← List.append_assoc]
      congr 1
  case stampFailure =>
    obtain ⟨m, hm, rfl⟩ := h
    shape
  case chainCert i c =>
    rw [h]
    simp only [List.forall_mem_singleton, VLine.kind, shapes, List.any_cons, List.any_nil, Bool.or_false]
    exact link_fits W i c
  all_goals
    rw [h]
    shape

/-! ## Streams -/

/-- The headings. -/
def headings : List (List Char) := ["    Warnings:".toList, "  Errors:".toList, "  Warnings:".toList]

theorem heading_mem {prev : Option VLine} {l : VLine} : ∀ s ∈ heading prev l, s ∈ headings := by
  intro s hs
  unfold heading at hs
  split at hs
  · split at hs
    · cases hs
    · rw [List.mem_singleton] at hs; subst hs; simp [headings]
  · split at hs
    · cases hs
    · rw [List.mem_singleton] at hs; subst hs; simp [headings]
    · rw [List.mem_singleton] at hs; subst hs; simp [headings]
  · cases hs

theorem stream_mem {W : Words} {s : List Char} : ∀ {ls : List VLine} {prev : Option VLine} {t : List (List Char)}, StreamSays W prev ls t → s ∈ t →
    s ∈ headings ∨ ∃ l ∈ ls, ∃ a, l.Says W a ∧ s ∈ a
  | [], _, t, h, hs => by rw [StreamSays] at h; subst h; cases hs
  | l :: ls, prev, t, h, hs => by
    obtain ⟨a, r, h1, h2, rfl⟩ := h
    rw [List.mem_append, List.mem_append] at hs
    rcases hs with (hs | hs) | hs
    · exact .inl (heading_mem s hs)
    · exact .inr ⟨l, List.mem_cons_self, a, h1, hs⟩
    · rcases stream_mem h2 hs with h | ⟨l', hl, x⟩
      · exact .inl h
      · exact .inr ⟨l', List.mem_cons_of_mem _ hl, x⟩

theorem mem_stream {W : Words} {l : VLine} : ∀ {ls : List VLine} {prev : Option VLine} {t : List (List Char)}, StreamSays W prev ls t → l ∈ ls →
    ∃ a, l.Says W a ∧ ∀ s ∈ a, s ∈ t
  | [], _, _, _, hl => by cases hl
  | l' :: ls, prev, t, h, hl => by
    obtain ⟨a, r, h1, h2, rfl⟩ := h
    rcases List.mem_cons.mp hl with rfl | hl
    · exact ⟨a, h1, fun s hs => by simp [hs]⟩
    · obtain ⟨a', h3, h4⟩ := mem_stream h2 hl
      exact ⟨a', h3, fun s hs => by simp [h4 s hs]⟩

theorem stream_unbroken {W : Words} (hW : Unbroken W) {ls : List VLine} {prev : Option VLine} {t : List (List Char)}
    (h : StreamSays W prev ls t) : ∀ s ∈ t, '\n' ∉ s := by
  intro s hs
  rcases stream_mem h hs with h | ⟨l, _, a, h1, h2⟩
  · exact (show ∀ s ∈ headings, '\n' ∉ s by decide +kernel) s h
  · exact vline_unbroken hW h1 s h2

theorem mem_outLines {l : VLine} {r : List Printed} : l ∈ outLines r ↔ .out l ∈ r := by
  unfold outLines
  rw [List.mem_filterMap]
  constructor
  · rintro ⟨x, hx, h⟩
    cases x with
    | out l' => simp at h; subst h; exact hx
    | err l' => simp at h
  · intro h
    exact ⟨_, h, rfl⟩

theorem mem_errLines {l : VLine} {r : List Printed} : l ∈ errLines r ↔ .err l ∈ r := by
  unfold errLines
  rw [List.mem_filterMap]
  constructor
  · rintro ⟨x, hx, h⟩
    cases x with
    | err l' => simp at h; subst h; exact hx
    | out l' => simp at h
  · intro h
    exact ⟨_, h, rfl⟩

/-- The kinds of lines that can be worded like this. -/
def kindsOf (s : List Char) : List Nat := (List.range 35).filter fun k => (shapes k).any (fits s)

theorem kind_of_says {W : Words} {l : VLine} {a : List (List Char)} {s : List Char} (h : l.Says W a) (hs : s ∈ a) : l.kind ∈ kindsOf s := by
  unfold kindsOf
  rw [List.mem_filter, List.mem_range]
  exact ⟨kind_lt l, says_fits h s hs⟩

/-- A text that begins with `q` may have the shape `x`. -/
def alike (q : List Char) (x : String × Bool) : Bool := q.isPrefixOf x.1.toList || !x.2 && x.1.toList.isPrefixOf q

theorem alike_of_fits {q t : List Char} {x : String × Bool} (h : fits (q ++ t) x = true) : alike q x = true := by
  unfold fits at h
  unfold alike
  rw [Bool.or_eq_true, Bool.and_eq_true, List.isPrefixOf_iff_prefix, List.isPrefixOf_iff_prefix]
  split at h
  · rw [beq_iff_eq] at h
    exact .inl (h ▸ List.prefix_append q t)
  · rename_i hx
    rw [List.isPrefixOf_iff_prefix] at h
    rcases Nat.le_total q.length x.1.toList.length with hl | hl
    · exact .inl (List.prefix_of_prefix_length_le (List.prefix_append q t) h hl)
    · exact .inr ⟨by simpa using hx, List.prefix_of_prefix_length_le h (List.prefix_append q t) hl⟩

/-- The kinds of lines that can begin like this. -/
def kindsLike (q : List Char) : List Nat := (List.range 35).filter fun k => (shapes k).any (alike q)

theorem kind_of_prefix {W : Words} {l : VLine} {a : List (List Char)} {q t : List Char} (h : l.Says W a) (hs : q ++ t ∈ a) :
    l.kind ∈ kindsLike q := by
  unfold kindsLike
  rw [List.mem_filter, List.mem_range]
  refine ⟨kind_lt l, ?_⟩
  obtain ⟨x, hx, hf⟩ := List.any_eq_true.mp (says_fits h _ hs)
  exact List.any_eq_true.mpr ⟨x, hx, alike_of_fits hf⟩

/-- The same as `fits` and `alike`, on characters. -/
def fitsChars (s : List Char) (x : List Char × Bool) : Bool := if x.2 then s == x.1 else x.1.isPrefixOf s

def alikeChars (q : List Char) (x : List Char × Bool) : Bool := q.isPrefixOf x.1 || !x.2 && x.1.isPrefixOf q

theorem kindsOf_chars (s : List Char) : kindsOf s = (List.range 35).filter fun k => (charShapes k).any (fitsChars s) := by
  unfold kindsOf
  congr 1
  funext k
  rw [← shapes_chars, List.any_map]
  rfl

theorem kindsLike_chars (s : List Char) : kindsLike s = (List.range 35).filter fun k => (charShapes k).any (alikeChars s) := by
  unfold kindsLike
  congr 1
  funext k
  rw [← shapes_chars, List.any_map]
  rfl

theorem headings_chars : headings = [chars!"    Warnings:", chars!"  Errors:", chars!"  Warnings:"] := by
  unfold headings
  rw [show "    Warnings:".toList = chars!"    Warnings:" from String.toList_ofList,
    show "  Errors:".toList = chars!"  Errors:" from String.toList_ofList,
    show "  Warnings:".toList = chars!"  Warnings:" from String.toList_ofList]

/-- To compute the kinds of a line. -/
theorem app_eq {a b c d : List Char} (h : a = b) (h' : c = d) : a ++ c = b ++ d := by rw [h, h']

theorem line_fact {t s : List Char} {K : List Nat} (h : t = s)
    (hd : s ≠ [] ∧ s ∉ [chars!"    Warnings:", chars!"  Errors:", chars!"  Warnings:"] ∧
      ((List.range 35).filter fun k => (charShapes k).any (fitsChars s)) = K) : t ≠ [] ∧ t ∉ headings ∧ kindsOf t = K := by
  subst h
  rw [headings_chars, kindsOf_chars]
  exact hd

/-- Every line can be worded. -/
theorem vline_says {W : Words} {m : List Char} (hm : W.library m) (l : VLine) : ∃ t, l.Says W t := by
  have he : ∀ (e : SignerErr) b, ∃ t, e.Says W b t := by
    intro e b
    cases e
    · exact ⟨_, rfl⟩
    · exact ⟨_, m, hm, rfl⟩
    · exact ⟨_, rfl⟩
    · exact ⟨_, .inl rfl⟩
  have hc : ∀ e : ChainMsg, ∃ t, e.Says W t := by
    intro e
    cases e
    · exact ⟨_, rfl⟩
    · exact ⟨_, m, hm, rfl⟩
    · exact ⟨_, rfl⟩
    · exact ⟨_, rfl⟩
    · exact ⟨_, rfl⟩
    · exact ⟨_, rfl⟩
    · exact ⟨_, m, hm, rfl⟩
  have hw : ∀ (w : Warn) b, ∃ t, w.Says W b t := by
    intro w b
    cases w with
    | noDigest a => exact ⟨_, rfl⟩
    | notVerified => exact ⟨_, rfl⟩
    | noMatchingDigest => exact ⟨_, rfl⟩
    | chain m => exact hc m
  cases l
  case notComputed => exact ⟨_, m, hm, rfl⟩
  case v2Failed => exact ⟨_, .inl rfl⟩
  case v2Failure n e => obtain ⟨t, ht⟩ := he e false; exact ⟨_, t, ht, rfl⟩
  case signerWarning w => obtain ⟨t, ht⟩ := hw w false; exact ⟨_, t, ht, rfl⟩
  case warning n w => obtain ⟨t, ht⟩ := hw w false; exact ⟨_, t, _, ht, .inl rfl, rfl⟩
  case stampWarning n w => obtain ⟨t, ht⟩ := hw w true; exact ⟨_, t, ht, rfl⟩
  case stampError => exact ⟨_, .inl rfl⟩
  case stampFailure e => obtain ⟨t, ht⟩ := he e true; exact ⟨_, t, ht, rfl⟩
  all_goals exact ⟨_, rfl⟩

theorem stream_says {W : Words} {m : List Char} (hm : W.library m) : ∀ (ls : List VLine) (prev : Option VLine), ∃ t, StreamSays W prev ls t
  | [], _ => ⟨[], rfl⟩
  | l :: ls, prev => by
    obtain ⟨a, ha⟩ := vline_says hm l
    obtain ⟨r, hr⟩ := stream_says hm ls (some l)
    exact ⟨_, a, r, ha, hr, rfl⟩

end Ksusig
