import Verif.Props.Text

/-!
# C121: reading the flags and the failures from the text
-/

namespace Ksusig.Props

open Ksusig Spec

theorem ne_pre {s p x : List Char} (h : p.isPrefixOf s = false) : s ≠ p ++ x := by
  intro he
  have : p.isPrefixOf s = true := List.isPrefixOf_iff_prefix.mpr ⟨x, he.symm⟩
  rw [h] at this; cases this

theorem flags_signer {W : Words} {n : Nat} {s d c t : Bool} {a : List (List Char)} (h : (VLine.signer n s d c t).Says W a) (b : Bool) :
    ("    Signature valid: ".toList ++ boolText b ∈ a ↔ s = b) ∧ ("    Digest valid: ".toList ++ boolText b ∈ a ↔ d = b) ∧
    ("    Certificate chain valid: ".toList ++ boolText b ∈ a ↔ c = b) ∧ ("    Trusted: ".toList ++ boolText b ∈ a ↔ t = b) := by
  simp only [VLine.Says] at h
  rw [h]
  clear h
  rw [List.append_assoc]
  generalize decimal n ++ " ───".toList = x
  have h1 : "    Signature valid: ".toList ++ boolText b ≠ "  ─── Signer #".toList ++ x := ne_pre (by cases b <;> decide +kernel)
  have h2 : "    Digest valid: ".toList ++ boolText b ≠ "  ─── Signer #".toList ++ x := ne_pre (by cases b <;> decide +kernel)
  have h3 : "    Certificate chain valid: ".toList ++ boolText b ≠ "  ─── Signer #".toList ++ x := ne_pre (by cases b <;> decide +kernel)
  have h4 : "    Trusted: ".toList ++ boolText b ≠ "  ─── Signer #".toList ++ x := ne_pre (by cases b <;> decide +kernel)
  rw [List.mem_cons, List.mem_cons (b := "  ─── Signer #".toList ++ x), List.mem_cons (b := "  ─── Signer #".toList ++ x),
    List.mem_cons (b := "  ─── Signer #".toList ++ x)]
  simp only [h1, h2, h3, h4, false_or]
  cases b <;> cases s <;> cases d <;> cases c <;> cases t <;> decide +kernel

theorem flags_overall {W : Words} {d c t : Bool} {a : List (List Char)} (h : (VLine.overall d c t).Says W a) (b : Bool) :
    ("  Signature valid: ".toList ++ boolText b ∉ a) ∧ ("  Digest valid: ".toList ++ boolText b ∈ a ↔ d = b) ∧
    ("  Certificate chain valid: ".toList ++ boolText b ∈ a ↔ c = b) ∧ ("  Trusted: ".toList ++ boolText b ∈ a ↔ t = b) := by
  simp only [VLine.Says] at h
  rw [h]
  cases b <;> cases d <;> cases c <;> cases t <;> decide +kernel

theorem flags_stamp {W : Words} {s d c t : Bool} {a : List (List Char)} (h : (VLine.stampPassed s d c t).Says W a) (b : Bool) :
    ("  Signature valid: ".toList ++ boolText b ∈ a ↔ s = b) ∧ ("  Digest valid: ".toList ++ boolText b ∈ a ↔ d = b) ∧
    ("  Certificate chain valid: ".toList ++ boolText b ∈ a ↔ c = b) ∧ ("  Trusted: ".toList ++ boolText b ∈ a ↔ t = b) := by
  simp only [VLine.Says] at h
  rw [h]
  cases b <;> cases s <;> cases d <;> cases c <;> cases t <;> decide +kernel

/-- Lines that only some kinds of the report can have. -/
theorem line_iff {E : Env} {p : Profile} {pem : Bytes} {root : Option Bytes} {now : Nat} {verbose : Bool} {file : Bytes} {W : Words}
    {out err : List Char} (hW : Unbroken W) (h : VerifySays E p pem root now verbose file W out err) (s : List Char) (K : List Nat)
    (Q : VLine → Prop) (hs : s ≠ [] ∧ s ∉ headings ∧ kindsOf s = K)
    (hQ : ∀ l : VLine, l.kind ∈ K → ∀ a, l.Says W a → (s ∈ a ↔ Q l)) :
    IsLine s out ↔ ∃ l, .out l ∈ (cliVerifyRun E p pem root now verbose file).1 ∧ l.kind ∈ K ∧ Q l := by
  obtain ⟨ha, hb⟩ := out_line hW h hs.1 hs.2.1
  constructor
  · intro hl
    obtain ⟨l, a, h1, h2, h3⟩ := ha hl
    have := kind_of_says h2 h3
    rw [hs.2.2] at this
    exact ⟨l, h1, this, (hQ l this a h2).mp h3⟩
  · rintro ⟨l, h1, h2, h3⟩
    exact hb l h1 fun a h4 => (hQ l h2 a h4).mpr h3

/-- The flags of a signer line. -/
def signerFlag (i : Nat) : VLine → Option Bool
  | .signer _ s d c t => [s, d, c, t][i]?
  | _ => none

/-- The flags of a line about all signers or the stamp. -/
def overallFlag (i : Nat) : VLine → Option Bool
  | .overall d c t => [d, c, t][i]?
  | .stampPassed _ d c t => [d, c, t][i]?
  | .stampFailed _ _ d c t => [d, c, t][i]?
  | _ => none

theorem kind_12 {l : VLine} (h : l.kind ∈ [12]) : ∃ n s d c t, l = .signer n s d c t := by
  rw [List.mem_singleton] at h
  cases l <;> simp [VLine.kind] at h
  exact ⟨_, _, _, _, _, rfl⟩

theorem kind_17 {l : VLine} (h : l.kind ∈ [17, 23, 25]) :
    (∃ d c t, l = .overall d c t) ∨ (∃ s d c t, l = .stampPassed s d c t) ∨ ∃ r s d c t, l = .stampFailed r s d c t := by
  cases l <;> simp [VLine.kind] at h
  · exact .inl ⟨_, _, _, rfl⟩
  · exact .inr (.inl ⟨_, _, _, _, rfl⟩)
  · exact .inr (.inr ⟨_, _, _, _, _, rfl⟩)

theorem kinds_sig12 (b : Bool) : "    Signature valid: ".toList ++ boolText b ≠ [] ∧ "    Signature valid: ".toList ++ boolText b ∉ headings ∧
    kindsOf ("    Signature valid: ".toList ++ boolText b) = [12] := by
  cases b
  · exact line_fact (s := chars!"    Signature valid: " ++ chars!"false") (app_eq String.toList_ofList String.toList_ofList) (by decide +kernel)
  · exact line_fact (s := chars!"    Signature valid: " ++ chars!"true") (app_eq String.toList_ofList String.toList_ofList) (by decide +kernel)

theorem kinds_digest12 (b : Bool) : "    Digest valid: ".toList ++ boolText b ≠ [] ∧ "    Digest valid: ".toList ++ boolText b ∉ headings ∧
    kindsOf ("    Digest valid: ".toList ++ boolText b) = [12] := by
  cases b
  · exact line_fact (s := chars!"    Digest valid: " ++ chars!"false") (app_eq String.toList_ofList String.toList_ofList) (by decide +kernel)
  · exact line_fact (s := chars!"    Digest valid: " ++ chars!"true") (app_eq String.toList_ofList String.toList_ofList) (by decide +kernel)

theorem kinds_chain12 (b : Bool) : "    Certificate chain valid: ".toList ++ boolText b ≠ [] ∧ "    Certificate chain valid: ".toList ++ boolText b ∉ headings ∧
    kindsOf ("    Certificate chain valid: ".toList ++ boolText b) = [12] := by
  cases b
  · exact line_fact (s := chars!"    Certificate chain valid: " ++ chars!"false") (app_eq String.toList_ofList String.toList_ofList) (by decide +kernel)
  · exact line_fact (s := chars!"    Certificate chain valid: " ++ chars!"true") (app_eq String.toList_ofList String.toList_ofList) (by decide +kernel)

theorem kinds_trust12 (b : Bool) : "    Trusted: ".toList ++ boolText b ≠ [] ∧ "    Trusted: ".toList ++ boolText b ∉ headings ∧
    kindsOf ("    Trusted: ".toList ++ boolText b) = [12] := by
  cases b
  · exact line_fact (s := chars!"    Trusted: " ++ chars!"false") (app_eq String.toList_ofList String.toList_ofList) (by decide +kernel)
  · exact line_fact (s := chars!"    Trusted: " ++ chars!"true") (app_eq String.toList_ofList String.toList_ofList) (by decide +kernel)

/-- **C121**: the four indented lines with the flags of a signer are there exactly for the flags in the report. -/
theorem C121_signer_flags {E : Env} {p : Profile} {pem : Bytes} {root : Option Bytes} {now : Nat} {verbose : Bool} {file : Bytes} {W : Words}
    {out err : List Char} (hW : Unbroken W) (h : VerifySays E p pem root now verbose file W out err) (b : Bool) :
    (IsLine ("    Signature valid: ".toList ++ boolText b) out ↔
      ∃ n d c t, .out (.signer n b d c t) ∈ (cliVerifyRun E p pem root now verbose file).1) ∧
    (IsLine ("    Digest valid: ".toList ++ boolText b) out ↔
      ∃ n s c t, .out (.signer n s b c t) ∈ (cliVerifyRun E p pem root now verbose file).1) ∧
    (IsLine ("    Certificate chain valid: ".toList ++ boolText b) out ↔
      ∃ n s d t, .out (.signer n s d b t) ∈ (cliVerifyRun E p pem root now verbose file).1) ∧
    (IsLine ("    Trusted: ".toList ++ boolText b) out ↔
      ∃ n s d c, .out (.signer n s d c b) ∈ (cliVerifyRun E p pem root now verbose file).1) := by
  refine ⟨?_, ?_, ?_, ?_⟩
  · rw [line_iff hW h ("    Signature valid: ".toList ++ boolText b) [12] (fun l => signerFlag 0 l = some b) (kinds_sig12 b)]
    · constructor
      · rintro ⟨l, h1, h2, h3⟩
        obtain ⟨n, s, d, c, t, rfl⟩ := kind_12 h2
        cases h3
        exact ⟨_, _, _, _, h1⟩
      · rintro ⟨n, d, c, t, h1⟩; exact ⟨_, h1, by simp [VLine.kind], rfl⟩
    · intro l hl a ha
      obtain ⟨n, s, d, c, t, rfl⟩ := kind_12 hl
      exact (flags_signer ha b).1.trans (by simp [signerFlag])
  · rw [line_iff hW h ("    Digest valid: ".toList ++ boolText b) [12] (fun l => signerFlag 1 l = some b) (kinds_digest12 b)]
    · constructor
      · rintro ⟨l, h1, h2, h3⟩
        obtain ⟨n, s, d, c, t, rfl⟩ := kind_12 h2
        cases h3
        exact ⟨_, _, _, _, h1⟩
      · rintro ⟨n, d, c, t, h1⟩; exact ⟨_, h1, by simp [VLine.kind], rfl⟩
    · intro l hl a ha
      obtain ⟨n, s, d, c, t, rfl⟩ := kind_12 hl
      exact (flags_signer ha b).2.1.trans (by simp [signerFlag])
  · rw [line_iff hW h ("    Certificate chain valid: ".toList ++ boolText b) [12] (fun l => signerFlag 2 l = some b)
      (kinds_chain12 b)]
    · constructor
      · rintro ⟨l, h1, h2, h3⟩
        obtain ⟨n, s, d, c, t, rfl⟩ := kind_12 h2
        cases h3
        exact ⟨_, _, _, _, h1⟩
      · rintro ⟨n, d, c, t, h1⟩; exact ⟨_, h1, by simp [VLine.kind], rfl⟩
    · intro l hl a ha
      obtain ⟨n, s, d, c, t, rfl⟩ := kind_12 hl
      exact (flags_signer ha b).2.2.1.trans (by simp [signerFlag])
  · rw [line_iff hW h ("    Trusted: ".toList ++ boolText b) [12] (fun l => signerFlag 3 l = some b) (kinds_trust12 b)]
    · constructor
      · rintro ⟨l, h1, h2, h3⟩
        obtain ⟨n, s, d, c, t, rfl⟩ := kind_12 h2
        cases h3
        exact ⟨_, _, _, _, h1⟩
      · rintro ⟨n, d, c, t, h1⟩; exact ⟨_, h1, by simp [VLine.kind], rfl⟩
    · intro l hl a ha
      obtain ⟨n, s, d, c, t, rfl⟩ := kind_12 hl
      exact (flags_signer ha b).2.2.2.trans (by simp [signerFlag])

/-- The flags of a source stamp that failed are not on standard output. -/
theorem stampFailed_not_out {E : Env} {p : Profile} {pem : Bytes} {root : Option Bytes} {now : Nat} {verbose : Bool} {file : Bytes}
    {rs : List Nat} {w x y z : Bool} : .out (.stampFailed rs w x y z) ∉ (cliVerifyRun E p pem root now verbose file).1 := by
  rcases run_cases E p pem root now verbose file with ⟨h1, -, -⟩ | ⟨b, roots, ps, c, pre, -, -, -, -, hp, hrun⟩
  · intro h
    have := h1 _ h
    simp [isPrelude] at this
  · rw [hrun]
    generalize verifyV2 E roots now b (some c) = v
    generalize verifySourceStamp E roots now b (some c) = s
    have h1 : .out (.stampFailed rs w x y z) ∉ pre := fun h => by have := hp _ h; simp [isPrelude] at this
    have h2 : .out (.stampFailed rs w x y z) ∉ (v2Report verbose v).1 := fun h => by
      have := v2Report_kind _ _ _ h; simp [isV2Line] at this
    unfold afterPrelude
    split
    · simp [h1, h2]
    · simp [h1, h2]
    · rename_i v2 hv
      have h3 : .out (.stampFailed rs w x y z) ∉ (conclude v2 (stampReport s).2).1 := by
        unfold conclude
        cases v2 with
        | none => simp
        | some r =>
          dsimp only
          split
          · split <;> simp
          · simp
      have h4 : .out (.stampFailed rs w x y z) ∉ (stampReport s).1 := by
        unfold stampReport
        split
        · split
          · split <;> simp
          · split <;> split <;> simp
        · simp
        · simp
        · simp
      simp [h1, h2, h3, h4]

theorem kinds_sig23 (b : Bool) : "  Signature valid: ".toList ++ boolText b ≠ [] ∧ "  Signature valid: ".toList ++ boolText b ∉ headings ∧
    kindsOf ("  Signature valid: ".toList ++ boolText b) = [23, 25] := by
  cases b
  · exact line_fact (s := chars!"  Signature valid: " ++ chars!"false") (app_eq String.toList_ofList String.toList_ofList) (by decide +kernel)
  · exact line_fact (s := chars!"  Signature valid: " ++ chars!"true") (app_eq String.toList_ofList String.toList_ofList) (by decide +kernel)

theorem kinds_digest17 (b : Bool) : "  Digest valid: ".toList ++ boolText b ≠ [] ∧ "  Digest valid: ".toList ++ boolText b ∉ headings ∧
    kindsOf ("  Digest valid: ".toList ++ boolText b) = [17, 23, 25] := by
  cases b
  · exact line_fact (s := chars!"  Digest valid: " ++ chars!"false") (app_eq String.toList_ofList String.toList_ofList) (by decide +kernel)
  · exact line_fact (s := chars!"  Digest valid: " ++ chars!"true") (app_eq String.toList_ofList String.toList_ofList) (by decide +kernel)

theorem kinds_chain17 (b : Bool) : "  Certificate chain valid: ".toList ++ boolText b ≠ [] ∧ "  Certificate chain valid: ".toList ++ boolText b ∉ headings ∧
    kindsOf ("  Certificate chain valid: ".toList ++ boolText b) = [17, 23, 25] := by
  cases b
  · exact line_fact (s := chars!"  Certificate chain valid: " ++ chars!"false") (app_eq String.toList_ofList String.toList_ofList) (by decide +kernel)
  · exact line_fact (s := chars!"  Certificate chain valid: " ++ chars!"true") (app_eq String.toList_ofList String.toList_ofList) (by decide +kernel)

theorem kinds_trust17 (b : Bool) : "  Trusted: ".toList ++ boolText b ≠ [] ∧ "  Trusted: ".toList ++ boolText b ∉ headings ∧
    kindsOf ("  Trusted: ".toList ++ boolText b) = [17, 23, 25] := by
  cases b
  · exact line_fact (s := chars!"  Trusted: " ++ chars!"false") (app_eq String.toList_ofList String.toList_ofList) (by decide +kernel)
  · exact line_fact (s := chars!"  Trusted: " ++ chars!"true") (app_eq String.toList_ofList String.toList_ofList) (by decide +kernel)

theorem overall_iff {E : Env} {p : Profile} {pem : Bytes} {root : Option Bytes} {now : Nat} {verbose : Bool} {file : Bytes} {W : Words}
    {out err : List Char} (hW : Unbroken W) (h : VerifySays E p pem root now verbose file W out err) {s : List Char} (i : Nat) (hi : i < 3)
    {b : Bool} (hs : s ≠ [] ∧ s ∉ headings ∧ kindsOf s = [17, 23, 25])
    (ho : ∀ d c t a, (VLine.overall d c t).Says W a → (s ∈ a ↔ overallFlag i (.overall d c t) = some b))
    (hp : ∀ w d c t a, (VLine.stampPassed w d c t).Says W a → (s ∈ a ↔ overallFlag i (.stampPassed w d c t) = some b)) :
    IsLine s out ↔ (∃ d c t, .out (.overall d c t) ∈ (cliVerifyRun E p pem root now verbose file).1 ∧ [d, c, t][i]? = some b) ∨
      (b = true ∧ .out (.stampPassed true true true true) ∈ (cliVerifyRun E p pem root now verbose file).1) := by
  obtain ⟨ha, hb⟩ := out_line hW h hs.1 hs.2.1
  have h3 : [true, true, true][i]? = some true := by
    match i, hi with
    | 0, _ => rfl
    | 1, _ => rfl
    | 2, _ => rfl
  constructor
  · intro hl
    obtain ⟨l, a, h1, h2, h4⟩ := ha hl
    have hk := kind_of_says h2 h4
    rw [hs.2.2] at hk
    rcases kind_17 hk with ⟨d, c, t, rfl⟩ | ⟨w, d, c, t, rfl⟩ | ⟨r, w, d, c, t, rfl⟩
    · exact .inl ⟨d, c, t, h1, (ho _ _ _ _ h2).mp h4⟩
    · have hf := (hp _ _ _ _ _ h2).mp h4
      obtain ⟨rfl, rfl, rfl, rfl⟩ := (C83_stamp_passed_line.mp h1).1
      simp only [overallFlag] at hf
      rw [h3] at hf
      exact .inr ⟨(Option.some.inj hf).symm, h1⟩
    · exact absurd h1 stampFailed_not_out
  · rintro (⟨d, c, t, h1, h2⟩ | ⟨rfl, h1⟩)
    · exact hb _ h1 fun a hs => (ho _ _ _ _ hs).mpr h2
    · exact hb _ h1 fun a hs => (hp _ _ _ _ _ hs).mpr h3

/-- **C121**: the lines with two spaces and a flag are there exactly for the flags of all signers together and for those of a source stamp
that passed. -/
theorem C121_overall_flags {E : Env} {p : Profile} {pem : Bytes} {root : Option Bytes} {now : Nat} {verbose : Bool} {file : Bytes} {W : Words}
    {out err : List Char} (hW : Unbroken W) (h : VerifySays E p pem root now verbose file W out err) (b : Bool) :
    (IsLine ("  Digest valid: ".toList ++ boolText b) out ↔
      (∃ c t, .out (.overall b c t) ∈ (cliVerifyRun E p pem root now verbose file).1) ∨
      (b = true ∧ .out (.stampPassed true true true true) ∈ (cliVerifyRun E p pem root now verbose file).1)) ∧
    (IsLine ("  Certificate chain valid: ".toList ++ boolText b) out ↔
      (∃ d t, .out (.overall d b t) ∈ (cliVerifyRun E p pem root now verbose file).1) ∨
      (b = true ∧ .out (.stampPassed true true true true) ∈ (cliVerifyRun E p pem root now verbose file).1)) ∧
    (IsLine ("  Trusted: ".toList ++ boolText b) out ↔
      (∃ d c, .out (.overall d c b) ∈ (cliVerifyRun E p pem root now verbose file).1) ∨
      (b = true ∧ .out (.stampPassed true true true true) ∈ (cliVerifyRun E p pem root now verbose file).1)) ∧
    (IsLine ("  Signature valid: ".toList ++ boolText b) out ↔
      b = true ∧ .out (.stampPassed true true true true) ∈ (cliVerifyRun E p pem root now verbose file).1) := by
  refine ⟨?_, ?_, ?_, ?_⟩
  · rw [overall_iff (b := b) hW h 0 (by decide) (kinds_digest17 b) (fun d c t a ha => (flags_overall ha b).2.1.trans (by simp [overallFlag]))
      (fun w d c t a ha => (flags_stamp ha b).2.1.trans (by simp [overallFlag]))]
    refine or_congr ⟨?_, ?_⟩ Iff.rfl
    · rintro ⟨d, c, t, h1, h2⟩; cases h2; exact ⟨_, _, h1⟩
    · rintro ⟨c, t, h1⟩; exact ⟨_, _, _, h1, rfl⟩
  · rw [overall_iff (b := b) hW h 1 (by decide) (kinds_chain17 b) (fun d c t a ha => (flags_overall ha b).2.2.1.trans (by simp [overallFlag]))
      (fun w d c t a ha => (flags_stamp ha b).2.2.1.trans (by simp [overallFlag]))]
    refine or_congr ⟨?_, ?_⟩ Iff.rfl
    · rintro ⟨d, c, t, h1, h2⟩; cases h2; exact ⟨_, _, h1⟩
    · rintro ⟨c, t, h1⟩; exact ⟨_, _, _, h1, rfl⟩
  · rw [overall_iff (b := b) hW h 2 (by decide) (kinds_trust17 b) (fun d c t a ha => (flags_overall ha b).2.2.2.trans (by simp [overallFlag]))
      (fun w d c t a ha => (flags_stamp ha b).2.2.2.trans (by simp [overallFlag]))]
    refine or_congr ⟨?_, ?_⟩ Iff.rfl
    · rintro ⟨d, c, t, h1, h2⟩; cases h2; exact ⟨_, _, h1⟩
    · rintro ⟨c, t, h1⟩; exact ⟨_, _, _, h1, rfl⟩
  · obtain ⟨ha, hb⟩ := out_line hW h (kinds_sig23 b).1 (kinds_sig23 b).2.1
    constructor
    · intro hl
      obtain ⟨l, a, h1, h2, h4⟩ := ha hl
      have hk := kind_of_says h2 h4
      rw [(kinds_sig23 b).2.2] at hk
      rcases kind_17 (List.mem_cons_of_mem _ hk) with ⟨d, c, t, rfl⟩ | ⟨w, d, c, t, rfl⟩ | ⟨r, w, d, c, t, rfl⟩
      · simp [VLine.kind] at hk
      · have hf := (flags_stamp h2 b).1.mp h4
        obtain ⟨rfl, rfl, rfl, rfl⟩ := (C83_stamp_passed_line.mp h1).1
        exact ⟨hf.symm, h1⟩
      · exact absurd h1 stampFailed_not_out
    · rintro ⟨rfl, h1⟩
      exact hb _ h1 fun a hs => (flags_stamp hs true).1.mpr rfl

/-- A signer whose digest was not compared: the flags of the signer and of all signers say so. -/
example : ∃ b, SigningBlock.newWithPadding .dev [bareSigner] = .ok b ∧ ∀ out err,
    VerifySays toyEnv .dev [7] (some [7]) 0 false (plainArchive.signed b.toU8) plainWords out err →
    IsLine ("    Digest valid: ".toList ++ boolText false) out ∧ IsLine ("  Digest valid: ".toList ++ boolText false) out ∧
    IsLine ("    Trusted: ".toList ++ boolText true) out ∧ IsLine ("  Trusted: ".toList ++ boolText true) out ∧
    ¬ IsLine ("  Trusted: ".toList ++ boolText false) out := by
  have ho : (outputFor [7] bareSigner).1 = [.out .start, .out .blockFound, .out .customRoot, .out .digestsComputed, .out .v2Passed,
    .out (.v2Count 1), .out (.signer 1 true false true true), .out (.signerCert [7]), .out (.overall false true true),
    .err .digestMismatch] := by decide +kernel
  unfold outputFor at ho
  cases hb : SigningBlock.newWithPadding .dev [bareSigner] with
  | err e => rw [hb] at ho; cases ho
  | panic => rw [hb] at ho; cases ho
  | ok b =>
    rw [hb] at ho
    dsimp only at ho
    refine ⟨b, rfl, fun out err h => ?_⟩
    have h1 := C121_signer_flags plainWords_unbroken h
    have h2 := C121_overall_flags plainWords_unbroken h
    rw [(h1 false).2.1, (h1 true).2.2.2, (h2 false).1, (h2 true).2.2.1, (h2 false).2.2.1, ho]
    simp

end Ksusig.Props
