import Verif.Proofs.Text
import Verif.Props.VerifyOutput
import Verif.Props.VerifyLines
import Verif.Props.Confusion

/-!
# C121: reading the reports as text
-/

namespace Ksusig.Props

open Ksusig Spec

theorem out_line {E : Env} {p : Profile} {pem : Bytes} {root : Option Bytes} {now : Nat} {verbose : Bool} {file : Bytes} {W : Words}
    {out err : List Char} (hW : Unbroken W) (h : VerifySays E p pem root now verbose file W out err) {s : List Char} (h0 : s ≠ [])
    (hh : s ∉ headings) :
    (IsLine s out → ∃ l a, .out l ∈ (cliVerifyRun E p pem root now verbose file).1 ∧ l.Says W a ∧ s ∈ a) ∧
    ∀ l, .out l ∈ (cliVerifyRun E p pem root now verbose file).1 → (∀ a, l.Says W a → s ∈ a) → IsLine s out := by
  obtain ⟨lo, le, first, last, h1, _, _, _, ho, _⟩ := h
  subst ho
  have hu : ∀ x ∈ lo ++ (if .out .v2NotFound ∈ (cliVerifyRun E p pem root now verbose file).1 then [[]] else []), '\n' ∉ x := by
    intro x hx
    rcases List.mem_append.mp hx with hx | hx
    · exact stream_unbroken hW h1 x hx
    · split at hx
      · rw [List.mem_singleton] at hx; subst hx; simp
      · cases hx
  rw [isLine_unlines hu]
  constructor
  · intro hs
    rcases List.mem_append.mp hs with hs | hs
    · rcases stream_mem h1 hs with h | ⟨l, hl, a, ha, hs⟩
      · exact absurd h hh
      · exact ⟨l, a, mem_outLines.mp hl, ha, hs⟩
    · split at hs
      · rw [List.mem_singleton] at hs; exact absurd hs h0
      · cases hs
  · intro l hl ha
    obtain ⟨a, h2, h3⟩ := mem_stream h1 (mem_outLines.mpr hl)
    exact List.mem_append_left _ (h3 s (ha a h2))

theorem out_fixed {E : Env} {p : Profile} {pem : Bytes} {root : Option Bytes} {now : Nat} {verbose : Bool} {file : Bytes} {W : Words}
    {out err : List Char} (hW : Unbroken W) (h : VerifySays E p pem root now verbose file W out err) {s : List Char} {k : Nat}
    (hs : s ≠ [] ∧ s ∉ headings ∧ kindsOf s = [k]) (hk : ∀ l : VLine, l.kind = k → ∀ a, l.Says W a → s ∈ a) :
    IsLine s out ↔ ∃ l, .out l ∈ (cliVerifyRun E p pem root now verbose file).1 ∧ l.kind = k := by
  obtain ⟨ha, hb⟩ := out_line hW h hs.1 hs.2.1
  constructor
  · intro hl
    obtain ⟨l, a, h1, h2, h3⟩ := ha hl
    have := kind_of_says h2 h3
    rw [hs.2.2, List.mem_singleton] at this
    exact ⟨l, h1, this⟩
  · rintro ⟨l, h1, h2⟩
    exact hb l h1 (hk l h2)

/-- **C121**: a script that looks for the line about success, or for anything on standard error, learns the result of the command. -/
theorem C121_result {E : Env} {p : Profile} {pem : Bytes} {root : Option Bytes} {now : Nat} {verbose : Bool} {file : Bytes} {W : Words}
    {out err : List Char} (hW : Unbroken W) (h : VerifySays E p pem root now verbose file W out err) :
    (IsLine "✓ Module signature verification successful!".toList out ↔ cliVerify E p pem root now file = .ok ()) ∧
    (err = [] ↔ cliVerify E p pem root now file = .ok ()) := by
  constructor
  · rw [out_fixed hW h (k := 34) (line_fact (s := chars!"✓ Module signature verification successful!") String.toList_ofList (by decide +kernel)), ← C83_success_line E p pem root now verbose file]
    · constructor
      · rintro ⟨l, hl, hk⟩
        cases l <;> simp [VLine.kind] at hk
        exact hl
      · intro hl
        exact ⟨_, hl, rfl⟩
    · intro l hk a ha
      cases l <;> simp [VLine.kind] at hk
      simp only [VLine.Says] at ha
      rw [ha]
      simp
  · obtain ⟨lo, le, first, last, _, h2, h3, h4, _, he⟩ := h
    rw [C83_result] at h4
    constructor
    · intro h0
      rw [he] at h0
      simp only [List.append_eq_nil_iff] at h0
      cases hc : cliVerify E p pem root now file with
      | ok u => rfl
      | err e =>
        rw [hc, MainSays] at h4
        obtain ⟨m, hm⟩ := h4
        rw [h0.2] at hm
        simp at hm
      | panic => rw [hc, MainSays] at h4; exact absurd h0.2 h4
    · intro hok
      rw [hok, MainSays] at h4
      have hl : le = [] := by
        have hnone : errLines (cliVerifyRun E p pem root now verbose file).1 = [] := by
          rw [List.eq_nil_iff_forall_not_mem]
          intro l hl
          obtain ⟨l', hx⟩ := (C83_success_output hok).1 _ (mem_errLines.mp hl)
          cases hx
        rw [hnone] at h2
        exact h2
      have hf : first = [] := by
        obtain ⟨b, cert, d256, d384, hb, hp, _⟩ := C35_verify_command.mp hok
        split at h3
        · rename_i hu
          unfold usesBuiltin at hu
          simp only [Bool.and_eq_true, Option.isNone_iff_eq_none] at hu
          rw [hu.1] at hp
          rw [BuiltinSays, Roots.addPem] at h3
          simp only [Option.getD_none] at hp
          rw [hp] at h3
          simpa [Res.isOk] using h3
        · exact h3
      rw [he, hl, hf, h4]
      rfl

/-- **C121**: what the lines "passed" on standard output mean. -/
theorem C121_passed {E : Env} {p : Profile} {pem : Bytes} {root : Option Bytes} {now : Nat} {verbose : Bool} {file : Bytes} {W : Words}
    {out err : List Char} (hW : Unbroken W) (h : VerifySays E p pem root now verbose file W out err) :
    (IsLine "✓ V2 signature verification passed".toList out ↔
      ∃ b d256 d384, (Module.new file).getSigningBlock p file = .ok b ∧
        (∀ r, root = some r → ∃ cert, E.pemParse r = some ("CERTIFICATE", cert)) ∧
        (Module.new file).digest E p file .p256 = .ok d256 ∧ (Module.new file).digest E p file .p384 = .ok d384 ∧
        v2Signers b ≠ [] ∧ ∀ s ∈ v2Signers b, Consistent E (table d256 d384) s) ∧
    (IsLine "✓ Source Stamp verification passed".toList out ↔
      ∃ b cert d256 d384 s rest, (Module.new file).getSigningBlock p file = .ok b ∧
        E.pemParse (root.getD pem) = some ("CERTIFICATE", cert) ∧
        (Module.new file).digest E p file .p256 = .ok d256 ∧ (Module.new file).digest E p file .p384 = .ok d384 ∧
        stamps b = s :: rest ∧ GoodStamp E [cert] now (table d256 d384) s ∧
        ∀ s ∈ v2Signers b, GoodV2 E [cert] now (table d256 d384) s) := by
  constructor
  · rw [out_fixed hW h (k := 10) (line_fact (s := chars!"✓ V2 signature verification passed") String.toList_ofList (by decide +kernel)), ← C83_v2_passed_line (verbose := verbose)]
    · constructor
      · rintro ⟨l, hl, hk⟩
        cases l <;> simp [VLine.kind] at hk
        exact hl
      · intro hl
        exact ⟨_, hl, rfl⟩
    · intro l hk a ha
      cases l <;> simp [VLine.kind] at hk
      simp only [VLine.Says] at ha
      rw [ha]
      simp
  · rw [out_fixed hW h (k := 23) (line_fact (s := chars!"✓ Source Stamp verification passed") String.toList_ofList (by decide +kernel))]
    · constructor
      · rintro ⟨l, hl, hk⟩
        cases l <;> simp [VLine.kind] at hk
        exact (C83_stamp_passed_line.mp hl).2
      · intro hx
        exact ⟨_, (C83_stamp_passed_line (verbose := verbose) (w := true) (x := true) (y := true) (z := true)).mpr ⟨⟨rfl, rfl, rfl, rfl⟩, hx⟩, rfl⟩
    · intro l hk a ha
      cases l <;> simp [VLine.kind] at hk
      simp only [VLine.Says] at ha
      rw [ha]
      simp

/-- **C121**: the other fixed lines on standard output are there exactly if the report has them. -/
theorem C121_other_lines {E : Env} {p : Profile} {pem : Bytes} {root : Option Bytes} {now : Nat} {verbose : Bool} {file : Bytes} {W : Words}
    {out err : List Char} (hW : Unbroken W) (h : VerifySays E p pem root now verbose file W out err) :
    ∀ x ∈ [("✓ Signing block found", VLine.blockFound), ("✓ File digests computed", .digestsComputed), ("ℹ V2 signature not found", .v2NotFound),
        ("ℹ Source Stamp not found", .stampNotFound), ("⚠ Module V2 signature verified, but Source Stamp verification FAILED!", .onlyV2)],
      IsLine x.1.toList out ↔ .out x.2 ∈ (cliVerifyRun E p pem root now verbose file).1 := by
  have key : ∀ (s : String) (l : VLine) (k : Nat), (s.toList ≠ [] ∧ s.toList ∉ headings ∧ kindsOf s.toList = [k]) → l.kind = k →
      (∀ l' : VLine, l'.kind = k → l' = l) → (∀ a, l.Says W a → s.toList ∈ a) →
      (IsLine s.toList out ↔ .out l ∈ (cliVerifyRun E p pem root now verbose file).1) := by
    intro s l k hs hk hu ha
    rw [out_fixed hW h hs fun l' hl' => hu l' hl' ▸ ha]
    exact ⟨fun ⟨l', h1, h2⟩ => hu l' h2 ▸ h1, fun h1 => ⟨l, h1, hk⟩⟩
  simp only [List.forall_mem_cons, List.not_mem_nil, false_implies, implies_true, and_true]
  refine ⟨key _ _ 1 (line_fact (s := chars!"✓ Signing block found") String.toList_ofList (by decide +kernel)) rfl ?_ ?_, key _ _ 6 (line_fact (s := chars!"✓ File digests computed") String.toList_ofList (by decide +kernel)) rfl ?_ ?_, key _ _ 7 (line_fact (s := chars!"ℹ V2 signature not found") String.toList_ofList (by decide +kernel)) rfl ?_ ?_,
    key _ _ 29 (line_fact (s := chars!"ℹ Source Stamp not found") String.toList_ofList (by decide +kernel)) rfl ?_ ?_, key _ _ 33 (line_fact (s := chars!"⚠ Module V2 signature verified, but Source Stamp verification FAILED!") String.toList_ofList (by decide +kernel)) rfl ?_ ?_⟩
  all_goals
    first
      | (intro l hk; cases l <;> simp [VLine.kind] at hk; rfl)
      | (intro a ha; simp only [VLine.Says] at ha; rw [ha]; simp)

/-- **C121**: the lines that describe the certificate of a signer: one for every certificate in the report, with its true length, and no
other line looks like that. A certificate that cannot be decoded is said to be so. -/
theorem C121_certificates {E : Env} {p : Profile} {pem : Bytes} {root : Option Bytes} {now : Nat} {verbose : Bool} {file : Bytes} {W : Words}
    {out err : List Char} (hW : Unbroken W) (h : VerifySays E p pem root now verbose file W out err) (t : List Char) :
    IsLine ("    Certificate: ".toList ++ t) out ↔
      ∃ c, .out (.signerCert c) ∈ (cliVerifyRun E p pem root now verbose file).1 ∧
        t = decimal c.length ++ " bytes; ".toList ++ match W.fields c with
          | some (subject, issuer, notBefore, notAfter) => "subject=".toList ++ subject ++ " | issuer=".toList ++ issuer ++
              " | not_before=".toList ++ notBefore ++ " | not_after=".toList ++ notAfter
          | none => "certificate: ".toList ++ decimal c.length ++ " bytes (failed to parse DER)".toList := by
  have h0 : "    Certificate: ".toList ++ t ≠ [] := by
    intro h
    exact absurd (List.append_eq_nil_iff.mp h).1 (by decide +kernel)
  have hh : "    Certificate: ".toList ++ t ∉ headings := by
    intro hm
    have : headings.any ("    Certificate: ".toList.isPrefixOf ·) = true :=
      List.any_eq_true.mpr ⟨_, hm, List.isPrefixOf_iff_prefix.mpr (List.prefix_append _ _)⟩
    exact absurd this (by decide +kernel)
  obtain ⟨ha, hb⟩ := out_line hW h h0 hh
  constructor
  · intro hl
    obtain ⟨l, a, h1, h2, h3⟩ := ha hl
    have hk := kind_of_prefix h2 h3
    rw [show kindsLike "    Certificate: ".toList = [13] by
      rw [kindsLike_chars, show "    Certificate: ".toList = chars!"    Certificate: " from String.toList_ofList]; decide +kernel,
      List.mem_singleton] at hk
    cases l <;> simp [VLine.kind] at hk
    rename_i c
    simp only [VLine.Says] at h2
    rw [h2, List.mem_singleton, List.append_assoc, List.append_assoc] at h3
    refine ⟨c, h1, ?_⟩
    rw [List.append_cancel_left h3, List.append_assoc]
    rfl
  · rintro ⟨c, h1, rfl⟩
    refine hb _ h1 fun a h2 => ?_
    simp only [VLine.Says] at h2
    rw [h2, List.mem_singleton, List.append_assoc, List.append_assoc, List.append_assoc]
    rfl

/-- **C121**: a line break in the name of the file is printed as it is. With a suitable name, the line about success is on standard output
whatever the file contains and whatever the result is. -/
theorem C121_forged_name {E : Env} {p : Profile} {pem : Bytes} {root : Option Bytes} {now : Nat} {verbose : Bool} {file : Bytes} {W : Words}
    {out err : List Char} (h : VerifySays E p pem root now verbose file W out err) {name : List Char}
    (hn : W.file = name ++ '\n' :: "✓ Module signature verification successful!".toList) :
    IsLine "✓ Module signature verification successful!".toList out := by
  obtain ⟨lo, le, first, last, h1, _, _, _, ho, _⟩ := h
  have hstart : ∃ ls, outLines (cliVerifyRun E p pem root now verbose file).1 = .start :: ls := by
    unfold cliVerifyRun
    dsimp only
    split
    · exact ⟨_, rfl⟩
    · exact ⟨_, rfl⟩
    · split
      · exact ⟨_, rfl⟩
      · exact ⟨_, rfl⟩
      · split
        · exact ⟨_, rfl⟩
        · exact ⟨_, rfl⟩
        · split
          · exact ⟨_, rfl⟩
          · exact ⟨_, rfl⟩
          · split
            · exact ⟨_, rfl⟩
            · split <;> exact ⟨_, rfl⟩
  obtain ⟨ls, hls⟩ := hstart
  rw [hls] at h1
  obtain ⟨a, r, h2, _, rfl⟩ := h1
  simp only [VLine.Says] at h2
  subst h2
  refine ⟨by decide +kernel, "Verifying module signature...".toList ++ '\n' :: ("File: ".toList ++ (name ++ ['\n'])), ?_⟩
  rw [ho, hn]
  exact ⟨'\n' :: unlines (r ++ if .out .v2NotFound ∈ (cliVerifyRun E p pem root now verbose file).1 then [[]] else []),
    by simp [unlines, heading], .inr ⟨"Verifying module signature...".toList ++ '\n' :: ("File: ".toList ++ name), by simp⟩⟩

/-- Every report has a text. -/
theorem C121_some_text (E : Env) (p : Profile) (pem : Bytes) (root : Option Bytes) (now : Nat) (verbose : Bool) (file : Bytes) (W : Words)
    {m : List Char} (hm : W.library m) : ∃ out err, VerifySays E p pem root now verbose file W out err := by
  obtain ⟨lo, h1⟩ := stream_says hm (outLines (cliVerifyRun E p pem root now verbose file).1) none
  obtain ⟨le, h2⟩ := stream_says hm (errLines (cliVerifyRun E p pem root now verbose file).1) none
  have h3 : ∃ first, if usesBuiltin p root file then BuiltinSays E pem first else first = [] := by
    split
    · unfold BuiltinSays
      split
      · exact ⟨_, rfl⟩
      · exact ⟨_, [], rfl⟩
    · exact ⟨_, rfl⟩
  obtain ⟨first, h3⟩ := h3
  have h4 : ∃ last, MainSays (cliVerifyRun E p pem root now verbose file).2 last := by
    cases (cliVerifyRun E p pem root now verbose file).2 with
    | ok u => exact ⟨[], rfl⟩
    | err e => exact ⟨_, [], rfl⟩
    | panic => exact ⟨['x'], by simp [MainSays]⟩
  obtain ⟨last, h4⟩ := h4
  exact ⟨_, _, lo, le, first, last, h1, h2, h3, h4, rfl, rfl⟩

/-! ## A concrete case -/

/-- Names without line breaks; no certificate can be decoded; all messages of libraries are the same. -/
def plainWords : Words := ⟨"a.zip".toList, "root.pem".toList, fun _ => none, (· = "bad".toList)⟩

/-- `plainWords` has no line breaks. -/
theorem plainWords_unbroken : Unbroken plainWords := by
  refine ⟨by decide +kernel, by decide +kernel, ?_, ?_⟩
  · intro c s i b a h
    simp [plainWords] at h
  · intro m h
    simp only [plainWords] at h
    rw [h]
    decide +kernel

/-- A module that is verified: the text has the line about success, and standard error is empty. -/
example : ∃ file out err, VerifySays toyEnv .dev [7] none 0 true file plainWords out err ∧
    IsLine "✓ Module signature verification successful!".toList out ∧ err = [] := by
  obtain ⟨_, b, _, _, h⟩ := C78_confusion_happens
  obtain ⟨out, err, ht⟩ := C121_some_text toyEnv .dev [7] none 0 true (plainArchive.signed b.toU8) plainWords (m := "bad".toList) rfl
  obtain ⟨h1, h2⟩ := C121_result plainWords_unbroken ht
  exact ⟨_, out, err, ht, h1.mpr h, h2.mpr h⟩

/-- A file that is not signed, under a treacherous name. -/
example : ∃ out err, VerifySays toyEnv .dev [7] none 0 false [1, 2, 3]
      { plainWords with file := "a\n✓ Module signature verification successful!".toList } out err ∧
    IsLine "✓ Module signature verification successful!".toList out ∧ cliVerify toyEnv .dev [7] none 0 [1, 2, 3] ≠ .ok () := by
  obtain ⟨out, err, ht⟩ := C121_some_text toyEnv .dev [7] none 0 false [1, 2, 3]
    { plainWords with file := "a\n✓ Module signature verification successful!".toList } (m := "bad".toList) rfl
  refine ⟨out, err, ht, C121_forged_name ht (name := ['a']) ?_, by decide +kernel⟩
  show "a\n✓ Module signature verification successful!".toList = ['a'] ++ '\n' :: "✓ Module signature verification successful!".toList
  decide +kernel

/-- The text of a report on standard output, character by character. -/
example : ∃ t, StreamSays plainWords none (outLines (outputFor [7] bareSigner).1) t ∧ unlines t = ("Verifying module signature...\n" ++
    "File: a.zip\n" ++
    "\n" ++
    "✓ Signing block found\n" ++
    "✓ Using custom root certificate: root.pem\n" ++
    "✓ File digests computed\n" ++
    "✓ V2 signature verification passed\n" ++
    "  Signers verified: 1\n" ++
    "  ─── Signer #1 ───\n" ++
    "    Signature valid: true\n" ++
    "    Digest valid: false\n" ++
    "    Certificate chain valid: true\n" ++
    "    Trusted: true\n" ++
    "    Certificate: 1 bytes; certificate: 1 bytes (failed to parse DER)\n" ++
    "  ─── Overall ───\n" ++
    "  Digest valid: false\n" ++
    "  Certificate chain valid: true\n" ++
    "  Trusted: true\n").toList := by
  rw [show outLines (outputFor [7] bareSigner).1 = [.start, .blockFound, .customRoot, .digestsComputed, .v2Passed, .v2Count 1,
    .signer 1 true false true true, .signerCert [7], .overall false true true] by decide +kernel]
  simp only [StreamSays, VLine.Says]
  refine ⟨_, ⟨_, _, rfl, ⟨_, _, rfl, ⟨_, _, rfl, ⟨_, _, rfl, ⟨_, _, rfl, ⟨_, _, rfl, ⟨_, _, rfl, ⟨_, _, rfl, ⟨_, _, rfl, rfl, rfl⟩, rfl⟩,
    rfl⟩, rfl⟩, rfl⟩, rfl⟩, rfl⟩, rfl⟩, rfl⟩, ?_⟩
  decide +kernel

end Ksusig.Props
