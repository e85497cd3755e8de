import Verif.Proofs.InfoText
import Verif.Props.InfoOutput
import Verif.Props.Text
import Verif.Props.VerifyOutput

/-!
# C121: reading the reports as text (info)
-/

namespace Ksusig.Props

open Ksusig Spec

/-- **C121**: reading the output of the info command. It says that a block was found exactly if there is one; it never says that the
content was verified; "Trusted: true" means that the V2 signers are trusted or that a correct source stamp is, and does not tell which. -/
theorem C121_info {E : Env} {p : Profile} {pem : Bytes} {now : Nat} {file : Bytes} {W : Words} {out : List Char} (hW : Unbroken W)
    (h : InfoSays E p pem now file W out) :
    (IsLine "✓ KSU signing block found".toList out ↔ ∃ b, cliInfoBlock p file = .ok b) ∧
    ¬ IsLine "  Content integrity verified: true".toList out ∧
    (IsLine "  Trusted: true".toList out ↔ ∃ b, cliInfoBlock p file = .ok b ∧
      ((∃ r, verifyV2 E (Roots.withBuiltin E pem) now b none = .ok r ∧ r.trusted = true) ∨
       ∃ r, verifySourceStamp E (Roots.withBuiltin E pem) now b none = .ok r ∧ r.sigValid = true ∧ r.trusted = true)) := by
  obtain ⟨ls, h1, rfl⟩ := h
  refine ⟨?_, ?_, ?_⟩
  · obtain ⟨ha, hb⟩ := info_line hW h1 (s := "✓ KSU signing block found".toList) (by decide +kernel)
    constructor
    · intro hl
      obtain ⟨l, a, h2, _, _, hk⟩ := ha hl
      rw [show infoKindsOf "✓ KSU signing block found".toList = [1] by decide +kernel, List.mem_singleton] at hk
      cases l <;> simp [ILine.kind] at hk
      unfold cliInfoRun at h2
      split at h2
      · simp at h2
      · simp at h2
      · rename_i b hb; exact ⟨b, hb⟩
    · rintro ⟨b, hb'⟩
      refine hb .found ?_ ?_
      · unfold cliInfoRun
        rw [hb']
        simp [infoBlockLines]
      · intro a h2
        simp only [ILine.Says] at h2
        rw [h2]
        simp
  · intro hl
    obtain ⟨l, a, h2, h3, h4, hk⟩ := (info_line hW h1 (s := "  Content integrity verified: true".toList) (by decide +kernel)).1 hl
    rw [show infoKindsOf "  Content integrity verified: true".toList = [9] by decide +kernel, List.mem_singleton] at hk
    cases l <;> simp [ILine.kind] at hk
    rename_i s d c t
    have hd := (C84_v2_flags h2).1
    subst hd
    simp only [ILine.Says] at h3
    rw [h3] at h4
    revert h4
    cases s <;> cases c <;> cases t <;> decide +kernel
  · obtain ⟨ha, hb⟩ := info_line hW h1 (s := "  Trusted: true".toList) (by decide +kernel)
    constructor
    · intro hl
      obtain ⟨l, a, h2, h3, h4, hk⟩ := ha hl
      rw [show infoKindsOf "  Trusted: true".toList = [9, 16] by decide +kernel] at hk
      unfold cliInfoRun at h2
      split at h2
      · cases l <;> simp [ILine.kind] at hk <;> simp at h2
      · cases l <;> simp [ILine.kind] at hk <;> simp at h2
      · rename_i b hb
        refine ⟨b, hb, ?_⟩
        dsimp only at h2
        rw [List.mem_append, List.mem_append, List.mem_append] at h2
        cases l <;> simp [ILine.kind] at hk
        · rename_i s d c t
          have ht : t = true := by
            cases t with
            | true => rfl
            | false =>
              exfalso
              simp only [ILine.Says] at h3
              rw [h3] at h4
              revert h4
              cases s <;> cases d <;> cases c <;> decide +kernel
          subst ht
          rcases h2 with ((h2 | h2) | h2) | h2
          · simp at h2
          · unfold infoBlockLines at h2
            split at h2
            · simp at h2
            · simp only [List.cons_append, List.nil_append, List.mem_cons, List.mem_map, reduceCtorEq, false_or] at h2
              obtain ⟨v, _, hv⟩ := h2
              cases v <;> cases hv
          · left
            cases hv : verifyV2 E (Roots.withBuiltin E pem) now b none with
            | ok r =>
              rw [hv] at h2
              simp only [infoV2Lines, List.mem_append, List.mem_map, List.mem_cons, List.not_mem_nil, or_false] at h2
              rcases h2 with ((h2 | h2) | h2) | h2
              · injection h2 with _ _ _ h5
                exact ⟨r, rfl, h5.symm⟩
              · split at h2 <;> simp at h2
              · split at h2
                · simp at h2
                · simp at h2
              · obtain ⟨_, _, hx⟩ := h2; cases hx
            | err e => rw [hv] at h2; simp [infoV2Lines] at h2
          · exfalso
            cases hv : verifySourceStamp E (Roots.withBuiltin E pem) now b none with
            | ok r =>
              rw [hv] at h2
              simp only [infoStampLines] at h2
              split at h2
              · rw [List.mem_append] at h2
                rcases h2 with h2 | h2
                · simp at h2
                · split at h2 <;> simp at h2
              · cases h2
            | err e => rw [hv] at h2; simp [infoStampLines] at h2
        · rename_i s c t
          have ht : t = true := by
            cases t with
            | true => rfl
            | false =>
              exfalso
              simp only [ILine.Says] at h3
              rw [h3] at h4
              revert h4
              cases s <;> cases c <;> decide +kernel
          subst ht
          rcases h2 with ((h2 | h2) | h2) | h2
          · simp at h2
          · unfold infoBlockLines at h2
            split at h2
            · simp at h2
            · simp only [List.cons_append, List.nil_append, List.mem_cons, List.mem_map, reduceCtorEq, false_or] at h2
              obtain ⟨v, _, hv⟩ := h2
              cases v <;> cases hv
          · exfalso
            cases hv : verifyV2 E (Roots.withBuiltin E pem) now b none with
            | ok r =>
              rw [hv] at h2
              simp only [infoV2Lines, List.mem_append, List.mem_map, List.mem_cons, List.not_mem_nil, or_false] at h2
              rcases h2 with ((h2 | h2) | h2) | h2
              · cases h2
              · split at h2 <;> simp at h2
              · split at h2
                · simp at h2
                · simp at h2
              · obtain ⟨_, _, hx⟩ := h2; cases hx
            | err e => rw [hv] at h2; simp [infoV2Lines] at h2
          · right
            cases hv : verifySourceStamp E (Roots.withBuiltin E pem) now b none with
            | ok r =>
              rw [hv] at h2
              simp only [infoStampLines] at h2
              split at h2
              · rename_i hs
                rw [List.mem_append] at h2
                rcases h2 with h2 | h2
                · rw [List.mem_singleton] at h2
                  injection h2 with _ _ h5
                  exact ⟨r, rfl, hs, h5.symm⟩
                · split at h2 <;> simp at h2
              · cases h2
            | err e => rw [hv] at h2; simp [infoStampLines] at h2
    · rintro ⟨b, hb', hx⟩
      have hrun : (cliInfoRun E p pem now file).1 = [.fileSize file.length] ++ infoBlockLines b ++
          infoV2Lines (verifyV2 E (Roots.withBuiltin E pem) now b none) ++
          infoStampLines (verifySourceStamp E (Roots.withBuiltin E pem) now b none) := by
        unfold cliInfoRun
        rw [hb']
      rcases hx with ⟨r, hr, ht⟩ | ⟨r, hr, hs, ht⟩
      · refine hb (.v2Flags r.sigValid r.digestValid r.chainValid r.trusted) ?_ ?_
        · rw [hrun, hr]
          simp [infoV2Lines]
        · intro a h2
          simp only [ILine.Says] at h2
          rw [h2, ht]
          refine List.mem_of_getElem? (i := 5) ?_
          show some ("  Trusted: ".toList ++ boolText true) = some "  Trusted: true".toList
          decide +kernel
      · refine hb (.stampFlags r.sigValid r.chainValid r.trusted) ?_ ?_
        · rw [hrun, hr]
          simp [infoStampLines, hs]
        · intro a h2
          simp only [ILine.Says] at h2
          rw [h2, ht]
          refine List.mem_of_getElem? (i := 4) ?_
          show some ("  Trusted: ".toList ++ boolText true) = some "  Trusted: true".toList
          decide +kernel

/-- **C121**: where the info command says "Trusted: true", every V2 signer, or else the first source stamp, has a certificate that the
built-in root certificate makes trusted. -/
theorem C121_info_trusted {E : Env} {p : Profile} {pem : Bytes} {now : Nat} {file : Bytes} {W : Words} {out : List Char} (hW : Unbroken W)
    (h : InfoSays E p pem now file W out) (hl : IsLine "  Trusted: true".toList out) :
    ∃ b cert, cliInfoBlock p file = .ok b ∧ E.pemParse pem = some ("CERTIFICATE", cert) ∧
      ((v2Signers b ≠ [] ∧ ∀ g ∈ v2Signers b, ∃ leaf rest, certsOf g = leaf :: rest ∧ Trusted E [cert] now leaf rest) ∨
       ∃ st more leaf rest, stamps b = st :: more ∧ stampCertsOf st = leaf :: rest ∧ Trusted E [cert] now leaf []) := by
  obtain ⟨b, hb, hx⟩ := (C121_info hW h).2.2.mp hl
  have hrun : (cliInfoRun E p pem now file).1 = [.fileSize file.length] ++ infoBlockLines b ++
      infoV2Lines (verifyV2 E (Roots.withBuiltin E pem) now b none) ++
      infoStampLines (verifySourceStamp E (Roots.withBuiltin E pem) now b none) := by
    unfold cliInfoRun
    rw [hb]
  rcases hx with ⟨r, hr, ht⟩ | ⟨r, hr, hs, ht⟩
  · have hm : .v2Flags r.sigValid r.digestValid r.chainValid r.trusted ∈ (cliInfoRun E p pem now file).1 := by
      rw [hrun, hr]; simp [infoV2Lines]
    obtain ⟨_, b', hb', hne, _, _, h5⟩ := C84_v2_flags hm
    cases hb.symm.trans hb'
    obtain ⟨cert, hc, h6⟩ := h5 ht
    exact ⟨b, cert, hb, hc, .inl ⟨hne, h6⟩⟩
  · have hm : .stampFlags r.sigValid r.chainValid true ∈ (cliInfoRun E p pem now file).1 := by
      rw [hrun, hr]; simp [infoStampLines, hs, ht]
    obtain ⟨b', st, rest, cert, leaf, more, hb', h1, h2, h3, h4⟩ := C84_stamp_shown.2 _ _ hm
    cases hb.symm.trans hb'
    exact ⟨b, cert, hb, h2, .inr ⟨st, rest, leaf, more, h1, h3, h4⟩⟩

/-- What the info command prints for a block, for an archive of the examples. -/
def infoFor (v : Value) : List ILine :=
  match SigningBlock.newWithPadding .dev [v] with
  | .ok b => (cliInfoRun toyEnv .dev [7] 0 (plainArchive.signed b.toU8)).1
  | _ => []

/-- The text of a report, character by character: a signer with a trusted certificate and no signature is called valid and trusted. -/
example : ∃ t, InfoLinesSay plainWords none (infoFor bareSigner) t ∧ unlines t = ("File: a.zip\n" ++
    "File size: 4152 bytes\n" ++
    "\n" ++
    "✓ KSU signing block found\n" ++
    "  Location: 30 - 4126\n" ++
    "  Size: 4096 bytes\n" ++
    "\n" ++
    "Signing block contents:\n" ++
    "  ✓ V2 Signature Scheme\n" ++
    "  • Unknown Block (ID: 0x42726577)\n" ++
    "\n" ++
    "V2 Certificate details:\n" ++
    "  Signature valid: true\n" ++
    "  Content integrity verified: false\n" ++
    "  Certificate chain valid: true\n" ++
    "  Trusted: true\n" ++
    "  Leaf certificate: 1 bytes; certificate: 1 bytes (failed to parse DER)\n" ++
    "  Certificate chain: none (self-signed or single cert)\n").toList := by
  rw [show infoFor bareSigner = [.fileSize 4152, .found, .location 30 4126, .size 4096, .contents, .v2Entry, .unknownEntry 0x42726577,
    .v2Flags true false true true, .leaf [7], .noChain] by decide +kernel]
  simp only [InfoLinesSay, ILine.Says]
  refine ⟨_, ⟨_, _, rfl, ⟨_, _, rfl, ⟨_, _, rfl, ⟨_, _, rfl, ⟨_, _, rfl, ⟨_, _, rfl, ⟨_, _, rfl, ⟨_, _, rfl, ⟨_, _, rfl, ⟨_, _, rfl, rfl,
    rfl⟩, rfl⟩, rfl⟩, rfl⟩, rfl⟩, rfl⟩, rfl⟩, rfl⟩, rfl⟩, rfl⟩, ?_⟩
  decide +kernel

end Ksusig.Props
