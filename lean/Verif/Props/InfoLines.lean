import Verif.SpecInfo
import Verif.Props.InfoOutput

/-!
# C107: every line of the report of the info command
-/

namespace Ksusig.Props

open Ksusig Spec

theorem mem_infoBlockLines {b : SigningBlock} {x : ILine} : x ∈ infoBlockLines b ↔
    x = .found ∨ x = .location b.fileStart b.fileEnd ∨ x = .size (b.sizeStart + 8) ∨ (b.content ≠ [] ∧ x = .contents) ∨
      ∃ v ∈ b.content, x = infoEntry v := by
  unfold infoBlockLines
  simp only [List.mem_append, List.mem_cons, List.not_mem_nil, or_false, or_assoc]
  refine or_congr Iff.rfl (or_congr Iff.rfl (or_congr Iff.rfl ?_))
  cases hc : b.content with
  | nil => simp
  | cons v vs =>
    rw [if_neg (by simp), List.mem_cons, List.mem_map]
    refine or_congr (by simp) (exists_congr fun a => and_congr Iff.rfl eq_comm)

theorem mem_infoV2Lines {v : Verdict} {x : ILine} : x ∈ infoV2Lines v ↔
    (∃ e, v = .err e ∧ x = .v2Unavailable e) ∨ ∃ r, v = .ok r ∧ (x = .v2Flags r.sigValid r.digestValid r.chainValid r.trusted ∨
      (∃ c, r.cert = some c ∧ x = .leaf c) ∨ (r.chain ≠ [] ∧ x = .chainLength r.chain.length) ∨
      (∃ i c, r.chain[i]? = some c ∧ x = .chainCert i c) ∨ (r.chain = [] ∧ x = .noChain) ∨
      ∃ i w, (i, w) ∈ r.warnings ∧ x = .warning i w) := by
  cases v with
  | err e => simp [infoV2Lines]
  | ok r =>
    have hch : (x ∈ r.chain.zipIdx.map fun x => ILine.chainCert x.2 x.1) ↔
        ∃ i c, r.chain[i]? = some c ∧ x = .chainCert i c := by
      simp only [List.mem_map, Prod.exists, List.mem_zipIdx_iff_getElem?]
      constructor
      · rintro ⟨c, i, h, rfl⟩; exact ⟨i, c, h, rfl⟩
      · rintro ⟨i, c, h, rfl⟩; exact ⟨c, i, h, rfl⟩
    have hw : (x ∈ r.warnings.map fun x => ILine.warning x.1 x.2) ↔ ∃ i w, (i, w) ∈ r.warnings ∧ x = .warning i w := by
      simp only [List.mem_map, Prod.exists]
      exact exists_congr fun i => exists_congr fun w => and_congr Iff.rfl eq_comm
    have h1 : x ∈ (match r.cert with | some c => [ILine.leaf c] | none => []) ↔ ∃ c, r.cert = some c ∧ x = .leaf c := by
      cases r.cert <;> simp
    have h2 : x ∈ (if r.chain.isEmpty then [ILine.noChain]
        else .chainLength r.chain.length :: r.chain.zipIdx.map fun x => ILine.chainCert x.2 x.1) ↔
        (r.chain ≠ [] ∧ x = .chainLength r.chain.length) ∨ (∃ i c, r.chain[i]? = some c ∧ x = .chainCert i c) ∨
          (r.chain = [] ∧ x = .noChain) := by
      by_cases he : r.chain = []
      · simp [he]
      · have he' : ¬ r.chain.isEmpty = true := by simpa using he
        rw [if_neg he', List.mem_cons, hch]
        simp [he]
    unfold infoV2Lines
    simp only [List.mem_append, List.mem_singleton, hw, h2, reduceCtorEq, false_and, exists_false, false_or, Verdict.ok.injEq,
      exists_eq_left', or_assoc]
    exact or_congr Iff.rfl (or_congr h1 Iff.rfl)

theorem mem_infoStampLines {v : Verdict} {x : ILine} : x ∈ infoStampLines v ↔
    ∃ r, v = .ok r ∧ r.sigValid = true ∧ (x = .stampFlags true r.chainValid r.trusted ∨ ∃ c, r.cert = some c ∧ x = .stampLeaf c) := by
  cases v with
  | err e => simp [infoStampLines]
  | ok r =>
    unfold infoStampLines
    by_cases hs : r.sigValid = true
    · cases hc : r.cert <;> simp [hs, hc]
    · simp [hs]

/-- C107: when the command finds a block, it prints exactly the lines that are true of it. -/
theorem C107_lines {E : Env} {p : Profile} {pem : Bytes} {now : Nat} {file : Bytes} {b : SigningBlock}
    (hb : cliInfoBlock p file = .ok b) (x : ILine) :
    x ∈ (cliInfoRun E p pem now file).1 ↔ Shown file.length b (verifyV2 E (Roots.withBuiltin E pem) now b none)
      (verifySourceStamp E (Roots.withBuiltin E pem) now b none) x := by
  unfold cliInfoRun
  rw [hb]
  dsimp only
  generalize verifyV2 E (Roots.withBuiltin E pem) now b none = v
  generalize verifySourceStamp E (Roots.withBuiltin E pem) now b none = s
  simp only [List.mem_append, List.mem_singleton, mem_infoBlockLines, mem_infoV2Lines, mem_infoStampLines]
  constructor
  · rintro (((rfl | rfl | rfl | rfl | ⟨h, rfl⟩ | ⟨y, h, rfl⟩) | ⟨e, h, rfl⟩ | ⟨r, h, rfl | ⟨c, h1, rfl⟩ | ⟨h1, rfl⟩ | ⟨i, c, h1, rfl⟩ |
      ⟨h1, rfl⟩ | ⟨i, w, h1, rfl⟩⟩) | ⟨r, h, h1, rfl | ⟨c, h2, rfl⟩⟩)
    · exact .fileSize
    · exact .found
    · exact .location
    · exact .size
    · exact .contents h
    · cases y with
      | raw r => exact .unknownEntry r h
      | v2 x => exact .v2Entry x h
      | stamp x => exact .stampEntry x h
      | elf e => exact .elfEntry e h
    · exact .v2Unavailable e h
    · exact .v2Flags r h
    · exact .leaf r c h h1
    · exact .chainLength r h h1
    · exact .chainCert r i c h h1
    · exact .noChain r h h1
    · exact .warning r i w h h1
    · exact .stampFlags r h h1
    · exact .stampLeaf r c h h1 h2
  · intro h
    cases h with
    | fileSize => simp
    | found => simp
    | location => simp
    | size => simp
    | contents h => simp [h]
    | v2Entry y h => exact .inl (.inl (.inr (.inr (.inr (.inr (.inr ⟨_, h, rfl⟩))))))
    | stampEntry y h => exact .inl (.inl (.inr (.inr (.inr (.inr (.inr ⟨_, h, rfl⟩))))))
    | elfEntry y h => exact .inl (.inl (.inr (.inr (.inr (.inr (.inr ⟨_, h, rfl⟩))))))
    | unknownEntry y h => exact .inl (.inl (.inr (.inr (.inr (.inr (.inr ⟨_, h, rfl⟩))))))
    | v2Flags r h => exact .inl (.inr (.inr ⟨r, h, .inl rfl⟩))
    | leaf r c h h1 => exact .inl (.inr (.inr ⟨r, h, .inr (.inl ⟨c, h1, rfl⟩)⟩))
    | chainLength r h h1 => exact .inl (.inr (.inr ⟨r, h, .inr (.inr (.inl ⟨h1, rfl⟩))⟩))
    | chainCert r i c h h1 => exact .inl (.inr (.inr ⟨r, h, .inr (.inr (.inr (.inl ⟨i, c, h1, rfl⟩)))⟩))
    | noChain r h h1 => exact .inl (.inr (.inr ⟨r, h, .inr (.inr (.inr (.inr (.inl ⟨h1, rfl⟩))))⟩))
    | warning r i w h h1 => exact .inl (.inr (.inr ⟨r, h, .inr (.inr (.inr (.inr (.inr ⟨i, w, h1, rfl⟩))))⟩))
    | v2Unavailable e h => exact .inl (.inr (.inl ⟨e, h, rfl⟩))
    | stampFlags r h h1 => exact .inr ⟨r, h, h1, .inl rfl⟩
    | stampLeaf r c h h1 h2 => exact .inr ⟨r, h, h1, .inr ⟨c, h2, rfl⟩⟩

/-- C107: without a block the command shows the size of the file, says that there is no block, and fails with the reason the reader
gives. -/
theorem C107_no_block {E : Env} {p : Profile} {pem : Bytes} {now : Nat} {file : Bytes} {e : Err} (hb : cliInfoBlock p file = .err e) :
    cliInfoRun E p pem now file = ([.fileSize file.length, .notFound], .err e) := by
  unfold cliInfoRun
  rw [hb]

/-- The lines about the V2 signature follow those about the block, and those about the stamp come last: every line about the stamp
is in a part at the end that has only such lines, and that part starts with the flags. -/
theorem C107_stamp_last {E : Env} {p : Profile} {pem : Bytes} {now : Nat} {file : Bytes} {b : SigningBlock} {r : VResult}
    (hb : cliInfoBlock p file = .ok b) (hs : verifySourceStamp E (Roots.withBuiltin E pem) now b none = .ok r)
    (hv : r.sigValid = true) :
    .stampFlags true r.chainValid r.trusted :: (r.cert.toList.map ILine.stampLeaf) <:+ (cliInfoRun E p pem now file).1 := by
  unfold cliInfoRun
  rw [hb]
  dsimp only
  rw [hs]
  refine ⟨[.fileSize file.length] ++ infoBlockLines b ++ infoV2Lines (verifyV2 E (Roots.withBuiltin E pem) now b none), ?_⟩
  unfold infoStampLines
  simp only [hv, if_true]
  cases r.cert <;> rfl

/-- A signed module with a correct stamp. -/
def goodStampFile : Bytes :=
  sampleArchive.signed (blockOf [Value.newSourceStamp (toyStamp [1, 2])]).recalculateSize.toU8

/-- The stamp that is correctly signed is shown with its certificate; of the one with the wrong key (`badStampFile`) only the entry in
the list of contents is. Both files have a block. -/
example : (cliInfoRun toyEnv .dev [7] 0 goodStampFile).1.drop 4 =
      [.contents, .stampEntry, .v2Unavailable .noSignature, .stampFlags true true true, .stampLeaf [7]] ∧
    (cliInfoRun toyEnv .dev [7] 0 badStampFile).1.drop 4 = [.contents, .stampEntry, .v2Unavailable .noSignature] ∧
    (cliInfoRun toyEnv .dev [7] 0 goodStampFile).2 = .ok () ∧ (cliInfoBlock .dev [1, 2, 3]).isOk = false := by
  decide +kernel

end Ksusig.Props
