import Verif.Props.ElfTotal

/-! # Signing an ELF file, then verifying it: C63 -/

namespace Ksusig.Props

open Ksusig Spec

/-- What a signer made verifies, for any block with the same V2 signers and stamps. -/
theorem made_verifies {E : Env} {p : Profile} {clock : Option UInt64} {m : ModuleSigner} {D : Algo → Bytes}
    {b0 b : SigningBlock} (hsound : ∀ c, m.v2 = some c ∨ m.stamp = some c → Sound E c)
    (hsign : m.sign E p clock (pairDigests (m.requiredAlgorithms.map fun a => (a, D a))) = .ok b0)
    (hv : v2Signers b = v2Signers b0) (hs : stamps b = stamps b0) {c : DigestCtx}
    (hc : ∀ cf, m.v2 = some cf ∨ m.stamp = some cf → c.get cf.algo.toU32 = some (D cf.algo)) :
    (∀ roots now, (m.v2 ≠ none → ∃ r, verifyV2 E roots now b (some c) = .ok r ∧ r.sigValid = true ∧ r.digestValid = true) ∧
      (m.v2 = none → verifyV2 E roots now b (some c) = .err .noSignature) ∧
      (m.stamp ≠ none → ∃ r, verifySourceStamp E roots now b (some c) = .ok r ∧ r.sigValid = true ∧ r.digestValid = true) ∧
      (m.stamp = none → verifySourceStamp E roots now b (some c) = .err .noSignature)) ∧
    (∀ added now, (∀ c, m.v2 = some c → Trusted E added now c.cert c.chain) →
      (∀ c, m.stamp = some c → Trusted E added now c.cert []) →
      (verifyAll E (storeOf E added) now b (some c)).isValid = true) := by
  have hmem : ∀ cf : SignerConfig, (m.v2 = some cf ∨ m.stamp = some cf) → cf.algo ∈ m.requiredAlgorithms := by
    intro cf hcf
    rw [(C37_required_algorithms m).2]
    rcases hcf with h | h
    · exact .inl ⟨cf, h, rfl⟩
    · exact .inr ⟨cf, h, rfl⟩
  obtain ⟨hv2, hst⟩ := signers_of_shape hsign
  refine ⟨fun roots now => ⟨fun hne => ?_, fun h0 => ?_, fun hne => ?_, fun h0 => ?_⟩, fun added now t1 t2 => ?_⟩
  · rcases hv2 with ⟨h0, _⟩ | ⟨cf, g, hcf, hg, hmade⟩
    · exact absurd h0 hne
    · obtain ⟨k1, k2, k3⟩ := v2SigOk_made (hsound cf (.inl hcf)) hmade (hmem cf (.inl hcf)) (hc cf (.inl hcf))
      exact verifyV2_single (by rw [hv, hg]) fun i => verifySigner_flags k1 k2 hmade.certs k3
  · rcases hv2 with ⟨_, h1⟩ | ⟨cf, _, hcf, _⟩
    · exact verifyV2_noSignature.mpr (by rw [hv, h1])
    · rw [h0] at hcf; cases hcf
  · rcases hst with ⟨h0, _⟩ | ⟨cf, g, hcf, hg, hmade⟩
    · exact absurd h0 hne
    · obtain ⟨k1, k2, k3⟩ := stampSigOk_made (hsound cf (.inr hcf)) hmade (hmem cf (.inr hcf)) (hc cf (.inr hcf))
      exact verifySourceStamp_single (by rw [hs, hg]) (verifyStamp_flags k1 k2 hmade.certs k3)
  · rcases hst with ⟨_, h1⟩ | ⟨cf, _, hcf, _⟩
    · exact verifySourceStamp_noSignature.mpr (by rw [hs, h1])
    · rw [h0] at hcf; cases hcf
  · rw [isValid_iff, hv, hs]
    refine ⟨fun s hs => ?_, fun s rest hs => ?_⟩
    · rcases hv2 with ⟨_, h0⟩ | ⟨cf, g, hcf, hg, hmade⟩
      · rw [h0] at hs; cases hs
      · rw [hg] at hs
        have : s = g := by simpa using hs
        subst this
        obtain ⟨k1, k2, k3⟩ := v2SigOk_made (hsound cf (.inl hcf)) hmade (hmem cf (.inl hcf)) (hc cf (.inl hcf))
        exact ⟨k1, fun g hg => (k2 g hg).1, fun g hg => (k2 g hg).2, _, _, hmade.certs, k3, t1 cf hcf⟩
    · rcases hst with ⟨_, h0⟩ | ⟨cf, g, hcf, hg, hmade⟩
      · rw [h0] at hs; cases hs
      · rw [hg] at hs
        cases hs
        obtain ⟨k1, k2, k3⟩ := stampSigOk_made (hsound cf (.inr hcf)) hmade (hmem cf (.inr hcf)) (hc cf (.inr hcf))
        exact ⟨k1, fun g hg => (k2 g hg).1, fun g hg => (k2 g hg).2, _, _, hmade.certs, k3, t2 cf hcf⟩

/-- The sign command on an ELF file succeeded: these are the steps. -/
theorem cliSign_elf {E : Env} {p : Profile} {acc : Bytes → Bool} {clock : Option UInt64} {m : ModuleSigner}
    {names : List (List Char)} {ip : Bool} {file out : Bytes} {f0 : ElfFile} (ho : SignableFile.open acc file = .ok (.elf f0)) :
    cliSign E p acc clock m names ip file = (some out, .ok ()) ↔ ∃ f b, cliElfSelect f0 names = .ok f ∧
      cliElfBlock E p acc clock m f = .ok b ∧ f.writeWithSignature acc b = .ok out := by
  unfold cliSign
  rw [ho]
  dsimp only
  cases h1 : cliElfSelect f0 names with
  | err e => simp [h1]
  | panic => simp [h1]
  | ok f =>
    rw [Res.ok_bind]
    cases h2 : cliElfBlock E p acc clock m f with
    | err e => simp [h2]
    | panic => simp [h2]
    | ok b =>
      rw [Res.ok_bind]
      cases h3 : f.writeWithSignature acc b with
      | err e => simp [h2, h3]
      | panic => simp [h2, h3]
      | ok o => simp [h2, h3]

theorem cliElfDigests_eq {E : Env} {acc : Bytes → Bool} {f : ElfFile} {l : List Resolved} (hl : f.resolvedSections acc = .ok l)
    (as : List Algo) : cliElfDigests E acc f as = .ok (as.map fun a => (a, digestElfSections E f.data l a)) := by
  induction as with
  | nil => rfl
  | cons a as ih =>
    unfold cliElfDigests ElfFile.digest
    rw [hl, Res.ok_bind, Res.ok_bind, ih]; rfl

/-- The record of the signed sections. -/
def signedInfo (l : List Resolved) : ElfSectionInfo := infoOf (l.map fun x => (x.1, UInt64.ofNat x.2.1, UInt64.ofNat x.2.2))

/-- The block for an ELF file: what the signer makes, and a record of the sections. -/
theorem cliElfBlock_ok {E : Env} {p : Profile} {acc : Bytes → Bool} {clock : Option UInt64} {m : ModuleSigner} {f : ElfFile}
    {b : SigningBlock} : cliElfBlock E p acc clock m f = .ok b ↔ ∃ l b0, f.resolvedSections acc = .ok l ∧
      m.sign E p clock (pairDigests (m.requiredAlgorithms.map fun a => (a, digestElfSections E f.data l a))) = .ok b0 ∧
      b = SigningBlock.recalculateSize { b0 with content := b0.content ++ [.elf (signedInfo l)] } := by
  unfold cliElfBlock ElfFile.digestRegions
  cases hl : f.resolvedSections acc with
  | err e => simp
  | panic => simp
  | ok l =>
    rw [Res.ok_bind, Res.ok_bind, cliElfDigests_eq hl, Res.ok_bind]
    have hi : ElfSectionInfo.fromTuples (l.map fun x => (utf8 x.1, UInt64.ofNat x.2.1, UInt64.ofNat x.2.2)) = signedInfo l := by
      unfold signedInfo infoOf
      rw [List.map_map]; rfl
    cases hb : m.sign E p clock (Digests.new ((m.requiredAlgorithms.map fun a => (a, digestElfSections E f.data l a)).map
      fun x => Digest.new x.1 x.2)) with
    | err e =>
      simp only [Res.err_bind, reduceCtorEq, false_iff]
      rintro ⟨l', b0, h1, h2, _⟩
      cases h1
      unfold pairDigests at h2
      rw [hb] at h2; cases h2
    | panic =>
      simp only [Res.panic_bind, reduceCtorEq, false_iff]
      rintro ⟨l', b0, h1, h2, _⟩
      cases h1
      unfold pairDigests at h2
      rw [hb] at h2; cases h2
    | ok b0 =>
      rw [Res.ok_bind, Res.ok_bind, hi]
      constructor
      · intro h; cases h; exact ⟨l, b0, rfl, hb, rfl⟩
      · rintro ⟨l', b0', h1, h2, rfl⟩
        cases h1
        unfold pairDigests at h2
        rw [hb] at h2
        cases h2
        rfl

theorem open_elf {acc : Bytes → Bool} {data : Bytes} {e : Elf} (hd : decodeElf data = some e) (ha : acc data = true) :
    SignableFile.open acc data = .ok (.elf ⟨data, defaultSections⟩) := by
  have h16 : ¬ data.length < 16 := by
    intro h; unfold decodeElf at hd; rw [if_pos h] at hd; cases hd
  have h4 : data.take 4 = [0x7f, 0x45, 0x4c, 0x46] := by
    refine Classical.byContradiction fun h => ?_
    unfold decodeElf at hd
    rw [if_neg h16, if_pos h] at hd; cases hd
  have hs : slice? data 0 (0 + 4) = some (data.take 4) := slice?_iff.mpr ⟨by omega, by omega, by simp⟩
  unfold SignableFile.open detectFileFormat readExactAt
  rw [hs, Res.ofOption_some, Res.ok_bind, if_pos h4, Res.ok_bind]
  dsimp only
  unfold ElfFile.new
  rw [parseElf_ok.mpr ⟨hd, ha⟩]
  rfl

theorem open_elf_inv {acc : Bytes → Bool} {data : Bytes} {f : ElfFile} (h : SignableFile.open acc data = .ok (.elf f)) :
    f = ⟨data, defaultSections⟩ ∧ ElfFile.new acc data = .ok f ∧ ∃ e, decodeElf data = some e ∧ acc data = true := by
  unfold SignableFile.open at h
  obtain ⟨fmt, _, h⟩ := Res.bind_eq_ok.mp h
  cases fmt with
  | module => cases h
  | elf =>
    obtain ⟨g, hg, h⟩ := Res.bind_eq_ok.mp h
    cases h
    have hg' := hg
    unfold ElfFile.new at hg
    obtain ⟨e, he, hg⟩ := Res.bind_eq_ok.mp hg
    obtain ⟨h1, h2⟩ := parseElf_ok.mp he
    cases hg
    exact ⟨rfl, hg', e, h1, h2⟩

theorem cliElfSelect_ok {acc : Bytes → Bool} {f0 f : ElfFile} {names : List (List Char)} (ho : OpenElf acc f0)
    (h : cliElfSelect f0 names = .ok f) : OpenElf acc f ∧ f.data = f0.data ∧
      ∀ data, cliElfSelect ⟨data, f0.sections⟩ names = .ok ⟨data, f.sections⟩ := by
  unfold cliElfSelect at h ⊢
  by_cases hn : names.isEmpty = true
  · rw [if_pos hn] at h
    cases h
    exact ⟨ho, rfl, fun data => by rw [if_pos hn]⟩
  · rw [if_neg hn] at h
    have h1 := OpenElf.select names ho
    unfold ElfFile.setSignedSections at h h1 ⊢
    dsimp only at h h1 ⊢
    by_cases h2 : ((names.map trim).filter fun s => !s.isEmpty).isEmpty = true
    · rw [if_pos h2] at h; cases h
    rw [if_neg h2] at h h1
    by_cases h3 : ((names.map trim).filter fun s => !s.isEmpty).any (fun s => eqIgnoreCase s ksuSection) = true
    · rw [if_pos h3] at h; cases h
    rw [if_neg h3] at h h1
    cases h
    exact ⟨h1, rfl, fun data => by rw [if_neg hn, if_neg h2, if_neg h3]⟩

theorem elfBlock_wf {p : Profile} {b0 : SigningBlock} (hb : Built p b0) (l : List Resolved)
    (hl : (SigningBlock.recalculateSize { b0 with content := b0.content ++ [.elf (signedInfo l)] }).fullSize ≤ 16392) :
    (SigningBlock.recalculateSize { b0 with content := b0.content ++ [.elf (signedInfo l)] }).WF := by
  have hsum : contentSum (b0.content ++ [.elf (signedInfo l)]) + 24 ≤ 16384 := by
    unfold SigningBlock.fullSize SigningBlock.recalculateSize at hl
    dsimp only at hl
    omega
  have hsz : (Value.elf (signedInfo l)).size ≤ maxBlockSize := by
    have : (Value.elf (signedInfo l)).size ≤ contentSum (b0.content ++ [.elf (signedInfo l)]) := by
      rw [contentSum_eq]; exact le_sum_of_mem (List.mem_map.mpr ⟨_, by simp, rfl⟩)
    have : maxBlockSize = 16384 := rfl
    omega
  have hinfo : (Value.elf (signedInfo l)).WF := by
    have hc : (ContentSpec.elf ((l.map fun x : Resolved => (x.1, UInt64.ofNat x.2.1, UInt64.ofNat x.2.2)).map
      fun x => (utf8 x.1, x.2.1, x.2.2))).build = .elf (signedInfo l) := rfl
    rw [← hc]
    rw [← hc] at hsz
    refine build_wf ?_ (small_of_size hsz)
    intro e he
    obtain ⟨x, _, rfl⟩ := List.mem_map.mp he
    exact validUtf8_utf8 x.1
  refine ⟨?_, rfl, rfl, rfl, ?_, hb.wf.magic⟩
  · intro v hv
    rcases List.mem_append.mp hv with hv | hv
    · exact hb.wf.content v hv
    · rw [List.mem_singleton] at hv
      subst hv
      exact hinfo
  · show contentSum (b0.content ++ [.elf (signedInfo l)]) + 8 + 16 ≤ maxBlockSize
    have : maxBlockSize = 16384 := rfl
    omega

/-- C63: when the sign command succeeds with sound signers on an ordinary ELF file and the block is within the limit, opening what
it wrote and choosing the same sections gives a block that lists the chosen sections, and against the digests of these sections
every configured signer has a valid signature and a valid digest, with every trust store at every time; if the certificates
are trusted, the verdict is valid. -/
theorem C63_elf_sign_then_verify_partial {E : Env} {p : Profile} {acc : Bytes → Bool} {clock : Option UInt64} {m : ModuleSigner}
    {names : List (List Char)} {ip : Bool} {file out : Bytes} {f0 : ElfFile} {e : Elf}
    (ho : SignableFile.open acc file = .ok (.elf f0)) (hd : decodeElf file = some e) (hok : ElfOk e)
    (h32 : e.is64 = false → out.length < 2 ^ 32) (hacc : acc out = true)
    (hsec : ∀ f l, cliElfSelect f0 names = .ok f → f.resolvedSections acc = .ok l → ∀ x ∈ l,
      (if e.is64 then 64 else 52) ≤ x.2.1 ∧ x.2.1 + x.2.2 ≤ file.length)
    (hname : ∀ f, cliElfSelect f0 names = .ok f → ∀ s, e.shdrs[e.hdr.shstrndx]? = some s → ∀ n ∈ f.sections,
      nameOf e s ≠ some (utf8 n))
    (hsize : ∀ f b, cliElfSelect f0 names = .ok f → cliElfBlock E p acc clock m f = .ok b → b.fullSize ≤ 16392)
    (hsound : ∀ c, m.v2 = some c ∨ m.stamp = some c → Sound E c)
    (h : cliSign E p acc clock m names ip file = (some out, .ok ())) :
    ∃ g0 g b l, SignableFile.open acc out = .ok (.elf g0) ∧ cliElfSelect g0 names = .ok g ∧
      g.getSigningBlock p acc = .ok (some b) ∧ g.resolvedSections acc = .ok l ∧ .elf (signedInfo l) ∈ b.content ∧
      ∀ c : DigestCtx, (∀ cf, m.v2 = some cf ∨ m.stamp = some cf → ∀ d, g.digest E acc cf.algo = .ok d →
          c.get cf.algo.toU32 = some d) →
        (∀ roots now, (m.v2 ≠ none → ∃ r, verifyV2 E roots now b (some c) = .ok r ∧ r.sigValid = true ∧ r.digestValid = true) ∧
          (m.v2 = none → verifyV2 E roots now b (some c) = .err .noSignature) ∧
          (m.stamp ≠ none → ∃ r, verifySourceStamp E roots now b (some c) = .ok r ∧ r.sigValid = true ∧ r.digestValid = true) ∧
          (m.stamp = none → verifySourceStamp E roots now b (some c) = .err .noSignature)) ∧
        (∀ added now, (∀ c, m.v2 = some c → Trusted E added now c.cert c.chain) →
          (∀ c, m.stamp = some c → Trusted E added now c.cert []) →
          (verifyAll E (storeOf E added) now b (some c)).isValid = true) := by
  obtain ⟨f, b, hsel, hblk, hw⟩ := (cliSign_elf ho).mp h
  obtain ⟨rfl, hnew, _⟩ := open_elf_inv ho
  obtain ⟨hopen, hdata, hsel'⟩ := cliElfSelect_ok (.opened hnew) hsel
  dsimp only at hdata hsel'
  obtain ⟨l, b0, hl, hsign, hb⟩ := cliElfBlock_ok.mp hblk
  have hlim := hsize f b hsel hblk
  have hk : ∀ c, m.v2 = some c ∨ m.stamp = some c → Known c.algo := fun c hc => known_of_matching (hsound c hc).matching
  have hbuilt : Built p b0 := by
    refine sign_built ?_ hsign
    intro x hx
    obtain ⟨al, hal, rfl⟩ := List.mem_map.mp hx
    rcases ((C37_required_algorithms m).2 al).mp hal with ⟨c, hc, rfl⟩ | ⟨c, hc, rfl⟩
    · rcases hk c (.inl hc) with h | h <;> simp [AlgoOk, h]
    · rcases hk c (.inr hc) with h | h <;> simp [AlgoOk, h]
  have hwf : b.WF := by rw [hb] at hlim ⊢; exact elfBlock_wf hbuilt l hlim
  have hread := fromU8_toU8 p hwf
  obtain ⟨e', _, hd', _, _⟩ := C47_section_holds_block_partial (f := f) (by rw [hdata]; exact hd) hok h32 hw
  have hdg := C46_digest_partial (f := f) hopen (by rw [hdata]; exact hd) hok h32 hacc hl
    (by rw [hdata]; exact hsec f l hsel hl) (hname f hsel) hw
  have hget : ∃ b', (⟨out, f.sections⟩ : ElfFile).getSigningBlock p acc = .ok (some b') ∧ b'.content = b.content := by
    obtain ⟨rest, table, pad1, mid, pad3, ksu, sh, off, hdec, hwr, hsh, hd'', _⟩ :=
      written_facts (f := f) (by rw [hdata]; exact hd) hok h32 hw
    have hsl := ksu_bytes hdec hwr
    have e7 : ksu.size = b.toU8.length := by rw [hwr.header]; rfl
    obtain ⟨_, h2, _⟩ := slice?_iff.mp hsl
    have hpos : b.toU8.length ≠ 0 := by unfold SigningBlock.toU8; simp
    refine ⟨{ b with fileStart := 0, fileEnd := b.toU8.length }, ?_, rfl⟩
    unfold ElfFile.getSigningBlock
    dsimp only
    rw [parseElf_ok.mpr ⟨hd'', hacc⟩, Res.ok_bind, utf8_ksu, find_ksu hdec hwr hok hsh off]
    dsimp only
    rw [if_neg (by have := hwr.size; omega), if_neg (by omega), hsl, Res.ofOption_some, Res.ok_bind, hread]
    rfl
  obtain ⟨b', hget, hcont⟩ := hget
  have hbc : b.content = b0.content ++ [.elf (signedInfo l)] := by rw [hb]; rfl
  refine ⟨_, _, b', l, open_elf hd' hacc, hsel' out, hget, hdg.1, by rw [hcont, hbc]; simp, fun c hc => ?_⟩
  refine made_verifies (D := fun a => digestElfSections E f.data l a) hsound hsign ?_ ?_ ?_
  · unfold v2Signers; rw [hcont, hbc]; simp
  · unfold stamps; rw [hcont, hbc]; simp
  · intro cf hcf
    refine hc cf hcf _ ?_
    rw [hdg.2]
    unfold ElfFile.digest
    rw [hl]; rfl

theorem fromU8_oversize (p : Profile) {b : SigningBlock} (hm : b.magic = magic) (h1 : maxBlockSize < b.sizeEnd)
    (h2 : b.sizeEnd < 2 ^ 64) : SigningBlock.fromU8 p b.toU8 = .err .blockTooLarge := by
  have hml : Ksusig.magic.length = 16 := rfl
  have hlen : b.toU8.length = 8 + b.contentToU8.length + 8 + 16 := by
    simp only [SigningBlock.toU8, List.length_append, leBytes_length, hm, hml]
  unfold SigningBlock.fromU8
  rw [if_neg (by omega), show b.toU8.length - 16 = (b.contentToU8.length + 15) + 1 by omega]
  have s1 : slice? b.toU8 (b.contentToU8.length + 15 + 1) (b.contentToU8.length + 15 + 1 + 16) = some Ksusig.magic := by
    refine slice?_mid (pre := leBytes 8 b.sizeStart ++ b.contentToU8 ++ leBytes 8 b.sizeEnd) (post := []) ?_ ?_ ?_
    · simp only [SigningBlock.toU8, hm, List.append_nil]
    · simp only [List.length_append, leBytes_length]; omega
    · simp only [List.length_append, leBytes_length, hml]; omega
  have s2 : slice? b.toU8 (b.contentToU8.length + 8) (b.contentToU8.length + 15 + 1) = some (leBytes 8 b.sizeEnd) := by
    refine slice?_mid (pre := leBytes 8 b.sizeStart ++ b.contentToU8) (post := b.magic) ?_ ?_ ?_
    · simp only [SigningBlock.toU8]
    · simp only [List.length_append, leBytes_length]; omega
    · simp only [List.length_append, leBytes_length]; omega
  unfold fromU8Scan
  rw [s1]
  dsimp only
  rw [if_pos rfl]
  unfold fromU8At
  rw [usub_of_le (by omega), Res.ok_bind, show b.contentToU8.length + 15 + 1 - 8 = b.contentToU8.length + 8 by omega, s2,
    Res.ofOption_some, Res.ok_bind]
  dsimp only
  rw [leNat_leBytes_of_lt (by
      have : (256 : Nat) ^ 8 = 2 ^ 64 := by decide
      omega), if_pos h1]

/-- C63 fails when the record of the sections makes the block too large: the command succeeds and the signature cannot be
read back. The limit is only checked before the record is added. -/
theorem C63_oversize_unreadable {E : Env} {p : Profile} {acc : Bytes → Bool} {clock : Option UInt64} {m : ModuleSigner}
    {names : List (List Char)} {ip : Bool} {file out : Bytes} {f0 f : ElfFile} {e : Elf} {b : SigningBlock}
    (ho : SignableFile.open acc file = .ok (.elf f0)) (hd : decodeElf file = some e) (hok : ElfOk e)
    (h32 : e.is64 = false → out.length < 2 ^ 32) (hacc : acc out = true)
    (hsel : cliElfSelect f0 names = .ok f) (hblk : cliElfBlock E p acc clock m f = .ok b)
    (hk : ∀ c, m.v2 = some c ∨ m.stamp = some c → Known c.algo)
    (hbig : 16392 < b.fullSize) (hmax : b.fullSize < 2 ^ 64)
    (h : cliSign E p acc clock m names ip file = (some out, .ok ())) (secs : List (List Char)) :
    (⟨out, secs⟩ : ElfFile).getSigningBlock p acc = .err .elf := by
  obtain ⟨f', b', hsel', hblk', hw⟩ := (cliSign_elf ho).mp h
  rw [hsel] at hsel'
  cases hsel'
  rw [hblk] at hblk'
  cases hblk'
  obtain ⟨rfl, hnew, _⟩ := open_elf_inv ho
  obtain ⟨_, hdata, _⟩ := cliElfSelect_ok (.opened hnew) hsel
  dsimp only at hdata
  obtain ⟨l, b0, hl, hsign, hb⟩ := cliElfBlock_ok.mp hblk
  have hbuilt : Built p b0 := by
    refine sign_built ?_ hsign
    intro x hx
    obtain ⟨al, hal, rfl⟩ := List.mem_map.mp hx
    rcases ((C37_required_algorithms m).2 al).mp hal with ⟨c, hc, rfl⟩ | ⟨c, hc, rfl⟩
    · rcases hk c (.inl hc) with h | h <;> simp [AlgoOk, h]
    · rcases hk c (.inr hc) with h | h <;> simp [AlgoOk, h]
  have hm : b.magic = magic := by rw [hb]; exact hbuilt.wf.magic
  have hse : b.sizeEnd + 8 = b.fullSize := by rw [hb]; rfl
  have hread := fromU8_oversize p hm (by show 16384 < _; omega) (by omega)
  obtain ⟨rest, table, pad1, mid, pad3, ksu, sh, off, hdec, hwr, hsh, hd'', _⟩ :=
    written_facts (f := f) (by rw [hdata]; exact hd) hok h32 hw
  have hsl := ksu_bytes hdec hwr
  have e7 : ksu.size = b.toU8.length := by rw [hwr.header]; rfl
  obtain ⟨_, h2, _⟩ := slice?_iff.mp hsl
  have hpos : b.toU8.length ≠ 0 := by unfold SigningBlock.toU8; simp
  unfold ElfFile.getSigningBlock
  dsimp only
  rw [parseElf_ok.mpr ⟨hd'', hacc⟩, Res.ok_bind, utf8_ksu, find_ksu hdec hwr hok hsh off]
  dsimp only
  rw [if_neg (by have := hwr.size; omega), if_neg (by omega), hsl, Res.ofOption_some, Res.ok_bind, hread]
  rfl

/-- A signer whose chain makes the block large. -/
def bigConfig : SignerConfig := ⟨.p256 [7], [7], .p256, [List.replicate 13000 0]⟩

theorem exists_ok {α : Type} {r : Res α} {P : α → Bool} (h : (match r with | .ok x => P x | _ => false) = true) :
    ∃ x, r = .ok x ∧ P x = true := by
  cases r with
  | ok x => exact ⟨x, rfl, h⟩
  | err e => cases h
  | panic => cases h

set_option maxRecDepth 100000 in
theorem bigBlock_sample : ∃ b, cliElfBlock toyEnv .dev anyElf none (.v2Only bigConfig) ⟨elf64, defaultSections⟩ = .ok b ∧
    (decide (16392 < b.fullSize) && decide (b.fullSize < 2 ^ 64)) = true ∧ b.toU8.length < 2 ^ 32 := by
  have h : ∃ b, cliElfBlock toyEnv .dev anyElf none (.v2Only bigConfig) ⟨elf64, defaultSections⟩ = .ok b ∧
    (decide (16392 < b.fullSize) && decide (b.fullSize < 2 ^ 64) && decide (b.toU8.length < 2 ^ 32)) = true :=
    exists_ok (by decide +kernel)
  obtain ⟨b, h1, h2⟩ := h
  rw [Bool.and_eq_true] at h2
  exact ⟨b, h1, h2.1, of_decide_eq_true h2.2⟩

set_option maxRecDepth 100000 in
/-- The sample file can be signed with any block that is not absurdly large. -/
theorem sample_writes {b : SigningBlock} (hb : b.toU8.length < 2 ^ 32) :
    ∃ out, (⟨elf64, defaultSections⟩ : ElfFile).writeWithSignature anyElf b = .ok out := by
  have h : ∃ e, decodeElf elf64 = some e ∧ ((e.shdrs[e.hdr.shstrndx]?.map fun s => decide (s.addralign < 2 ^ 32)) == some true &&
      decide (e.shdrs.length < 65535)) = true := exists_elf (by decide +kernel)
  obtain ⟨e, he, h⟩ := h
  rw [Bool.and_eq_true, beq_iff_eq] at h
  cases hs : e.shdrs[e.hdr.shstrndx]? with
  | none => rw [hs] at h; cases h.1
  | some sh =>
    rw [hs] at h
    exact C61_signing_succeeds_partial (f := ⟨elf64, defaultSections⟩) he rfl hs (of_decide_eq_true h.2) (by decide +kernel)
      (by simpa using h.1) hb

set_option maxRecDepth 100000 in
/-- C63 does fail: with this signer the command succeeds on the sample file, and the signature cannot be read back. -/
theorem C63_oversize_happens : ∃ out, cliSign toyEnv .dev anyElf none (.v2Only bigConfig) [] false elf64 = (some out, .ok ()) ∧
    (⟨out, defaultSections⟩ : ElfFile).getSigningBlock .dev anyElf = .err .elf := by
  obtain ⟨b, h1, h2, h3⟩ := bigBlock_sample
  obtain ⟨out, hw⟩ := sample_writes h3
  obtain ⟨⟨e, he, hok⟩, _⟩ := samples_ok
  have ho : SignableFile.open anyElf elf64 = .ok (.elf ⟨elf64, defaultSections⟩) := open_elf he rfl
  have h : cliSign toyEnv .dev anyElf none (.v2Only bigConfig) [] false elf64 = (some out, .ok ()) :=
    (cliSign_elf ho).mpr ⟨_, b, rfl, h1, hw⟩
  have hb : (decodeElf elf64).map (·.is64) = some true := by decide +kernel
  rw [he] at hb
  have hb : e.is64 = true := by simpa using hb
  rw [Bool.and_eq_true, decide_eq_true_eq, decide_eq_true_eq] at h2
  refine ⟨out, h, C63_oversize_unreadable ho he (of_decide_eq_true hok).1 (by simp [hb]) rfl rfl h1 ?_ h2.1 h2.2 h _⟩
  rintro c (h | h) <;> cases h
  exact .inl rfl

set_option maxRecDepth 100000 in
/-- All conditions of C63 hold for the sample file and two signers. -/
example : ∃ out b c, cliSign toyEnv .dev anyElf (some 5) (.withSourceStamp toyConfig toyStampConfig) [] false elf64 =
      (some out, .ok ()) ∧
    (⟨out, defaultSections⟩ : ElfFile).getSigningBlock .dev anyElf = .ok (some b) ∧
    (verifyAll toyEnv (storeOf toyEnv [[7], [5]]) 0 b (some c)).isValid = true := by
  have hb : ∃ b, cliElfBlock toyEnv .dev anyElf (some 5) (.withSourceStamp toyConfig toyStampConfig) ⟨elf64, defaultSections⟩ =
    .ok b ∧ (decide (b.fullSize ≤ 16392) && decide (b.toU8.length < 2 ^ 32)) = true := exists_ok (by decide +kernel)
  obtain ⟨b, h1, h2⟩ := hb
  rw [Bool.and_eq_true, decide_eq_true_eq, decide_eq_true_eq] at h2
  obtain ⟨out, hw⟩ := sample_writes h2.2
  obtain ⟨⟨e, he, hok⟩, _⟩ := samples_ok
  have hok := of_decide_eq_true hok
  have ho : SignableFile.open anyElf elf64 = .ok (.elf ⟨elf64, defaultSections⟩) := open_elf he rfl
  have h : cliSign toyEnv .dev anyElf (some 5) (.withSourceStamp toyConfig toyStampConfig) [] false elf64 = (some out, .ok ()) :=
    (cliSign_elf ho).mpr ⟨_, b, rfl, h1, hw⟩
  have h64 : (decodeElf elf64).map (·.is64) = some true := by decide +kernel
  rw [he] at h64
  have h64 : e.is64 = true := by simpa using h64
  have hl : (⟨elf64, defaultSections⟩ : ElfFile).resolvedSections anyElf =
      .ok [(".text".toList, 64, 8), (".rodata".toList, 72, 4)] := by decide +kernel
  have hsound : ∀ c, (ModuleSigner.withSourceStamp toyConfig toyStampConfig).v2 = some c ∨
      (ModuleSigner.withSourceStamp toyConfig toyStampConfig).stamp = some c → Sound toyEnv c := by
    rintro c (h | h) <;> cases h
    · exact toyConfig_sound
    · exact toyStampConfig_sound
  obtain ⟨g0, g, b', l, hg0, hg, hb', hl', _, hv⟩ := C63_elf_sign_then_verify_partial ho he hok.1 (by simp [h64]) rfl
    (by intro f l hf hl'; cases hf; rw [hl] at hl'; cases hl'; rw [h64]; decide +kernel)
    (by intro f hf s hs n hn; cases hf; exact hok.2.2.2 s hs n hn)
    (by intro f b1 hf hb1; cases hf; rw [h1] at hb1; cases hb1; exact h2.1) hsound h
  have hg0' := (open_elf_inv hg0).1
  subst hg0'
  cases hg
  have hd : ∀ a, (⟨out, defaultSections⟩ : ElfFile).digest toyEnv anyElf a = .ok (digestElfSections toyEnv out l a) := by
    intro a; unfold ElfFile.digest; rw [hl']; rfl
  refine ⟨out, b', (DigestCtx.new.add Algo.p256.toU32 (digestElfSections toyEnv out l .p256)).add Algo.p384.toU32
    (digestElfSections toyEnv out l .p384), h, hb', (hv _ ?_).2 _ _ ?_ ?_⟩
  · rintro cf (h | h) d hd' <;> cases h <;> rw [hd] at hd' <;> cases hd' <;> rfl
  · intro c h; cases h; exact ⟨by simp, .inl (by simp [toyConfig])⟩
  · intro c h; cases h; exact ⟨by simp, .inl (by simp [toyStampConfig])⟩

end Ksusig.Props
