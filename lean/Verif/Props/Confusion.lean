import Verif.Props.Forge
import Verif.Props.ElfTamper
import Verif.Props.Commands

/-! # Signatures made for one file format, used for the other: C78 -/

namespace Ksusig.Props

open Ksusig Spec

theorem treeDigest_pieces {h : Bytes → Bytes} {ps qs : List Bytes} (e : ps.flatMap pieces = qs.flatMap pieces) :
    treeDigest h ps = treeDigest h qs := by
  unfold treeDigest topInput
  rw [e]

/-- C78 fails: nothing in a digest says which kind of file it belongs to. If the chosen sections of an ELF file hold the
entries, the directory and the end record of an archive, the digests of the two files are equal, for every algorithm. -/
theorem C78_digests_not_separated {E : Env} {p : Profile} {acc : Bytes → Bool} {f : ElfFile} {l : List Resolved} {a : Archive}
    {file : Bytes} (hl : f.resolvedSections acc = .ok l)
    (hc : (sectionContents f.data l).flatMap pieces = [a.body, a.cd, wireEocd a.tail a.body.length].flatMap pieces)
    (hin : SignInput a file) (hs : ∀ n, n ≤ 16392 → Signable a n) (al : Algo) :
    f.digest E acc al = (Module.new file).digest E p file al := by
  obtain ⟨block, off, hsp⟩ := signInput_split (p := p) (hs 0 (by omega)) hin
  rw [C62_digest_of_contents hl, hsp.digest, patchOffset_wireEocd, treeDigest_pieces hc]

theorem goodV2_of_sign {E : Env} {p : Profile} {clock : Option UInt64} {m : ModuleSigner} {D : Algo → Bytes}
    {b : SigningBlock} (hsound : ∀ c, m.v2 = some c ∨ m.stamp = some c → Sound E c)
    (hsign : m.sign E p clock (pairDigests (m.requiredAlgorithms.map fun a => (a, D a))) = .ok b) {added : List Bytes} {now : Nat}
    (t1 : ∀ c, m.v2 = some c → Trusted E added now c.cert c.chain) (t2 : ∀ c, m.stamp = some c → Trusted E added now c.cert []) :
    (m.v2 ≠ none → v2Signers b ≠ []) ∧ (∀ s ∈ v2Signers b, GoodV2 E added now (table (D .p256) (D .p384)) s) ∧
      ∀ s rest, stamps b = s :: rest → GoodStamp E added now (table (D .p256) (D .p384)) s := by
  have hmem : ∀ cf : SignerConfig, (m.v2 = some cf ∨ m.stamp = some cf) → cf.algo ∈ m.requiredAlgorithms := by
    intro cf hcf
    rw [(C37_required_algorithms m).2]
    rcases hcf with h | h
    · exact .inl ⟨cf, h, rfl⟩
    · exact .inr ⟨cf, h, rfl⟩
  have ht : ∀ cf, (m.v2 = some cf ∨ m.stamp = some cf) → table (D .p256) (D .p384) cf.algo.toU32 = some (D cf.algo) := by
    intro cf hcf
    rcases known_of_matching (hsound cf hcf).matching with h | h <;> rw [h] <;> rfl
  obtain ⟨hv2, hst⟩ := signers_of_shape hsign
  refine ⟨fun hne => ?_, fun s hs => ?_, fun s rest hs => ?_⟩
  · rcases hv2 with ⟨h0, _⟩ | ⟨cf, g, _, hg, _⟩
    · exact absurd h0 hne
    · rw [hg]; simp
  · rcases hv2 with ⟨_, h0⟩ | ⟨cf, g, hcf, hg, hmade⟩
    · rw [h0] at hs; cases hs
    · rw [hg] at hs
      have : s = g := by simpa using hs
      subst this
      obtain ⟨k1, k2, k3⟩ := v2SigOk_made (hsound cf (.inl hcf)) hmade (hmem cf (.inl hcf)) (ht cf (.inl hcf))
      exact ⟨k1, fun g hg => (k2 g hg).1, fun g hg => (k2 g hg).2, _, _, hmade.certs, k3, t1 cf hcf⟩
  · rcases hst with ⟨_, h0⟩ | ⟨cf, g, hcf, hg, hmade⟩
    · rw [h0] at hs; cases hs
    · rw [hg] at hs
      cases hs
      obtain ⟨k1, k2, k3⟩ := stampSigOk_made (hsound cf (.inr hcf)) hmade (hmem cf (.inr hcf)) (ht cf (.inr hcf))
      exact ⟨k1, fun g hg => (k2 g hg).1, fun g hg => (k2 g hg).2, _, _, hmade.certs, k3, t2 cf hcf⟩

/-- C78 fails: the signing block the sign command makes for an ELF file whose chosen sections hold an archive's entries, directory
and end record can be put into that archive, which was never signed, and the verify command accepts it. -/
theorem C78_elf_signature_opens_module {E : Env} {p : Profile} {acc : Bytes → Bool} {clock : Option UInt64} {m : ModuleSigner}
    {f : ElfFile} {l : List Resolved} {a : Archive} {b : SigningBlock} {builtin cert : Bytes} {root : Option Bytes} {now : Nat}
    (hl : f.resolvedSections acc = .ok l)
    (hc : (sectionContents f.data l).flatMap pieces = [a.body, a.cd, wireEocd a.tail a.body.length].flatMap pieces)
    (hs : ∀ n, n ≤ 16392 → Signable a n) (hsound : ∀ c, m.v2 = some c ∨ m.stamp = some c → Sound E c) (hv2 : m.v2 ≠ none)
    (hblk : cliElfBlock E p acc clock m f = .ok b) (hsize : b.fullSize ≤ 16392)
    (hroot : E.pemParse (root.getD builtin) = some ("CERTIFICATE", cert))
    (t1 : ∀ c, m.v2 = some c → Trusted E [cert] now c.cert c.chain) (t2 : ∀ c, m.stamp = some c → Trusted E [cert] now c.cert []) :
    cliVerify E p builtin root now (a.signed b.toU8) = .ok () := by
  obtain ⟨l', b0, hl', hsign, hb⟩ := cliElfBlock_ok.mp hblk
  rw [hl] at hl'
  cases hl'
  have hk : ∀ c, m.v2 = some c ∨ m.stamp = some c → Known c.algo := fun c hc => known_of_matching (hsound c hc).matching
  have hbuilt : Built p b0 := by
    refine sign_built ?_ hsign
    intro x hx
    obtain ⟨al, hal, rfl⟩ := List.mem_map.mp hx
    rcases ((C37_required_algorithms m).2 al).mp hal with ⟨c, hc, rfl⟩ | ⟨c, hc, rfl⟩
    · rcases hk c (.inl hc) with h | h <;> simp [AlgoOk, h]
    · rcases hk c (.inr hc) with h | h <;> simp [AlgoOk, h]
  have hwf : b.WF := by rw [hb] at hsize ⊢; exact elfBlock_wf hbuilt l hsize
  have hlen : b.toU8.length ≤ 16392 := by
    have h1 := hwf.toU8_length
    have h2 := hwf.limit
    simp only [maxBlockSize] at h2
    omega
  have hsb := hs _ hlen
  have hsp := split_signed p hwf hsb.comment hsb.cleanNew hsb.size
  have hD : ∀ al, treeDigest (al.hash E) [a.body, a.cd, wireEocd a.tail a.body.length] = digestElfSections E f.data l al := by
    intro al
    rw [digestElfSections_eq, treeDigest_pieces hc]
  obtain ⟨g1, g2, g3⟩ := goodV2_of_sign hsound hsign t1 t2
  have hbc : b.content = b0.content ++ [.elf (signedInfo l)] := by rw [hb]; rfl
  have e1 : v2Signers b = v2Signers b0 := by unfold v2Signers; rw [hbc]; simp
  have e2 : stamps b = stamps b0 := by unfold stamps; rw [hbc]; simp
  refine C35_verify_command.mpr ⟨_, cert, _, _, getSigningBlock_signed p hwf hsb.comment hsb.cleanNew hsb.size, hroot,
    hsp.digest E _, hsp.digest E _, ?_, ?_, ?_⟩
  · exact fun h => g1 hv2 (e1.symm.trans h)
  · intro s hs
    rw [patchOffset_wireEocd, hD, hD]
    exact g2 s (by rw [← e1]; exact hs)
  · intro s rest hs
    rw [patchOffset_wireEocd, hD, hD]
    exact g3 s rest (by rw [← e2]; exact hs)

/-! ### What an ELF signature can be used for -/

/-- One successful signing of an ELF file: `f` is the file with the chosen sections, `b` the block. -/
def ElfRun (E : Env) (p : Profile) (acc : Bytes → Bool) (f : ElfFile) (b : SigningBlock) : Prop :=
  ∃ clock m, (∀ c, m.v2 = some c ∨ m.stamp = some c → Known c.algo) ∧ cliElfBlock E p acc clock m f = .ok b

theorem built_fits {p : Profile} {b : SigningBlock} (hb : Built p b) : ∀ v ∈ b.content, v.Fits := by
  have hsb := plainArchive_signable _ (built_length hb)
  have h := getSigningBlock_signed p hb.wf hsb.comment hsb.cleanNew hsb.size
  rw [getSigningBlock_new] at h
  obtain ⟨e, _, h1⟩ := Res.bind_eq_ok.mp h
  have := fromReader_fits h1
  exact this

theorem elfRun_honest {E : Env} {p : Profile} {acc : Bytes → Bool} {f : ElfFile} {b : SigningBlock} (h : ElfRun E p acc f b)
    {pk msg : Bytes} (hm : SignedBy b pk msg) : ∃ l, f.resolvedSections acc = .ok l ∧
      KeyUse.Honest E ⟨pk, msg, sectionContents f.data l⟩ := by
  obtain ⟨clock, m, hk, hblk⟩ := h
  obtain ⟨l, b0, hl, hsign, hb⟩ := cliElfBlock_ok.mp hblk
  have hpairs : ∀ x ∈ m.requiredAlgorithms.map fun al => (al, digestElfSections E f.data l al),
      AlgoOk x.1 ∧ x.2 = treeDigest (x.1.hash E) (sectionContents f.data l) := by
    intro x hx
    obtain ⟨al, hal, rfl⟩ := List.mem_map.mp hx
    refine ⟨?_, digestElfSections_eq E f.data l al⟩
    rcases ((C37_required_algorithms m).2 al).mp hal with ⟨c, hc, rfl⟩ | ⟨c, hc, rfl⟩
    · rcases hk c (.inl hc) with h | h <;> simp [AlgoOk, h]
    · rcases hk c (.inr hc) with h | h <;> simp [AlgoOk, h]
  have hbuilt : Built p b0 := sign_built (fun x hx => (hpairs x hx).1) hsign
  have hfits := built_fits hbuilt
  have hbc : b.content = b0.content ++ [.elf (signedInfo l)] := by rw [hb]; rfl
  have e1 : v2Signers b = v2Signers b0 := by unfold v2Signers; rw [hbc]; simp
  have e2 : stamps b = stamps b0 := by unfold stamps; rw [hbc]; simp
  obtain ⟨hv2, hst⟩ := signers_of_shape hsign
  refine ⟨l, hl, ?_⟩
  rcases hm with ⟨s, hs, _, hmsg⟩ | ⟨s, hs, _, hmsg⟩
  · rw [e1] at hs
    obtain ⟨rest, hrest⟩ := signedV2_drop s.signedData
    have hf := v2Signers_fits hfits hs
    rcases hv2 with ⟨_, h0⟩ | ⟨_, g, _, hg, hmade⟩
    · rw [h0] at hs; cases hs
    · rw [hg] at hs
      have : s = g := by simpa using hs
      subst this
      rw [hmade.digests] at hrest hf
      exact pairDigests_honest hpairs hf (hrest.trans hmsg.symm)
  · rw [e2] at hs
    obtain ⟨rest, hrest⟩ := signedStamp_drop s.signedData
    have hf := stamps_fits hfits hs
    rcases hst with ⟨_, h0⟩ | ⟨_, g, _, hg, hmade⟩
    · rw [h0] at hs; cases hs
    · rw [hg] at hs
      have : s = g := by simpa using hs
      subst this
      rw [hmade.digests] at hrest hf
      exact pairDigests_honest hpairs hf (hrest.trans hmsg.symm)

/-- C78, for other contents (missing: sections that hold an archive, `C78_elf_signature_opens_module`): if the keys are only used
on ELF files, a module is accepted only if the chosen sections of one of these files hold, one after the other, the entries, the
directory and the end record of the module; or with a forged signature, or with two inputs of the same hash value. -/
theorem C78_only_same_content_partial {E : Env} {p p' : Profile} {acc : Bytes → Bool} {builtin : Bytes} {root : Option Bytes}
    {now : Nat} {file : Bytes} {runs : ElfFile → SigningBlock → Prop} (hruns : ∀ f b, runs f b → ElfRun E p' acc f b)
    (h2 : FixedLength E.sha256) (h5 : FixedLength E.sha512) (h : cliVerify E p builtin root now file = .ok ()) :
    ∃ b start cd n eocd, (Module.new file).getSigningBlock p file = .ok b ∧ start ≤ cd ∧ v2Signers b ≠ [] ∧
      ∀ s ∈ v2Signers b,
        (∃ f b' l msg, runs f b' ∧ SignedBy b' s.pubKey.data msg ∧ f.resolvedSections acc = .ok l ∧
          (sectionContents f.data l).flatten = file.take start ++ (file.drop cd).take n ++ patchOffset (file.drop eocd) start) ∨
        (∃ g ∈ s.sigs.data, CryptoOk E g.algo s.pubKey.data (s.signedData.toU8.drop 4) g.signature ∧
          ∀ f b', runs f b' → ¬ SignedBy b' s.pubKey.data (s.signedData.toU8.drop 4)) ∨
        (∃ f b' l msg al, runs f b' ∧ SignedBy b' s.pubKey.data msg ∧ f.resolvedSections acc = .ok l ∧ Known al ∧
          Collision (al.hash E) (sectionContents f.data l)
            [file.take start, (file.drop cd).take n, patchOffset (file.drop eocd) start]) := by
  let uses : KeyUse → Prop := fun u => ∃ f b' l, runs f b' ∧ SignedBy b' u.pk u.msg ∧ f.resolvedSections acc = .ok l ∧
    u.parts = sectionContents f.data l
  have hu : ∀ u, uses u → u.Honest E := by
    rintro ⟨pk, msg, parts⟩ ⟨f, b', l, hr, hm, hl, rfl⟩
    obtain ⟨l', hl', hh⟩ := elfRun_honest (hruns f b' hr) hm
    rw [hl] at hl'
    cases hl'
    exact hh
  obtain ⟨b, cert, s0, e0, n, k, hb, hle, _, _, hne, hv, _⟩ := C77_accepted_is_accounted hu h2 h5 h
  refine ⟨b, s0, e0, n, k, hb, hle, hne, fun s hs => ?_⟩
  rcases (hv s hs).2 with ⟨u, ⟨f, b', l, hr, hm, hl, hp⟩, hpk, heq⟩ | ⟨g, hg, hc, hno⟩ | ⟨u, ⟨f, b', l, hr, hm, hl, hp⟩, hpk, al, hal, hcol⟩
  · refine .inl ⟨f, b', l, u.msg, hr, by rw [← hpk]; exact hm, hl, ?_⟩
    rw [hp] at heq
    have := congrArg List.flatten heq
    rw [flatten_pieces_flatMap, flatten_pieces_flatMap] at this
    rw [this]
    simp
  · refine .inr (.inl ⟨g, hg, hc, fun f b' hr hm => ?_⟩)
    have hr' := hruns f b' hr
    obtain ⟨l, hl, _⟩ := elfRun_honest hr' hm
    exact hno ⟨_, _, sectionContents f.data l⟩ ⟨f, b', l, hr, hm, hl, rfl⟩ ⟨rfl, rfl⟩
  · exact .inr (.inr ⟨f, b', l, u.msg, al, hr, by rw [← hpk]; exact hm, hl, hal, by rw [← hp]; exact hcol⟩)

def archiveSections : List (List Char) := [".text".toList, ".rodata".toList, ".data".toList]

set_option maxRecDepth 100000 in
/-- C78 does fail: the sample ELF file can be signed, the block is the one in the output, and the archive that was never signed
is accepted with it. -/
theorem C78_confusion_happens : ∃ out b, cliSign toyEnv .dev anyElf (some 5) (.v2Only toyConfig) archiveSections false elfArchive =
      (some out, .ok ()) ∧ (⟨out, archiveSections⟩ : ElfFile).getSigningBlock .dev anyElf = .ok (some b) ∧
    cliVerify toyEnv .dev [7] none 0 (plainArchive.signed b.toU8) = .ok () := by
  have h : (match cliSign toyEnv .dev anyElf (some 5) (.v2Only toyConfig) archiveSections false elfArchive with
    | (some out, .ok ()) => (match (⟨out, archiveSections⟩ : ElfFile).getSigningBlock .dev anyElf with
      | .ok (some b) => (cliVerify toyEnv .dev [7] none 0 (plainArchive.signed b.toU8)).isOk
      | _ => false)
    | _ => false) = true := by decide +kernel
  split at h
  · rename_i out hs
    split at h
    · rename_i b hb
      obtain ⟨⟨⟩, hv⟩ := Res.exists_of_isOk h
      exact ⟨out, b, hs, hb, hv⟩
    · cases h
  · cases h

set_option maxRecDepth 100000 in
/-- The conditions of `C78_elf_signature_opens_module` hold for the sample file, so its block opens the archive. -/
example : ∃ l b, (⟨elfArchive, archiveSections⟩ : ElfFile).resolvedSections anyElf = .ok l ∧
    (sectionContents elfArchive l).flatMap pieces =
      [plainArchive.body, plainArchive.cd, wireEocd plainArchive.tail plainArchive.body.length].flatMap pieces ∧
    ElfRun toyEnv .dev anyElf ⟨elfArchive, archiveSections⟩ b ∧ b.fullSize ≤ 16392 ∧
    cliVerify toyEnv .dev [7] none 0 (plainArchive.signed b.toU8) = .ok () := by
  have hl : (⟨elfArchive, archiveSections⟩ : ElfFile).resolvedSections anyElf =
    .ok [(".text".toList, 64, 30), (".rodata".toList, 94, 4), (".data".toList, 98, 22)] := by decide +kernel
  have hc : sectionContents elfArchive [(".text".toList, 64, 30), (".rodata".toList, 94, 4), (".data".toList, 98, 22)] =
    [plainArchive.body, plainArchive.cd, wireEocd plainArchive.tail plainArchive.body.length] := by decide +kernel
  have hb : (match cliElfBlock toyEnv .dev anyElf (some 5) (.v2Only toyConfig) ⟨elfArchive, archiveSections⟩ with
    | .ok b => decide (b.fullSize ≤ 16392)
    | _ => false) = true := by decide +kernel
  split at hb
  · rename_i b hblk
    have hsound : ∀ c, (ModuleSigner.v2Only toyConfig).v2 = some c ∨ (ModuleSigner.v2Only toyConfig).stamp = some c →
        Sound toyEnv c := by
      rintro c (h | h) <;> cases h
      exact toyConfig_sound
    refine ⟨_, b, hl, by rw [hc], ⟨some 5, .v2Only toyConfig, fun c hc => known_of_matching (hsound c hc).matching, hblk⟩,
      of_decide_eq_true hb, ?_⟩
    refine C78_elf_signature_opens_module (root := none) (builtin := [7]) (cert := [7]) hl (by rw [hc]) plainArchive_signable hsound
      (by simp [ModuleSigner.v2Only]) hblk (of_decide_eq_true hb) rfl ?_ ?_
    · intro c h; cases h; exact ⟨by simp, .inl (by simp [toyConfig])⟩
    · intro c h; cases h
  · cases hb

end Ksusig.Props
