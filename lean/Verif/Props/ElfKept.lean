import Verif.Proofs.ElfKept
import Verif.Props.ElfReadBack
import Verif.Props.ElfVerify

/-!
# Signing an ELF file leaves what is signed as it was
-/

namespace Ksusig.Props

open Ksusig Spec

theorem selected_congr {e e' : Elf} {names : List (List Char)}
    (h : ∀ n ∈ names, ∀ s, FirstNamed e (utf8 n) s ↔ FirstNamed e' (utf8 n) s) (l : List Resolved) :
    Selected e names l ↔ Selected e' names l := by
  have key : ∀ {a b : Elf}, (∀ n ∈ names, ∀ s, FirstNamed a (utf8 n) s → FirstNamed b (utf8 n) s) → Selected a names l →
      Selected b names l := by
    rintro a b hab ⟨l0, h1, h2, h3⟩
    refine ⟨l0, h1, ?_, h3⟩
    intro x hx
    obtain ⟨s, h4, h5⟩ := h2 x hx
    exact ⟨s, hab x.1 (by rw [← h1]; exact List.mem_map_of_mem hx) s h4, h5⟩
  exact ⟨key fun n hn s => (h n hn s).mp, key fun n hn s => (h n hn s).mpr⟩

/-- C100. After signing every selected name stands for the section it stood for. -/
theorem C100_selection_kept {acc : Bytes → Bool} {f : ElfFile} {b : SigningBlock} {out : Bytes} {e : Elf}
    {names : List (List Char)} (hlen : f.data.length < 2 ^ 63) (h : f.writeWithSignature acc b = .ok out) (hv : ElfView f.data e)
    (hs : SignableElf f.data e) (h32 : e.is64 = false → out.length < 2 ^ 32) (hk : KeepsNames e names)
    (hne : ∀ n ∈ names, utf8 n ≠ ksuBytes) :
    ∃ e', ElfView out e' ∧ ∀ l, Selected e names l ↔ Selected e' names l := by
  obtain ⟨_, e0, n, body, table, hv0, hp, hn, hcnt, rfl, h63⟩ := (C98_written acc f b out hlen).mp h
  obtain rfl := C97_unique hv hv0
  have hlim := limit_of (d := f.data) h63 h32
  obtain ⟨sh, hnt, ⟨i, s, hi, hix, hpl⟩ | ⟨hnn, h1, h2⟩⟩ := hs
  · refine ⟨_, again_view hv hnt hi hix hpl hp hn hcnt hlim, selected_congr fun m hm s' => ?_⟩
    have := again_other hi hp (roundUp body.length (entryLength e.is64)) (hne m hm)
    exact ⟨fun ⟨j, hj⟩ => ⟨j, (this j s').mp hj⟩, fun ⟨j, hj⟩ => ⟨j, (this j s').mpr hj⟩⟩
  · refine ⟨_, (first_view hv hnt hnn hp hn hcnt hlim _).mpr ⟨h1, rfl⟩, selected_congr fun m hm s' => ?_⟩
    rcases hk with hk | ⟨ht, hk⟩
    · exact absurd hk hnn
    obtain ⟨hsuf, hown⟩ := hk m hm
    have := first_other hv hnn hp hcnt (roundUp body.length (entryLength e.is64)) ht hsuf hown
    exact ⟨fun ⟨j, hj⟩ => ⟨j, (this j s').mp hj⟩, fun ⟨j, hj⟩ => ⟨j, (this j s').mpr hj⟩⟩

/-- C100. The digests of the selected sections are the same after signing, if these sections lie in the file and do not cover the
places of the ELF header that say where the section headers are. -/
theorem C100_digest_kept {acc : Bytes → Bool} {f : ElfFile} {b : SigningBlock} {out : Bytes} {e : Elf} {l : List Resolved}
    (hopen : OpenElf acc f) (hlen : f.data.length < 2 ^ 63) (h : f.writeWithSignature acc b = .ok out) (hv : ElfView f.data e)
    (hs : SignableElf f.data e) (h32 : e.is64 = false → out.length < 2 ^ 32) (hk : KeepsNames e f.sections)
    (hacc : acc out = true) (hl : Selected e f.sections l)
    (hin : ∀ x ∈ l, x.2.1 + x.2.2 ≤ f.data.length ∧ ∀ i ∈ tablePlaces e.is64, i < x.2.1 ∨ x.2.1 + x.2.2 ≤ i) :
    (⟨out, f.sections⟩ : ElfFile).resolvedSections acc = .ok l ∧ ∀ (E : Env) (algo : Algo), ∃ dg, f.digest E acc algo = .ok dg ∧
      (⟨out, f.sections⟩ : ElfFile).digest E acc algo = .ok dg := by
  have hw := (C98_written acc f b out hlen).mp h
  obtain ⟨e', hv', hsel⟩ := C100_selection_kept hlen h hv hs h32 hk
    fun n hn => utf8_ne_ksu ((C45_selection hopen).2 n hn).2.2
  refine ⟨(C97_sections acc ⟨out, f.sections⟩ l).mpr ⟨hacc, e', hv', (hsel l).mp hl⟩, fun E algo => ?_⟩
  refine ⟨_, (C97_digest E acc f algo _).mpr ⟨hw.1, e, l, hv, hl, rfl⟩,
    (C97_digest E acc ⟨out, f.sections⟩ algo _).mpr ⟨hacc, e', l, hv', (hsel l).mp hl, ?_⟩⟩
  congr 1
  apply List.map_congr_left
  intro x hx
  obtain ⟨h1, h2⟩ := hin x hx
  obtain ⟨rest, hdec⟩ := decodeElf_some (decodeElf_iff.mpr hv)
  refine (take_drop_kept fun i hi hi' => (C46_bytes_kept h).2 i (by omega) ?_).symm
  rw [is64_of hdec]
  intro hmem
  rcases h2 i hmem with h2 | h2 <;> omega

/-- A block made by the sign command can be read back exactly if it is within the limit. -/
theorem made_block {E : Env} {p : Profile} {acc : Bytes → Bool} {clock : Option UInt64} {m : ModuleSigner} {f : ElfFile}
    {b : SigningBlock} (hk : ∀ c, m.v2 = some c ∨ m.stamp = some c → Known c.algo) (h : cliElfBlock E p acc clock m f = .ok b) :
    ∃ l b0, f.resolvedSections acc = .ok l ∧
      m.sign E p clock (pairDigests (m.requiredAlgorithms.map fun a => (a, digestElfSections E f.data l a))) = .ok b0 ∧
      b.content = b0.content ++ [.elf (signedInfo l)] ∧ b.sizeEnd + 8 = b.fullSize ∧ b.magic = magic ∧
      b.toU8.length = b.fullSize ∧ (b.fullSize ≤ 16392 → b.WF) := by
  obtain ⟨l, b0, hl, hsign, hb⟩ := cliElfBlock_ok.mp h
  have hbuilt : Built p b0 := by
    refine sign_built ?_ hsign
    intro x hx
    obtain ⟨al, hal, rfl⟩ := List.mem_map.mp hx
    rcases ((C37_required_algorithms m).2 al).mp hal with ⟨c, hc, rfl⟩ | ⟨c, hc, rfl⟩
    · rcases hk c (.inl hc) with h | h <;> simp [AlgoOk, h]
    · rcases hk c (.inr hc) with h | h <;> simp [AlgoOk, h]
  refine ⟨l, b0, hl, hsign, by rw [hb]; rfl, by rw [hb]; rfl, by rw [hb]; exact hbuilt.wf.magic, ?_, ?_⟩
  · have h1 := content_length hbuilt.wf.content
    have h2 : (Value.elf (signedInfo l)).toU8.length = (Value.elf (signedInfo l)).size := by
      show (ElfSectionInfo.toU8 _).length = _ + 8
      have h3 := flatMap_length_eq_sum SectionEntry.toU8 (signedInfo l).sections
      have h4 : ((signedInfo l).sections.map fun x => x.toU8.length).sum =
        ((signedInfo l).sections.map SectionEntry.byteSize).sum := map_sum_congr fun x _ => x.toU8_length
      have h5 : (signedInfo l).size = 4 + 4 + ((signedInfo l).sections.map SectionEntry.byteSize).sum := rfl
      simp only [ElfSectionInfo.toU8, List.length_append, leBytes_length]
      show _ = (signedInfo l).size + 8
      omega
    have h3 : contentSum (b0.content ++ [.elf (signedInfo l)]) = contentSum b0.content + (Value.elf (signedInfo l)).size := by
      rw [contentSum_eq, contentSum_eq]; simp
    rw [hb]
    show (SigningBlock.toU8 _).length = contentSum (b0.content ++ [.elf (signedInfo l)]) + 8 + 16 + 8
    simp only [SigningBlock.toU8, SigningBlock.contentToU8, SigningBlock.recalculateSize, List.length_append, leBytes_length,
      hbuilt.wf.magic, magic_length, List.flatMap_append, List.flatMap_cons, List.flatMap_nil, List.append_nil]
    omega
  intro hlim
  rw [hb] at hlim ⊢
  exact elfBlock_wf hbuilt l hlim

/-- C100. When the sign command succeeds on such a file, with algorithms that exist, the block is read back exactly if it is within
the limit. -/
theorem C100_command_reads_back {E : Env} {p : Profile} {acc : Bytes → Bool} {clock : Option UInt64} {m : ModuleSigner}
    {names : List (List Char)} {ip : Bool} {file out : Bytes} {f0 f : ElfFile} {e : Elf} {b : SigningBlock}
    (ho : SignableFile.open acc file = .ok (.elf f0)) (hlen : file.length < 2 ^ 63) (hv : ElfView file e) (hs : SignableElf file e)
    (h32 : e.is64 = false → out.length < 2 ^ 32) (hacc : acc out = true)
    (hsel : cliElfSelect f0 names = .ok f) (hblk : cliElfBlock E p acc clock m f = .ok b)
    (hk : ∀ c, m.v2 = some c ∨ m.stamp = some c → Known c.algo)
    (h : cliSign E p acc clock m names ip file = (some out, .ok ())) (secs : List (List Char)) :
    (∃ b', (⟨out, secs⟩ : ElfFile).getSigningBlock p acc = .ok (some b') ∧ b'.content = b.content) ↔ b.fullSize ≤ 16392 := by
  obtain ⟨f', b', hsel', hblk', hw⟩ := (cliSign_elf ho).mp h
  rw [hsel] at hsel'
  cases hsel'
  rw [hblk] at hblk'
  cases hblk'
  obtain ⟨rfl, hnew, _⟩ := open_elf_inv ho
  obtain ⟨_, hdata, _⟩ := cliElfSelect_ok (.opened hnew) hsel
  dsimp only at hdata
  obtain ⟨l, b0, _, _, _, hse, hm, htl, hwf⟩ := made_block hk hblk
  have h63 : out.length < 2 ^ 63 := by
    obtain ⟨_, _, _, _, _, _, _, _, _, _, h⟩ := (C98_written acc f b out (by rw [hdata]; exact hlen)).mp hw
    exact h
  obtain ⟨e', s, hv', _, _, hf, hbytes, hsz, hend⟩ := signable_step (f := f) (by rw [hdata]; exact hlen) hw (by rw [hdata]; exact hv)
    (by rw [hdata]; exact hs) h32
  have hpos : b.toU8.length ≠ 0 := by unfold SigningBlock.toU8; simp
  constructor
  · rintro ⟨b', hget, _⟩
    obtain ⟨_, e1, s1, hv1, hf1, _, _, hh⟩ := (C97_block p acc ⟨out, secs⟩ b' h63).mp hget
    obtain rfl := C97_unique hv' hv1
    obtain ⟨i, hi⟩ := hf
    obtain ⟨j, hj⟩ := hf1
    obtain ⟨rfl, rfl⟩ := firstAt_unique hi hj
    have hh : HoldsBlock (sectionBytes out s) b' := hh
    rw [hbytes] at hh
    have hread := (C88_from_u8 p _ b').mpr hh
    apply Decidable.byContradiction
    intro hbig
    have hmax : b.sizeEnd < 2 ^ 64 := by
      omega
    rw [fromU8_oversize p hm (by show 16384 < _; omega) hmax] at hread
    cases hread
  · intro hlim
    refine ⟨{ b with fileStart := 0, fileEnd := b.toU8.length }, ?_, rfl⟩
    rw [C97_block p acc ⟨out, secs⟩ _ h63]
    refine ⟨hacc, e', s, hv', hf, by omega, hend, ?_⟩
    show HoldsBlock (sectionBytes out s) _
    rw [hbytes]
    exact (C88_from_u8 p _ _).mp (fromU8_toU8 p (hwf hlim))

/-- C100. When the sign command succeeds with sound signers on such a file and the block is within the limit, opening what it wrote
and choosing the same sections gives a block that lists the chosen sections, and against the digests of these sections every
configured signer has a valid signature and a valid digest, with every trust store at every time; if the certificates are trusted,
the verdict is valid. -/
theorem C100_sign_then_verify {E : Env} {p : Profile} {acc : Bytes → Bool} {clock : Option UInt64} {m : ModuleSigner}
    {names : List (List Char)} {ip : Bool} {file out : Bytes} {f0 f : ElfFile} {e : Elf} {b : SigningBlock} {l : List Resolved}
    (ho : SignableFile.open acc file = .ok (.elf f0)) (hlen : file.length < 2 ^ 63) (hv : ElfView file e) (hs : SignableElf file e)
    (h32 : e.is64 = false → out.length < 2 ^ 32) (hacc : acc out = true)
    (hsel : cliElfSelect f0 names = .ok f) (hblk : cliElfBlock E p acc clock m f = .ok b) (hlim : b.fullSize ≤ 16392)
    (hl : Selected e f.sections l) (hk : KeepsNames e f.sections)
    (hin : ∀ x ∈ l, x.2.1 + x.2.2 ≤ file.length ∧ ∀ i ∈ tablePlaces e.is64, i < x.2.1 ∨ x.2.1 + x.2.2 ≤ i)
    (hsound : ∀ c, m.v2 = some c ∨ m.stamp = some c → Sound E c)
    (h : cliSign E p acc clock m names ip file = (some out, .ok ())) :
    ∃ g0 g b', SignableFile.open acc out = .ok (.elf g0) ∧ cliElfSelect g0 names = .ok g ∧
      g.getSigningBlock p acc = .ok (some b') ∧ g.resolvedSections acc = .ok l ∧ .elf (signedInfo l) ∈ b'.content ∧
      ∀ c : DigestCtx, (∀ cf, m.v2 = some cf ∨ m.stamp = some cf → ∀ d, g.digest E acc cf.algo = .ok d →
          c.get cf.algo.toU32 = some d) →
        (∀ roots now, (m.v2 ≠ none → ∃ r, verifyV2 E roots now b' (some c) = .ok r ∧ r.sigValid = true ∧ r.digestValid = true) ∧
          (m.v2 = none → verifyV2 E roots now b' (some c) = .err .noSignature) ∧
          (m.stamp ≠ none → ∃ r, verifySourceStamp E roots now b' (some c) = .ok r ∧ r.sigValid = true ∧ r.digestValid = true) ∧
          (m.stamp = none → verifySourceStamp E roots now b' (some c) = .err .noSignature)) ∧
        (∀ added now, (∀ c, m.v2 = some c → Trusted E added now c.cert c.chain) →
          (∀ c, m.stamp = some c → Trusted E added now c.cert []) →
          (verifyAll E (storeOf E added) now b' (some c)).isValid = true) := by
  have hkn : ∀ c, m.v2 = some c ∨ m.stamp = some c → Known c.algo := fun c hc => known_of_matching (hsound c hc).matching
  obtain ⟨b', hget, hcont⟩ := (C100_command_reads_back ho hlen hv hs h32 hacc hsel hblk hkn h f.sections).mpr hlim
  obtain ⟨f', b1, hsel', hblk', hw⟩ := (cliSign_elf ho).mp h
  rw [hsel] at hsel'
  cases hsel'
  rw [hblk] at hblk'
  cases hblk'
  obtain ⟨rfl, hnew, _⟩ := open_elf_inv ho
  obtain ⟨hopen, hdata, hsel'⟩ := cliElfSelect_ok (.opened hnew) hsel
  dsimp only at hdata hsel'
  obtain ⟨l1, b0, hl1, hsign, hbc, _⟩ := made_block hkn hblk
  obtain rfl : l = l1 := by
    obtain ⟨_, e1, hv1, hl1⟩ := (C97_sections acc f l1).mp hl1
    rw [hdata] at hv1
    obtain rfl := C97_unique hv hv1
    exact C97_selection_unique hl hl1
  obtain ⟨hres, hdg⟩ := C100_digest_kept (f := f) hopen (by rw [hdata]; exact hlen) hw (by rw [hdata]; exact hv)
    (by rw [hdata]; exact hs) h32 hk hacc hl (by rw [hdata]; exact hin)
  obtain ⟨e', _, hv', _⟩ := signable_step (f := f) (by rw [hdata]; exact hlen) hw (by rw [hdata]; exact hv)
    (by rw [hdata]; exact hs) h32
  refine ⟨_, _, b', open_elf (decodeElf_iff.mpr hv') hacc, hsel' out, hget, hres, by rw [hcont, hbc]; simp, fun c hc => ?_⟩
  refine made_verifies (D := fun a => digestElfSections E f.data l a) hsound hsign ?_ ?_ ?_
  · unfold v2Signers; rw [hcont, hbc]; simp
  · unfold stamps; rw [hcont, hbc]; simp
  · intro cf hcf
    refine hc cf hcf _ ?_
    obtain ⟨dg, hd1, hd2⟩ := hdg E cf.algo
    rw [hd2, ← hd1]
    unfold ElfFile.digest
    rw [hl1]; rfl

set_option maxRecDepth 100000 in
/-- C100: the condition on names is needed. In this file the second section is called `su_sign`, an end of `.ksu_sign`, and the first
has a name that lies behind the names. After signing the first section is called `su_sign`, and is the one whose digest counts. -/
theorem C100_end_of_name_changes : ∃ d out dg dg', (⟨d, ["su_sign".toList]⟩ : ElfFile).writeWithSignature anyElf tinyBlock = .ok out ∧
    (⟨out, []⟩ : ElfFile).getSigningBlock .release anyElf = .ok (some tinyBlock) ∧
    (⟨d, ["su_sign".toList]⟩ : ElfFile).digest toyEnv anyElf .p256 = .ok dg ∧
    (⟨out, ["su_sign".toList]⟩ : ElfFile).digest toyEnv anyElf .p256 = .ok dg' ∧ dg ≠ dg' := by
  have h : (match (⟨patch (patch elf64 83 (utf8 "su_sign".toList)) 168 [27], ["su_sign".toList]⟩ : ElfFile).writeWithSignature anyElf tinyBlock,
      (⟨patch (patch elf64 83 (utf8 "su_sign".toList)) 168 [27], ["su_sign".toList]⟩ : ElfFile).digest toyEnv anyElf .p256 with
    | .ok out, .ok dg => decide ((⟨out, []⟩ : ElfFile).getSigningBlock .release anyElf = .ok (some tinyBlock)) &&
      (match (⟨out, ["su_sign".toList]⟩ : ElfFile).digest toyEnv anyElf .p256 with
        | .ok dg' => decide (dg ≠ dg')
        | _ => false)
    | _, _ => false) = true := by decide +kernel
  split at h
  · rename_i out dg hout hdg
    rw [Bool.and_eq_true, decide_eq_true_eq] at h
    obtain ⟨h1, h⟩ := h
    split at h
    · rename_i dg' hdg'
      exact ⟨_, out, dg, dg', hout, h1, hdg, hdg', of_decide_eq_true h⟩
    · cases h
  · cases h

set_option maxRecDepth 100000 in
/-- The sample file is such a file, and signing it with two signers succeeds: everything C100 asks for is met. -/
example : ∃ e l b out, ElfView elf64 e ∧ SignableElf elf64 e ∧ Selected e defaultSections l ∧ l.length = 2 ∧
    KeepsNames e defaultSections ∧
    (∀ x ∈ l, x.2.1 + x.2.2 ≤ elf64.length ∧ ∀ i ∈ tablePlaces e.is64, i < x.2.1 ∨ x.2.1 + x.2.2 ≤ i) ∧
    cliElfBlock toyEnv .dev anyElf (some 5) (.withSourceStamp toyConfig toyStampConfig) ⟨elf64, defaultSections⟩ = .ok b ∧
    b.fullSize ≤ 16392 ∧
    cliSign toyEnv .dev anyElf (some 5) (.withSourceStamp toyConfig toyStampConfig) [] false elf64 = (some out, .ok ()) := by
  have h : ∃ e, decodeElf elf64 = some e ∧ (decide (ElfOk e) && (e.shdrs[e.hdr.shstrndx]?.any fun s =>
        decide (s.offset + s.size ≤ elf64.length) && decide (nameOf e s = some (utf8 ".shstrtab".toList))) &&
      decide (e.shdrs.length ≤ 65535) && e.is64) = true := exists_elf (by decide +kernel)
  obtain ⟨e, he, h⟩ := h
  simp only [Bool.and_eq_true, decide_eq_true_eq, Option.any_eq_true] at h
  obtain ⟨⟨⟨h1, sh, h2, h3, h3'⟩, h4⟩, h5⟩ := h
  have hv := decodeElf_iff.mp he
  have hr : (⟨elf64, defaultSections⟩ : ElfFile).resolvedSections anyElf =
      .ok [(".text".toList, 64, 8), (".rodata".toList, 72, 4)] := by decide +kernel
  obtain ⟨_, e1, hv1, hl⟩ := (C97_sections _ _ _).mp hr
  obtain rfl := C97_unique hv hv1
  have hb : ∃ b, cliElfBlock toyEnv .dev anyElf (some 5) (.withSourceStamp toyConfig toyStampConfig) ⟨elf64, defaultSections⟩ =
    .ok b ∧ (decide (b.fullSize ≤ 16392) && decide (b.toU8.length < 2 ^ 32)) = true := exists_ok (by decide +kernel)
  obtain ⟨b, hb1, hb2⟩ := hb
  rw [Bool.and_eq_true, decide_eq_true_eq, decide_eq_true_eq] at hb2
  obtain ⟨out, hw⟩ := sample_writes hb2.2
  refine ⟨e, _, b, out, hv, C99_ordinary hv h1 ⟨h2, h3⟩ h4 (by decide +kernel), hl, rfl, .inr ⟨h1.term, ?_⟩, ?_, hb1, hb2.1,
    (cliSign_elf (open_elf he rfl)).mpr ⟨_, b, rfl, hb1, hw⟩⟩
  · intro n hn
    have hsuf : ∀ n ∈ defaultSections, ¬ utf8 n <:+ ksuBytes ∧ utf8 ".shstrtab".toList ≠ utf8 n := by decide +kernel
    refine ⟨(hsuf n hn).1, fun s hs => ?_⟩
    rw [h2] at hs
    obtain rfl := Option.some.inj hs
    rw [h3']
    exact fun hc => (hsuf n hn).2 (Option.some.inj hc)
  · rw [h5]
    decide +kernel

end Ksusig.Props
