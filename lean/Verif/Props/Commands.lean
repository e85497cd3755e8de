import Verif.Props.ElfTamper

/-! # The commands and the files they touch: C59, C60, C64, C65 -/

namespace Ksusig.Props

open Ksusig Spec

/-! ### C60 -/

theorem parseFullBlock_frame (p : Profile) (pairs : Bytes) (hlim : pairs.length + 24 ≤ maxBlockSize) :
    parseFullBlock p (wireFrame pairs) = (extractValues pairs).bind fun c =>
      .ok ⟨0, pairs.length + 32, pairs.length + 24, pairs.length, c, pairs.length + 24, Ksusig.magic⟩ := by
  have hw := wireFrame_length' pairs
  have hmb : maxBlockSize = 16384 := rfl
  have hlt : pairs.length + 24 < 256 ^ 8 := by
    have : (256 : Nat) ^ 8 = 2 ^ 64 := by decide
    omega
  have t : wireFrame pairs = leBytes 8 (pairs.length + 24) ++ (pairs ++ (leBytes 8 (pairs.length + 24) ++ Ksusig.magic)) := by
    simp [wireFrame, Ksusig.magic]
  have l8 : (leBytes 8 (pairs.length + 24)).length = 8 := leBytes_length _ _
  have e1 : (wireFrame pairs).take 8 = leBytes 8 (pairs.length + 24) := by rw [t, List.take_left' l8]
  have e2 : (wireFrame pairs).drop 8 = pairs ++ (leBytes 8 (pairs.length + 24) ++ Ksusig.magic) := by rw [t, List.drop_left' l8]
  have e3 : (wireFrame pairs).drop (pairs.length + 8) = leBytes 8 (pairs.length + 24) ++ Ksusig.magic := by
    rw [Nat.add_comm, ← List.drop_drop, e2, List.drop_left' rfl]
  have e4 : (wireFrame pairs).drop (pairs.length + 16) = Ksusig.magic := by
    rw [show pairs.length + 16 = (pairs.length + 8) + 8 by omega, ← List.drop_drop, e3, List.drop_left' l8]
  rw [parseFullBlock_eq p _ (by omega), hw, show pairs.length + 32 - 16 = pairs.length + 16 by omega,
    show pairs.length + 32 - 24 = pairs.length + 8 by omega, show pairs.length + 32 - 32 = pairs.length by omega,
    show pairs.length + 32 - 8 = pairs.length + 24 by omega, e1, e2, e3, e4, List.take_left' l8, List.take_left' rfl,
    leNat_leBytes_of_lt hlt]
  rw [if_neg (fun h => h rfl), if_neg (fun h => h rfl), if_neg (by omega), if_neg (fun h => h (by omega))]

/-- Where the search ends does not matter as long as the block found stays in the window and no magic comes behind it. -/
theorem fromReader_move {p : Profile} {file : Bytes} {eo eo' : Nat} {b : SigningBlock}
    (h : SigningBlock.fromReader p file file.length eo = .ok b) (hend : b.fileEnd ≤ file.length - eo')
    (hwin : file.length - eo' ≤ b.fileStart + 2 ^ 24)
    (hno : ∀ u, b.fileEnd < u + 16 → u + 16 ≤ file.length - eo' → ¬ MagicAt file u) :
    SigningBlock.fromReader p file file.length eo' = .ok b := by
  obtain ⟨pre, pairs, post, hf, hlim, hx, h3, h4, hb⟩ := fromReader_ok h
  have hw := wireFrame_length' pairs
  have hfl : file.length = pre.length + (pairs.length + 32) + post.length := by
    rw [hf]; simp only [List.length_append]; omega
  have hfe : b.fileEnd = pre.length + pairs.length + 32 := by rw [hb]
  have hfs : b.fileStart = pre.length := by rw [hb]
  have hmw : maxWindow = 2 ^ 24 := rfl
  have hml : (post.take (file.length - eo' - b.fileEnd)).length = file.length - eo' - b.fileEnd := by
    rw [List.length_take]; omega
  have hf' : file = pre ++ wireFrame pairs ++ post.take (file.length - eo' - b.fileEnd) ++
      post.drop (file.length - eo' - b.fileEnd) := by
    rw [List.append_assoc, List.take_append_drop]; exact hf
  generalize post.take (file.length - eo' - b.fileEnd) = mid at *
  generalize post.drop (file.length - eo' - b.fileEnd) = rest at *
  have := fromReader_frame_mid p pre pairs mid rest (fl := file.length) (eo := eo') hlim (by omega) (by omega)
    (by
      rw [← hf']
      intro u hu1 hu2
      exact hno u (by omega) (by omega))
  rw [← hf', parseFullBlock_frame p pairs hlim, hx] at this
  rw [this]
  refine congrArg Res.ok ?_
  conv => rhs; rw [hb]
  simp only [Nat.add_assoc]

/-- C60: the info command shows the block the verify command uses, if no magic comes behind it and it lies in the last 16 MiB of
the file. -/
theorem C60_info_shows_verified_block_partial {p : Profile} {file : Bytes} {b : SigningBlock}
    (h : (Module.new file).getSigningBlock p file = .ok b) (hwin : file.length ≤ b.fileStart + 2 ^ 24)
    (hno : ∀ u, b.fileEnd < u + 16 → ¬ MagicAtPos file u) : cliInfoBlock p file = .ok b := by
  rw [getSigningBlock_new] at h
  obtain ⟨e, h1, h2⟩ := Res.bind_eq_ok.mp h
  obtain ⟨pre, pairs, post, hf, _, _, h3, _, hb⟩ := fromReader_ok h2
  have hw := wireFrame_length' pairs
  refine fromReader_move h2 ?_ (by omega) (fun u hu _ => hno u hu)
  have : b.fileEnd = pre.length + pairs.length + 32 := by rw [hb]
  rw [this, hf]
  simp only [List.length_append]
  omega

/-- C60, the other direction: with an end record behind the block and no magic between the block and the directory, the
verify command uses the block the info command shows. -/
theorem C60_verify_uses_shown_block_partial {p : Profile} {file : Bytes} {b : SigningBlock} {e : Eocd}
    (h : cliInfoBlock p file = .ok b) (he : findEocd file file.length = .ok e) (hend : b.fileEnd ≤ e.cdOffset.toNat)
    (hcd : e.cdOffset.toNat ≤ file.length) (hwin : e.cdOffset.toNat ≤ b.fileStart + 2 ^ 24) :
    (Module.new file).getSigningBlock p file = .ok b := by
  rw [getSigningBlock_new, he, Res.ok_bind]
  obtain ⟨pre, pairs, post, hf, _, _, h3, h4, hb⟩ := fromReader_ok h
  have hfe : b.fileEnd = pre.length + pairs.length + 32 := by rw [hb]
  refine fromReader_move h (by omega) (by omega) ?_
  intro u hu1 hu2 hm
  have := h4 u (by omega) hm
  omega

/-- C60 fails for a block at the end of the file, for example in the comment of the archive: the info command shows that
one, the verify command uses the one before the directory. -/
theorem C60_block_in_comment {p p' : Profile} {a : Archive} {b b' : SigningBlock} {c : Bytes} (hb : Built p' b) (hb' : Built p' b')
    (hs : Signable a b.toU8.length) (hc : a.tail.comment = c ++ b'.toU8) :
    (∃ v, (Module.new (a.signed b.toU8)).getSigningBlock p (a.signed b.toU8) = .ok v ∧ SameBlock v b) ∧
    ∃ v, cliInfoBlock p (a.signed b.toU8) = .ok v ∧ SameBlock v b' := by
  refine ⟨⟨_, getSigningBlock_signed p hb.wf hs.comment hs.cleanNew hs.size, ⟨rfl, rfl, rfl, rfl, rfl⟩⟩, ?_⟩
  have hf : ∃ pre, a.signed b.toU8 = pre ++ b'.toU8 ++ [] := by
    unfold Archive.signed wireEocd
    rw [hc]
    simp only [← List.append_assoc, List.append_nil]
    exact ⟨_, rfl⟩
  obtain ⟨pre, hf⟩ := hf
  unfold cliInfoBlock
  rw [hf]
  exact ⟨_, fromReader_block p pre [] hb'.wf (by simp), ⟨rfl, rfl, rfl, rfl, rfl⟩⟩

/-- C60: the info command never says that the content was verified, and shows a source stamp only if its signatures are
valid. -/
theorem C60_info_claims {E : Env} {p : Profile} {builtin : Bytes} {now : Nat} {file : Bytes} {r : InfoReport}
    (h : cliInfo E p builtin now file = .ok r) :
    cliInfoBlock p file = .ok r.block ∧ (∀ v, r.v2 = some v → v.digestValid = false) ∧
    (∀ v, r.stamp = some v → v.sigValid = true ∧ v.digestValid = false) ∧
    (r.v2 = none → v2Signers r.block = [] ∨ ∃ es, verifyV2 E (Roots.withBuiltin E builtin) now r.block none = .err (.multiSigner es)) := by
  unfold cliInfo at h
  obtain ⟨b, h1, h2⟩ := Res.bind_eq_ok.mp h
  dsimp only at h2
  cases h2
  obtain ⟨c1, c2, _⟩ := C30_no_context (E := E) (roots := Roots.withBuiltin E builtin) (now := now) (b := b)
  refine ⟨h1, ?_, ?_, ?_⟩
  · intro v hv
    dsimp only at hv
    cases hx : verifyV2 E (Roots.withBuiltin E builtin) now b none with
    | ok r => rw [hx] at hv; cases hv; exact (c1 _ hx).1
    | err e => rw [hx] at hv; cases hv
  · intro v hv
    dsimp only at hv
    cases hx : verifySourceStamp E (Roots.withBuiltin E builtin) now b none with
    | ok r =>
      rw [hx] at hv
      replace hv : (if r.sigValid then some r else none) = some v := hv
      cases hsv : r.sigValid with
      | false => rw [hsv] at hv; cases hv
      | true => rw [hsv] at hv; cases hv; exact ⟨hsv, (c2 _ hx).1⟩
    | err e => rw [hx] at hv; cases hv
  · intro hv
    dsimp only at hv ⊢
    cases hx : verifyV2 E (Roots.withBuiltin E builtin) now b none with
    | ok r => rw [hx] at hv; cases hv
    | err e =>
      cases e with
      | noSignature => exact .inl (verifyV2_noSignature.mp hx)
      | multiSigner es => exact .inr ⟨es, rfl⟩
      | _ =>
        exfalso
        unfold verifyV2 concludeVerify at hx
        split at hx
        · cases hx
        · dsimp only at hx
          split at hx <;> cases hx

/-- An archive with a signing block in its comment. -/
def trojanArchive : Archive := { sampleArchive with tail := { sampleArchive.tail with comment := [1] ++ emptyBlock.toU8 } }

set_option maxRecDepth 100000 in
theorem trojanArchive_signable : Signable trojanArchive sampleBlock.toU8.length where
  comment := by decide +kernel
  cleanOld := cleanAt_of_bounded (by decide +kernel)
  cleanNew := cleanAt_of_bounded (by decide +kernel)
  size := by decide +kernel

example : (∃ v, (Module.new (trojanArchive.signed sampleBlock.toU8)).getSigningBlock .dev (trojanArchive.signed sampleBlock.toU8) =
      .ok v ∧ SameBlock v sampleBlock) ∧
    ∃ v, cliInfoBlock .dev (trojanArchive.signed sampleBlock.toU8) = .ok v ∧ SameBlock v emptyBlock :=
  C60_block_in_comment (sampleBlock_built .dev) (emptyBlock_built .dev) trojanArchive_signable (c := [1]) rfl

set_option maxRecDepth 100000 in
example : ∃ b, cliInfoBlock .dev (sampleArchive.signed emptyBlock.toU8) = .ok b ∧
    (Module.new (sampleArchive.signed emptyBlock.toU8)).getSigningBlock .dev (sampleArchive.signed emptyBlock.toU8) = .ok b := by
  have hs : Signable sampleArchive emptyBlock.toU8.length :=
    ⟨by decide +kernel, sampleArchive_clean _ (by decide +kernel), sampleArchive_clean _ (by decide +kernel), by decide +kernel⟩
  have hg := getSigningBlock_signed .dev (emptyBlock_built .dev).wf hs.comment hs.cleanNew hs.size
  refine ⟨_, C60_info_shows_verified_block_partial hg (by decide +kernel) ?_, hg⟩
  intro u hu hm
  have hlen := (slice?_iff.mp hm).2.1
  have hb : ∀ u, u < 90 → sampleArchive.body.length + emptyBlock.toU8.length < u + 16 →
      ¬ MagicAtPos (sampleArchive.signed emptyBlock.toU8) u := by unfold MagicAtPos; decide +kernel
  have hl : (sampleArchive.signed emptyBlock.toU8).length = 90 := by decide +kernel
  exact hb u (by omega) hu hm

set_option maxRecDepth 100000 in
example : (cliInfo toyEnv .dev [] 0 (sampleArchive.signed sampleBlock.toU8)).isOk = true := by decide +kernel

/-! ### C59 -/

/-- C59 fails for signing a module in place: whenever signing gets as far as creating the output, the input is gone and the
command fails. -/
theorem C59_in_place_destroys {E : Env} {p : Profile} {clock : Option UInt64} {m : ModuleSigner} {file : Bytes} {out : Bytes}
    {r : Res Unit} (h : cliSignModule E p clock m true file = (some out, r)) : out = [] ∧ ∃ e, r = .err e := by
  unfold cliSignModule at h
  dsimp only at h
  split at h
  · cases h
  · cases h
  · rename_i b hb
    have hw : ∃ e, (Module.new file).signableWrite p [] b = ([], .err e) := by
      have hfe : ∃ e, findEocd [] file.length = .err e ∧ e.isMissing = false := by
        by_cases h22 : file.length < 22
        · exact ⟨_, findEocd_small h22, rfl⟩
        · exact ⟨_, findEocd_eof (by simp; omega) (by omega), rfl⟩
      obtain ⟨e, he, hmiss⟩ := hfe
      have hg : (Module.new file).getSigningBlock p [] = .err e := by
        simp only [Module.getSigningBlock, Module.getSigningBlockT, Module.new, Module.findEocd, he, Res.err_bind]
        rfl
      unfold Module.signableWrite Module.signSource
      rw [hg]
      dsimp only
      rw [hmiss]
      exact ⟨_, rfl⟩
    obtain ⟨e, hw⟩ := hw
    rw [if_pos rfl, hw] at h
    cases h
    exact ⟨rfl, e, rfl⟩

/-- C59: what can be signed into another file is destroyed when signed in place. -/
theorem C59_in_place_never_works {E : Env} {p : Profile} {clock : Option UInt64} {m : ModuleSigner} {file out : Bytes}
    (h : cliSignModule E p clock m false file = (some out, .ok ())) :
    ∃ e, cliSignModule E p clock m true file = (some [], .err e) := by
  have : ∃ o r, cliSignModule E p clock m true file = (some o, r) := by
    unfold cliSignModule at h ⊢
    dsimp only at h ⊢
    split at h
    · cases h
    · cases h
    · exact ⟨_, _, rfl⟩
  obtain ⟨o, r, ho⟩ := this
  obtain ⟨rfl, e, rfl⟩ := C59_in_place_destroys ho
  exact ⟨e, ho⟩

/-- C59: with another output path, the sign command on a module as in C25 leaves the output alone unless it succeeds. -/
theorem C59_module_untouched_partial {E : Env} {p : Profile} {clock : Option UInt64} {m : ModuleSigner} {a : Archive} {file : Bytes}
    (hin : SignInput a file) (hs : ∀ n, n ≤ 16392 → Signable a n) (hk : ∀ c, m.v2 = some c ∨ m.stamp = some c → Known c.algo)
    {o : Option Bytes} {r : Res Unit} (h : cliSignModule E p clock m false file = (o, r)) (hr : r ≠ .ok ()) : o = none := by
  obtain ⟨x, _, hc⟩ := C25_sign_command (E := E) (p := p) (clock := clock) hin hs hk
  rw [h] at hc
  cases x with
  | err e => cases hc; rfl
  | panic => cases hc; rfl
  | ok b => cases hc; exact absurd rfl hr

/-- C59: the sign command on an ELF file as in C61 leaves the output alone unless it succeeds, in place or not. -/
theorem C59_elf_untouched_partial {E : Env} {p : Profile} {acc : Bytes → Bool} {clock : Option UInt64} {m : ModuleSigner}
    {names : List (List Char)} {ip : Bool} {file : Bytes} {f0 : ElfFile} {e : Elf} {sh : Shdr}
    (ho : SignableFile.open acc file = .ok (.elf f0)) (hd : decodeElf file = some e) (hsh : e.shdrs[e.hdr.shstrndx]? = some sh)
    (hn : e.shdrs.length < 65535) (hlen : file.length < 2 ^ 32) (hal : sh.addralign < 2 ^ 32)
    (hb : ∀ f b, cliElfSelect f0 names = .ok f → cliElfBlock E p acc clock m f = .ok b → b.toU8.length < 2 ^ 32)
    {o : Option Bytes} {r : Res Unit} (h : cliSign E p acc clock m names ip file = (o, r)) (hr : r ≠ .ok ()) : o = none := by
  obtain ⟨rfl, hnew, _⟩ := open_elf_inv ho
  unfold cliSign at h
  rw [ho] at h
  dsimp only at h
  split at h
  · cases h; rfl
  · cases h; rfl
  · rename_i f b hfb
    obtain ⟨f', hsel, hx⟩ := Res.bind_eq_ok.mp hfb
    obtain ⟨b', hblk, hx⟩ := Res.bind_eq_ok.mp hx
    cases hx
    obtain ⟨_, hdata, _⟩ := cliElfSelect_ok (.opened hnew) hsel
    dsimp only at hdata
    have hacc : acc file = true := by
      unfold ElfFile.new at hnew
      obtain ⟨_, hpe, _⟩ := Res.bind_eq_ok.mp hnew
      exact (parseElf_ok.mp hpe).2
    obtain ⟨out, hw⟩ := C61_signing_succeeds_partial (acc := acc) (f := f) (b := b) (by rw [hdata]; exact hd) (by rw [hdata]; exact hacc)
      hsh hn (by rw [hdata]; exact hlen) hal (hb f b hsel hblk)
    rw [hw] at h
    cases h
    exact absurd rfl hr

set_option maxRecDepth 100000 in
example : ∃ e, cliSignModule toyEnv .dev (some 1700000000) (.v2Only toyConfig) true plainArchive.unsigned = (some [], .err e) := by
  have hok : ∃ b, (ModuleSigner.v2Only toyConfig).sign toyEnv .dev (some 1700000000)
    (Digests.new ((ModuleSigner.v2Only toyConfig).requiredAlgorithms.map fun al =>
      Digest.new al (contentDigest toyEnv plainArchive al))) = .ok b := Res.exists_of_isOk (by decide +kernel)
  obtain ⟨b, hb⟩ := hok
  obtain ⟨r, hr, hc⟩ := C25_sign_command (E := toyEnv) (p := .dev) (clock := some 1700000000)
    (m := .v2Only toyConfig) plainArchive_input plainArchive_signable
    (by rintro c (h | h) <;> cases h; exact .inl rfl)
  rw [hb] at hr
  subst hr
  exact C59_in_place_never_works hc

set_option maxRecDepth 100000 in
example : ∃ e, cliSign toyEnv .dev anyElf (some 5) (.v2Only toyConfig) [".data".toList] true elf64 = (none, .err e) :=
  ⟨.elf, by decide +kernel⟩

/-- C59: for an ELF file it makes no difference whether the output is the input. -/
theorem C59_elf_in_place {E : Env} {p : Profile} {acc : Bytes → Bool} {clock : Option UInt64} {m : ModuleSigner}
    {names : List (List Char)} {file : Bytes} {f0 : ElfFile} (ho : SignableFile.open acc file = .ok (.elf f0)) :
    cliSign E p acc clock m names true file = cliSign E p acc clock m names false file := by
  unfold cliSign
  rw [ho]

/-- A file whose end record says that the directory starts behind the end record. -/
def badDirectory : Bytes := List.replicate 60 1 ++ wireEocd ⟨0, 0, 0, 0, 0, List.replicate 20 7⟩ 70

set_option maxRecDepth 100000 in
/-- C59 fails in release builds for a file with a bad directory offset: the command fails after having emptied the output. -/
theorem C59_bad_directory : ∃ e, cliSignModule toyEnv .release (some 5) (.v2Only toyConfig) false badDirectory = (some [], .err e) :=
  ⟨.invalidData, by decide +kernel⟩

/-! ### C65 -/

/-- C65: choosing ELF sections for a module is refused before anything is written. -/
theorem C65_sections_of_module {E : Env} {p : Profile} {acc : Bytes → Bool} {clock : Option UInt64} {m : ModuleSigner}
    {names : List (List Char)} {ip : Bool} {file : Bytes} (hf : detectFileFormat file = .ok .module) (hn : names ≠ []) :
    ∃ e, cliSign E p acc clock m names ip file = (none, .err e) := by
  have ho : SignableFile.open acc file = .ok (.module (Module.new file) file) := by
    unfold SignableFile.open
    rw [hf]
    rfl
  unfold cliSign
  rw [ho]
  dsimp only
  rw [if_neg (by cases names with | nil => exact absurd rfl hn | cons _ _ => simp)]
  exact ⟨_, rfl⟩

example : detectFileFormat sampleArchive.unsigned = .ok .module ∧ [".text".toList] ≠ [] := ⟨by decide +kernel, by decide⟩

/-! ### C64 -/

/-- C64: the verify command accepts only files with a complete end-of-central-directory record near the end and a framed
signing block before the directory. -/
theorem C64_accepted_is_module {E : Env} {p : Profile} {builtin : Bytes} {root : Option Bytes} {now : Nat} {file : Bytes}
    (h : cliVerify E p builtin root now file = .ok ()) :
    ∃ k pre pairs post, RecordAt file k ∧ file.length ≤ k + 65557 ∧ file = pre ++ wireFrame pairs ++ post := by
  obtain ⟨b, _, _, _, hb, _⟩ := C35_verify_command.mp h
  obtain ⟨e, pre, pairs, post, he, hf, _⟩ := C15_last_magic_partial hb
  have h22 : 22 ≤ file.length := by
    by_cases h22 : file.length < 22
    · rw [findEocd_small h22] at he; cases he
    · omega
  rcases findEocd_spec (Nat.le_refl _) h22 with ⟨hn, _⟩ | ⟨k, h1, h2, _⟩
  · rw [hn] at he; cases he
  · rw [List.take_length] at h2
    exact ⟨k, pre, pairs, post, h2, h1, hf⟩

/-- C64 fails for ELF files: a file without end record is never accepted, whatever the sign command put into it. -/
theorem C64_without_record {E : Env} {p : Profile} {builtin : Bytes} {root : Option Bytes} {now : Nat} {file : Bytes}
    (h : ∀ k, ¬ RecordAt file k) : cliVerify E p builtin root now file ≠ .ok () := by
  intro hv
  obtain ⟨k, _, _, _, hk, _⟩ := C64_accepted_is_module hv
  exact h k hk

/-- Nowhere the signature of an end record. -/
def noRecord : Bytes → Bool
  | [] => true
  | b :: d => !(b == 0x50 && d.take 3 == [0x4b, 0x05, 0x06]) && noRecord d

theorem not_recordAt : ∀ {d : Bytes}, noRecord d = true → ∀ k, ¬ RecordAt d k
  | [], _, k, hr => by have := hr.2.1; simp at this
  | b :: d, h, 0, hr => by
    rw [noRecord, Bool.and_eq_true] at h
    obtain ⟨_, _, h3⟩ := slice?_iff.mp hr.1
    rw [List.drop_zero] at h3
    injection h3 with h4 h5
    subst h4
    have h1 := h.1
    have h5 : [0x4b, 0x05, 0x06] = List.take 3 d := h5
    rw [← h5] at h1
    exact absurd h1 (by decide)
  | b :: d, h, k + 1, hr => by
    rw [noRecord, Bool.and_eq_true] at h
    refine not_recordAt h.2 k ⟨?_, ?_, ?_⟩
    · obtain ⟨_, h2, h3⟩ := slice?_iff.mp hr.1
      rw [List.length_cons] at h2
      refine slice?_iff.mpr ⟨by omega, by omega, ?_⟩
      rw [h3, List.drop_succ_cons]
      congr 1
      omega
    · have := hr.2.1; simp only [List.length_cons] at this; omega
    · have := hr.2.2
      rw [show k + 1 + 20 = (k + 20) + 1 by omega, List.drop_succ_cons, List.length_cons] at this
      omega

set_option maxRecDepth 100000 in
/-- C64 fails: an ELF file the sign command signed is refused by the verify command, with every root. -/
theorem C64_signed_elf_refused : ∃ out, cliSign toyEnv .dev anyElf (some 5) (.v2Only toyConfig) [] false elf64 = (some out, .ok ()) ∧
    ∀ builtin root now, cliVerify toyEnv .dev builtin root now out ≠ .ok () := by
  have h : (match cliSign toyEnv .dev anyElf (some 5) (.v2Only toyConfig) [] false elf64 with
    | (some out, .ok ()) => noRecord out
    | _ => false) = true := by decide +kernel
  split at h
  · rename_i out hs
    exact ⟨out, hs, fun _ _ _ => C64_without_record (not_recordAt h)⟩
  · cases h

/-- C64 for modules: what the sign command wrote is accepted, if the certificates are trusted. -/
theorem C64_signed_module_accepted_partial {E : Env} {p : Profile} {acc : Bytes → Bool} {clock : Option UInt64} {m : ModuleSigner}
    {a : Archive} {file out builtin cert : Bytes} {root : Option Bytes} {now : Nat} (hf : detectFileFormat file = .ok .module)
    (hin : SignInput a file) (hs : ∀ n, n ≤ 16392 → Signable a n)
    (hsound : ∀ c, m.v2 = some c ∨ m.stamp = some c → Sound E c) (hv2 : m.v2 ≠ none)
    (h : cliSign E p acc clock m [] false file = (some out, .ok ()))
    (hroot : E.pemParse (root.getD builtin) = some ("CERTIFICATE", cert))
    (ht : ∀ c, m.v2 = some c → Trusted E [cert] now c.cert c.chain) (ht' : ∀ c, m.stamp = some c → Trusted E [cert] now c.cert []) :
    cliVerify E p builtin root now out = .ok () := by
  have ho : SignableFile.open acc file = .ok (.module (Module.new file) file) := by
    unfold SignableFile.open
    rw [hf]
    rfl
  unfold cliSign at h
  rw [ho] at h
  exact (C25_sign_then_verify_partial hin hs hsound h).2.2 builtin root cert now hroot hv2 ht ht'

end Ksusig.Props
