import Verif.Props.Program
import Verif.Props.CliDigest

/-!
# The exit status of the program
-/

namespace Ksusig.Props

open Ksusig Spec

/-! ### Nothing panics in release builds, except writing a signed ELF file -/

theorem np_bind {α β : Type} {x : Res α} {f : α → Res β} (h1 : x ≠ .panic) (h2 : ∀ a, x = .ok a → f a ≠ .panic) :
    (x >>= f) ≠ .panic := by
  cases x with
  | ok a => exact h2 a rfl
  | err e => intro h; cases h
  | panic => exact absurd rfl h1

theorem np_ofOption {α : Type} {e : Err} {o : Option α} : Res.ofOption e o ≠ .panic := by
  cases o <;> intro h <;> cases h

theorem np_ok {α : Type} {a : α} : (Res.ok a) ≠ .panic := by intro h; cases h

theorem np_err {α : Type} {e : Err} : (Res.err e : Res α) ≠ .panic := by intro h; cases h

theorem np_usub {a b : Nat} : usub .release a b ≠ .panic := by
  unfold usub; split <;> intro h <;> cases h

theorem np_findEocd {d : Bytes} {n : Nat} : findEocd d n ≠ .panic := by
  rcases findEocd_total d n with ⟨e, h⟩ | ⟨e, h, _⟩ <;> rw [h] <;> intro h <;> cases h

theorem np_detect {file : Bytes} : detectFileFormat file ≠ .panic := by
  rcases (C51_format_detection file).2.2 with h | h | ⟨e, h⟩ <;> rw [h] <;> intro h <;> cases h

theorem np_parseElf {acc : Bytes → Bool} {d : Bytes} : parseElf acc d ≠ .panic := by
  unfold parseElf
  repeat' split
  all_goals intro h; cases h

theorem np_open {acc : Bytes → Bool} {file : Bytes} : SignableFile.open acc file ≠ .panic := by
  unfold SignableFile.open
  refine np_bind np_detect fun f _ => ?_
  cases f with
  | module => exact np_ok
  | elf => exact np_bind (np_bind np_parseElf fun _ _ => np_ok) fun _ _ => np_ok

theorem np_setSections {f : ElfFile} {sections : List (List Char)} : (f.setSignedSections sections).2 ≠ .panic := by
  unfold ElfFile.setSignedSections
  dsimp only
  repeat' split
  all_goals intro h; cases h

theorem np_cliOpen {acc : Bytes → Bool} {sections : List (List Char)} {file : Bytes} : cliOpen acc sections file ≠ .panic := by
  unfold cliOpen
  refine np_bind np_open fun s _ => ?_
  split
  · exact np_ok
  · split
    · exact np_ok
    · exact np_err
    · rename_i h
      cases s with
      | module m g => cases h
      | elf f =>
        have := np_setSections (f := f) (sections := sections)
        exact absurd (congrArg Prod.snd h) this

theorem np_lookupAll {e : Elf} {ns : List (List Char)} : e.lookupAll ns ≠ .panic := by
  induction ns with
  | nil => exact np_ok
  | cons n ns ih =>
    unfold Elf.lookupAll
    split
    · exact np_err
    · split
      · exact np_err
      · split
        · exact np_err
        · exact np_bind ih fun _ _ => np_ok

theorem np_resolved {acc : Bytes → Bool} {f : ElfFile} : f.resolvedSections acc ≠ .panic :=
  np_bind np_parseElf fun _ _ => np_bind np_lookupAll fun _ _ => np_ok

theorem np_elfDigest {E : Env} {acc : Bytes → Bool} {f : ElfFile} {al : Algo} : f.digest E acc al ≠ .panic :=
  np_bind np_resolved fun _ _ => np_ok

theorem np_uadd {a b : Nat} : uadd .release a b ≠ .panic := by
  unfold uadd; split <;> intro h <;> cases h

theorem np_total {rs : List DigestRegion} {t : Nat} : (rs.foldlM (fun t r => uadd .release t r.size) t : Res Nat) ≠ .panic := by
  induction rs generalizing t with
  | nil => exact np_ok
  | cons r rs ih => rw [List.foldlM_cons]; exact np_bind np_uadd fun _ _ => ih

/-- The module in an opened file is the file itself. -/
theorem opened_module {acc : Bytes → Bool} {sections : List (List Char)} {file : Bytes} {m : Module} {g : Bytes}
    (h : cliOpen acc sections file = .ok (.module m g)) : m = Module.new g := by
  obtain ⟨s, hs, h⟩ := Res.bind_eq_ok.mp h
  have hopen : ∀ m g, s = .module m g → m = Module.new g := by
    rintro m g rfl
    obtain ⟨f, _, hf⟩ := Res.bind_eq_ok.mp hs
    cases f with
    | module => cases hf; rfl
    | elf => obtain ⟨x, _, hx⟩ := Res.bind_eq_ok.mp hf; cases hx
  split at h
  · cases h; exact hopen _ _ rfl
  · split at h
    · rename_i hset
      cases h
      cases s with
      | module m' g' => cases hset
      | elf f => cases hset
    · cases h
    · cases h

theorem np_regions {acc : Bytes → Bool} {sections : List (List Char)} {file : Bytes} {s : SignableFile}
    (h : cliOpen acc sections file = .ok s) : cliRegions .release acc s ≠ .panic := by
  refine np_bind ?_ fun _ _ => np_bind np_total fun _ _ => np_ok
  cases s with
  | module m g =>
    rw [opened_module h]
    exact (C58_release_partial toyEnv g).2.2.2.1
  | elf f => exact np_bind np_resolved fun _ _ => np_ok

theorem np_cliDigest {E : Env} {acc : Bytes → Bool} {b : Bool} {fmt : OutputFormat} {sections : List (List Char)} {file : Bytes} :
    cliDigest E .release acc b fmt sections file ≠ .panic := by
  refine np_bind np_cliOpen fun s hs => np_bind (np_regions hs) fun _ _ => np_bind ?_ fun _ _ => np_ok
  cases s with
  | module m g =>
    rw [opened_module hs]
    exact (C58_release_partial E g).2.2.1 _
  | elf f => exact np_elfDigest

theorem np_cliDump {acc : Bytes → Bool} {sections : List (List Char)} {ip : Bool} {file : Bytes} :
    (cliDump .release acc sections ip file).2 ≠ .panic := by
  have h : (do let s ← cliOpen acc sections file; cliRegions .release acc s : Res (List DigestRegion)) ≠ .panic :=
    np_bind np_cliOpen fun s hs => np_regions hs
  unfold cliDump
  split
  · exact np_err
  · rename_i hp; exact absurd hp h
  · dsimp only
    generalize (dumpRegions _ _).2 = t
    cases t <;> intro h <;> cases h

theorem np_sign {a : Algo} {E : Env} {key : PrivateKey} {d : Bytes} : a.sign E key d ≠ .panic := by
  cases a <;> cases key <;> intro h <;> cases h

theorem np_pub {E : Env} {key : PrivateKey} : key.publicKeyDer E ≠ .panic := by
  cases key <;> exact np_ofOption

theorem np_signer {E : Env} {clock : Option UInt64} {m : ModuleSigner} {ds : Digests} : m.sign E .release clock ds ≠ .panic := by
  unfold ModuleSigner.sign
  refine np_bind ?_ fun b1 _ => np_bind ?_ fun b2 _ => ?_
  · unfold ModuleSigner.signV2Part
    split
    · refine np_bind ?_ fun _ _ => np_ok
      exact np_bind np_ofOption fun _ _ => np_bind np_sign fun _ _ => np_bind np_pub fun _ _ => np_ok
    · exact np_ok
  · unfold ModuleSigner.signStampPart
    split
    · refine np_bind ?_ fun _ _ => np_ok
      refine np_bind ?_ fun _ _ => np_bind np_ofOption fun _ _ => np_bind np_sign fun _ _ => np_bind np_pub fun _ _ => np_ok
      unfold stampAttrs
      split
      · exact np_bind np_ofOption fun _ _ => np_ok
      · exact np_ok
    · exact np_ok
  · dsimp only
    split
    · exact np_err
    · unfold ModuleSigner.finish
      split
      · exact C04_release_never_panics_partial _
      · unfold SigningBlock.new; dsimp only; split
        · exact np_err
        · exact np_ok

theorem np_raw {file : Bytes} (g : Bytes) (hg : (Module.new g).getSigningBlock .release file ≠ .panic) :
    (Module.new g).getRawModule .release file ≠ .panic := by
  unfold Module.getRawModule
  split
  · exact np_ok
  · refine np_bind hg fun _ _ => np_bind np_usub fun _ _ => np_bind np_ofOption fun _ _ => np_bind ?_ fun _ _ =>
      np_bind np_ofOption fun _ _ => np_bind np_usub fun _ _ => np_bind np_ofOption fun _ _ => np_ok
    exact np_findEocd

theorem np_block (g file : Bytes) : (Module.new g).getSigningBlock .release file ≠ .panic := by
  simp only [Module.getSigningBlock, Module.getSigningBlockT, Module.new]
  refine np_bind np_findEocd fun e _ => ?_
  rcases C06_from_reader_release_partial file g.length (g.length - e.cdOffset.toNat) with ⟨b, h⟩ | ⟨e, _, h⟩
  · rw [h]; exact np_ok
  · rw [h]; exact np_err

theorem np_write (g file : Bytes) (b : SigningBlock) : ((Module.new g).signableWrite .release file b).2 ≠ .panic := by
  have hsrc : (Module.new g).signSource .release file ≠ .panic := by
    unfold Module.signSource
    split
    · exact np_bind (np_raw g (np_block g file)) fun _ _ => np_bind np_findEocd fun _ _ => np_ok
    · split
      · exact np_bind np_findEocd fun _ _ => np_ok
      · exact np_err
    · rename_i h; exact absurd h (np_block g file)
  unfold Module.signableWrite
  dsimp only
  split
  · exact np_err
  · rename_i h; exact absurd h hsrc
  · split
    · exact np_err
    · split
      · exact np_err
      · rename_i h; exact absurd h np_usub
      · split
        · exact np_err
        · split
          · exact np_err
          · split
            · exact np_err
            · split
              · rename_i h; cases h
              · exact np_ok

theorem np_cliDigests {E : Env} {file : Bytes} {as : List Algo} : cliDigests E .release (Module.new file) file as ≠ .panic := by
  induction as with
  | nil => exact np_ok
  | cons a as ih => exact np_bind ((C58_release_partial E file).2.2.1 _) fun _ _ => np_bind ih fun _ _ => np_ok

theorem np_signModule {E : Env} {clock : Option UInt64} {m : ModuleSigner} {ip : Bool} {file : Bytes} :
    (cliSignModule E .release clock m ip file).2 ≠ .panic := by
  have h : (do
      let _ ← (Module.new file).digestRegions .release file
      let pairs ← cliDigests E .release (Module.new file) file m.requiredAlgorithms
      m.sign E .release clock (Digests.new (pairs.map fun x => Digest.new x.1 x.2)) : Res SigningBlock) ≠ .panic :=
    np_bind (C58_release_partial E file).2.2.2.1 fun _ _ => np_bind np_cliDigests fun _ _ => np_signer
  unfold cliSignModule
  dsimp only
  split
  · exact np_err
  · rename_i hp; exact absurd hp h
  · exact np_write _ _ _

theorem np_elfDigests {E : Env} {acc : Bytes → Bool} {f : ElfFile} {as : List Algo} : cliElfDigests E acc f as ≠ .panic := by
  induction as with
  | nil => exact np_ok
  | cons a as ih => exact np_bind np_elfDigest fun _ _ => np_bind ih fun _ _ => np_ok

theorem np_elfBlock {E : Env} {acc : Bytes → Bool} {clock : Option UInt64} {m : ModuleSigner} {f : ElfFile} :
    cliElfBlock E .release acc clock m f ≠ .panic :=
  np_bind (np_bind np_resolved fun _ _ => np_ok) fun _ _ => np_bind np_elfDigests fun _ _ => np_bind np_signer fun _ _ =>
    np_bind np_resolved fun _ _ => np_ok

theorem np_elfSelect {f : ElfFile} {sections : List (List Char)} : cliElfSelect f sections ≠ .panic := by
  unfold cliElfSelect
  split
  · exact np_ok
  · split
    · exact np_ok
    · exact np_err
    · rename_i h
      exact absurd (congrArg Prod.snd h) np_setSections

theorem cliSign_panics {E : Env} {acc : Bytes → Bool} {clock : Option UInt64} {m : ModuleSigner} {sections : List (List Char)}
    {ip : Bool} {file : Bytes} (h : (cliSign E .release acc clock m sections ip file).2 = .panic) :
    ∃ (f : ElfFile) (b : SigningBlock), f.data = file ∧ cliElfBlock E .release acc clock m f = .ok b ∧
      f.writeWithSignature acc b = .panic := by
  unfold cliSign at h
  split at h
  · cases h
  · rename_i hp; exact absurd hp np_open
  · split at h
    · exact absurd h np_signModule
    · cases h
  · rename_i f0 ho
    have hx : (do
      let f ← cliElfSelect f0 sections
      let b ← cliElfBlock E .release acc clock m f
      .ok (f, b) : Res (ElfFile × SigningBlock)) ≠ .panic :=
      np_bind np_elfSelect fun _ _ => np_bind np_elfBlock fun _ _ => np_ok
    split at h
    · cases h
    · rename_i hp; exact absurd hp hx
    · rename_i f b hfb
      split at h
      · cases h
      · cases h
      · rename_i hw
        obtain ⟨f', hsel, hx⟩ := Res.bind_eq_ok.mp hfb
        obtain ⟨b', hblk, hx⟩ := Res.bind_eq_ok.mp hx
        cases hx
        refine ⟨f, b, ?_, hblk, hw⟩
        obtain ⟨hf0, _, _⟩ := open_elf_inv ho
        unfold cliElfSelect at hsel
        split at hsel
        · cases hsel; rw [hf0]
        · split at hsel
          · rename_i hset
            cases hsel
            unfold ElfFile.setSignedSections at hset
            dsimp only at hset
            split at hset
            · cases hset
            · split at hset
              · cases hset
              · cases hset; rw [hf0]
          · cases hsel
          · cases hsel

theorem create_panic {M : Machine} {o : Path} {x : Option Bytes × Res Unit} (h : (Outcome.create M o x).status = 101) :
    x.2 = .panic := by
  obtain ⟨d, r⟩ := x
  unfold Outcome.create at h
  split at h
  · rename_i heq
    cases heq
    cases r <;> first | rfl | cases h
  · rename_i heq
    cases heq
    split at h
    · cases r <;> first | rfl | cases h
    · cases h

theorem quiet_panic {r : Res Unit} (h : (Outcome.quiet r).status = 101) : r = .panic := by
  cases r <;> first | rfl | cases h

/-- C80, for release builds (missing: development builds, where damaged files make the commands panic, see C06 and C58): on every
file system the program ends with exit status 0 or 1, except that signing an ELF file may panic while the output is put together
(see `C61_signing_succeeds_partial` and `C61_huge_alignment_panics`). -/
theorem C80_release_status_partial {M : Machine} (hM : M.profile = .release) {now : Nat} {clock : Option UInt64} {fs : Fs} {c : Command} :
    (c.exec M now clock fs).status = 0 ∨ (c.exec M now clock fs).status = 1 ∨
      ∃ (input out : Path) (v2 stamp : CredPaths) (sections : List (List Char)) (m : ModuleSigner) (f : ElfFile) (b : SigningBlock),
        c = .sign input out v2 stamp sections ∧ signerFrom M.keys fs v2 stamp = .ok m ∧ fs input = some f.data ∧
        cliElfBlock M.env .release M.acc clock m f = .ok b ∧ f.writeWithSignature M.acc b = .panic := by
  have hcases : ∀ o : Outcome, o.status = 0 ∨ o.status = 1 ∨ o.status = 101 := by
    rintro ⟨w, pr, r⟩
    cases r <;> simp [Outcome.status]
  rcases hcases (c.exec M now clock fs) with h | h | h
  · exact .inl h
  · exact .inr (.inl h)
  · right; right
    cases c with
    | sign input out v2 stamp sections =>
      unfold Command.exec at h
      dsimp only at h
      split at h
      · cases h
      · rename_i m hm
        split at h
        · cases h
        · rename_i file hfile
          have hp := create_panic h
          rw [hM] at hp
          obtain ⟨f, b, hf, hb, hw⟩ := cliSign_panics hp
          exact ⟨input, out, v2, stamp, sections, m, f, b, rfl, hm, by rw [hf]; exact hfile, hb, hw⟩
    | verify module root =>
      exfalso
      unfold Command.exec at h
      dsimp only at h
      split at h
      · cases h
      · rename_i file hfile
        rw [hM] at h
        split at h
        · exact (C58_release_partial M.env file).2.2.2.2 _ _ _ (quiet_panic h)
        · split at h
          · exact (C58_release_partial M.env file).2.2.2.2 _ _ _ (quiet_panic h)
          · refine np_bind ?_ (fun _ _ => np_err) (quiet_panic h)
            have := np_block file file
            cases hb : (Module.new file).getSigningBlock .release file with
            | ok b => exact np_ok
            | err e => exact np_err
            | panic => exact absurd hb this
    | info module =>
      exfalso
      unfold Command.exec at h
      dsimp only at h
      split at h
      · cases h
      · rename_i file hfile
        rw [hM] at h
        have : cliInfo M.env .release M.builtin now file ≠ .panic := by
          refine np_bind ?_ fun _ _ => np_ok
          unfold cliInfoBlock
          rcases C06_from_reader_release_partial file file.length 0 with ⟨b, h⟩ | ⟨e, _, h⟩
          · rw [h]; exact np_ok
          · rw [h]; exact np_err
        exact np_bind this (fun _ _ => np_ok) (quiet_panic h)
    | digest input b fmt sections =>
      exfalso
      unfold Command.exec at h
      dsimp only at h
      split at h
      · cases h
      · rw [hM] at h
        split at h
        · cases h
        · cases h
        · rename_i hp; exact np_cliDigest hp
    | dump input out sections =>
      exfalso
      unfold Command.exec at h
      dsimp only at h
      split at h
      · cases h
      · have hp := create_panic h
        rw [hM] at hp
        exact np_cliDump hp

/-! ### What exit status 0 means -/

theorem cliSign_writes {E : Env} {p : Profile} {acc : Bytes → Bool} {clock : Option UInt64} {m : ModuleSigner}
    {sections : List (List Char)} {ip : Bool} {file : Bytes} : cliSign E p acc clock m sections ip file ≠ (none, .ok ()) := by
  intro h
  unfold cliSign at h
  split at h
  · cases h
  · cases h
  · split at h
    · unfold cliSignModule at h
      dsimp only at h
      split at h <;> cases h
    · cases h
  · split at h
    · cases h
    · cases h
    · split at h <;> cases h

theorem create_status {M : Machine} {o : Path} {x : Option Bytes × Res Unit} (hx : x ≠ (none, .ok ()))
    (h : (Outcome.create M o x).status = 0) : ∃ d, x = (some d, .ok ()) ∧ M.creatable o = true ∧
      (Outcome.create M o x).written = some (o, d) := by
  obtain ⟨d, r⟩ := x
  unfold Outcome.create at h ⊢
  cases d with
  | none =>
    cases r with
    | ok u => exact absurd rfl hx
    | err e => cases h
    | panic => cases h
  | some d =>
    dsimp only at h ⊢
    split at h
    · rename_i hc
      cases r with
      | ok u => exact ⟨d, rfl, hc, by rw [if_pos hc]⟩
      | err e => cases h
      | panic => cases h
    · cases h

/-- C80: the sign command ends with exit status 0 only if it has written the output. -/
theorem C80_sign_success {M : Machine} {now : Nat} {clock : Option UInt64} {fs : Fs} {input out : Path} {v2 stamp : CredPaths}
    {sections : List (List Char)} (h : ((Command.sign input out v2 stamp sections).exec M now clock fs).status = 0) :
    ∃ file m d, fs input = some file ∧ signerFrom M.keys fs v2 stamp = .ok m ∧ M.creatable out = true ∧
      cliSign M.env M.profile M.acc clock m sections (decide (out = input)) file = (some d, .ok ()) ∧
      Run.after M ⟨.sign input out v2 stamp sections, now, clock, .finished⟩ fs out = some d := by
  have hx : ∀ o, (Command.sign input out v2 stamp sections).exec M now clock fs = o → ∀ d, o.written = some (out, d) →
      Run.after M ⟨.sign input out v2 stamp sections, now, clock, .finished⟩ fs out = some d := by
    intro o ho d hd
    rw [after_eq]
    dsimp only
    rw [ho]
    unfold Run.effect
    dsimp only
    rw [hd]
    exact set_same
  replace hx := hx _ rfl
  unfold Command.exec at h hx
  dsimp only at h hx
  split at h
  · cases h
  · rename_i m hm
    rw [hm] at hx
    dsimp only at hx
    split at h
    · cases h
    · rename_i file hfile
      rw [hfile] at hx
      dsimp only at hx
      obtain ⟨d, hd, hc, hw⟩ := create_status cliSign_writes h
      exact ⟨file, m, d, hfile, hm, hc, hd, hx d hw⟩

/-- C80: the verify command ends with exit status 0 exactly if the module and the root certificate can be read and the file is
good under that root, as in C35. -/
theorem C80_verify_status {M : Machine} {now : Nat} {clock : Option UInt64} {fs : Fs} {module : Path} {root : Option Path} :
    ((Command.verify module root).exec M now clock fs).status = 0 ↔
      ∃ file pem b cert d256 d384, fs module = some file ∧
        (match root with | none => M.builtin = pem | some q => fs q = some pem) ∧
        M.env.pemParse pem = some ("CERTIFICATE", cert) ∧ (Module.new file).getSigningBlock M.profile file = .ok b ∧
        (Module.new file).digest M.env M.profile file .p256 = .ok d256 ∧ (Module.new file).digest M.env M.profile file .p384 = .ok d384 ∧
        v2Signers b ≠ [] ∧ (∀ s ∈ v2Signers b, GoodV2 M.env [cert] now (table d256 d384) s) ∧
        ∀ s rest, stamps b = s :: rest → GoodStamp M.env [cert] now (table d256 d384) s := by
  have hq : ∀ r : Res Unit, (Outcome.quiet r).status = 0 ↔ r = .ok () := by
    intro r
    cases r <;> simp [Outcome.quiet, Outcome.status]
  unfold Command.exec
  dsimp only
  cases hf : fs module with
  | none => simp [Outcome.quiet, Outcome.status]
  | some file =>
    cases root with
    | none =>
      dsimp only
      rw [hq, C35_verify_command]
      constructor
      · rintro ⟨b, cert, d2, d5, h1, h2, h3⟩
        exact ⟨file, _, b, cert, d2, d5, rfl, rfl, h2, h1, h3⟩
      · rintro ⟨_, _, b, cert, d2, d5, hf', rfl, h2, h1, h3⟩
        cases hf'
        exact ⟨b, cert, d2, d5, h1, h2, h3⟩
    | some q =>
      dsimp only
      cases hr : fs q with
      | none =>
        dsimp only
        rw [hq]
        constructor
        · intro h
          obtain ⟨_, _, h⟩ := Res.bind_eq_ok.mp h
          cases h
        · rintro ⟨_, _, _, _, _, _, _, h, _⟩
          cases h
      | some pem =>
        dsimp only
        rw [hq, C35_verify_command]
        constructor
        · rintro ⟨b, cert, d2, d5, h1, h2, h3⟩
          exact ⟨file, pem, b, cert, d2, d5, rfl, rfl, h2, h1, h3⟩
        · rintro ⟨_, _, b, cert, d2, d5, hf', hp, h2, h1, h3⟩
          cases hf'
          cases hp
          exact ⟨b, cert, d2, d5, h1, h2, h3⟩

/-- C80: the digest command ends with exit status 0 and prints the text of the digest, or prints nothing on standard output. -/
theorem C80_digest_output {M : Machine} {now : Nat} {clock : Option UInt64} {fs : Fs} {input : Path} {sha512 : Bool}
    {fmt : OutputFormat} {sections : List (List Char)} {text : List Char} :
    (((Command.digest input sha512 fmt sections).exec M now clock fs).status = 0 ∧
      ((Command.digest input sha512 fmt sections).exec M now clock fs).printed = text ↔
        ∃ file, fs input = some file ∧ cliDigest M.env M.profile M.acc sha512 fmt sections file = .ok text) ∧
    (((Command.digest input sha512 fmt sections).exec M now clock fs).status ≠ 0 →
      ((Command.digest input sha512 fmt sections).exec M now clock fs).printed = []) := by
  unfold Command.exec
  dsimp only
  cases hf : fs input with
  | none => simp [Outcome.quiet, Outcome.status]
  | some file =>
    dsimp only
    cases hd : cliDigest M.env M.profile M.acc sha512 fmt sections file with
    | ok t => simp [Outcome.status, hd]
    | err e => simp [Outcome.quiet, Outcome.status, hd]
    | panic => simp [Outcome.quiet, Outcome.status, hd]

/-- Exit statuses 0, 1 and (in a development build, on a damaged file) 101. -/
example : ((Command.sign "in".toList "out".toList toyPaths noPaths []).exec toyMachine 0 (some 5) toyFs).status = 0 ∧
    ((Command.verify "in".toList none).exec { toyMachine with profile := .release } 0 none toyFs).status = 1 ∧
    ((Command.verify "x".toList none).exec toyMachine 0 none (toyFs.set "x".toList mismatchArchive.unsigned)).status = 101 := by
  refine ⟨toySign_ok _ (by decide), by decide +kernel, ?_⟩
  unfold Command.exec Outcome.status
  dsimp only
  rw [set_same]
  dsimp only [Outcome.quiet]
  have h : cliVerify toyMachine.env toyMachine.profile toyMachine.builtin none 0 mismatchArchive.unsigned = .panic :=
    (C58_dev_panics toyMachine.env).2.1 _ _ _
  rw [h]

end Ksusig.Props
