import Verif.SpecExit
import Verif.Props.SignPanic

/-! # C115: exactly when the program crashes -/

namespace Ksusig.Props

open Ksusig Spec

theorem quiet_101 {r : Res Unit} : (Outcome.quiet r).status = 101 ↔ r = .panic := ⟨quiet_panic, fun h => by rw [h]; rfl⟩

theorem room_tight (vs : List Value) : (0 < room vs ∧ room vs < 12) ↔
    ∃ k, 4096 * k - 12 < 32 + (vs.map Value.size).sum ∧ 32 + (vs.map Value.size).sum < 4096 * k := by
  unfold room
  generalize (vs.map Value.size).sum = n
  constructor
  · intro h
    exact ⟨(32 + n) / 4096 + 1, by omega, by omega⟩
  · rintro ⟨k, h1, h2⟩
    omega

theorem part_v2 {E : Env} {m : ModuleSigner} {ds : Digests} {v1 : List Value} : m.signV2Part E ds = .ok v1 ↔
    (m.v2 = none ∧ v1 = [] ∨ ∃ c s, m.v2 = some c ∧ v2Sign E c ds = .ok s ∧ v1 = [.v2 s]) := by
  refine ⟨signV2Part_ok, ?_⟩
  unfold ModuleSigner.signV2Part
  rintro (⟨h, rfl⟩ | ⟨c, s, h, hs, rfl⟩)
  · rw [h]
  · rw [h]; dsimp only; rw [hs]; rfl

theorem part_stamp {E : Env} {clock : Option UInt64} {m : ModuleSigner} {ds : Digests} {v2 : List Value} :
    m.signStampPart E clock ds = .ok v2 ↔
    (m.stamp = none ∧ v2 = [] ∨ ∃ c s, m.stamp = some c ∧ stampSign E c m.timestamp clock ds = .ok s ∧ v2 = [.stamp s]) := by
  refine ⟨signStampPart_ok, ?_⟩
  unfold ModuleSigner.signStampPart
  rintro (⟨h, rfl⟩ | ⟨c, s, h, hs, rfl⟩)
  · rw [h]
  · rw [h]; dsimp only; rw [hs]; rfl

theorem strict_v2 {E : Env} {m : ModuleSigner} {ds : Digests} : m.signV2Part E ds ≠ .err .paddingTooLow := by
  intro h
  have := strict_signer (E := E) (clock := none) (m := { m with stamp := none }) (ds := ds)
  have hs : m.signV2Part E ds = .err .paddingTooLow → ({ m with stamp := none } : ModuleSigner).sign E .dev none ds =
      .err .paddingTooLow := by
    intro h
    unfold ModuleSigner.sign
    show (m.signV2Part E ds >>= _) = _
    rw [h]; rfl
  rcases this with ⟨_, h2⟩ | ⟨h1, _, h2⟩
  · rw [hs h] at h2; cases h2
  · rw [hs h] at h2; exact h1 h2.symm

theorem strict_stamp {E : Env} {clock : Option UInt64} {m : ModuleSigner} {ds : Digests} :
    m.signStampPart E clock ds ≠ .err .paddingTooLow := by
  intro h
  have := strict_signer (E := E) (clock := clock) (m := { m with v2 := none }) (ds := ds)
  have hs : m.signStampPart E clock ds = .err .paddingTooLow → ({ m with v2 := none } : ModuleSigner).sign E .dev clock ds =
      .err .paddingTooLow := by
    intro h
    unfold ModuleSigner.sign
    show (m.signStampPart E clock ds >>= _) = _
    rw [h]; rfl
  rcases this with ⟨_, h2⟩ | ⟨h1, _, h2⟩
  · rw [hs h] at h2; cases h2
  · rw [hs h] at h2; exact h1 h2.symm

/-- C115. The signer of a release build refuses for lack of padding exactly if padding is asked for and the block would end less than
12 bytes, but not exactly, before a multiple of 4096. -/
theorem C115_padding (E : Env) (clock : Option UInt64) (m : ModuleSigner) (ds : Digests) :
    m.sign E .release clock ds = .err .paddingTooLow ↔ TooTight E clock m ds := by
  have hids : ∀ {v1 v2 : List Value}, m.signV2Part E ds = .ok v1 → m.signStampPart E clock ds = .ok v2 →
      ¬ ∃ v ∈ v1 ++ v2, v.id = 0x42726577 := by
    rintro v1 v2 h1 h2 ⟨v, hv, hid⟩
    rcases List.mem_append.mp hv with hv | hv
    · rcases signV2Part_ok h1 with ⟨_, rfl⟩ | ⟨c, s, _, hs, rfl⟩
      · cases hv
      · cases List.mem_singleton.mp hv
        obtain ⟨g, _, _, h⟩ := v2Sign_made hs
        have : s.id = 0x42726577 := hid
        rw [h] at this
        exact absurd this (by decide)
    · rcases signStampPart_ok h2 with ⟨_, rfl⟩ | ⟨c, s, _, hs, rfl⟩
      · cases hv
      · cases List.mem_singleton.mp hv
        obtain ⟨_, h⟩ := stampSign_made hs
        have : s.id = 0x42726577 := hid
        rw [h] at this
        exact absurd this (by decide)
  have hfin : ∀ vs, (¬ ∃ v ∈ vs, v.id = 0x42726577) →
      (m.finish .release vs = .err .paddingTooLow ↔ m.padding = true ∧ 0 < room vs ∧ room vs < 12) := by
    intro vs hno
    unfold ModuleSigner.finish
    by_cases hp : m.padding = true
    · rw [if_pos hp, C04_exact_outcome_partial, if_neg hno]
      by_cases hr : 0 < room vs ∧ room vs < 12
      · rw [if_pos hr]; exact ⟨fun _ => ⟨hp, hr⟩, fun _ => rfl⟩
      · rw [if_neg hr]
        refine ⟨fun h => ?_, fun h => absurd h.2 hr⟩
        split at h <;> cases h
    · rw [if_neg hp]
      refine ⟨fun h => ?_, fun h => absurd h.1 hp⟩
      unfold SigningBlock.new at h
      dsimp only at h
      split at h <;> cases h
  unfold TooTight Signs
  constructor
  · intro h
    unfold ModuleSigner.sign at h
    cases h1 : m.signV2Part E ds with
    | panic => rw [h1] at h; cases h
    | err x => rw [h1, Res.err_bind] at h; exact absurd (h1.trans (congrArg Res.err (Res.err.inj h))) strict_v2
    | ok v1 =>
      rw [h1, Res.ok_bind] at h
      cases h2 : m.signStampPart E clock ds with
      | panic => rw [h2] at h; cases h
      | err x => rw [h2, Res.err_bind] at h; exact absurd (h2.trans (congrArg Res.err (Res.err.inj h))) strict_stamp
      | ok v2 =>
        rw [h2, Res.ok_bind] at h
        dsimp only at h
        split at h
        · cases h
        · rename_i hne
          obtain ⟨hp, hr⟩ := (hfin _ (hids h1 h2)).mp h
          obtain ⟨k, hk⟩ := (room_tight _).mp hr
          exact ⟨hp, v1 ++ v2, k, ⟨v1, v2, rfl, fun h => hne (List.isEmpty_iff.mpr h), part_v2.mp h1, part_stamp.mp h2⟩, hk⟩
  · rintro ⟨hp, vs, k, ⟨v1, v2, rfl, hne, h1, h2⟩, hk⟩
    have h1 := part_v2.mpr h1
    have h2 := part_stamp.mpr h2
    unfold ModuleSigner.sign
    rw [h1, Res.ok_bind, h2, Res.ok_bind]
    dsimp only
    rw [if_neg (fun h => hne (List.isEmpty_iff.mp h))]
    exact (hfin _ (hids h1 h2)).mpr ⟨hp, (room_tight _).mpr ⟨k, hk⟩⟩

/-- The regions of a selected ELF file cannot be added up. -/
theorem elf_regions_panic {p : Profile} {acc : Bytes → Bool} {f : ElfFile} : cliRegions p acc (.elf f) = .panic ↔
    p = .dev ∧ ∃ rs, f.digestRegions acc = .ok rs ∧ 2 ^ 64 ≤ (rs.map DigestRegion.size).sum := by
  rw [cliRegions_panic]
  have hn : (SignableFile.elf f).digestRegions p acc ≠ .panic := np_bind np_resolved fun _ _ => np_ok
  constructor
  · rintro (h | ⟨rs, h, hp, hs⟩)
    · exact absurd h hn
    · exact ⟨hp, rs, h, hs⟩
  · rintro ⟨hp, rs, h, hs⟩; exact .inr ⟨rs, h, hp, hs⟩

theorem digest_command_101 (E : Env) (p : Profile) (acc : Bytes → Bool) (sha512 : Bool) (fmt : OutputFormat)
    (sections : List (List Char)) (inPlace : Bool) (file : Bytes) (hlen : file.length < 2 ^ 64) :
    (cliDigest E p acc sha512 fmt sections file = .panic ↔ p = .dev ∧
      ((sections = [] ∧ detectFileFormat file = .ok .module ∧ Damaged file) ∨ ∃ f rs, cliOpen acc sections file = .ok (.elf f) ∧
        f.digestRegions acc = .ok rs ∧ 2 ^ 64 ≤ (rs.map DigestRegion.size).sum)) ∧
    ((cliDump p acc sections inPlace file).2 = .panic ↔ p = .dev ∧
      ((sections = [] ∧ detectFileFormat file = .ok .module ∧ Damaged file) ∨ ∃ f rs, cliOpen acc sections file = .ok (.elf f) ∧
        f.digestRegions acc = .ok rs ∧ 2 ^ 64 ≤ (rs.map DigestRegion.size).sum)) := by
  by_cases hm : detectFileFormat file = .ok .module
  · have hnot : ∀ f, cliOpen acc sections file ≠ .ok (.elf f) := by
      intro f h
      rcases cliOpen_cases h with ⟨h, _⟩ | ⟨_, _, _, _, h⟩
      · cases h
      · rw [hm] at h; cases h
    obtain ⟨k1, k2⟩ := C113_digest_command E p acc sha512 fmt sections inPlace file hlen hm
    have hiff : (sections = [] ∧ p = .dev ∧ ∃ pos t off, EndRecord file pos t off ∧
        ((∃ u, TornBefore file (min file.length off) u) ∨ ∃ s e, Located file off s e ∧ pos < e)) ↔ p = .dev ∧
        ((sections = [] ∧ detectFileFormat file = .ok .module ∧ Damaged file) ∨ ∃ f rs, cliOpen acc sections file = .ok (.elf f) ∧
        f.digestRegions acc = .ok rs ∧ 2 ^ 64 ≤ (rs.map DigestRegion.size).sum) := by
      constructor
      · rintro ⟨h1, h2, h3⟩; exact ⟨h2, .inl ⟨h1, hm, h3⟩⟩
      · rintro ⟨h2, ⟨h1, _, h3⟩ | ⟨f, _, h, _⟩⟩
        · exact ⟨h1, h2, h3⟩
        · exact absurd h (hnot f)
    exact ⟨k1.trans hiff, k2.trans hiff⟩
  · have hform : (p = .dev ∧ ((sections = [] ∧ detectFileFormat file = .ok .module ∧ Damaged file) ∨
        ∃ f rs, cliOpen acc sections file = .ok (.elf f) ∧
        f.digestRegions acc = .ok rs ∧ 2 ^ 64 ≤ (rs.map DigestRegion.size).sum)) ↔
        (cliOpen acc sections file >>= fun s => cliRegions p acc s) = .panic := by
      cases ho : cliOpen acc sections file with
      | panic => exact absurd ho np_cliOpen
      | err x =>
        refine ⟨?_, nofun⟩
        rintro ⟨_, ⟨_, h, _⟩ | ⟨_, _, h, _⟩⟩
        · exact absurd h hm
        · cases h
      | ok s =>
        rcases cliOpen_cases ho with ⟨_, _, h⟩ | ⟨f, rfl, _, _, _⟩
        · exact absurd h hm
        · rw [Res.ok_bind, elf_regions_panic]
          constructor
          · rintro ⟨hp, ⟨_, h, _⟩ | ⟨f', rs, h, h1, h2⟩⟩
            · exact absurd h hm
            · cases h; exact ⟨hp, rs, h1, h2⟩
          · rintro ⟨hp, rs, h1, h2⟩; exact ⟨hp, .inr ⟨f, rs, rfl, h1, h2⟩⟩
    rw [hform]
    refine ⟨?_, ?_⟩
    · unfold cliDigest
      cases ho : cliOpen acc sections file with
      | panic => exact absurd ho np_cliOpen
      | err x => exact ⟨nofun, nofun⟩
      | ok s =>
        rcases cliOpen_cases ho with ⟨_, _, h⟩ | ⟨f, rfl, _, _, _⟩
        · exact absurd h hm
        · rw [Res.ok_bind, Res.ok_bind]
          cases hr : cliRegions p acc (.elf f) with
          | panic => exact ⟨fun _ => rfl, fun _ => rfl⟩
          | err x => exact ⟨nofun, nofun⟩
          | ok rs =>
            refine ⟨fun h => absurd h ?_, nofun⟩
            rw [Res.ok_bind]
            exact np_bind np_elfDigest fun _ _ => np_ok
    · unfold cliDump
      dsimp only
      split
      · rename_i heq
        have heq : (cliOpen acc sections file >>= fun s => cliRegions p acc s) = _ := heq
        rw [heq]; exact ⟨nofun, nofun⟩
      · rename_i heq
        have heq : (cliOpen acc sections file >>= fun s => cliRegions p acc s) = _ := heq
        rw [heq]; exact ⟨fun _ => rfl, fun _ => rfl⟩
      · rename_i rs heq
        have heq : (cliOpen acc sections file >>= fun s => cliRegions p acc s) = _ := heq
        rw [heq]
        refine ⟨fun h => ?_, nofun⟩
        dsimp only at h
        generalize (dumpRegions (if inPlace = true then [] else file) rs).2 = k at h
        cases k <;> cases h

/-- C115. The digest command ends with the status of a panic exactly in a development build, on a damaged module or an ELF file whose
selected sections have sizes with a sum of 2^64 or more. -/
theorem C115_digest {M : Machine} {now : Nat} {clock : Option UInt64} {fs : Fs} {input : Path} {sha512 : Bool} {fmt : OutputFormat}
    {sections : List (List Char)} (hlen : ∀ file, fs input = some file → file.length < 2 ^ 63) :
    ((Command.digest input sha512 fmt sections).exec M now clock fs).status = 101 ↔ M.profile = .dev ∧
      ((∃ file, fs input = some file ∧ sections = [] ∧ detectFileFormat file = .ok .module ∧ Damaged file) ∨
        ∃ f rs, Target M fs input sections (.elf f) ∧ f.digestRegions M.acc = .ok rs ∧
          2 ^ 64 ≤ (rs.map DigestRegion.size).sum) := by
  unfold Command.exec Target
  dsimp only
  cases hf : fs input with
  | none =>
    refine ⟨nofun, ?_⟩
    rintro ⟨_, ⟨_, h, _⟩ | ⟨_, _, ⟨_, h, _⟩, _⟩⟩ <;> cases h
  | some file =>
    have hl := hlen file hf
    have h := (digest_command_101 M.env M.profile M.acc sha512 fmt sections false file (by omega)).1
    dsimp only
    have hq : (match cliDigest M.env M.profile M.acc sha512 fmt sections file with
        | .ok text => (⟨none, text, .ok ()⟩ : Outcome)
        | .err e => .quiet (.err e)
        | .panic => .quiet .panic).status = 101 ↔ cliDigest M.env M.profile M.acc sha512 fmt sections file = .panic := by
      cases cliDigest M.env M.profile M.acc sha512 fmt sections file with
      | ok t => exact ⟨nofun, nofun⟩
      | err e => exact ⟨nofun, nofun⟩
      | panic => exact ⟨fun _ => rfl, fun _ => rfl⟩
    refine hq.trans (h.trans ?_)
    constructor
    · rintro ⟨hp, h | ⟨f, rs, h1, h2⟩⟩
      · exact ⟨hp, .inl ⟨file, rfl, h⟩⟩
      · exact ⟨hp, .inr ⟨f, rs, ⟨file, rfl, h1⟩, h2⟩⟩
    · rintro ⟨hp, ⟨_, ⟨⟩, h⟩ | ⟨f, rs, ⟨_, ⟨⟩, h1⟩, h2⟩⟩
      · exact ⟨hp, .inl h⟩
      · exact ⟨hp, .inr ⟨f, rs, h1, h2⟩⟩

theorem dump_none {p : Profile} {acc : Bytes → Bool} {sections : List (List Char)} {ip : Bool} {file d : Bytes} :
    cliDump p acc sections ip file ≠ (some d, .panic) := by
  intro h
  rcases cliDump_ok h with ⟨h, _⟩ | ⟨_, rs, _, _, _, h⟩
  · cases h
  · generalize (dumpRegions (if ip = true then [] else file) rs).2 = k at h
    cases k <;> cases h

theorem create_101 {M : Machine} {o : Path} {x : Option Bytes × Res Unit} :
    (Outcome.create M o x).status = 101 ↔ x.2 = .panic ∧ (x.1.isSome → M.creatable o = true) := by
  obtain ⟨d, r⟩ := x
  cases d with
  | none =>
    show (Outcome.quiet r).status = 101 ↔ _
    rw [quiet_101]
    exact ⟨fun h => ⟨h, nofun⟩, fun h => h.1⟩
  | some d =>
    unfold Outcome.create
    dsimp only
    by_cases hc : M.creatable o = true
    · rw [if_pos hc]
      have : (⟨some (o, d), [], r⟩ : Outcome).status = 101 ↔ r = .panic := by
        cases r <;> simp [Outcome.status]
      rw [this]
      exact ⟨fun h => ⟨h, fun _ => hc⟩, fun h => h.1⟩
    · rw [if_neg hc]
      exact ⟨nofun, fun h => absurd (h.2 rfl) hc⟩

/-- C115. The same for the digest command with `--dump`, whether the output can be created or not. -/
theorem C115_dump {M : Machine} {now : Nat} {clock : Option UInt64} {fs : Fs} {input output : Path}
    {sections : List (List Char)} (hlen : ∀ file, fs input = some file → file.length < 2 ^ 63) :
    ((Command.dump input output sections).exec M now clock fs).status = 101 ↔ M.profile = .dev ∧
      ((∃ file, fs input = some file ∧ sections = [] ∧ detectFileFormat file = .ok .module ∧ Damaged file) ∨
        ∃ f rs, Target M fs input sections (.elf f) ∧ f.digestRegions M.acc = .ok rs ∧
          2 ^ 64 ≤ (rs.map DigestRegion.size).sum) := by
  unfold Command.exec Target
  dsimp only
  cases hf : fs input with
  | none =>
    refine ⟨nofun, ?_⟩
    rintro ⟨_, ⟨_, h, _⟩ | ⟨_, _, ⟨_, h, _⟩, _⟩⟩ <;> cases h
  | some file =>
    have hl := hlen file hf
    have h := (digest_command_101 M.env M.profile M.acc false .hex sections (decide (output = input)) file (by omega)).2
    dsimp only
    rw [create_101]
    have hq : ((cliDump M.profile M.acc sections (decide (output = input)) file).2 = .panic ∧
        ((cliDump M.profile M.acc sections (decide (output = input)) file).1.isSome → M.creatable output = true)) ↔
        (cliDump M.profile M.acc sections (decide (output = input)) file).2 = .panic := by
      refine ⟨fun h => h.1, fun h => ⟨h, fun k => ?_⟩⟩
      obtain ⟨d, hd⟩ := Option.isSome_iff_exists.mp k
      exact absurd (Prod.ext hd h) dump_none
    refine hq.trans (h.trans ?_)
    constructor
    · rintro ⟨hp, h | ⟨f, rs, h1, h2⟩⟩
      · exact ⟨hp, .inl ⟨file, rfl, h⟩⟩
      · exact ⟨hp, .inr ⟨f, rs, ⟨file, rfl, h1⟩, h2⟩⟩
    · rintro ⟨hp, ⟨_, ⟨⟩, h⟩ | ⟨f, rs, ⟨_, ⟨⟩, h1⟩, h2⟩⟩
      · exact ⟨hp, .inl h⟩
      · exact ⟨hp, .inr ⟨f, rs, h1, h2⟩⟩

theorem signModule_none {E : Env} {p : Profile} {clock : Option UInt64} {m : ModuleSigner} {ip : Bool} {file d : Bytes} :
    cliSignModule E p clock m ip file ≠ (some d, .panic) := by
  intro h
  cases ip with
  | true =>
    obtain ⟨_, x, hx⟩ := C59_in_place_destroys h
    cases hx
  | false =>
    unfold cliSignModule at h
    dsimp only at h
    split at h
    · cases h
    · cases h
    · rename_i b heq
      have h2 := congrArg Prod.snd h
      have h2 : ((Module.new file).signableWrite p file b).2 = .panic := h2
      obtain ⟨rs, hrs, _⟩ := Res.bind_eq_ok.mp heq
      obtain ⟨hp, pos, t, off, u, k1, k2⟩ := (C114_write p file b).mp h2
      have := (C113_regions p file).mpr ⟨hp, pos, t, off, k1, .inl ⟨u, k2⟩⟩
      rw [hrs] at this
      cases this

theorem elfDigests_iff {M : Machine} {f : ElfFile} {as : List Algo} {pairs : List (Algo × Bytes)} :
    cliElfDigests M.env M.acc f as = .ok pairs ↔ DigestsOf M (.elf f) as pairs := by
  induction as generalizing pairs with
  | nil =>
    unfold cliElfDigests DigestsOf
    constructor
    · intro h; cases h; exact ⟨rfl, nofun⟩
    · rintro ⟨h, _⟩; cases List.map_eq_nil_iff.mp h; rfl
  | cons a as ih =>
    unfold cliElfDigests
    constructor
    · intro h
      obtain ⟨d, hd, h⟩ := Res.bind_eq_ok.mp h
      obtain ⟨rest, hr, h⟩ := Res.bind_eq_ok.mp h
      cases h
      obtain ⟨h1, h2⟩ := ih.mp hr
      refine ⟨by rw [List.map_cons, h1], fun x hx => ?_⟩
      rcases List.mem_cons.mp hx with rfl | hx
      · exact hd
      · exact h2 x hx
    · rintro ⟨h1, h2⟩
      cases pairs with
      | nil => cases h1
      | cons x xs =>
        obtain ⟨rfl, h3⟩ := List.cons.inj h1
        have hd : f.digest M.env M.acc x.1 = .ok x.2 := h2 x List.mem_cons_self
        rw [hd, Res.ok_bind, ih.mpr ⟨h3, fun y hy => h2 y (List.mem_cons_of_mem _ hy)⟩]
        rfl

theorem elfBlock_iff {M : Machine} {clock : Option UInt64} {m : ModuleSigner} {f : ElfFile} {b : SigningBlock} :
    cliElfBlock M.env M.profile M.acc clock m f = .ok b ↔ Makes M clock m (.elf f) b := by
  unfold cliElfBlock Makes
  constructor
  · intro h
    obtain ⟨rs, _, h⟩ := Res.bind_eq_ok.mp h
    obtain ⟨pairs, hp, h⟩ := Res.bind_eq_ok.mp h
    obtain ⟨b0, hb, h⟩ := Res.bind_eq_ok.mp h
    exact ⟨pairs, b0, elfDigests_iff.mp hp, hb, h⟩
  · rintro ⟨pairs, b0, hp, hb, h⟩
    have h' := h
    unfold SignableFile.record at h'
    obtain ⟨l, hl, _⟩ := Res.bind_eq_ok.mp h'
    have hr : ∃ rs, f.digestRegions M.acc = .ok rs := by
      unfold ElfFile.digestRegions
      rw [hl]
      exact ⟨_, rfl⟩
    obtain ⟨rs, hr⟩ := hr
    rw [hr, Res.ok_bind, elfDigests_iff.mpr hp, Res.ok_bind, hb, Res.ok_bind]
    exact h

theorem signElf_some {E : Env} {p : Profile} {acc : Bytes → Bool} {clock : Option UInt64} {m : ModuleSigner}
    {names : List (List Char)} {ip : Bool} {file : Bytes} {f0 : ElfFile} (ho : SignableFile.open acc file = .ok (.elf f0)) :
    (cliSign E p acc clock m names ip file).1.isSome = true ↔
      ∃ f b, cliElfSelect f0 names = .ok f ∧ cliElfBlock E p acc clock m f = .ok b := by
  unfold cliSign
  rw [ho]
  dsimp only
  cases h1 : cliElfSelect f0 names with
  | err x => exact ⟨nofun, fun ⟨_, _, h, _⟩ => nomatch h⟩
  | panic => exact ⟨nofun, fun ⟨_, _, h, _⟩ => nomatch h⟩
  | ok f =>
    rw [Res.ok_bind]
    cases h2 : cliElfBlock E p acc clock m f with
    | err x =>
      refine ⟨nofun, ?_⟩
      rintro ⟨f', b, hf, h⟩
      cases hf; rw [h2] at h; cases h
    | panic =>
      refine ⟨nofun, ?_⟩
      rintro ⟨f', b, hf, h⟩
      cases hf; rw [h2] at h; cases h
    | ok b =>
      refine ⟨fun _ => ⟨f, b, rfl, h2⟩, fun _ => ?_⟩
      rw [Res.ok_bind]
      dsimp only
      cases f.writeWithSignature acc b <;> rfl

/-- C115. The sign command ends with the status of a panic exactly if the credentials can be loaded, the input can be read, and one
of these holds. In a development build: the input is a damaged module, or one whose new block would have too little room for padding,
or an ELF file with selected sections whose new block would. In both builds: the output can be created, and the signed ELF file would
be longer than memory can hold. -/
theorem C115_sign {M : Machine} {now : Nat} {clock : Option UInt64} {fs : Fs} {input output : Path} {v2 stamp : CredPaths}
    {sections : List (List Char)} (hlen : ∀ file, fs input = some file → file.length < 2 ^ 63) :
    ((Command.sign input output v2 stamp sections).exec M now clock fs).status = 101 ↔
      ∃ m file, signerFrom M.keys fs v2 stamp = .ok m ∧ fs input = some file ∧
      ((M.profile = .dev ∧ sections = [] ∧ detectFileFormat file = .ok .module ∧ (Damaged file ∨ ∃ pos t off s e,
          EndRecord file pos t off ∧ Located file off s e ∧ e ≤ pos ∧ TooTight M.env clock m (moduleDigests M.env m file s e pos))) ∨
        ∃ f, Target M fs input sections (.elf f) ∧
          ((M.profile = .dev ∧ ∃ rs pairs, f.digestRegions M.acc = .ok rs ∧
              DigestsOf M (.elf f) m.requiredAlgorithms pairs ∧
              TooTight M.env clock m (Digests.new (pairs.map fun x => Digest.new x.1 x.2))) ∨
            M.creatable output = true ∧ ∃ b e n body table, Makes M clock m (.elf f) b ∧ ElfView file e ∧
              Plan e file b.toU8 n body table ∧ (2 ^ 63 ≤ body.length ∨ n < 2 ^ 32 ∧ 2 ^ 63 ≤ (withTable e body table).length))) := by
  unfold Command.exec
  dsimp only
  cases hs : signerFrom M.keys fs v2 stamp with
  | error x => exact ⟨nofun, fun ⟨_, _, h, _⟩ => nomatch h⟩
  | ok m =>
    dsimp only
    cases hf : fs input with
    | none => exact ⟨nofun, fun ⟨_, _, _, h, _⟩ => nomatch h⟩
    | some file =>
      dsimp only
      have hl := hlen file hf
      rw [create_101]
      cases ho : SignableFile.open M.acc file with
      | panic => exact absurd ho np_open
      | err x =>
        have hc : cliSign M.env M.profile M.acc clock m sections (decide (output = input)) file = (none, .err x) := by
          unfold cliSign; rw [ho]
        rw [hc]
        refine ⟨fun h => (nomatch h.1), ?_⟩
        rintro ⟨_, _, _, ⟨⟩, ⟨_, _, h, _⟩ | ⟨f, ⟨_, h1, h⟩, _⟩⟩
        · unfold SignableFile.open at ho; rw [h] at ho; cases ho
        · rw [hf] at h1; cases h1; unfold cliOpen at h; rw [ho] at h; cases h
      | ok s0 =>
        cases s0 with
        | module m0 g =>
          have hfmt : detectFileFormat file = .ok .module := by
            have ho' := ho
            unfold SignableFile.open at ho'
            obtain ⟨fmt, h1, h2⟩ := Res.bind_eq_ok.mp ho'
            cases fmt with
            | module => exact h1
            | elf => obtain ⟨_, _, h2⟩ := Res.bind_eq_ok.mp h2; cases h2
          have hnot : ∀ f, ¬ Target M fs input sections (.elf f) := by
            rintro f ⟨file', h1, h2⟩
            rw [hf] at h1
            cases h1
            rcases cliOpen_cases h2 with ⟨h, _⟩ | ⟨_, _, _, _, h⟩
            · cases h
            · rw [hfmt] at h; cases h
          by_cases hsec : sections = []
          · subst hsec
            have hc : cliSign M.env M.profile M.acc clock m [] (decide (output = input)) file =
                cliSignModule M.env M.profile clock m (decide (output = input)) file := by
              unfold cliSign; rw [ho]; rfl
            rw [hc]
            have hq : ((cliSignModule M.env M.profile clock m (decide (output = input)) file).2 = .panic ∧
                ((cliSignModule M.env M.profile clock m (decide (output = input)) file).1.isSome → M.creatable output = true)) ↔
                (cliSignModule M.env M.profile clock m (decide (output = input)) file).2 = .panic := by
              refine ⟨fun h => h.1, fun h => ⟨h, fun k => ?_⟩⟩
              obtain ⟨d, hd⟩ := Option.isSome_iff_exists.mp k
              exact absurd (Prod.ext hd h) signModule_none
            refine hq.trans ((C114_sign_module M.env M.profile clock m _ file (by omega)).trans ?_)
            constructor
            · rintro ⟨hp, pos, t, off, hr, h | h | ⟨s, e, hl, hle, h⟩⟩
              · exact ⟨m, file, rfl, rfl, .inl ⟨hp, rfl, hfmt, .inl ⟨pos, t, off, hr, .inl h⟩⟩⟩
              · exact ⟨m, file, rfl, rfl, .inl ⟨hp, rfl, hfmt, .inl ⟨pos, t, off, hr, .inr h⟩⟩⟩
              · exact ⟨m, file, rfl, rfl, .inl ⟨hp, rfl, hfmt, .inr ⟨pos, t, off, s, e, hr, hl, hle, (C115_padding _ _ _ _).mp h⟩⟩⟩
            · rintro ⟨_, _, ⟨⟩, ⟨⟩, ⟨hp, _, _, ⟨pos, t, off, hr, h⟩ | ⟨pos, t, off, s, e, hr, hl, hle, h⟩⟩ | ⟨f, h, _⟩⟩
              · exact ⟨hp, pos, t, off, hr, h.imp id .inl⟩
              · exact ⟨hp, pos, t, off, hr, .inr (.inr ⟨s, e, hl, hle, (C115_padding _ _ _ _).mpr h⟩)⟩
              · exact absurd h (hnot f)
          · have hc : cliSign M.env M.profile M.acc clock m sections (decide (output = input)) file = (none, .err .unknownFormat) := by
              unfold cliSign; rw [ho]; dsimp only; rw [if_neg (fun h => hsec (List.isEmpty_iff.mp h))]
            rw [hc]
            refine ⟨fun h => (nomatch h.1), ?_⟩
            rintro ⟨_, _, _, _, ⟨_, h, _⟩ | ⟨f, h, _⟩⟩
            · exact absurd h hsec
            · exact absurd h (hnot f)
        | elf f0 =>
          have hfmt : detectFileFormat file ≠ .ok .module := by
            intro h
            have ho' := ho
            unfold SignableFile.open at ho'
            rw [h] at ho'; cases ho'
          have hsome := signElf_some (E := M.env) (p := M.profile) (clock := clock) (m := m) (names := sections)
            (ip := decide (output = input)) ho
          have hblk : ∀ f rs pairs, M.profile = .dev → f.digestRegions M.acc = .ok rs →
              cliElfDigests M.env M.acc f m.requiredAlgorithms = .ok pairs →
              m.sign M.env .release clock (Digests.new (pairs.map fun x => Digest.new x.1 x.2)) = .err .paddingTooLow →
              ∀ b, cliElfBlock M.env M.profile M.acc clock m f ≠ .ok b := by
            intro f rs pairs hp h1 h2 h3 b hb
            rw [hp] at hb
            unfold cliElfBlock at hb
            rw [h1, Res.ok_bind, h2, Res.ok_bind, (C114_signer M.env clock m _).1.mpr h3] at hb
            cases hb
          have hx := C114_sign_elf M.env M.profile M.acc clock m sections (decide (output = input)) file f0 ho hl
          constructor
          · rintro ⟨h1, h2⟩
            obtain ⟨f, hsel, ⟨hp, rs, pairs, k1, k2, k3⟩ | ⟨b, e, n, body, table, k1, k2⟩⟩ := hx.mp h1
            · exact ⟨m, file, rfl, rfl, .inr ⟨f, ⟨file, hf, (cliOpen_elf ho).mpr ⟨f, hsel, rfl⟩⟩,
                .inl ⟨hp, rs, pairs, k1, elfDigests_iff.mp k2, (C115_padding _ _ _ _).mp k3⟩⟩⟩
            · exact ⟨m, file, rfl, rfl, .inr ⟨f, ⟨file, hf, (cliOpen_elf ho).mpr ⟨f, hsel, rfl⟩⟩,
                .inr ⟨h2 (hsome.mpr ⟨f, b, hsel, k1⟩), b, e, n, body, table, elfBlock_iff.mp k1, k2⟩⟩⟩
          · rintro ⟨_, _, ⟨⟩, ⟨⟩, ⟨_, _, h, _⟩ | ⟨f, ⟨_, hf', hopen⟩, hk⟩⟩
            · exact absurd h hfmt
            · rw [hf] at hf'
              cases hf'
              obtain ⟨f', hsel, heq⟩ := (cliOpen_elf ho).mp hopen
              cases heq
              rcases hk with ⟨hp, rs, pairs, k1, k2, k3⟩ | ⟨hcr, b, e, n, body, table, k1, k2⟩
              · have k2 := elfDigests_iff.mpr k2
                have k3 := (C115_padding _ _ _ _).mpr k3
                refine ⟨hx.mpr ⟨f, hsel, .inl ⟨hp, rs, pairs, k1, k2, k3⟩⟩, fun h => ?_⟩
                obtain ⟨f', b, h1, h2⟩ := hsome.mp h
                rw [hsel] at h1
                cases h1
                exact absurd h2 (hblk f rs pairs hp k1 k2 k3 b)
              · exact ⟨hx.mpr ⟨f, hsel, .inr ⟨b, e, n, body, table, elfBlock_iff.mpr k1, k2⟩⟩, fun _ => hcr⟩

/-- C115. There is no other status than 0, 1 and that of a panic, and the status is 0 exactly for success. -/
theorem C115_statuses (M : Machine) (now : Nat) (clock : Option UInt64) (fs : Fs) (c : Command) :
    ((c.exec M now clock fs).status = 0 ↔ (c.exec M now clock fs).result = .ok ()) ∧
    ((c.exec M now clock fs).status = 1 ↔ ∃ e, (c.exec M now clock fs).result = .err e) ∧
    ((c.exec M now clock fs).status = 0 ∨ (c.exec M now clock fs).status = 1 ∨ (c.exec M now clock fs).status = 101) := by
  generalize c.exec M now clock fs = o
  obtain ⟨w, pr, r⟩ := o
  cases r <;> simp [Outcome.status]

/-- C115. A release build crashes only in the sign command, on an ELF file that would be longer than memory can hold once signed. -/
theorem C115_release {M : Machine} (hM : M.profile = .release) {now : Nat} {clock : Option UInt64} {fs : Fs} {c : Command}
    (hlen : ∀ path file, fs path = some file → file.length < 2 ^ 63) (h : (c.exec M now clock fs).status = 101) :
    ∃ input output v2 stamp sections m file f b e n body table, c = .sign input output v2 stamp sections ∧
      signerFrom M.keys fs v2 stamp = .ok m ∧ fs input = some file ∧ Target M fs input sections (.elf f) ∧
      M.creatable output = true ∧ Makes M clock m (.elf f) b ∧ ElfView file e ∧ Plan e file b.toU8 n body table ∧
      (2 ^ 63 ≤ body.length ∨ n < 2 ^ 32 ∧ 2 ^ 63 ≤ (withTable e body table).length) := by
  have hd : M.profile ≠ .dev := by rw [hM]; nofun
  cases c with
  | verify module root => exact absurd (C113_verify_exit.mp h).1 hd
  | info module => exact absurd (C113_info_exit.mp h).1 hd
  | digest input sha512 fmt sections => exact absurd ((C115_digest (hlen input)).mp h).1 hd
  | dump input output sections => exact absurd ((C115_dump (hlen input)).mp h).1 hd
  | sign input output v2 stamp sections =>
    obtain ⟨m, file, h1, h2, ⟨hp, _⟩ | ⟨f, h3, ⟨hp, _⟩ | ⟨h4, b, e, n, body, table, h5⟩⟩⟩ := (C115_sign (hlen input)).mp h
    · exact absurd hp hd
    · exact absurd hp hd
    · exact ⟨input, output, v2, stamp, sections, m, file, f, b, e, n, body, table, rfl, h1, h2, h3, h4, h5⟩

/-- There are damaged modules, signers whose block has too little room for padding, and sections that cannot be added up. -/
example : Damaged mismatchArchive.unsigned ∧ TooTight toyEnv none unluckySigner (Digests.new [Digest.new .p256 [1]]) ∧
    (∃ f rs, cliOpen anyElf [] elfHuge = .ok (.elf f) ∧ f.digestRegions anyElf = .ok rs ∧
      2 ^ 64 ≤ (rs.map DigestRegion.size).sum) := by
  refine ⟨?_, ?_, ?_⟩
  · obtain ⟨_, pos, t, off, u, h1, h2⟩ := (C113_block .dev mismatchArchive.unsigned).mp (by decide +kernel)
    exact ⟨pos, t, off, h1, .inl ⟨u, h2⟩⟩
  · exact (C115_padding _ _ _ _).mp (by decide +kernel)
  · have h := (digest_command_101 toyEnv .dev anyElf false .hex [] false elfHuge (by decide +kernel)).1.mp (C70_total_overflow.2 .hex)
    obtain ⟨_, ⟨_, h, _⟩ | h⟩ := h
    · exact absurd h (by decide +kernel)
    · exact h

end Ksusig.Props
