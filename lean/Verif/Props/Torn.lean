import Verif.Proofs.Torn
import Verif.Props.Anatomy
import Verif.Props.Exit
import Verif.Model.CliInfo
import Verif.Props.CliDigest

/-! # C113: exactly which files make a development build panic -/

namespace Ksusig.Props

open Ksusig Spec

/-- C113. Looking for the signing block of a module panics exactly in development builds, on files with an end record in force
whose search comes to a block with two different size fields. -/
theorem C113_block (p : Profile) (file : Bytes) : (Module.new file).getSigningBlock p file = .panic ↔
    p = .dev ∧ ∃ pos t off u, EndRecord file pos t off ∧ TornBefore file (min file.length off) u := by
  have hdef : (Module.new file).getSigningBlock p file = (findEocd file file.length >>= fun e =>
    SigningBlock.fromReader p file file.length (file.length - e.cdOffset.toNat)) := rfl
  rw [hdef]
  cases he : findEocd file file.length with
  | panic => exact absurd he np_findEocd
  | err e =>
    refine ⟨nofun, ?_⟩
    rintro ⟨_, pos, t, off, u, h, _⟩
    have := findEocd_iff.mpr ⟨pos, t, off, h, rfl⟩
    rw [he] at this; cases this
  | ok e =>
    obtain ⟨pos, t, off, hr, rfl⟩ := findEocd_iff.mp he
    have hoff : (t.eocd off pos).cdOffset.toNat = off := u32_ofNat_toNat hr.offset
    rw [Res.ok_bind, hoff, fromReader_panic, limit_eq]
    constructor
    · rintro ⟨hp, _, u, hu⟩; exact ⟨hp, pos, t, off, u, hr, hu⟩
    · rintro ⟨hp, pos', t', off', u, hr', hu⟩
      obtain ⟨_, _, rfl⟩ := hr.unique hr'
      exact ⟨hp, by omega, u, hu⟩

/-- C113. Reading a block at a given distance from the end. -/
theorem C113_from_reader (p : Profile) (file : Bytes) (fileLen endOffset : Nat) :
    SigningBlock.fromReader p file fileLen endOffset = .panic ↔
      p = .dev ∧ fileLen - endOffset ≤ file.length ∧ ∃ u, TornBefore file (fileLen - endOffset) u := fromReader_panic

/-- C113. Parsing a block out of bytes panics exactly in development builds, if the last magic (not at the very start) stands among
the first eight bytes, or follows a size field below 16, or closes a block with two different size fields. -/
theorem C113_from_u8 (p : Profile) (d : Bytes) : SigningBlock.fromU8 p d = .panic ↔
    p = .dev ∧ 32 ≤ d.length ∧ ∃ t, 1 ≤ t ∧ MagicAtPos d t ∧ (∀ v, MagicAtPos d v → v ≤ t) ∧
      (t < 8 ∨ wordAt d (t - 8) < 16 ∨ Torn d t) := fromU8_panic

/-- C113. The info command, which searches the whole end of the file. -/
theorem C113_info (E : Env) (p : Profile) (builtinPem : Bytes) (now : Nat) (file : Bytes) :
    (cliInfoRun E p builtinPem now file).2 = .panic ↔ p = .dev ∧ ∃ u, TornBefore file file.length u := by
  have h := fromReader_panic (p := p) (file := file) (fl := file.length) (eo := 0)
  simp only [Nat.sub_zero, Nat.le_refl, true_and] at h
  rw [← h]
  unfold cliInfoRun
  have : cliInfoBlock p file = SigningBlock.fromReader p file file.length 0 := rfl
  rw [this]
  cases SigningBlock.fromReader p file file.length 0 with
  | ok b => exact ⟨nofun, nofun⟩
  | err e => exact ⟨nofun, nofun⟩
  | panic => exact ⟨fun _ => rfl, fun _ => rfl⟩

/-- The directory's start, in terms of the bytes of the file. -/
theorem dirStart_iff {p : Profile} {file : Bytes} {pos : Nat} {t : Tail} {off n : Nat} (hr : EndRecord file pos t off) :
    DirStart p file (t.eocd off pos) n ↔ ∃ s, Located file off s n := by
  have hoff : (t.eocd off pos).cdOffset.toNat = off := u32_ofNat_toNat hr.offset
  constructor
  · intro h
    cases h with
    | signed b hb =>
      obtain ⟨pos', t', off', pre, pairs, h1, h2, h3⟩ := (C89_block p file b).mp hb
      obtain ⟨_, _, rfl⟩ := hr.unique h1
      refine ⟨pre.length, ?_⟩
      have : b.fileEnd = pre.length + pairs.length + 32 := by rw [h3]
      rw [this]
      exact .signed pre pairs _ h2
    | unsigned err hb hm =>
      obtain ⟨pos', t', off', h1, h2⟩ := (C89_missing p file).mp ⟨err, hb, hm⟩
      obtain ⟨_, _, rfl⟩ := hr.unique h1
      rw [hoff]
      exact ⟨off, .unsigned h2⟩
  · rintro ⟨s, h⟩
    cases h with
    | signed pre pairs vs hb =>
      have := (C89_block p file ⟨pre.length, pre.length + pairs.length + 32, pairs.length + 24, pairs.length, vs,
        pairs.length + 24, Ksusig.magic⟩).mpr ⟨pos, t, off, pre, pairs, hr, hb, rfl⟩
      exact DirStart.signed _ this
    | unsigned hu =>
      obtain ⟨err, h1, h2⟩ := (C89_missing p file).mpr ⟨pos, t, off, hr, hu⟩
      have := DirStart.unsigned (e := t.eocd off pos) err h1 h2
      rw [hoff] at this
      exact this

theorem digest_panics {p : Profile} {file : Bytes} :
    ((Module.new file).getSigningBlock p file = .panic ∧ (∃ e, findEocd file file.length = .ok e) ∨
      p = .dev ∧ ∃ e n, findEocd file file.length = .ok e ∧ DirStart p file e n ∧ e.fileOffset < n) ↔
    p = .dev ∧ ∃ pos t off, EndRecord file pos t off ∧
      ((∃ u, TornBefore file (min file.length off) u) ∨ ∃ s e, Located file off s e ∧ pos < e) := by
  rw [C113_block]
  constructor
  · rintro (⟨⟨hp, pos, t, off, u, h1, h2⟩, _⟩ | ⟨hp, e, n, he, hn, hlt⟩)
    · exact ⟨hp, pos, t, off, h1, .inl ⟨u, h2⟩⟩
    · obtain ⟨pos, t, off, hr, rfl⟩ := findEocd_iff.mp he
      obtain ⟨s, hs⟩ := (dirStart_iff hr).mp hn
      exact ⟨hp, pos, t, off, hr, .inr ⟨s, n, hs, hlt⟩⟩
  · rintro ⟨hp, pos, t, off, hr, ⟨u, hu⟩ | ⟨s, e, hs, hlt⟩⟩
    · exact .inl ⟨⟨hp, pos, t, off, u, hr, hu⟩, _, findEocd_iff.mpr ⟨pos, t, off, hr, rfl⟩⟩
    · exact .inr ⟨hp, _, e, findEocd_iff.mpr ⟨pos, t, off, hr, rfl⟩, (dirStart_iff hr).mpr ⟨s, hs⟩, hlt⟩

/-- C113. Computing a digest panics exactly in development builds, on files with an end record in force and either a block with two
different size fields, or a directory that starts after the end record. -/
theorem C113_digest (E : Env) (p : Profile) (file : Bytes) (algo : Algo) :
    (Module.new file).digest E p file algo = .panic ↔ p = .dev ∧ ∃ pos t off, EndRecord file pos t off ∧
      ((∃ u, TornBefore file (min file.length off) u) ∨ ∃ s e, Located file off s e ∧ pos < e) :=
  digest_panic_iff.trans digest_panics

/-- C113. The same files for the list of the digested regions. -/
theorem C113_regions (p : Profile) (file : Bytes) :
    (Module.new file).digestRegions p file = .panic ↔ p = .dev ∧ ∃ pos t off, EndRecord file pos t off ∧
      ((∃ u, TornBefore file (min file.length off) u) ∨ ∃ s e, Located file off s e ∧ pos < e) :=
  digestRegions_panic_iff.trans digest_panics

theorem storedAlgos_nil {b : SigningBlock} : storedAlgos b ≠ [] ↔ HasDigest b.content := by
  unfold storedAlgos HasDigest
  constructor
  · intro hne
    obtain ⟨a, ha⟩ := List.exists_mem_of_ne_nil _ hne
    obtain ⟨v, hv, hav⟩ := List.mem_flatMap.mp ha
    cases v with
    | v2 s =>
      obtain ⟨g, hg, hag⟩ := List.mem_flatMap.mp hav
      refine .inl ⟨s, hv, g, hg, ?_⟩
      intro hn; rw [hn] at hag; exact absurd hag (List.not_mem_nil)
    | stamp s =>
      refine .inr ⟨s, hv, ?_⟩
      intro hn; dsimp only at hav; rw [hn] at hav; exact absurd hav (List.not_mem_nil)
    | elf _ => exact absurd hav (List.not_mem_nil)
    | raw _ => exact absurd hav (List.not_mem_nil)
  · rintro (⟨s, hs, g, hg, hne⟩ | ⟨s, hs, hne⟩)
    · obtain ⟨d, hd⟩ := List.exists_mem_of_ne_nil _ hne
      exact List.ne_nil_of_mem (List.mem_flatMap.mpr ⟨_, hs, List.mem_flatMap.mpr ⟨g, hg, List.mem_map.mpr ⟨d, hd, rfl⟩⟩⟩)
    · obtain ⟨d, hd⟩ := List.exists_mem_of_ne_nil _ hne
      exact List.ne_nil_of_mem (List.mem_flatMap.mpr ⟨_, hs, List.mem_map.mpr ⟨d, hd, rfl⟩⟩)

/-- C113. Verification in the library panics exactly in development builds, on files with an end record in force and either a block
with two different size fields, or a block that reaches beyond the end record and carries a content digest. -/
theorem C113_verify (E : Env) (p : Profile) (file : Bytes) (roots : Roots) (now : Nat) :
    (Module.new file).verifyWithRoots E p file roots now = .panic ↔ p = .dev ∧ ∃ pos t off, EndRecord file pos t off ∧
      ((∃ u, TornBefore file (min file.length off) u) ∨
        ∃ pre pairs vs, BlockBefore file (min file.length off) pre pairs vs ∧ pos < pre.length + pairs.length + 32 ∧
          HasDigest vs) := by
  rw [verifyWithRoots_eq]
  have hb := C113_block p file
  have hg := fun b => C89_block p file b
  cases hs : (Module.new file).getSigningBlock p file with
  | panic =>
    obtain ⟨hp, pos, t, off, u, h1, h2⟩ := hb.mp hs
    exact ⟨fun _ => ⟨hp, pos, t, off, h1, .inl ⟨u, h2⟩⟩, fun _ => rfl⟩
  | err e =>
    refine ⟨nofun, ?_⟩
    rintro ⟨hp, pos, t, off, hr, ⟨u, hu⟩ | ⟨pre, pairs, vs, h1, _, _⟩⟩
    · have := hb.mpr ⟨hp, pos, t, off, u, hr, hu⟩
      rw [hs] at this; cases this
    · have := (hg ⟨pre.length, pre.length + pairs.length + 32, pairs.length + 24, pairs.length, vs,
        pairs.length + 24, Ksusig.magic⟩).mpr ⟨pos, t, off, pre, pairs, hr, h1, rfl⟩
      rw [hs] at this; cases this
  | ok b =>
    dsimp only
    obtain ⟨pos, t, off, pre, pairs, hr, h1, h2⟩ := (hg b).mp hs
    have hend : ∀ e s, Located file off s e ↔ s = pre.length ∧ e = pre.length + pairs.length + 32 := by
      intro e s
      constructor
      · intro h; exact (C89_unique file).2 _ _ _ _ _ h (.signed pre pairs _ h1)
      · rintro ⟨rfl, rfl⟩; exact .signed pre pairs _ h1
    have hdig : ∀ E a, (Module.new file).digest E p file a = .panic ↔ p = .dev ∧ pos < pre.length + pairs.length + 32 := by
      intro E a
      rw [C113_digest]
      constructor
      · rintro ⟨hp, pos', t', off', hr', ⟨u, hu⟩ | ⟨s, e, hl, hlt⟩⟩
        · have := hb.mpr ⟨hp, pos', t', off', u, hr', hu⟩
          rw [hs] at this; cases this
        · obtain ⟨rfl, _, rfl⟩ := hr.unique hr'
          obtain ⟨_, rfl⟩ := (hend e s).mp hl
          exact ⟨hp, hlt⟩
      · rintro ⟨hp, hlt⟩
        exact ⟨hp, pos, t, off, hr, .inr ⟨_, _, .signed pre pairs _ h1, hlt⟩⟩
    have hrhs : (p = .dev ∧ ∃ pos t off, EndRecord file pos t off ∧ ((∃ u, TornBefore file (min file.length off) u) ∨
        ∃ pre pairs vs, BlockBefore file (min file.length off) pre pairs vs ∧ pos < pre.length + pairs.length + 32 ∧
          HasDigest vs)) ↔ (p = .dev ∧ pos < pre.length + pairs.length + 32) ∧ HasDigest b.content := by
      constructor
      · rintro ⟨hp, pos', t', off', hr', ⟨u, hu⟩ | ⟨pre', pairs', vs', k1, k2, k3⟩⟩
        · have := hb.mpr ⟨hp, pos', t', off', u, hr', hu⟩
          rw [hs] at this; cases this
        · have := (hg ⟨pre'.length, pre'.length + pairs'.length + 32, pairs'.length + 24, pairs'.length, vs',
            pairs'.length + 24, Ksusig.magic⟩).mpr ⟨pos', t', off', pre', pairs', hr', k1, rfl⟩
          obtain ⟨rfl, _, rfl⟩ := hr.unique hr'
          rw [hs] at this
          have hbe := Res.ok.inj this
          obtain ⟨_, he⟩ := (hend _ _).mp (.signed pre' pairs' _ k1)
          refine ⟨⟨hp, by omega⟩, ?_⟩
          rw [hbe]; exact k3
      · rintro ⟨⟨hp, hlt⟩, hd⟩
        exact ⟨hp, pos, t, off, hr, .inr ⟨pre, pairs, _, h1, hlt, hd⟩⟩
    rw [hrhs, ← storedAlgos_nil]
    rcases digest_form p (Module.new file) file with ⟨ps, h⟩ | ⟨e, h⟩ | h
    · obtain ⟨c, hc, _⟩ := fillCtx_parts (E := E) h (storedAlgos b) DigestCtx.new
      rw [hc]
      refine ⟨nofun, fun k => ?_⟩
      have := (hdig E .p256).mpr k.1
      rw [h] at this; cases this
    · rw [fillCtx_err h]
      refine ⟨nofun, fun k => ?_⟩
      have := (hdig E .p256).mpr k.1
      rw [h] at this; cases this
    · rw [fillCtx_panic h]
      by_cases hn : storedAlgos b = []
      · rw [if_pos hn]
        exact ⟨nofun, fun k => absurd hn k.2⟩
      · rw [if_neg hn]
        exact ⟨fun _ => ⟨(hdig E .p256).mp (h E .p256), hn⟩, fun _ => rfl⟩

/-- C113. The same for verification with the built-in root. -/
theorem C113_verify_full (E : Env) (p : Profile) (file builtinPem : Bytes) (now : Nat) :
    (Module.new file).verifyFull E p file builtinPem now = .panic ↔ p = .dev ∧ ∃ pos t off, EndRecord file pos t off ∧
      ((∃ u, TornBefore file (min file.length off) u) ∨
        ∃ pre pairs vs, BlockBefore file (min file.length off) pre pairs vs ∧ pos < pre.length + pairs.length + 32 ∧
          HasDigest vs) := C113_verify E p file _ now

theorem cliRoots_cases (E : Env) (pem : Bytes) (root : Option Bytes) :
    ((∃ r, cliRoots E pem root = .ok r) ∧ ∀ q, root = some q → ∃ c, E.pemParse q = some ("CERTIFICATE", c)) ∨
    ((∃ e, cliRoots E pem root = .err e) ∧ ∃ q, root = some q ∧ ¬ ∃ c, E.pemParse q = some ("CERTIFICATE", c)) := by
  unfold cliRoots
  cases root with
  | none => exact .inl ⟨⟨_, rfl⟩, nofun⟩
  | some q =>
    simp only [Roots.addPem]
    cases hq : E.pemParse q with
    | none => exact .inr ⟨⟨_, rfl⟩, q, rfl, by rw [hq]; rintro ⟨c, h⟩; cases h⟩
    | some x =>
      obtain ⟨tag, c⟩ := x
      dsimp only
      by_cases ht : tag = "CERTIFICATE"
      · rw [if_neg (not_not_intro ht)]
        refine .inl ⟨⟨_, rfl⟩, ?_⟩
        intro q' hq'
        cases hq'
        exact ⟨c, by rw [hq, ht]⟩
      · rw [if_pos ht]
        refine .inr ⟨⟨_, rfl⟩, q, rfl, ?_⟩
        rintro ⟨c', h⟩
        rw [hq] at h
        cases h
        exact ht rfl

/-- C113. The verify command panics exactly in development builds, on files with an end record in force and either a block with two
different size fields, or a block that reaches beyond the end record, unless the given root certificate cannot be loaded. -/
theorem C113_verify_command (E : Env) (p : Profile) (builtinPem : Bytes) (root : Option Bytes) (now : Nat) (file : Bytes) :
    cliVerify E p builtinPem root now file = .panic ↔ p = .dev ∧ ∃ pos t off, EndRecord file pos t off ∧
      ((∃ u, TornBefore file (min file.length off) u) ∨
        (∃ pre pairs vs, BlockBefore file (min file.length off) pre pairs vs ∧ pos < pre.length + pairs.length + 32) ∧
          ∀ q, root = some q → ∃ c, E.pemParse q = some ("CERTIFICATE", c)) := by
  have hb := C113_block p file
  have hg := fun b => C89_block p file b
  by_cases hdp : (Module.new file).getSigningBlock p file ≠ .panic ∧ ∀ algo, (Module.new file).digest E p file algo ≠ .panic
  · constructor
    · intro h; exact absurd h (cliVerify_no_panic hdp.1 hdp.2)
    · rintro ⟨hp, pos, t, off, hr, ⟨u, hu⟩ | ⟨⟨pre, pairs, vs, k1, k2⟩, _⟩⟩
      · exact absurd (hb.mpr ⟨hp, pos, t, off, u, hr, hu⟩) hdp.1
      · exact absurd ((C113_digest E p file .p256).mpr ⟨hp, pos, t, off, hr, .inr ⟨_, _, .signed pre pairs vs k1, k2⟩⟩)
          (hdp.2 _)
  · have hdef : cliVerify E p builtinPem root now file = (((Module.new file).getSigningBlock p file).mapErr
        (fun _ => Err.verifyFailed) >>= fun b => cliRoots E builtinPem root >>= fun roots =>
        cliAddDigest E p (Module.new file) file .p256 DigestCtx.new >>= fun c1 =>
        cliAddDigest E p (Module.new file) file .p384 c1 >>= fun c2 =>
        if c2.entries.isEmpty then .err .verifyFailed
        else cliV2 (verifyV2 E roots now b (some c2)) >>= fun v2 =>
          if (match v2 with | some r => r.sigValid && r.digestValid && r.chainValid && r.trusted | none => false) then
            if cliStampFailed (verifySourceStamp E roots now b (some c2)) then .err .verifyFailed else .ok ()
          else .err .verifyFailed) := rfl
    rw [hdef]
    cases hs : (Module.new file).getSigningBlock p file with
    | panic =>
      obtain ⟨hp, pos, t, off, u, h1, h2⟩ := hb.mp hs
      exact ⟨fun _ => ⟨hp, pos, t, off, h1, .inl ⟨u, h2⟩⟩, fun _ => rfl⟩
    | err e =>
      simp only [Res.mapErr, Res.err_bind]
      refine ⟨nofun, ?_⟩
      rintro ⟨hp, pos, t, off, hr, ⟨u, hu⟩ | ⟨⟨pre, pairs, vs, h1, _⟩, _⟩⟩
      · have := hb.mpr ⟨hp, pos, t, off, u, hr, hu⟩
        rw [hs] at this; cases this
      · have := (hg ⟨pre.length, pre.length + pairs.length + 32, pairs.length + 24, pairs.length, vs,
          pairs.length + 24, Ksusig.magic⟩).mpr ⟨pos, t, off, pre, pairs, hr, h1, rfl⟩
        rw [hs] at this; cases this
    | ok b =>
      simp only [Res.mapErr, Res.ok_bind]
      obtain ⟨pos, t, off, pre, pairs, hr, h1, h2⟩ := (hg b).mp hs
      have hdg : ∃ algo, (Module.new file).digest E p file algo = .panic := by
        apply Classical.byContradiction
        intro hn
        exact hdp ⟨by rw [hs]; simp, fun a h => hn ⟨a, h⟩⟩
      obtain ⟨a, ha⟩ := hdg
      have hpanic := (C113_digest E p file a).mp ha
      have hall : (Module.new file).digest E p file .p256 = .panic := (C113_digest E p file _).mpr hpanic
      obtain ⟨hp, pos', t', off', hr', ⟨u, hu⟩ | ⟨s, e, hl, hlt⟩⟩ := hpanic
      · have := hb.mpr ⟨hp, pos', t', off', u, hr', hu⟩
        rw [hs] at this; cases this
      · obtain ⟨rfl, _, rfl⟩ := hr.unique hr'
        obtain ⟨_, rfl⟩ := (C89_unique file).2 _ _ _ _ _ hl (.signed pre pairs _ h1)
        rcases cliRoots_cases E builtinPem root with ⟨⟨r, hr1⟩, hr2⟩ | ⟨⟨er, hr1⟩, q, hq1, hq2⟩
        · rw [hr1, Res.ok_bind]
          have : cliAddDigest E p (Module.new file) file .p256 DigestCtx.new = .panic := by
            unfold cliAddDigest; rw [hall]
          rw [this, Res.panic_bind]
          exact ⟨fun _ => ⟨hp, pos, t, off, hr, .inr ⟨⟨pre, pairs, _, h1, hlt⟩, hr2⟩⟩, fun _ => rfl⟩
        · rw [hr1, Res.err_bind]
          refine ⟨nofun, ?_⟩
          rintro ⟨_, pos', t', off', hr', ⟨u, hu⟩ | ⟨_, hq⟩⟩
          · have := hb.mpr ⟨hp, pos', t', off', u, hr', hu⟩
            rw [hs] at this; cases this
          · exact absurd (hq q hq1) hq2

/-- C113. Where a development build does not panic, it finds the same block and computes the same digests as a release build. -/
theorem C113_same (E : Env) (file : Bytes) :
    ((Module.new file).getSigningBlock .dev file ≠ .panic →
      (Module.new file).getSigningBlock .dev file = (Module.new file).getSigningBlock .release file) ∧
    (∀ algo, (Module.new file).digest E .dev file algo ≠ .panic →
      (Module.new file).digest E .dev file algo = (Module.new file).digest E .release file algo) := by
  have hblock : (Module.new file).getSigningBlock .dev file ≠ .panic →
      (Module.new file).getSigningBlock .dev file = (Module.new file).getSigningBlock .release file := by
    intro h
    have hdef : ∀ p, (Module.new file).getSigningBlock p file = (findEocd file file.length >>= fun e =>
      SigningBlock.fromReader p file file.length (file.length - e.cdOffset.toNat)) := fun _ => rfl
    rw [hdef] at h ⊢
    rw [hdef]
    cases he : findEocd file file.length with
    | panic => exact absurd he np_findEocd
    | err e => simp only [Res.err_bind]
    | ok e =>
      rw [he, Res.ok_bind] at h
      rw [Res.ok_bind, Res.ok_bind]
      rcases (fromReader_total file file.length (file.length - e.cdOffset.toNat)).2 with k | ⟨k, _⟩
      · exact k
      · exact absurd k h
  refine ⟨hblock, ?_⟩
  intro algo hd
  have hdd : ∀ p, (Module.new file).digest E p file algo = ((Module.new file).getOffsets p file >>= fun o =>
    digestModule E p fullReads fullReads file o algo) := fun _ => rfl
  have ho : (Module.new file).getOffsets .dev file = (Module.new file).getOffsets .release file := by
    have hodef : ∀ p, (Module.new file).getOffsets p file = (findEocd file file.length >>= fun eocd =>
      match (Module.new file).getSigningBlock p file with
      | .ok sig =>
        .ok (FileOffsets.new sig.fileStart sig.fileEnd eocd.fileOffset file.length)
      | .err e =>
        if e.isMissing then .ok (FileOffsets.withoutSignature eocd.cdOffset.toNat eocd.fileOffset file.length)
        else .err .corrupted
      | .panic => .panic) := fun _ => rfl
    rw [hodef, hodef]
    cases he : findEocd file file.length with
    | panic => exact absurd he np_findEocd
    | err e => simp only [Res.err_bind]
    | ok e =>
      simp only [Res.ok_bind]
      have : (Module.new file).getSigningBlock .dev file ≠ .panic := by
        intro hp
        exact hd (digest_panic_iff.mpr (.inl ⟨hp, e, he⟩))
      rw [hblock this]
  rw [hdd] at hd ⊢
  rw [hdd, ← ho]
  rcases getOffsets_cases .dev file with ⟨e, sc, n, he, hn, ho'⟩ | ⟨err, ho', _⟩ | ⟨ho', _⟩
  · rw [ho', Res.ok_bind] at hd
    rw [ho', Res.ok_bind, Res.ok_bind]
    have hne : ¬ e.fileOffset < n := fun hlt => hd ((digestModule_panic (eocd_inside he)).mpr ⟨rfl, hlt⟩)
    unfold digestModule FileOffsets.new
    dsimp only
    rw [usub_of_le (Nat.zero_le _), usub_of_le (Nat.zero_le _), Res.ok_bind, Res.ok_bind,
      usub_of_le (p := .dev) (show n ≤ e.fileOffset by omega), usub_of_le (p := .release) (show n ≤ e.fileOffset by omega)]
  · rw [ho']; simp only [Res.err_bind]
  · rw [ho']; simp only [Res.panic_bind]

theorem located_le {file : Bytes} {off s e : Nat} (h : Located file off s e) : s ≤ e := by
  cases h with
  | signed pre pairs vs _ => omega
  | unsigned _ => exact Nat.le_refl _

/-- C113. The digest command on a module, with or without `--dump`: it panics exactly on the files on which computing the digest
does (and no sections are given). The bound on the length is that of any file. -/
theorem C113_digest_command (E : Env) (p : Profile) (acc : Bytes → Bool) (sha512 : Bool) (fmt : OutputFormat)
    (sections : List (List Char)) (inPlace : Bool) (file : Bytes) (hlen : file.length < 2 ^ 64)
    (hm : detectFileFormat file = .ok .module) :
    (cliDigest E p acc sha512 fmt sections file = .panic ↔ sections = [] ∧ p = .dev ∧ ∃ pos t off, EndRecord file pos t off ∧
      ((∃ u, TornBefore file (min file.length off) u) ∨ ∃ s e, Located file off s e ∧ pos < e)) ∧
    ((cliDump p acc sections inPlace file).2 = .panic ↔ sections = [] ∧ p = .dev ∧ ∃ pos t off, EndRecord file pos t off ∧
      ((∃ u, TornBefore file (min file.length off) u) ∨ ∃ s e, Located file off s e ∧ pos < e)) := by
  have hopen : SignableFile.open acc file = .ok (.module (Module.new file) file) := by
    unfold SignableFile.open; rw [hm]; rfl
  have hreg : cliRegions p acc (.module (Module.new file) file) = .panic ↔ p = .dev ∧ ∃ pos t off, EndRecord file pos t off ∧
      ((∃ u, TornBefore file (min file.length off) u) ∨ ∃ s e, Located file off s e ∧ pos < e) := by
    rw [cliRegions_panic, ← C113_regions]
    refine ⟨fun h => h.elim id ?_, .inl⟩
    rintro ⟨rs, hrs, hp, hsum⟩
    exfalso
    have hrs : (Module.new file).digestRegions p file = .ok rs := hrs
    obtain ⟨o, ho, h⟩ := Res.bind_eq_ok.mp hrs
    obtain ⟨pos, t, off, s, e, hr, hl, rfl⟩ := (getOffsets_iff p file o).mp ho
    have hroom := endRecord_room hr
    have hse := located_le hl
    obtain ⟨n1, h1, h⟩ := Res.bind_eq_ok.mp h
    obtain ⟨n2, h2, h⟩ := Res.bind_eq_ok.mp h
    obtain ⟨n3, h3, hlast⟩ := Res.bind_eq_ok.mp h
    have k1 : usub p s 0 = .ok n1 := h1
    have k2 : usub p pos e = .ok n2 := h2
    have k3 : usub p file.length pos = .ok n3 := h3
    clear h1 h2 h3
    rw [usub_of_le (Nat.zero_le _)] at k1
    rw [usub_of_le (by omega)] at k3
    subst hp
    by_cases hle : e ≤ pos
    · rw [usub_of_le hle] at k2
      have e1 := Res.ok.inj k1
      have e2 := Res.ok.inj k2
      have e3 := Res.ok.inj k3
      rw [← Res.ok.inj hlast] at hsum
      simp only [List.map_cons, List.map_nil, List.sum_cons, List.sum_nil] at hsum
      omega
    · have : usub .dev pos e = .panic := by unfold usub; rw [if_neg hle]
      rw [this] at k2; cases k2
  cases sections with
  | cons x xs =>
    have hc : cliOpen acc (x :: xs) file = .err .unknownFormat := by
      unfold cliOpen
      rw [hopen]
      rfl
    refine ⟨?_, ?_⟩
    · unfold cliDigest
      rw [hc]
      exact ⟨nofun, fun h => nomatch h.1⟩
    · unfold cliDump
      rw [hc]
      exact ⟨nofun, fun h => nomatch h.1⟩
  | nil =>
    have hc : cliOpen acc [] file = .ok (.module (Module.new file) file) := by
      unfold cliOpen
      rw [hopen]
      rfl
    simp only [true_and]
    refine ⟨?_, ?_⟩
    · unfold cliDigest
      rw [hc, Res.ok_bind]
      cases hr : cliRegions p acc (.module (Module.new file) file) with
      | panic => exact ⟨fun _ => hreg.mp hr, fun _ => rfl⟩
      | err e =>
        refine ⟨nofun, fun h => ?_⟩
        have := hreg.mpr h
        rw [hr] at this; cases this
      | ok rs =>
        rw [Res.ok_bind]
        have hd := C113_digest E p file (if sha512 then .p384 else .p256)
        show ((Module.new file).digest E p file (if sha512 then .p384 else .p256) >>= fun d => Res.ok (fmt.render d)) = .panic ↔ _
        rw [bind_ok_panic, hd]
    · unfold cliDump
      rw [hc, Res.ok_bind]
      cases hr : cliRegions p acc (.module (Module.new file) file) with
      | panic => exact ⟨fun _ => hreg.mp hr, fun _ => rfl⟩
      | err e =>
        refine ⟨nofun, fun h => ?_⟩
        have := hreg.mpr h
        rw [hr] at this; cases this
      | ok rs =>
        refine ⟨fun h => ?_, fun h => ?_⟩
        · dsimp only at h
          generalize (dumpRegions (if inPlace then [] else file) rs).2 = k at h
          cases k <;> cases h
        · have := hreg.mpr h
          rw [hr] at this; cases this

/-- C113. At the shell: the exit status of the info command is that of a panic exactly on these files. -/
theorem C113_info_exit {M : Machine} {now : Nat} {clock : Option UInt64} {fs : Fs} {module : Path} :
    ((Command.info module).exec M now clock fs).status = 101 ↔
      M.profile = .dev ∧ ∃ file u, fs module = some file ∧ TornBefore file file.length u := by
  unfold Command.exec
  dsimp only
  cases hf : fs module with
  | none => exact ⟨nofun, fun ⟨_, _, _, h, _⟩ => nomatch h⟩
  | some file =>
    dsimp only
    have h := C113_info M.env M.profile M.builtin now file
    have hq : (Outcome.quiet ((cliInfo M.env M.profile M.builtin now file).bind fun _ => Res.ok ())).status = 101 ↔
        (cliInfoRun M.env M.profile M.builtin now file).2 = .panic := by
      unfold cliInfo cliInfoRun
      cases cliInfoBlock M.profile file with
      | ok b => exact ⟨nofun, nofun⟩
      | err e => exact ⟨nofun, nofun⟩
      | panic => exact ⟨fun _ => rfl, fun _ => rfl⟩
    rw [hq, h]
    constructor
    · rintro ⟨hp, u, hu⟩; exact ⟨hp, file, u, rfl, hu⟩
    · rintro ⟨hp, file', u, hf', hu⟩; cases hf'; exact ⟨hp, u, hu⟩

/-- C113. At the shell: the exit status of the verify command is that of a panic exactly if the module is such a file; if its
block merely reaches beyond the end record, the root certificate must also be readable. -/
theorem C113_verify_exit {M : Machine} {now : Nat} {clock : Option UInt64} {fs : Fs} {module : Path} {root : Option Path} :
    ((Command.verify module root).exec M now clock fs).status = 101 ↔
      M.profile = .dev ∧ ∃ file pos t off, fs module = some file ∧ EndRecord file pos t off ∧
      ((∃ u, TornBefore file (min file.length off) u) ∨
        (∃ pre pairs vs, BlockBefore file (min file.length off) pre pairs vs ∧ pos < pre.length + pairs.length + 32) ∧
          ∀ q, root = some q → ∃ pem c, fs q = some pem ∧ M.env.pemParse pem = some ("CERTIFICATE", c)) := by
  have hq : ∀ r : Res Unit, (Outcome.quiet r).status = 101 ↔ r = .panic := fun r =>
    ⟨quiet_panic, fun h => by rw [h]; rfl⟩
  unfold Command.exec
  dsimp only
  cases hf : fs module with
  | none => exact ⟨nofun, fun ⟨_, _, _, _, _, h, _⟩ => nomatch h⟩
  | some file =>
    dsimp only
    cases root with
    | none =>
      dsimp only
      rw [hq, C113_verify_command]
      constructor
      · rintro ⟨hp, pos, t, off, hr, h⟩
        exact ⟨hp, file, pos, t, off, rfl, hr, h.imp id fun k => ⟨k.1, nofun⟩⟩
      · rintro ⟨hp, file', pos, t, off, hf', hr, h⟩
        cases hf'
        exact ⟨hp, pos, t, off, hr, h.imp id fun k => ⟨k.1, nofun⟩⟩
    | some q =>
      dsimp only
      cases hr : fs q with
      | some pem =>
        dsimp only
        rw [hq, C113_verify_command]
        constructor
        · rintro ⟨hp, pos, t, off, her, h⟩
          refine ⟨hp, file, pos, t, off, rfl, her, h.imp id fun k => ⟨k.1, ?_⟩⟩
          rintro q' ⟨⟩
          obtain ⟨c, hc⟩ := k.2 pem rfl
          exact ⟨pem, c, hr, hc⟩
        · rintro ⟨hp, file', pos, t, off, hf', her, h⟩
          cases hf'
          refine ⟨hp, pos, t, off, her, h.imp id fun k => ⟨k.1, ?_⟩⟩
          rintro pem' ⟨⟩
          obtain ⟨pem', c, h1, h2⟩ := k.2 q rfl
          rw [hr] at h1
          cases h1
          exact ⟨c, h2⟩
      | none =>
        dsimp only
        rw [hq]
        have hb := C113_block M.profile file
        have hiff : ((((Module.new file).getSigningBlock M.profile file).mapErr fun _ => Err.verifyFailed) >>= fun _ =>
            (Res.err Err.io : Res Unit)) = .panic ↔ (Module.new file).getSigningBlock M.profile file = .panic := by
          cases (Module.new file).getSigningBlock M.profile file with
          | ok b => exact ⟨nofun, nofun⟩
          | err e => exact ⟨nofun, nofun⟩
          | panic => exact ⟨fun _ => rfl, fun _ => rfl⟩
        refine hiff.trans (hb.trans ?_)
        constructor
        · rintro ⟨hp, pos, t, off, u, her, hu⟩
          exact ⟨hp, file, pos, t, off, rfl, her, .inl ⟨u, hu⟩⟩
        · rintro ⟨hp, file', pos, t, off, hf', her, ⟨u, hu⟩ | ⟨_, k⟩⟩
          · cases hf'
            exact ⟨hp, pos, t, off, u, her, hu⟩
          · obtain ⟨pem, c, h1, _⟩ := k q rfl
            rw [hr] at h1; cases h1

/-- There are such files: a block with two different size fields in an archive; an unsigned archive whose directory offset points
behind the end record; and bytes for the block parser of each kind. -/
example : (∃ file pos t off u, EndRecord file pos t off ∧ TornBefore file (min file.length off) u) ∧
    (∃ file pos t off s e, EndRecord file pos t off ∧ Located file off s e ∧ pos < e) := by
  refine ⟨?_, ?_⟩
  · obtain ⟨_, pos, t, off, u, h⟩ := (C113_block .dev mismatchArchive.unsigned).mp (by decide +kernel)
    exact ⟨_, pos, t, off, u, h⟩
  · have hd := (C58_dev_panics toyEnv).2.2.1 .p256
    obtain ⟨_, pos, t, off, hr, ⟨u, hu⟩ | ⟨s, e, hl, hlt⟩⟩ := (C113_digest toyEnv .dev badOffsetFile .p256).mp hd
    · have := (C113_block .dev badOffsetFile).mpr ⟨rfl, pos, t, off, u, hr, hu⟩
      exact absurd this (by decide +kernel)
    · exact ⟨_, pos, t, off, s, e, hr, hl, hlt⟩

example : (∃ d t, MagicAtPos d t ∧ t < 8 ∧ SigningBlock.fromU8 .dev d = .panic) ∧
    (∃ d, wordAt d 8 < 16 ∧ SigningBlock.fromU8 .dev d = .panic) ∧
    (∃ d, Torn d 16 ∧ SigningBlock.fromU8 .dev d = .panic) :=
  ⟨⟨[0, 0, 0] ++ Ksusig.magic ++ List.replicate 20 0, 3, by decide +kernel, by decide, by decide +kernel⟩,
    ⟨List.replicate 16 0 ++ Ksusig.magic, by decide +kernel, by decide +kernel⟩,
    ⟨leBytes 8 25 ++ leBytes 8 24 ++ Ksusig.magic,
      ⟨by decide +kernel, by decide, by decide +kernel, by decide +kernel, by decide +kernel, by decide +kernel⟩,
      by decide +kernel⟩⟩

end Ksusig.Props
