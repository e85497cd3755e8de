import Verif.Props.Torn
import Verif.Props.ElfExact

/-! # C114: exactly when signing panics -/

namespace Ksusig.Props

open Ksusig Spec

/-- What a development build does, given what a release build does: it panics where the release build refuses because too few bytes
are left for padding, and does the same everywhere else. -/
def Strict {α : Type} (dev rel : Res α) : Prop :=
  (rel = .err .paddingTooLow ∧ dev = .panic) ∨ (rel ≠ .err .paddingTooLow ∧ rel ≠ .panic ∧ dev = rel)

theorem Strict.same {α : Type} {x : Res α} (h1 : x ≠ .err .paddingTooLow) (h2 : x ≠ .panic) : Strict x x := .inr ⟨h1, h2, rfl⟩

theorem Strict.bind {α β : Type} {x y : Res α} {f g : α → Res β} (h : Strict x y) (hf : ∀ a, y = .ok a → Strict (f a) (g a)) :
    Strict (x >>= f) (y >>= g) := by
  rcases h with ⟨h1, h2⟩ | ⟨h1, h2, rfl⟩
  · rw [h1, h2]; exact .inl ⟨rfl, rfl⟩
  · cases x with
    | ok a => exact hf a rfl
    | err e => exact .inr ⟨fun h => h1 (congrArg Res.err (Res.err.inj h)), nofun, rfl⟩
    | panic => exact absurd rfl h2

theorem strict_ofOption {α : Type} {e : Err} {o : Option α} (he : e ≠ .paddingTooLow) :
    Strict (Res.ofOption e o) (Res.ofOption e o) := by
  cases o with
  | none => exact .same (fun h => he (Res.err.inj h)) nofun
  | some a => exact .same nofun nofun

theorem strict_ok {α : Type} {a : α} : Strict (Res.ok a) (Res.ok a) := .same nofun nofun

theorem strict_err {α : Type} {e : Err} (he : e ≠ .paddingTooLow) : Strict (Res.err e : Res α) (.err e) :=
  .same (fun h => he (Res.err.inj h)) nofun

theorem strict_sign {E : Env} {a : Algo} {key : PrivateKey} {d : Bytes} : Strict (a.sign E key d) (a.sign E key d) := by
  cases a <;> cases key <;> first | exact strict_ok | exact strict_err nofun

theorem strict_pub {E : Env} {key : PrivateKey} : Strict (key.publicKeyDer E) (key.publicKeyDer E) := by
  cases key <;> exact strict_ofOption nofun

theorem strict_finish {m : ModuleSigner} {vs : List Value} : Strict (m.finish .dev vs) (m.finish .release vs) := by
  unfold ModuleSigner.finish
  split
  · rw [C04_exact_outcome_partial, C04_exact_outcome_partial]
    split
    · exact strict_err nofun
    · split
      · exact .inl ⟨rfl, rfl⟩
      · split
        · exact strict_err nofun
        · exact strict_ok
  · unfold SigningBlock.new
    dsimp only
    split
    · exact strict_err nofun
    · exact strict_ok

theorem strict_signer {E : Env} {clock : Option UInt64} {m : ModuleSigner} {ds : Digests} :
    Strict (m.sign E .dev clock ds) (m.sign E .release clock ds) := by
  unfold ModuleSigner.sign
  refine Strict.bind ?_ fun b1 _ => Strict.bind ?_ fun b2 _ => ?_
  · unfold ModuleSigner.signV2Part
    split
    · refine Strict.bind ?_ fun _ _ => strict_ok
      exact Strict.bind (strict_ofOption nofun) fun _ _ => Strict.bind strict_sign fun _ _ => Strict.bind strict_pub fun _ _ => strict_ok
    · exact strict_ok
  · unfold ModuleSigner.signStampPart
    split
    · refine Strict.bind ?_ fun _ _ => strict_ok
      refine Strict.bind ?_ fun _ _ => Strict.bind (strict_ofOption nofun) fun _ _ => Strict.bind strict_sign fun _ _ =>
        Strict.bind strict_pub fun _ _ => strict_ok
      unfold stampAttrs
      split
      · exact Strict.bind (strict_ofOption nofun) fun _ _ => strict_ok
      · exact strict_ok
    · exact strict_ok
  · dsimp only
    split
    · exact strict_err nofun
    · exact strict_finish

/-- C114. The signer: a development build panics exactly where a release build refuses because too few bytes are left for padding;
everywhere else both return the same. -/
theorem C114_signer (E : Env) (clock : Option UInt64) (m : ModuleSigner) (ds : Digests) :
    (m.sign E .dev clock ds = .panic ↔ m.sign E .release clock ds = .err .paddingTooLow) ∧
    (m.sign E .dev clock ds = .panic ∨ m.sign E .dev clock ds = m.sign E .release clock ds) ∧
    m.sign E .release clock ds ≠ .panic := by
  rcases strict_signer (E := E) (clock := clock) (m := m) (ds := ds) with ⟨h1, h2⟩ | ⟨h1, h2, h3⟩
  · rw [h1, h2]; exact ⟨⟨fun _ => rfl, fun _ => rfl⟩, .inl rfl, nofun⟩
  · rw [h3]; exact ⟨⟨fun h => absurd h h2, fun h => absurd h h1⟩, .inr rfl, h2⟩

/-- C114. Writing a module with a block panics exactly if looking for its present block does. -/
theorem C114_write (p : Profile) (file : Bytes) (b : SigningBlock) :
    ((Module.new file).signableWrite p file b).2 = .panic ↔ p = .dev ∧ ∃ pos t off u, EndRecord file pos t off ∧
      TornBefore file (min file.length off) u := by
  rw [← C113_block]
  constructor
  · intro h
    apply Classical.byContradiction
    intro hb
    have hraw : (Module.new file).getRawModule p file ≠ .panic := by
      unfold Module.getRawModule
      split
      · exact np_ok
      · refine np_bind hb fun sig hsig => ?_
        have hs : ∃ n, usub p sig.fileEnd sig.fileStart = .ok n := by
          obtain ⟨_, _, _, pre, pairs, _, _, hbe⟩ := (C89_block p file sig).mp hsig
          exact ⟨_, usub_of_le (by rw [hbe]; dsimp only; omega)⟩
        obtain ⟨n, hn⟩ := hs
        rw [hn, Res.ok_bind]
        refine np_bind np_ofOption fun _ _ => np_bind np_findEocd fun e he => np_bind np_ofOption fun c _ => ?_
        have hin : ({ e with cdOffset := c } : Eocd).toU8.length ≤ file.length := by
          obtain ⟨pos, t, off, hr, rfl⟩ := findEocd_iff.mp he
          obtain ⟨before, after, hf, _⟩ := hr.bytes
          have : (wireEocd t off).length = ({ t.eocd off pos with cdOffset := c } : Eocd).toU8.length := by
            have h4 : eocdSig.length = 4 := rfl
            simp [wireEocd, Eocd.toU8, Spec.Tail.eocd, leBytes_length]
            omega
          rw [← this, hf]
          simp only [List.length_append]
          omega
        dsimp only
        rw [usub_of_le hin, Res.ok_bind]
        exact np_bind np_ofOption fun _ _ => np_ok
    have hsrc : (Module.new file).signSource p file ≠ .panic := by
      unfold Module.signSource
      split
      · exact np_bind hraw fun _ _ => np_bind np_findEocd fun _ _ => np_ok
      · split
        · exact np_bind np_findEocd fun _ _ => np_ok
        · exact np_err
      · rename_i k; exact absurd k hb
    revert h
    unfold Module.signableWrite
    dsimp only
    split
    · nofun
    · rename_i k; exact absurd k hsrc
    · rename_i raw e hs
      have hfe : findEocd raw raw.length = .ok e := by
        unfold Module.signSource at hs
        split at hs
        · obtain ⟨r, _, hs⟩ := Res.bind_eq_ok.mp hs
          obtain ⟨e', he', hs⟩ := Res.bind_eq_ok.mp hs
          cases hs; exact he'
        · split at hs
          · obtain ⟨e', he', hs⟩ := Res.bind_eq_ok.mp hs
            cases hs; exact he'
          · cases hs
        · cases hs
      have hin := eocd_inside hfe
      split
      · nofun
      · rename_i hlt
        rw [usub_of_le hin]
        dsimp only
        split
        · nofun
        · split
          · nofun
          · split
            · nofun
            · have hda : debugAssert p (e.fileOffset - e.cdOffset.toNat + (raw.length - e.fileOffset) + e.cdOffset.toNat ==
                  raw.length) = .ok () := by
                have : (e.fileOffset - e.cdOffset.toNat + (raw.length - e.fileOffset) + e.cdOffset.toNat == raw.length) = true := by
                  simp only [beq_iff_eq]; omega
                rw [this]
                cases p <;> rfl
              rw [hda]
              nofun
  · intro h
    unfold Module.signableWrite Module.signSource
    rw [h]

/-- C114. The sign command on a module, in place or not: a release build never panics. A development build panics exactly if the
file is one on which computing the digest panics (C113), or a release build's signer refuses to sign the digests of its regions
because too few bytes are left for padding. -/
theorem C114_sign_module (E : Env) (p : Profile) (clock : Option UInt64) (m : ModuleSigner) (ip : Bool) (file : Bytes)
    (hlen : file.length < 2 ^ 64) :
    (cliSignModule E p clock m ip file).2 = .panic ↔ p = .dev ∧ ∃ pos t off, EndRecord file pos t off ∧
      ((∃ u, TornBefore file (min file.length off) u) ∨ (∃ s e, Located file off s e ∧ pos < e) ∨
        ∃ s e, Located file off s e ∧ e ≤ pos ∧ m.sign E .release clock (Digests.new (m.requiredAlgorithms.map fun al =>
          Digest.new al (treeDigest (al.hash E) (regions file s e pos)))) = .err .paddingTooLow) := by
  cases p with
  | release => exact ⟨fun h => absurd h np_signModule, fun h => nomatch h.1⟩
  | dev =>
    have hreg := C113_regions .dev file
    cases hr : (Module.new file).digestRegions .dev file with
    | panic =>
      refine ⟨fun _ => ?_, fun _ => ?_⟩
      · obtain ⟨_, pos, t, off, h1, h2⟩ := hreg.mp hr
        exact ⟨rfl, pos, t, off, h1, h2.imp id .inl⟩
      · unfold cliSignModule
        dsimp only
        rw [hr, Res.panic_bind]
    | err err =>
      have hl : (cliSignModule E .dev clock m ip file).2 = .err err := by
        unfold cliSignModule
        dsimp only
        rw [hr, Res.err_bind]
      rw [hl]
      refine ⟨nofun, ?_⟩
      rintro ⟨_, pos, t, off, h1, ⟨u, hu⟩ | ⟨s, e, hl, hlt⟩ | ⟨s, e, hl, hle, _⟩⟩
      · have := hreg.mpr ⟨rfl, pos, t, off, h1, .inl ⟨u, hu⟩⟩
        rw [hr] at this; cases this
      · have := hreg.mpr ⟨rfl, pos, t, off, h1, .inr ⟨s, e, hl, hlt⟩⟩
        rw [hr] at this; cases this
      · have ho := (getOffsets_iff .dev file _).mpr ⟨pos, t, off, s, e, h1, hl, rfl⟩
        have hroom := endRecord_room h1
        unfold Module.digestRegions at hr
        rw [ho] at hr
        simp only [FileOffsets.new, Res.ok_bind] at hr
        rw [usub_of_le (Nat.zero_le _), usub_of_le hle, usub_of_le (by omega)] at hr
        cases hr
    | ok rs =>
      obtain ⟨o, ho, hrest⟩ := Res.bind_eq_ok.mp hr
      obtain ⟨pos, t, off, s, e, h1, hl, rfl⟩ := (getOffsets_iff .dev file o).mp ho
      have hnot : ∀ pos' t' off', EndRecord file pos' t' off' → ((∃ u, TornBefore file (min file.length off') u) ∨
          ∃ s e, Located file off' s e ∧ pos' < e) → False := by
        intro pos' t' off' k1 k2
        have := hreg.mpr ⟨rfl, pos', t', off', k1, k2⟩
        rw [hr] at this; cases this
      have hle : e ≤ pos := by
        by_cases hle : e ≤ pos
        · exact hle
        · exact (hnot pos t off h1 (.inr ⟨s, e, hl, by omega⟩)).elim
      have hdig : ∀ as : List Algo, cliDigests E .dev (Module.new file) file as =
          .ok (as.map fun al => (al, treeDigest (al.hash E) (regions file s e pos))) := by
        intro as
        induction as with
        | nil => rfl
        | cons al as ih =>
          unfold cliDigests
          rw [(C89_digest E .dev file hlen al _).mpr ⟨pos, t, off, s, e, h1, hl, .inl hle, rfl⟩, ih]
          rfl
      have hrhs : (Profile.dev = .dev ∧ ∃ pos t off, EndRecord file pos t off ∧
          ((∃ u, TornBefore file (min file.length off) u) ∨ (∃ s e, Located file off s e ∧ pos < e) ∨
          ∃ s e, Located file off s e ∧ e ≤ pos ∧ m.sign E .release clock (Digests.new (m.requiredAlgorithms.map fun al =>
          Digest.new al (treeDigest (al.hash E) (regions file s e pos)))) = .err .paddingTooLow)) ↔
          m.sign E .release clock (Digests.new (m.requiredAlgorithms.map fun al =>
          Digest.new al (treeDigest (al.hash E) (regions file s e pos)))) = .err .paddingTooLow := by
        constructor
        · rintro ⟨_, pos', t', off', k1, k2 | k2 | ⟨s', e', k2, _, k3⟩⟩
          · exact (hnot _ _ _ k1 (.inl k2)).elim
          · exact (hnot _ _ _ k1 (.inr k2)).elim
          · obtain ⟨rfl, _, rfl⟩ := h1.unique k1
            obtain ⟨rfl, rfl⟩ := (C89_unique file).2 _ _ _ _ _ hl k2
            exact k3
        · intro k; exact ⟨rfl, pos, t, off, h1, .inr (.inr ⟨s, e, hl, hle, k⟩)⟩
      rw [hrhs, ← (C114_signer E clock m _).1]
      have hcase : cliSignModule E .dev clock m ip file =
          match m.sign E .dev clock (Digests.new (m.requiredAlgorithms.map fun al =>
            Digest.new al (treeDigest (al.hash E) (regions file s e pos)))) with
          | .err e => (none, .err e)
          | .panic => (none, .panic)
          | .ok b => (some ((Module.new file).signableWrite .dev (if ip then [] else file) b).1,
              ((Module.new file).signableWrite .dev (if ip then [] else file) b).2) := by
        unfold cliSignModule
        dsimp only
        rw [hr, Res.ok_bind, hdig, Res.ok_bind, List.map_map]
        rfl
      cases hs : m.sign E .dev clock (Digests.new (m.requiredAlgorithms.map fun al =>
            Digest.new al (treeDigest (al.hash E) (regions file s e pos)))) with
      | panic => rw [hcase, hs]; exact ⟨fun _ => rfl, fun _ => rfl⟩
      | err x => rw [hcase, hs]; exact ⟨nofun, nofun⟩
      | ok b =>
        refine ⟨fun h => ?_, nofun⟩
        exfalso
        cases ip with
        | true =>
          rw [hs] at hcase
          obtain ⟨_, x, hx⟩ := C59_in_place_destroys hcase
          rw [hcase] at h
          dsimp only at h
          rw [hx] at h
          cases h
        | false =>
          rw [hcase, hs] at h
          have h : ((Module.new file).signableWrite .dev file b).2 = .panic := h
          obtain ⟨_, pos', t', off', u, k1, k2⟩ := (C114_write .dev file b).mp h
          exact hnot _ _ _ k1 (.inl ⟨u, k2⟩)

/-- C114. The sign command on an ELF file: both builds panic if the result would be longer than a `Vec` can be. A development build
also panics if a release build's signer refuses to sign the digests of the selected sections because too few bytes are left for
padding. There is no other panic. -/
theorem C114_sign_elf (E : Env) (p : Profile) (acc : Bytes → Bool) (clock : Option UInt64) (m : ModuleSigner)
    (names : List (List Char)) (ip : Bool) (file : Bytes) (f0 : ElfFile) (ho : SignableFile.open acc file = .ok (.elf f0))
    (hlen : file.length < 2 ^ 63) : (cliSign E p acc clock m names ip file).2 = .panic ↔
      ∃ f, cliElfSelect f0 names = .ok f ∧
      ((p = .dev ∧ ∃ rs pairs, f.digestRegions acc = .ok rs ∧ cliElfDigests E acc f m.requiredAlgorithms = .ok pairs ∧
          m.sign E .release clock (Digests.new (pairs.map fun x => Digest.new x.1 x.2)) = .err .paddingTooLow) ∨
        ∃ b e n body table, cliElfBlock E p acc clock m f = .ok b ∧ ElfView file e ∧ Plan e file b.toU8 n body table ∧
          (2 ^ 63 ≤ body.length ∨ n < 2 ^ 32 ∧ 2 ^ 63 ≤ (withTable e body table).length)) := by
  obtain ⟨rfl, hnew, e0, hd0, ha0⟩ := open_elf_inv ho
  have hdata : ∀ f, cliElfSelect (⟨file, defaultSections⟩ : ElfFile) names = .ok f → f.data = file := by
    intro f hf
    exact (cliElfSelect_ok (.opened hnew) hf).2.1
  have hform : (cliSign E p acc clock m names ip file).2 = .panic ↔ ∃ f, cliElfSelect (⟨file, defaultSections⟩ : ElfFile) names =
      .ok f ∧ (cliElfBlock E p acc clock m f = .panic ∨ ∃ b, cliElfBlock E p acc clock m f = .ok b ∧
        f.writeWithSignature acc b = .panic) := by
    unfold cliSign
    rw [ho]
    dsimp only
    cases h1 : cliElfSelect (⟨file, defaultSections⟩ : ElfFile) names with
    | err x => exact ⟨nofun, fun ⟨_, h, _⟩ => nomatch h⟩
    | panic => exact absurd h1 np_elfSelect
    | ok f =>
      rw [Res.ok_bind]
      cases h2 : cliElfBlock E p acc clock m f with
      | err x =>
        refine ⟨nofun, ?_⟩
        rintro ⟨f', hf', h | ⟨b, h, _⟩⟩
        · cases hf'; rw [h2] at h; cases h
        · cases hf'; rw [h2] at h; cases h
      | panic => exact ⟨fun _ => ⟨f, rfl, .inl h2⟩, fun _ => rfl⟩
      | ok b =>
        rw [Res.ok_bind]
        dsimp only
        cases h3 : f.writeWithSignature acc b with
        | panic => exact ⟨fun _ => ⟨f, rfl, .inr ⟨b, h2, h3⟩⟩, fun _ => rfl⟩
        | err x =>
          refine ⟨nofun, ?_⟩
          rintro ⟨f', hf', h | ⟨b', h, h'⟩⟩
          · cases hf'; rw [h2] at h; cases h
          · cases hf'; rw [h2] at h; cases h; rw [h3] at h'; cases h'
        | ok out =>
          refine ⟨nofun, ?_⟩
          rintro ⟨f', hf', h | ⟨b', h, h'⟩⟩
          · cases hf'; rw [h2] at h; cases h
          · cases hf'; rw [h2] at h; cases h; rw [h3] at h'; cases h'
  have hblock : ∀ f, cliElfBlock E p acc clock m f = .panic ↔ p = .dev ∧ ∃ rs pairs, f.digestRegions acc = .ok rs ∧
      cliElfDigests E acc f m.requiredAlgorithms = .ok pairs ∧
      m.sign E .release clock (Digests.new (pairs.map fun x => Digest.new x.1 x.2)) = .err .paddingTooLow := by
    intro f
    unfold cliElfBlock
    cases h1 : f.digestRegions acc with
    | err x =>
      refine ⟨nofun, ?_⟩
      rintro ⟨_, _, _, h, _⟩; cases h
    | panic => exact absurd h1 (np_bind np_resolved fun _ _ => np_ok)
    | ok rs =>
      rw [Res.ok_bind]
      cases h2 : cliElfDigests E acc f m.requiredAlgorithms with
      | err x =>
        refine ⟨nofun, ?_⟩
        rintro ⟨_, _, _, _, h, _⟩; cases h
      | panic => exact absurd h2 np_elfDigests
      | ok pairs =>
        rw [Res.ok_bind]
        have hs := C114_signer E clock m (Digests.new (pairs.map fun x => Digest.new x.1 x.2))
        cases h3 : m.sign E p clock (Digests.new (pairs.map fun x => Digest.new x.1 x.2)) with
        | panic =>
          refine ⟨fun _ => ?_, fun _ => rfl⟩
          cases p with
          | release => exact absurd h3 hs.2.2
          | dev => exact ⟨rfl, rs, pairs, rfl, rfl, hs.1.mp h3⟩
        | err x =>
          refine ⟨nofun, ?_⟩
          rintro ⟨rfl, rs', pairs', _, h, h'⟩
          cases h
          rw [hs.1.mpr h'] at h3
          cases h3
        | ok b =>
          rw [Res.ok_bind]
          refine ⟨fun h => absurd h (np_bind np_resolved fun _ _ => np_ok), ?_⟩
          rintro ⟨rfl, rs', pairs', _, h, h'⟩
          cases h
          rw [hs.1.mpr h'] at h3
          cases h3
  rw [hform]
  constructor
  · rintro ⟨f, hf, h | ⟨b, hb, hw⟩⟩
    · exact ⟨f, hf, .inl ((hblock f).mp h)⟩
    · have hfd := hdata f hf
      obtain ⟨_, e, n, body, table, k1, k2, k3⟩ := (C98_panics acc f b (by rw [hfd]; exact hlen)).mp hw
      rw [hfd] at k1 k2
      exact ⟨f, hf, .inr ⟨b, e, n, body, table, hb, k1, k2, k3⟩⟩
  · rintro ⟨f, hf, h | ⟨b, e, n, body, table, hb, k1, k2, k3⟩⟩
    · exact ⟨f, hf, .inl ((hblock f).mpr h)⟩
    · have hfd := hdata f hf
      refine ⟨f, hf, .inr ⟨b, hb, (C98_panics acc f b (by rw [hfd]; exact hlen)).mpr ?_⟩⟩
      rw [hfd]
      exact ⟨ha0, e, n, body, table, k1, k2, k3⟩

/-- A signer whose certificate has an unlucky length. -/
def unluckySigner : ModuleSigner := .v2Only { toyConfig with cert := List.replicate 3960 0 }

set_option maxRecDepth 100000 in
/-- It is refused in a release build and panics in a development build, on the signer and on a whole file. -/
example : (∀ clock, unluckySigner.sign toyEnv .release clock (Digests.new [Digest.new .p256 [1]]) = .err .paddingTooLow) ∧
    (∀ clock, unluckySigner.sign toyEnv .dev clock (Digests.new [Digest.new .p256 [1]]) = .panic) ∧
    (cliSignModule toyEnv .dev none unluckySigner false plainArchive.unsigned).2 = .panic ∧
    (cliSignModule toyEnv .release none unluckySigner false plainArchive.unsigned).2 = .err .paddingTooLow := by
  have h : unluckySigner.sign toyEnv .release none (Digests.new [Digest.new .p256 [1]]) = .err .paddingTooLow := by decide +kernel
  have hc : ∀ p clock, unluckySigner.sign toyEnv p clock (Digests.new [Digest.new .p256 [1]]) =
      unluckySigner.sign toyEnv p none (Digests.new [Digest.new .p256 [1]]) := fun _ _ => rfl
  refine ⟨fun clock => (hc _ clock).trans h, fun clock => ?_, by decide +kernel, by decide +kernel⟩
  rw [hc]
  exact (C114_signer _ _ _ _).1.mpr h

end Ksusig.Props
