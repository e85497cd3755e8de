import Verif.Props.SignExact

/-!
# C94: histories of sign commands on arbitrary module files
-/

namespace Ksusig.Props

open Ksusig Spec

/-- `out` is the result of one or more sign commands, each applied to the output of the one before, the first to `file`. Signers
and times may differ. -/
inductive Signings (E : Env) (p : Profile) (file : Bytes) : Bytes → Prop where
  | first (m : ModuleSigner) (clock : Option UInt64) (out : Bytes) :
      (∀ c, m.v2 = some c ∨ m.stamp = some c → Known c.algo) →
      cliSignModule E p clock m false file = (some out, .ok ()) → Signings E p file out
  | next (mid : Bytes) (m : ModuleSigner) (clock : Option UInt64) (out : Bytes) : Signings E p file mid →
      (∀ c, m.v2 = some c ∨ m.stamp = some c → Known c.algo) →
      cliSignModule E p clock m false mid = (some out, .ok ()) → Signings E p file out

theorem source_unique {file raw raw' : Bytes} {pos pos' off off' : Nat} {t t' : Tail} (h : Source file raw) (h' : Source file raw')
    (hr : EndRecord raw pos t off) (hr' : EndRecord raw' pos' t' off') : raw = raw' := by
  have h1 := (signSource_iff .dev file (raw, t.eocd off pos)).mpr ⟨h, findEocd_iff.mpr ⟨pos, t, off, hr, rfl⟩⟩
  have h2 := (signSource_iff .dev file (raw', t'.eocd off' pos')).mpr ⟨h', findEocd_iff.mpr ⟨pos', t', off', hr', rfl⟩⟩
  rw [h1] at h2
  exact (Prod.mk.inj (Res.ok.inj h2)).1

/-- What remains of a file without its block keeps the end record, with the offset moved. -/
theorem source_record {file raw : Bytes} {pos : Nat} {t : Tail} {off s e : Nat} (hr : EndRecord file pos t off)
    (hl : Located file off s e) (hplain : Plain t) (hsrc : Source file raw) : ∃ pos2, EndRecord raw pos2 t (off - (e - s)) := by
  have hoff := hr.offset
  cases hsrc with
  | unsigned pos2 t2 off2 hr2 hu =>
    obtain ⟨rfl, rfl, rfl⟩ := hr.unique hr2
    obtain ⟨rfl, rfl⟩ := (C89_unique file).2 _ _ _ _ _ hl (.unsigned hu)
    exact ⟨pos, by simpa using hr⟩
  | signed _ hs =>
    obtain ⟨pos2, t2, off2, pre, pairs, vs, hr2, hbb, hc⟩ := hs
    obtain ⟨rfl, rfl, rfl⟩ := hr.unique hr2
    obtain ⟨rfl, rfl⟩ := (C89_unique file).2 _ _ _ _ _ hl (.signed pre pairs vs hbb)
    have : pre.length + pairs.length + 32 - pre.length = pairs.length + 32 := by omega
    rw [this]
    exact ⟨_, endRecord_of_plain hplain hr.comment _ (by omega)⟩

/-- One sign command, as an archive with a block. The archive is determined by the input alone. -/
theorem sign_archive_sized {E : Env} {p : Profile} {file : Bytes} {pos : Nat} {t : Tail} {off : Nat} (hlen : file.length < 2 ^ 64)
    (hr : EndRecord file pos t off) (hplain : Plain t) (hsize : off + 16392 < 2 ^ 32) :
    ∃ a : Archive, a.tail = t ∧ (∀ n, n ≤ 16392 → Signable a n) ∧ ∀ m clock out,
      (∀ c, m.v2 = some c ∨ m.stamp = some c → Known c.algo) → cliSignModule E p clock m false file = (some out, .ok ()) →
      (∃ b, Built p b ∧ out = a.signed b.toU8) ∧ ∃ s e, Located file off s e ∧ a.body.length = off - (e - s) := by
  by_cases hany : ∃ m clock out, (∀ c, m.v2 = some c ∨ m.stamp = some c → Known c.algo) ∧
      cliSignModule E p clock m false file = (some out, .ok ())
  · obtain ⟨m, clock, out, hk, h⟩ := hany
    obtain ⟨pos1, t1, off1, s, e, b, raw, hr1, hl, hp1, hsign, hsrc, hins⟩ := (C92_sign_command E p clock m file out hlen hk).mp h
    obtain ⟨rfl, rfl, rfl⟩ := hr.unique hr1
    obtain ⟨pos2, hraw⟩ := source_record hr hl hplain hsrc
    have hfit := endRecord_slice hraw
    have hle : off - (e - s) ≤ pos2 := by
      obtain ⟨pos3, t3, off3, hr3, hle⟩ := hins
      obtain ⟨rfl, rfl, rfl⟩ := hraw.unique hr3
      exact hle
    generalize hoff : off - (e - s) = o at *
    refine ⟨⟨raw.take o, (raw.drop o).take (pos2 - o), t⟩, rfl, fun n hn => ?_, fun m' clock' out' hk' h' => ?_⟩
    · refine ⟨hr.comment, fun k hk => hplain _ k hk, fun k hk => hplain _ k hk, ?_⟩
      simp only [List.length_take]; omega
    · obtain ⟨pos1', t1', off1', s', e', b', raw', hr1', hl', hp1', hsign', hsrc', hins'⟩ :=
        (C92_sign_command E p clock' m' file out' hlen hk').mp h'
      obtain ⟨pos3, t3, off3, hr3, hle3⟩ := hins'
      obtain rfl := source_unique hsrc hsrc' hraw hr3
      obtain ⟨rfl, rfl, rfl⟩ := hraw.unique hr3
      refine ⟨⟨b', sign_built_required (D := fun al => treeDigest (al.hash E) (regions file s' e' pos1')) hk' hsign', ?_⟩,
        s, e, hl, ?_⟩
      · simp only [Archive.signed, List.length_take]
        rw [Nat.min_eq_left (by omega)]
      · simp only [List.length_take]; omega
  · refine ⟨⟨[], [], t⟩, rfl, fun n hn => ?_, fun m clock out hk h => absurd ⟨m, clock, out, hk, h⟩ hany⟩
    exact ⟨hr.comment, fun k hk => hplain _ k hk, fun k hk => hplain _ k hk, by simp only [List.length_nil]; omega⟩

theorem sign_archive {E : Env} {p : Profile} {file : Bytes} {pos : Nat} {t : Tail} {off : Nat} (hlen : file.length < 2 ^ 64)
    (hr : EndRecord file pos t off) (hplain : Plain t) (hsize : off + 16392 < 2 ^ 32) :
    ∃ a : Archive, a.tail = t ∧ (∀ n, n ≤ 16392 → Signable a n) ∧ ∀ m clock out,
      (∀ c, m.v2 = some c ∨ m.stamp = some c → Known c.algo) → cliSignModule E p clock m false file = (some out, .ok ()) →
      ∃ b, Built p b ∧ out = a.signed b.toU8 := by
  obtain ⟨a, h1, h2, h3⟩ := sign_archive_sized (E := E) (p := p) hlen hr hplain hsize
  exact ⟨a, h1, h2, fun m clock out hk h => (h3 m clock out hk h).1⟩

theorem signings_archive {E : Env} {p : Profile} {file : Bytes} {a : Archive} (hs : ∀ n, n ≤ 16392 → Signable a n)
    (ha : ∀ m clock out, (∀ c, m.v2 = some c ∨ m.stamp = some c → Known c.algo) →
      cliSignModule E p clock m false file = (some out, .ok ()) → ∃ b, Built p b ∧ out = a.signed b.toU8) :
    ∀ out, Signings E p file out → ∃ b, Built p b ∧ out = a.signed b.toU8 := by
  intro out h
  induction h with
  | first m clock out hk h => exact ha m clock out hk h
  | next mid m clock out _ hk h ih =>
    obtain ⟨b, hb, rfl⟩ := ih
    obtain ⟨r, hr', hc⟩ := C25_sign_command (E := E) (p := p) (clock := clock) (.inr ⟨p, b, hb, hs _ (built_length hb), rfl⟩) hs hk
    rw [h] at hc
    cases r with
    | err e => cases hc
    | panic => cases hc
    | ok b' =>
      have hb' := sign_built_required hk hr'
      exact ⟨b', hb', Option.some.inj (Prod.mk.inj hc).1⟩

/-- C94. However often a file is signed, and by whomever, all outputs agree outside the block: there are fixed entries and a fixed
directory such that every output consists of the entries, a block, the directory and the end record pointing behind the block;
and stripping any output gives entries, directory and end record. -/
theorem C94_outputs_agree {E : Env} {p : Profile} {file : Bytes} {pos : Nat} {t : Tail} {off : Nat} (hlen : file.length < 2 ^ 64)
    (hr : EndRecord file pos t off) (hplain : Plain t) (hsize : off + 16392 < 2 ^ 32) :
    ∃ body cd, ∀ out, Signings E p file out →
      (∃ block, out = body ++ block ++ cd ++ wireEocd t (body.length + block.length) ∧ block.length ≤ 16392) ∧
      ∀ p', (Module.new out).getRawModule p' out = .ok (body ++ cd ++ wireEocd t body.length) := by
  obtain ⟨a, rfl, hs, ha⟩ := sign_archive (E := E) (p := p) hlen hr hplain hsize
  have key := signings_archive hs ha
  refine ⟨a.body, a.cd, fun out h => ?_⟩
  obtain ⟨b, hb, rfl⟩ := key out h
  exact ⟨⟨b.toU8, rfl, built_length hb⟩, fun p' => C22_strip_signed hb (hs _ (built_length hb))⟩

/-- C94. From the second signing on, the outcome of the sign command depends on the signer only: it fails exactly if the signer
refuses the digests of the fixed content. -/
theorem C94_signing_again {E : Env} {p : Profile} {file : Bytes} {pos : Nat} {t : Tail} {off : Nat} (hlen : file.length < 2 ^ 64)
    (hr : EndRecord file pos t off) (hplain : Plain t) (hsize : off + 16392 < 2 ^ 32) :
    ∃ body cd, ∀ mid, Signings E p file mid → ∀ m clock, (∀ c, m.v2 = some c ∨ m.stamp = some c → Known c.algo) →
      cliSignModule E p clock m false mid =
        match m.sign E p clock (Digests.new (m.requiredAlgorithms.map fun al => Digest.new al
          (treeDigest (al.hash E) [body, cd, wireEocd t body.length]))) with
        | .ok b => (some (body ++ b.toU8 ++ cd ++ wireEocd t (body.length + b.toU8.length)), .ok ())
        | .err e => (none, .err e)
        | .panic => (none, .panic) := by
  obtain ⟨a, rfl, hs, ha⟩ := sign_archive (E := E) (p := p) hlen hr hplain hsize
  have key := signings_archive hs ha
  refine ⟨a.body, a.cd, fun mid h m clock hk => ?_⟩
  obtain ⟨b, hb, rfl⟩ := key mid h
  obtain ⟨r, hr', hc⟩ := C25_sign_command (E := E) (p := p) (clock := clock) (.inr ⟨p, b, hb, hs _ (built_length hb), rfl⟩) hs hk
  rw [hc, ← hr']
  rfl

/-- C94. Whatever the first input was, a file that has been signed twice or more is accepted by the verify command if the last
signer is sound and trusted, and the library reports it as valid. (After a single signing this is so only as stated in C93.) -/
theorem C94_signed_again_accepted {E : Env} {p : Profile} {file mid out : Bytes} {pos : Nat} {t : Tail} {off : Nat}
    (hlen : file.length < 2 ^ 64) (hr : EndRecord file pos t off) (hplain : Plain t) (hsize : off + 16392 < 2 ^ 32)
    (hmid : Signings E p file mid) {m : ModuleSigner} {clock : Option UInt64}
    (hsound : ∀ c, m.v2 = some c ∨ m.stamp = some c → Sound E c)
    (h : cliSignModule E p clock m false mid = (some out, .ok ())) :
    (∀ added now, (∀ c, m.v2 = some c → Trusted E added now c.cert c.chain) →
      (∀ c, m.stamp = some c → Trusted E added now c.cert []) →
      ∃ v, (Module.new out).verifyWithRoots E p out (storeOf E added) now = .ok v ∧ v.isValid = true) ∧
    (∀ builtin root cert now, E.pemParse (Option.getD root builtin) = some ("CERTIFICATE", cert) → m.v2 ≠ none →
      (∀ c, m.v2 = some c → Trusted E [cert] now c.cert c.chain) →
      (∀ c, m.stamp = some c → Trusted E [cert] now c.cert []) →
      cliVerify E p builtin root now out = .ok ()) := by
  obtain ⟨a, rfl, hs, ha⟩ := sign_archive (E := E) (p := p) hlen hr hplain hsize
  have key := signings_archive hs ha
  obtain ⟨b, hb, rfl⟩ := key mid hmid
  exact (C25_sign_then_verify_partial (.inr ⟨p, b, hb, hs _ (built_length hb), rfl⟩) hs hsound h).2

set_option maxRecDepth 100000 in
/-- An archive with a block inside an entry: the output of the first signing is refused, that of the second accepted. -/
example : ∃ mid out, cliSignModule toyEnv .dev none ⟨some toyConfig, none, false, false⟩ false nestedPlain.unsigned =
      (some mid, .ok ()) ∧ Signings toyEnv .dev nestedPlain.unsigned mid ∧
    cliSignModule toyEnv .dev none ⟨some toyConfig, none, false, false⟩ false mid = (some out, .ok ()) ∧
    cliVerify toyEnv .dev [7] none 0 mid ≠ .ok () ∧ cliVerify toyEnv .dev [7] none 0 out = .ok () := by
  have h : (match cliSignModule toyEnv .dev none ⟨some toyConfig, none, false, false⟩ false nestedPlain.unsigned with
    | (some mid, .ok ()) => !(cliVerify toyEnv .dev [7] none 0 mid).isOk &&
      (match cliSignModule toyEnv .dev none ⟨some toyConfig, none, false, false⟩ false mid with
        | (some out, .ok ()) => (cliVerify toyEnv .dev [7] none 0 out).isOk
        | _ => false)
    | _ => false) = true := by decide +kernel
  split at h
  · rename_i mid h1
    simp only [Bool.and_eq_true, Bool.not_eq_true'] at h
    obtain ⟨h2, h3⟩ := h
    split at h3
    · rename_i out h4
      obtain ⟨⟨⟩, h5⟩ := Res.exists_of_isOk h3
      refine ⟨mid, out, h1, .first _ _ _ (by rintro c (h | h) <;> cases h; exact .inl rfl) h1, h4, ?_, h5⟩
      intro h6
      rw [h6] at h2
      cases h2
    · cases h3
  · cases h

end Ksusig.Props
