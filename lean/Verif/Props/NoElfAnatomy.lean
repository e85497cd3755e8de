import Verif.Proofs.NoElfAnatomy
import Verif.Props.NoElfCli
import Verif.Props.SignExact

/-!
# C126: the anatomy of modules in the build without ELF support
-/

namespace Ksusig.Props

open Ksusig Spec

theorem bare_new (p : Profile) (file : Bytes) : NoElf.getSigningBlock p (Module.new file) file =
    (findEocd file file.length >>= fun e => NoElf.fromReader p file file.length (file.length - e.cdOffset.toNat)) := rfl

/-- C126. The build without ELF support returns the block of a module exactly if there is an end record and a block in force before the
offset it gives; what the pairs stand for is given by the grammar without section lists. -/
theorem C126_block (p : Profile) (file : Bytes) (b : SigningBlock) :
    NoElf.getSigningBlock p (Module.new file) file = .ok b ↔
    ∃ pos t off pre pairs, EndRecord file pos t off ∧ BareBlock file (min file.length off) pre pairs b.content ∧
      b = ⟨pre.length, pre.length + pairs.length + 32, pairs.length + 24, pairs.length, b.content, pairs.length + 24,
        Ksusig.magic⟩ := by
  rw [bare_new, Res.bind_eq_ok]
  constructor
  · rintro ⟨e, he, hb⟩
    obtain ⟨pos, t, off, h, rfl⟩ := findEocd_iff.mp he
    simp only [Spec.Tail.eocd, u32_ofNat_toNat h.offset] at hb
    obtain ⟨pre, pairs, h1, h2⟩ := NoElf.fromReader_before.mp hb
    exact ⟨pos, t, off, pre, pairs, h, h1, h2⟩
  · rintro ⟨pos, t, off, pre, pairs, h, h1, h2⟩
    refine ⟨_, findEocd_iff.mpr ⟨pos, t, off, h, rfl⟩, ?_⟩
    simp only [Spec.Tail.eocd, u32_ofNat_toNat h.offset]
    exact NoElf.fromReader_before.mpr ⟨pre, pairs, h1, h2⟩

/-- C126. It reports a module as not signed exactly if there is an end record and nothing before its offset looks like a block. -/
theorem C126_missing (p : Profile) (file : Bytes) :
    (∃ e, NoElf.getSigningBlock p (Module.new file) file = .err e ∧ e.isMissing = true) ↔
    ∃ pos t off, EndRecord file pos t off ∧ Unsigned file (min file.length off) := by
  rw [bare_new]
  constructor
  · rintro ⟨e, h, he⟩
    rcases findEocd_total file file.length with ⟨c, hc⟩ | ⟨c, hc, hk⟩
    · obtain ⟨pos, t, off, hr, rfl⟩ := findEocd_iff.mp hc
      rw [hc] at h
      simp only [Res.ok_bind, Spec.Tail.eocd, u32_ofNat_toNat hr.offset] at h
      exact ⟨pos, t, off, hr, NoElf.fromReader_missing.mp ⟨e, h, he⟩⟩
    · rw [hc] at h
      cases h
      rcases hk with rfl | rfl | rfl <;> cases he
  · rintro ⟨pos, t, off, hr, hu⟩
    obtain ⟨e, h, he⟩ := (NoElf.fromReader_missing (p := p)).mpr hu
    refine ⟨e, ?_, he⟩
    rw [findEocd_iff.mpr ⟨pos, t, off, hr, rfl⟩]
    simpa only [Res.ok_bind, Spec.Tail.eocd, u32_ofNat_toNat hr.offset] using h

/-- C126. There is at most one place for the block. -/
theorem C126_unique (file : Bytes) :
    ∀ off s e s' e', BareLocated file off s e → BareLocated file off s' e' → s = s' ∧ e = e' := by
  have key : ∀ off pre pairs vs, BareBlock file (min file.length off) pre pairs vs →
      NoElf.fromReader .dev file file.length (file.length - off) = .ok ⟨pre.length, pre.length + pairs.length + 32,
        pairs.length + 24, pairs.length, vs, pairs.length + 24, Ksusig.magic⟩ := fun off pre pairs vs h =>
    NoElf.fromReader_before.mpr ⟨pre, pairs, h, rfl⟩
  intro off s e s' e' h h'
  cases h with
  | signed pre pairs vs hb =>
    have := key _ _ _ _ hb
    cases h' with
    | signed pre' pairs' vs' hb' =>
      rw [key _ _ _ _ hb'] at this
      simp only [Res.ok.injEq, SigningBlock.mk.injEq] at this
      exact ⟨this.1.symm, this.2.1.symm⟩
    | unsigned hu =>
      obtain ⟨err, he, _⟩ := (NoElf.fromReader_missing (p := .dev)).mpr hu
      rw [he] at this; cases this
  | unsigned hu =>
    cases h' with
    | signed pre' pairs' vs' hb' =>
      obtain ⟨err, he, _⟩ := (NoElf.fromReader_missing (p := .dev)).mpr hu
      rw [key _ _ _ _ hb'] at he; cases he
    | unsigned hu' => exact ⟨rfl, rfl⟩

theorem bareOffsets_iff (p : Profile) (file : Bytes) (o : FileOffsets) :
    NoElf.getOffsets p (Module.new file) file = .ok o ↔
    ∃ pos t off s e, EndRecord file pos t off ∧ BareLocated file off s e ∧ o = FileOffsets.new s e pos file.length := by
  have hgo : NoElf.getOffsets p (Module.new file) file = (findEocd file file.length >>= fun eocd =>
      match NoElf.getSigningBlock p (Module.new file) file with
      | .ok sig => .ok (FileOffsets.new sig.fileStart sig.fileEnd eocd.fileOffset file.length)
      | .err e => if e.isMissing then .ok (FileOffsets.withoutSignature eocd.cdOffset.toNat eocd.fileOffset file.length)
          else .err .corrupted
      | .panic => .panic) := rfl
  rw [hgo, Res.bind_eq_ok]
  constructor
  · rintro ⟨c, hc, h⟩
    obtain ⟨pos, t, off, hr, rfl⟩ := findEocd_iff.mp hc
    refine ⟨pos, t, off, ?_⟩
    cases hg : NoElf.getSigningBlock p (Module.new file) file with
    | panic => rw [hg] at h; cases h
    | ok b =>
      rw [hg] at h
      cases h
      obtain ⟨pos', t', off', pre, pairs, hr', hb, he⟩ := (C126_block p file b).mp hg
      obtain ⟨rfl, rfl, rfl⟩ := hr.unique hr'
      exact ⟨pre.length, pre.length + pairs.length + 32, hr, .signed pre pairs _ hb, by rw [he]; rfl⟩
    | err e =>
      rw [hg] at h
      cases hm : e.isMissing with
      | false => simp [hm] at h
      | true =>
        simp only [hm, if_true] at h
        cases h
        obtain ⟨pos', t', off', hr', hu⟩ := (C126_missing p file).mp ⟨e, hg, hm⟩
        obtain ⟨rfl, rfl, rfl⟩ := hr.unique hr'
        refine ⟨off, off, hr, .unsigned hu, ?_⟩
        simp only [FileOffsets.withoutSignature, Spec.Tail.eocd, u32_ofNat_toNat hr.offset]
  · rintro ⟨pos, t, off, s, e, hr, hl, rfl⟩
    refine ⟨_, findEocd_iff.mpr ⟨pos, t, off, hr, rfl⟩, ?_⟩
    cases hl with
    | signed pre pairs vs hb =>
      rw [(C126_block p file (⟨pre.length, pre.length + pairs.length + 32, pairs.length + 24,
        pairs.length, vs, pairs.length + 24, Ksusig.magic⟩ : SigningBlock)).mpr ⟨pos, t, off, pre, pairs, hr, hb, rfl⟩]
      rfl
    | unsigned hu =>
      obtain ⟨err, he, hm⟩ := (C126_missing p file).mpr ⟨pos, t, off, hr, hu⟩
      rw [he]
      simp only [hm, if_true, FileOffsets.withoutSignature, Spec.Tail.eocd, u32_ofNat_toNat hr.offset]

/-- C126. A digest is computed exactly if the file has an end record in force, its block is located or absent, and the directory starts
before the end record (a release build does not insist on that). It is then the two-level digest of the three regions. -/
theorem C126_digest (E : Env) (p : Profile) (file : Bytes) (hlen : file.length < 2 ^ 64) (algo : Algo) (d : Bytes) :
    NoElf.digest E p (Module.new file) file algo = .ok d ↔
    ∃ pos t off s e, EndRecord file pos t off ∧ BareLocated file off s e ∧ (e ≤ pos ∨ p = .release) ∧
      d = treeDigest (algo.hash E) (regions file s e pos) := by
  have hd : NoElf.digest E p (Module.new file) file algo = (NoElf.getOffsets p (Module.new file) file >>= fun o =>
    digestModule E p fullReads fullReads file o algo) := rfl
  rw [hd, Res.bind_eq_ok]
  constructor
  · rintro ⟨o, ho, h⟩
    obtain ⟨pos, t, off, s, e, hr, hl, rfl⟩ := (bareOffsets_iff p file o).mp ho
    have hroom := endRecord_room hr
    have hp : e ≤ pos ∨ p = .release := by
      by_cases hle : e ≤ pos
      · exact .inl hle
      · cases p with
        | release => exact .inr rfl
        | dev =>
          rw [(digestModule_panic (by omega)).mpr ⟨rfl, by omega⟩] at h
          cases h
    rw [digestModule_regions E p file hlen s e pos algo (by omega) hp] at h
    cases h
    exact ⟨pos, t, off, s, e, hr, hl, hp, rfl⟩
  · rintro ⟨pos, t, off, s, e, hr, hl, hp, rfl⟩
    have hroom := endRecord_room hr
    exact ⟨_, (bareOffsets_iff p file _).mpr ⟨pos, t, off, s, e, hr, hl, rfl⟩,
      digestModule_regions E p file hlen s e pos algo (by omega) hp⟩

/-- C126. Stripping succeeds exactly if the file has an end record and a block in force that do not overlap, counted from the end of the
file; the result is the file without the block, with the directory offset reduced by its size. -/
theorem C126_strip (p : Profile) (file raw : Bytes) :
    NoElf.getRawModule p (Module.new file) file = .ok raw ↔ BareStrips file raw := by
  have hraw : NoElf.getRawModule p (Module.new file) file = (NoElf.getSigningBlock p (Module.new file) file >>= fun sig =>
      usub p sig.fileEnd sig.fileStart >>= fun sizeSig =>
      Res.ofOption .invalidData (slice? file 0 sig.fileStart) >>= fun start =>
      findEocd file file.length >>= fun eocd =>
      Res.ofOption .invalidData (checkedSub32 eocd.cdOffset sizeSig) >>= fun cd =>
      usub p file.length { eocd with cdOffset := cd }.toU8.length >>= fun stop =>
      Res.ofOption .invalidData (slice? file sig.fileEnd stop) >>= fun rest =>
      .ok (start ++ rest ++ { eocd with cdOffset := cd }.toU8)) := rfl
  have key : ∀ pos t off pre pairs vs, EndRecord file pos t off → BareBlock file (min file.length off) pre pairs vs →
      NoElf.getRawModule p (Module.new file) file =
        if pre.length + pairs.length + 32 + (22 + t.comment.length) ≤ file.length then .ok (stripped file pre pairs t off)
        else .err .invalidData := by
    intro pos t off pre pairs vs hr hb
    have hfit := endRecord_slice hr
    have hin := hb.inside
    have hsm := hb.small
    obtain ⟨post, hpost⟩ := hb.bytes
    have hoff := hr.offset
    rw [hraw, (C126_block p file ⟨pre.length, pre.length + pairs.length + 32, pairs.length + 24, pairs.length, vs,
      pairs.length + 24, Ksusig.magic⟩).mpr ⟨pos, t, off, pre, pairs, hr, hb, rfl⟩]
    simp only [Res.ok_bind]
    rw [usub_of_le (by omega), slice?_of_le (by omega) (by omega), findEocd_iff.mpr ⟨pos, t, off, hr, rfl⟩]
    simp only [Res.ok_bind, Res.ofOption_some, Spec.Tail.eocd]
    have hn : pre.length + pairs.length + 32 - pre.length = pairs.length + 32 := by omega
    have hcs : checkedSub32 (UInt32.ofNat off) (pairs.length + 32) = some (UInt32.ofNat (off - (pairs.length + 32))) := by
      unfold checkedSub32
      rw [u32_ofNat_toNat hoff, Nat.mod_eq_of_lt (by omega), if_pos (by omega)]
    rw [hn, hcs]
    simp only [Res.ok_bind, Res.ofOption_some]
    have hser : (⟨pos, eocdSig, t.disk, t.diskCd, t.entries, t.total, t.cdSize, UInt32.ofNat (off - (pairs.length + 32)),
        UInt16.ofNat t.comment.length, t.comment⟩ : Eocd).toU8 = wireEocd t (off - (pairs.length + 32)) :=
      t.eocd_toU8' (fo := pos) hr.comment
    rw [hser, wireEocd_length, usub_of_le (by omega)]
    simp only [Res.ok_bind]
    by_cases hc : pre.length + pairs.length + 32 + (22 + t.comment.length) ≤ file.length
    · rw [if_pos hc, slice?_of_le (by omega) (by omega)]
      simp only [Res.ofOption_some, Res.ok_bind, stripped, List.drop_zero, Nat.sub_zero]
      have : file.take pre.length = pre := by rw [hpost, List.append_assoc]; exact List.take_left
      rw [this]
    · rw [if_neg hc]
      have : slice? file (pre.length + pairs.length + 32) (file.length - (22 + t.comment.length)) = none := by
        unfold slice?; rw [if_neg (by omega)]
      rw [this]
      rfl
  constructor
  · intro h
    rw [hraw] at h
    obtain ⟨b, hb, _⟩ := Res.bind_eq_ok.mp h
    obtain ⟨pos, t, off, pre, pairs, hr, hbb, _⟩ := (C126_block p file b).mp hb
    rw [← hraw, key _ _ _ _ _ _ hr hbb] at h
    split at h
    · cases h
      exact .intro pos t off pre pairs _ hr hbb (by assumption)
    · cases h
  · rintro ⟨pos, t, off, pre, pairs, vs, hr, hb, hc⟩
    rw [key _ _ _ _ _ _ hr hb, if_pos hc]

theorem bareSource_iff (p : Profile) (file : Bytes) (r : Bytes × Eocd) :
    NoElf.signSource p (Module.new file) file = .ok r ↔ BareSource file r.1 ∧ findEocd r.1 r.1.length = .ok r.2 := by
  obtain ⟨raw, c⟩ := r
  have hss : NoElf.signSource p (Module.new file) file = (match NoElf.getSigningBlock p (Module.new file) file with
    | .ok _ => NoElf.getRawModule p (Module.new file) file >>= fun bytes => findEocd bytes bytes.length >>= fun eocd => .ok (bytes, eocd)
    | .err e => if e.isMissing then findEocd file file.length >>= fun eocd => .ok (file, eocd) else .err .refuseCorrupted
    | .panic => .panic) := rfl
  rw [hss]
  constructor
  · intro h
    cases hg : NoElf.getSigningBlock p (Module.new file) file with
    | panic => rw [hg] at h; cases h
    | ok b =>
      rw [hg] at h
      obtain ⟨bytes, h1, h2⟩ := Res.bind_eq_ok.mp h
      obtain ⟨e, h3, h4⟩ := Res.bind_eq_ok.mp h2
      cases h4
      exact ⟨.signed _ ((C126_strip p file _).mp h1), h3⟩
    | err e =>
      rw [hg] at h
      cases hm : e.isMissing with
      | false => simp [hm] at h
      | true =>
        simp only [hm, if_true] at h
        obtain ⟨e', h3, h4⟩ := Res.bind_eq_ok.mp h
        cases h4
        obtain ⟨pos, t, off, hr, hu⟩ := (C126_missing p file).mp ⟨e, hg, hm⟩
        exact ⟨.unsigned pos t off hr hu, h3⟩
  · rintro ⟨hsrc, hf⟩
    cases hsrc with
    | unsigned pos t off hr hu =>
      obtain ⟨e, he, hm⟩ := (C126_missing p _).mpr ⟨pos, t, off, hr, hu⟩
      rw [he]
      simp only [hm, if_true]
      exact Res.bind_eq_ok.mpr ⟨c, hf, rfl⟩
    | signed _ hs =>
      have h1 := (C126_strip p file _).mpr hs
      obtain ⟨pos, t, off, pre, pairs, vs, hr, hb, hc⟩ := hs
      rw [(C126_block p file ⟨pre.length, pre.length + pairs.length + 32, pairs.length + 24, pairs.length, vs,
        pairs.length + 24, Ksusig.magic⟩).mpr ⟨pos, t, off, pre, pairs, hr, hb, rfl⟩]
      exact Res.bind_eq_ok.mpr ⟨_, h1, Res.bind_eq_ok.mpr ⟨c, hf, rfl⟩⟩

/-- C126. Writing a module with a block succeeds exactly if the file is unsigned or can be stripped, what is left has an end record
behind its directory offset, and it writes these bytes with the block inserted at that offset. -/
theorem C126_sign (p : Profile) (file : Bytes) (b : SigningBlock) (out : Bytes) (hlen : b.toU8.length < 2 ^ 63) :
    NoElf.signableWrite p (Module.new file) file b = (out, .ok ()) ↔ ∃ raw, BareSource file raw ∧ Inserted raw b.toU8 out := by
  have key : ∀ raw pos t off, NoElf.signSource p (Module.new file) file = .ok (raw, t.eocd off pos) → EndRecord raw pos t off →
      NoElf.signableWrite p (Module.new file) file b = if off ≤ pos then
        (raw.take off ++ b.toU8 ++ (raw.drop off).take (pos - off) ++ wireEocd t (off + b.toU8.length), .ok ())
        else ([], .err .invalidData) := by
    intro raw pos t off hs hr
    have hfit := endRecord_slice hr
    have hoff := hr.offset
    unfold NoElf.signableWrite
    simp only [hs, Spec.Tail.eocd, u32_ofNat_toNat hoff]
    by_cases hc : off ≤ pos
    · have hda : debugAssert p (pos - off + (raw.length - pos) + off == raw.length) = .ok () := by
        have : (pos - off + (raw.length - pos) + off == raw.length) = true := by simp; omega
        rw [this]
        cases p <;> rfl
      rw [if_neg (by omega), if_pos hc, usub_of_le (by omega)]
      simp only
      rw [slice?_of_le (by omega) (by omega), slice?_of_le (by omega) (by omega)]
      simp only
      rw [if_neg (by omega), hda]
      simp only [List.drop_zero, Nat.sub_zero]
      have hser : (⟨pos + b.toU8.length, eocdSig, t.disk, t.diskCd, t.entries, t.total, t.cdSize,
          UInt32.ofNat (off + b.toU8.length), UInt16.ofNat t.comment.length, t.comment⟩ : Eocd).toU8 =
          wireEocd t (off + b.toU8.length) := t.eocd_toU8' (fo := pos + b.toU8.length) hr.comment
      rw [hser]
    · rw [if_neg hc, if_pos (by omega)]
  constructor
  · intro h
    cases hs : NoElf.signSource p (Module.new file) file with
    | err e => unfold NoElf.signableWrite at h; simp only [hs] at h; cases h
    | panic => unfold NoElf.signableWrite at h; simp only [hs] at h; cases h
    | ok r =>
      obtain ⟨raw, c⟩ := r
      obtain ⟨hsrc, hf⟩ := (bareSource_iff p file _).mp hs
      obtain ⟨pos, t, off, hr, rfl⟩ := findEocd_iff.mp hf
      rw [key _ _ _ _ hs hr] at h
      split at h
      · cases h
        exact ⟨raw, hsrc, .intro pos t off hr (by assumption)⟩
      · cases h
  · rintro ⟨raw, hsrc, pos, t, off, hr, hc⟩
    have hs := (bareSource_iff p file (raw, t.eocd off pos)).mpr ⟨hsrc, findEocd_iff.mpr ⟨pos, t, off, hr, rfl⟩⟩
    rw [key _ _ _ _ hs hr, if_pos hc]

/-- C126. The sign command on a module succeeds exactly if the file has an end record and its regions (so also its digests) are
determined, the signer signs these digests, and the file can be written with the resulting block; the output then is the file with
that block inserted. -/
theorem C126_sign_command (E : Env) (p : Profile) (clock : Option UInt64) (m : ModuleSigner) (file out : Bytes)
    (hlen : file.length < 2 ^ 64) (hk : ∀ c, m.v2 = some c ∨ m.stamp = some c → Known c.algo) :
    NoElf.cliSign E p clock m [] false file = (some out, .ok ()) ↔
    ∃ pos t off s e b raw, EndRecord file pos t off ∧ BareLocated file off s e ∧ (e ≤ pos ∨ p = .release) ∧
      m.sign E p clock (Digests.new (m.requiredAlgorithms.map fun al =>
        Digest.new al (treeDigest (al.hash E) (regions file s e pos)))) = .ok b ∧
      BareSource file raw ∧ Inserted raw b.toU8 out := by
  have hb : ∀ (D : Algo → Bytes) b, m.sign E p clock (Digests.new (m.requiredAlgorithms.map fun al => Digest.new al (D al))) =
      .ok b → b.toU8.length < 2 ^ 63 := fun D b h => by
    have := built_length (sign_built_required hk h)
    omega
  have hdig : ∀ pos t off s e, EndRecord file pos t off → BareLocated file off s e → (e ≤ pos ∨ p = .release) → ∀ as : List Algo,
      NoElf.cliDigests E p (Module.new file) file as =
        .ok (as.map fun al => (al, treeDigest (al.hash E) (regions file s e pos))) := by
    intro pos t off s e hr hl hp as
    induction as with
    | nil => rfl
    | cons al as ih =>
      unfold NoElf.cliDigests
      rw [(C126_digest E p file hlen al _).mpr ⟨pos, t, off, s, e, hr, hl, hp, rfl⟩, ih]
      rfl
  have hreg : ∀ rs, NoElf.digestRegions p (Module.new file) file = .ok rs →
      ∃ pos t off s e, EndRecord file pos t off ∧ BareLocated file off s e ∧ (e ≤ pos ∨ p = .release) := by
    intro rs h
    obtain ⟨o, ho, h⟩ := Res.bind_eq_ok.mp h
    obtain ⟨pos, t, off, s, e, hr, hl, rfl⟩ := (bareOffsets_iff p file o).mp ho
    refine ⟨pos, t, off, s, e, hr, hl, ?_⟩
    obtain ⟨n1, _, h⟩ := Res.bind_eq_ok.mp h
    obtain ⟨n2, h2, _⟩ := Res.bind_eq_ok.mp h
    by_cases hle : e ≤ pos
    · exact .inl hle
    · cases p with
      | release => exact .inr rfl
      | dev =>
        have h2 : usub .dev pos e = .ok n2 := h2
        unfold usub at h2
        rw [if_neg hle] at h2
        cases h2
  have hreg' : ∀ pos t off s e, EndRecord file pos t off → BareLocated file off s e → (e ≤ pos ∨ p = .release) →
      ∃ rs, NoElf.digestRegions p (Module.new file) file = .ok rs := by
    intro pos t off s e hr hl hp
    have hroom := endRecord_room hr
    have h2 : ∃ n, usub p pos e = .ok n := by
      rcases hp with h | rfl
      · exact ⟨_, usub_of_le h⟩
      · exact usub_release _ _
    obtain ⟨n2, h2⟩ := h2
    have ho := (bareOffsets_iff p file _).mpr ⟨pos, t, off, s, e, hr, hl, rfl⟩
    unfold NoElf.digestRegions
    rw [ho]
    simp only [FileOffsets.new, Res.ok_bind]
    rw [usub_of_le (Nat.zero_le _), h2, usub_of_le (by omega)]
    exact ⟨_, rfl⟩
  have hopen : ∀ pos t off, EndRecord file pos t off → NoElf.cliOpen [] file = .ok (Module.new file) := by
    intro pos t off hr
    have hroom := endRecord_room hr
    unfold NoElf.cliOpen NoElf.detectFileFormat readExactAt
    rw [slice?_of_le (by omega) (by omega), findEocd_iff.mpr ⟨pos, t, off, hr, rfl⟩]
    simp only [Res.ofOption_some, Res.ok_bind]
    split <;> rfl
  have hopen' : ∀ x, NoElf.cliOpen [] file = .ok x → x = Module.new file := by
    intro x h
    obtain ⟨f, _, h⟩ := Res.bind_eq_ok.mp h
    cases h
    rfl
  unfold NoElf.cliSign
  dsimp only
  constructor
  · intro h
    split at h
    · cases h
    · cases h
    · rename_i x b hsb
      obtain ⟨x', h0, hsb⟩ := Res.bind_eq_ok.mp hsb
      cases hopen' x' h0
      obtain ⟨rs, h1, hsb⟩ := Res.bind_eq_ok.mp hsb
      obtain ⟨ps, h2, hsb⟩ := Res.bind_eq_ok.mp hsb
      obtain ⟨b', hsb, hbb⟩ := Res.bind_eq_ok.mp hsb
      cases hbb
      obtain ⟨pos, t, off, s, e, hr, hl, hp⟩ := hreg rs h1
      rw [hdig _ _ _ _ _ hr hl hp] at h2
      cases h2
      rw [List.map_map] at hsb
      have hw : NoElf.signableWrite p (Module.new file) file b = (out, .ok ()) := by
        have h := Prod.mk.inj h
        exact Prod.ext (Option.some.inj h.1) h.2
      obtain ⟨raw, h3, h4⟩ := (C126_sign p file b out (hb (fun al => treeDigest (al.hash E) (regions file s e pos)) _ hsb)).mp hw
      exact ⟨pos, t, off, s, e, b, raw, hr, hl, hp, hsb, h3, h4⟩
  · rintro ⟨pos, t, off, s, e, b, raw, hr, hl, hp, hsb, h3, h4⟩
    obtain ⟨rs, h1⟩ := hreg' _ _ _ _ _ hr hl hp
    rw [hopen _ _ _ hr]
    simp only [Res.ok_bind]
    rw [h1, hdig _ _ _ _ _ hr hl hp]
    simp only [Res.ok_bind, List.map_map]
    have hsb' : m.sign E p clock (Digests.new (m.requiredAlgorithms.map ((fun x : Algo × Bytes => Digest.new x.1 x.2) ∘ fun al =>
        (al, treeDigest (al.hash E) (regions file s e pos))))) = .ok b := hsb
    rw [hsb']
    simp only [Res.ok_bind]
    have hw := (C126_sign p file b out (hb (fun al => treeDigest (al.hash E) (regions file s e pos)) _ hsb)).mpr ⟨raw, h3, h4⟩
    simp only [Bool.false_eq_true, if_false]
    rw [hw]

/-- Digests for all algorithms succeed or fail together. -/
theorem bare_digest_form (p : Profile) (file : Bytes) :
    (∃ ps, ∀ E a, NoElf.digest E p (Module.new file) file a = .ok (treeDigest (a.hash E) ps)) ∨
    (∃ e, ∀ E a, NoElf.digest E p (Module.new file) file a = .err e) ∨ ∀ E a, NoElf.digest E p (Module.new file) file a = .panic := by
  have hd : ∀ E a, NoElf.digest E p (Module.new file) file a = (NoElf.getOffsets p (Module.new file) file >>= fun o =>
    digestModule E p fullReads fullReads file o a) := fun _ _ => rfl
  cases h : NoElf.getOffsets p (Module.new file) file with
  | err e => exact .inr (.inl ⟨e, fun E a => by rw [hd, h]; rfl⟩)
  | panic => exact .inr (.inr fun E a => by rw [hd, h]; rfl)
  | ok o =>
    rcases digestModule_form p file o with ⟨ps, h1⟩ | ⟨e, h1⟩ | h1
    · exact .inl ⟨ps, fun E a => by rw [hd, h]; exact h1 E a⟩
    · exact .inr (.inl ⟨e, fun E a => by rw [hd, h]; exact h1 E a⟩)
    · exact .inr (.inr fun E a => by rw [hd, h]; exact h1 E a)

theorem bareAdd_ok {E : Env} {p : Profile} {m : Module} {file d : Bytes} {a : Algo} (c : DigestCtx)
    (h : NoElf.digest E p m file a = .ok d) : NoElf.cliAddDigest E p m file a c = .ok (c.add a.toU32 d) := by
  unfold NoElf.cliAddDigest; rw [h]

theorem bareVerify_of {E : Env} {p : Profile} {pem : Bytes} {root : Option Bytes} {now : Nat} {file : Bytes}
    {b : SigningBlock} {roots : Roots} {ps : List Bytes}
    (hb : NoElf.getSigningBlock p (Module.new file) file = .ok b) (hr : cliRoots E pem root = .ok roots)
    (hd : ∀ E a, NoElf.digest E p (Module.new file) file a = .ok (treeDigest (a.hash E) ps)) :
    ∃ c : DigestCtx, (∀ id, c.get id = table (treeDigest (Algo.p256.hash E) ps) (treeDigest (Algo.p384.hash E) ps) id) ∧
      (NoElf.cliVerify E p pem root now file = .ok () ↔ (verifyV2 E roots now b (some c)).allFlags = true ∧
        ((verifySourceStamp E roots now b (some c)).allFlags = true ∨
          (verifySourceStamp E roots now b (some c)).isNoSignature = true)) := by
  refine ⟨_, cliCtx_get _ _, ?_⟩
  unfold NoElf.cliVerify
  dsimp only
  rw [hb, hr, bareAdd_ok _ (hd E .p256)]
  simp only [Res.mapErr_ok, Res.ok_bind]
  rw [bareAdd_ok _ (hd E .p384)]
  simp only [Res.ok_bind]
  rw [if_neg (by simp [DigestCtx.add])]
  exact cli_decide

theorem bareVerify_ok {E : Env} {p : Profile} {pem : Bytes} {root : Option Bytes} {now : Nat} {file : Bytes}
    (h : NoElf.cliVerify E p pem root now file = .ok ()) :
    ∃ b roots ps, NoElf.getSigningBlock p (Module.new file) file = .ok b ∧ cliRoots E pem root = .ok roots ∧
      ∀ E a, NoElf.digest E p (Module.new file) file a = .ok (treeDigest (a.hash E) ps) := by
  unfold NoElf.cliVerify at h
  dsimp only at h
  obtain ⟨b, hb, h⟩ := Res.bind_eq_ok.mp h
  have hb' : NoElf.getSigningBlock p (Module.new file) file = .ok b := by
    cases hx : NoElf.getSigningBlock p (Module.new file) file with
    | ok x => rw [hx] at hb; cases hb; rfl
    | err e => rw [hx] at hb; cases hb
    | panic => rw [hx] at hb; cases hb
  obtain ⟨roots, hr, h⟩ := Res.bind_eq_ok.mp h
  obtain ⟨c1, h1, h⟩ := Res.bind_eq_ok.mp h
  obtain ⟨c2, h2, h⟩ := Res.bind_eq_ok.mp h
  rcases bare_digest_form p file with ⟨ps, hd⟩ | ⟨e, hd⟩ | hd
  · exact ⟨b, roots, ps, hb', hr, hd⟩
  · unfold NoElf.cliAddDigest at h1 h2
    rw [hd] at h1 h2
    cases h1
    cases h2
    rw [if_pos (by rfl)] at h
    cases h
  · unfold NoElf.cliAddDigest at h1
    rw [hd] at h1
    cases h1

theorem bareVerify_iff {E : Env} {p : Profile} {builtinPem : Bytes} {root : Option Bytes} {now : Nat} {file : Bytes} :
    NoElf.cliVerify E p builtinPem root now file = .ok () ↔
      ∃ b cert d256 d384, NoElf.getSigningBlock p (Module.new file) file = .ok b ∧
        E.pemParse (root.getD builtinPem) = some ("CERTIFICATE", cert) ∧
        NoElf.digest E p (Module.new file) file .p256 = .ok d256 ∧ NoElf.digest E p (Module.new file) file .p384 = .ok d384 ∧
        v2Signers b ≠ [] ∧ (∀ s ∈ v2Signers b, GoodV2 E [cert] now (table d256 d384) s) ∧
        ∀ s rest, stamps b = s :: rest → GoodStamp E [cert] now (table d256 d384) s := by
  constructor
  · intro h
    obtain ⟨b, roots, ps, hb, hr, hd⟩ := bareVerify_ok h
    obtain ⟨c, hc, hiff⟩ := bareVerify_of (now := now) hb hr hd
    have hiff := hiff.mp h
    rw [allFlags_iff] at hiff
    rcases cliRoots_ok hr with ⟨cert, hp, rfl⟩ | rfl
    · obtain ⟨hv, hs⟩ := hiff
      rw [allFlags_iff, isNoSignature_iff, verifySourceStamp_valid, verifySourceStamp_noSignature] at hs
      rw [verifyV2_valid] at hv
      have hfun : c.get = table (treeDigest (Algo.p256.hash E) ps) (treeDigest (Algo.p384.hash E) ps) := funext hc
      rw [hfun] at hv hs
      refine ⟨b, cert, _, _, hb, hp, hd _ _, hd _ _, hv.1, hv.2, fun s rest he => ?_⟩
      rcases hs with ⟨s', rest', he', hg⟩ | h0
      · rw [he] at he'; cases he'; exact hg
      · rw [he] at h0; cases h0
    · exact absurd hiff.1 no_roots_no_v2
  · rintro ⟨b, cert, d256, d384, hb, hp, h1, h2, hne, hv, hs⟩
    have hr := cliRoots_of hp
    rcases bare_digest_form p file with ⟨ps, hd⟩ | ⟨e, hd⟩ | hd
    · rw [hd] at h1 h2
      cases h1
      cases h2
      obtain ⟨c, hc, hiff⟩ := bareVerify_of (now := now) hb hr hd
      have hfun : c.get = table (treeDigest (Algo.p256.hash E) ps) (treeDigest (Algo.p384.hash E) ps) := funext hc
      rw [hiff, allFlags_iff, allFlags_iff, isNoSignature_iff, verifySourceStamp_valid, verifySourceStamp_noSignature,
        verifyV2_valid, hfun]
      refine ⟨⟨hne, hv⟩, ?_⟩
      cases hst : stamps b with
      | nil => exact .inr rfl
      | cons s rest => exact .inl ⟨s, rest, rfl, hs s rest hst⟩
    · rw [hd] at h1; cases h1
    · rw [hd] at h1; cases h1

/-- C126. The verify command succeeds exactly if the file has an end record and, before the offset it gives, a block in force; that
block ends before the end record (a release build does not insist on this); the root certificate loads; the block holds a V2 signer;
every V2 signer is good for the digests of the three regions under that root; and so is the first source stamp, if there is one. -/
theorem C126_verify_command (E : Env) (p : Profile) (builtinPem : Bytes) (root : Option Bytes) (now : Nat) (file : Bytes)
    (hlen : file.length < 2 ^ 64) :
    NoElf.cliVerify E p builtinPem root now file = .ok () ↔
    ∃ pos t off pre pairs vs cert, EndRecord file pos t off ∧ BareBlock file (min file.length off) pre pairs vs ∧
      (pre.length + pairs.length + 32 ≤ pos ∨ p = .release) ∧
      E.pemParse (root.getD builtinPem) = some ("CERTIFICATE", cert) ∧
      signersIn vs ≠ [] ∧
      (∀ s ∈ signersIn vs, GoodV2 E [cert] now
        (table (treeDigest E.sha256 (regions file pre.length (pre.length + pairs.length + 32) pos))
          (treeDigest E.sha512 (regions file pre.length (pre.length + pairs.length + 32) pos))) s) ∧
      ∀ s rest, stampsIn vs = s :: rest → GoodStamp E [cert] now
        (table (treeDigest E.sha256 (regions file pre.length (pre.length + pairs.length + 32) pos))
          (treeDigest E.sha512 (regions file pre.length (pre.length + pairs.length + 32) pos))) s := by
  rw [bareVerify_iff]
  constructor
  · rintro ⟨b, cert, d256, d384, hb, hp, h1, h2, hne, hv, hs⟩
    obtain ⟨pos, t, off, pre, pairs, hr, hbb, _⟩ := (C126_block p file b).mp hb
    have hloc := BareLocated.signed pre pairs _ hbb
    obtain ⟨pos1, t1, off1, s1, e1, hr1, hl1, hp1, rfl⟩ := (C126_digest E p file hlen _ _).mp h1
    obtain ⟨pos2, t2, off2, s2, e2, hr2, hl2, _, rfl⟩ := (C126_digest E p file hlen _ _).mp h2
    obtain ⟨rfl, rfl, rfl⟩ := hr.unique hr1
    obtain ⟨rfl, rfl, rfl⟩ := hr.unique hr2
    obtain ⟨rfl, rfl⟩ := C126_unique file _ _ _ _ _ hloc hl1
    obtain ⟨rfl, rfl⟩ := C126_unique file _ _ _ _ _ hloc hl2
    exact ⟨pos, t, off, pre, pairs, b.content, cert, hr, hbb, hp1, hp, hne, hv, hs⟩
  · rintro ⟨pos, t, off, pre, pairs, vs, cert, hr, hbb, hp1, hp, hne, hv, hs⟩
    have hloc := BareLocated.signed pre pairs _ hbb
    exact ⟨_, cert, _, _, (C126_block p file (⟨pre.length, pre.length + pairs.length + 32, pairs.length + 24,
        pairs.length, vs, pairs.length + 24, Ksusig.magic⟩ : SigningBlock)).mpr ⟨pos, t, off, pre, pairs, hr, hbb, rfl⟩, hp,
      (C126_digest E p file hlen .p256 _).mpr ⟨pos, t, off, _, _, hr, hloc, hp1, rfl⟩,
      (C126_digest E p file hlen .p384 _).mpr ⟨pos, t, off, _, _, hr, hloc, hp1, rfl⟩, hne, hv, hs⟩

theorem bare_sign_core {E : Env} {p : Profile} {clock : Option UInt64} {m : ModuleSigner} {file out : Bytes} {pos : Nat}
    {t : Tail} {off s e : Nat} (hlen : file.length < 2 ^ 64) (hr : EndRecord file pos t off) (hl : BareLocated file off s e)
    (hplain : Plain t) (hsize : off + 16392 < 2 ^ 32)
    (hsound : ∀ c, m.v2 = some c ∨ m.stamp = some c → Sound E c) (hne : m.v2 ≠ none)
    (h : NoElf.cliSign E p clock m [] false file = (some out, .ok ())) :
    ∃ pos' off' s' e', EndRecord out pos' t off' ∧ Located out off' s' e' ∧ e' = off' ∧ pos' + 22 + t.comment.length = out.length ∧
      s' = off - (e - s) ∧ (e ≤ pos ∨ p = .release) ∧
      (∃ raw pos2, BareSource file raw ∧ EndRecord raw pos2 t (off - (e - s)) ∧ off - (e - s) ≤ pos2 ∧
        regions out s' e' pos' = [raw.take (off - (e - s)), (raw.drop (off - (e - s))).take (pos2 - (off - (e - s))),
          wireEocd t (off - (e - s))]) ∧
      ∀ builtin root cert now, E.pemParse (Option.getD root builtin) = some ("CERTIFICATE", cert) →
        (cliVerify E p builtin root now out = .ok () → ∀ c, m.v2 = some c ∨ m.stamp = some c →
          treeDigest (c.algo.hash E) (regions file s e pos) = treeDigest (c.algo.hash E) (regions out s' e' pos')) ∧
        ((∀ c, m.v2 = some c → Trusted E [cert] now c.cert c.chain) →
          (∀ c, m.stamp = some c → Trusted E [cert] now c.cert []) →
          (∀ c, m.v2 = some c ∨ m.stamp = some c →
            treeDigest (c.algo.hash E) (regions file s e pos) = treeDigest (c.algo.hash E) (regions out s' e' pos')) →
          cliVerify E p builtin root now out = .ok ()) := by
  have hk : ∀ c, m.v2 = some c ∨ m.stamp = some c → Known c.algo := fun c hc => known_of_matching (hsound c hc).matching
  obtain ⟨pos1, t1, off1, s1, e1, b, raw, hr1, hl1, hp1, hsign, hsrc, hins⟩ := (C126_sign_command E p clock m file out hlen hk).mp h
  obtain ⟨rfl, rfl, rfl⟩ := hr.unique hr1
  obtain ⟨rfl, rfl⟩ := C126_unique file _ _ _ _ _ hl hl1
  have hb : Built p b := sign_built_required (D := fun al => treeDigest (al.hash E) (regions file s e pos)) hk hsign
  have hbl := built_length hb
  -- the end record of what is signed
  have hraw : ∃ pos2, EndRecord raw pos2 t (off - (e - s)) := by
    cases hsrc with
    | unsigned pos2 t2 off2 hr2 hu =>
      obtain ⟨rfl, rfl, rfl⟩ := hr.unique hr2
      obtain ⟨rfl, rfl⟩ := C126_unique file _ _ _ _ _ hl (.unsigned hu)
      exact ⟨pos, by simpa using hr⟩
    | signed _ hs =>
      obtain ⟨pos2, t2, off2, pre, pairs, vs, hr2, hbb, hc⟩ := hs
      obtain ⟨rfl, rfl, rfl⟩ := hr.unique hr2
      obtain ⟨rfl, rfl⟩ := C126_unique file _ _ _ _ _ hl (.signed pre pairs vs hbb)
      have : pre.length + pairs.length + 32 - pre.length = pairs.length + 32 := by omega
      rw [this]
      exact ⟨_, endRecord_of_plain hplain hr.comment _ (by omega)⟩
  obtain ⟨pos2, hraw⟩ := hraw
  obtain ⟨pos3, t3, off3, hr3, hle⟩ := hins
  obtain ⟨rfl, rfl, rfl⟩ := hraw.unique hr3
  have hfit := endRecord_slice hraw
  generalize hoff : off - (e - s) = o at *
  have hA : raw.take o ++ b.toU8 ++ (raw.drop o).take (pos2 - o) ++ wireEocd t (o + b.toU8.length) =
      (⟨raw.take o, (raw.drop o).take (pos2 - o), t⟩ : Archive).signed b.toU8 := by
    simp only [Archive.signed, List.length_take]
    rw [Nat.min_eq_left (by omega)]
  generalize hAe : (⟨raw.take o, (raw.drop o).take (pos2 - o), t⟩ : Archive) = a at hA
  have hab : a.body.length = o := by rw [← hAe]; simp only [List.length_take]; omega
  have hacd : a.cd.length = pos2 - o := by rw [← hAe]; simp only [List.length_take, List.length_drop]; omega
  have hat : a.tail = t := by rw [← hAe]
  rw [hA]
  have hclean : a.CleanAt (a.body.length + b.toU8.length) := by
    intro k hk'; rw [hat]; exact hplain _ k hk'
  have hok : a.Ok := by unfold Archive.Ok; rw [hat]; exact hr.comment
  have hsz : a.body.length + b.toU8.length < 2 ^ 32 := by omega
  have hget := getSigningBlock_signed p hb.wf hok hclean hsz
  obtain ⟨pos4, t4, off4, pre, pairs, hr4, hbb, heq⟩ := (C89_block p _ _).mp hget
  have hfst : pre.length = a.body.length := (congrArg SigningBlock.fileStart heq).symm
  have hfen : pre.length + pairs.length + 32 = a.body.length + b.toU8.length := (congrArg SigningBlock.fileEnd heq).symm
  have hout : EndRecord (a.signed b.toU8) (a.body.length + b.toU8.length + a.cd.length) t (a.body.length + b.toU8.length) := by
    have := endRecord_of_plain hplain hr.comment (a.body ++ b.toU8 ++ a.cd) hsz
    unfold Archive.signed
    rw [hat]
    simpa only [List.length_append] using this
  obtain ⟨rfl, rfl, rfl⟩ := hr4.unique hout
  refine ⟨_, _, a.body.length, a.body.length + b.toU8.length, hout, ?_, rfl, ?_, hab, hp1, ⟨raw, pos2, hsrc, hraw, hle, ?_⟩, ?_⟩
  · have := Located.signed (off := a.body.length + b.toU8.length) pre pairs _ hbb
    rwa [hfen, hfst] at this
  · rw [Archive.signed_length, hat]; omega
  · rw [regions_signed, hat, hab, ← hAe]
  · intro builtin root cert now hpem
    rw [regions_signed]
    exact verify_made_iff hsound hne hsign hok hclean hsz hpem

theorem bare_regions_same {file raw : Bytes} {pos pos2 : Nat} {t : Tail} {off s e : Nat} (hr : EndRecord file pos t off)
    (hl : BareLocated file off s e) (hsrc : BareSource file raw) (hr2 : EndRecord raw pos2 t (off - (e - s)))
    (hle : off - (e - s) ≤ pos2) :
    (pos + 22 + t.comment.length = file.length ∧ e = off →
      regions file s e pos = [raw.take (off - (e - s)), (raw.drop (off - (e - s))).take (pos2 - (off - (e - s))),
          wireEocd t (off - (e - s))]) ∧
    (patchOffset (file.drop pos) s = wireEocd t (off - (e - s)) →
      pos + 22 + t.comment.length = file.length ∧ e = off) := by
  have hfit := endRecord_slice hr
  have hr' := hr
  obtain ⟨⟨before, after, hf, hbl⟩, hcm, hoff, hreach, _⟩ := hr'
  have hdrop : file.drop pos = wireEocd t off ++ after := by
    rw [hf, ← hbl, List.append_assoc, List.drop_left]
  have hlen : file.length = pos + (22 + t.comment.length) + after.length := by
    rw [hf]; simp only [List.length_append, wireEocd_length]; omega
  rw [hdrop, patchOffset_wireEocd_append]
  have hse : s ≤ e ∧ e ≤ off := by
    cases hl with
    | signed pre pairs vs hbb => have := hbb.inside; omega
    | unsigned _ => omega
  constructor
  · rintro ⟨h1, rfl⟩
    have ha : after = [] := List.eq_nil_of_length_eq_zero (by omega)
    subst ha
    have hes : e - (e - s) = s := by omega
    rw [hes] at hr2 hle ⊢
    cases hsrc with
    | unsigned pos3 t3 off3 hr3 hu =>
      obtain ⟨rfl, rfl, rfl⟩ := hr.unique hr3
      obtain ⟨rfl, _⟩ := C126_unique file _ _ _ _ _ hl (.unsigned hu)
      obtain ⟨rfl, _⟩ := hr.unique hr2
      unfold regions
      rw [if_pos hle, hdrop, patchOffset_wireEocd_append, List.append_nil]
    | signed _ hs =>
      obtain ⟨pos3, t3, off3, pre, pairs, vs, hr3, hbb, hc⟩ := hs
      obtain ⟨rfl, rfl, rfl⟩ := hr.unique hr3
      obtain ⟨rfl, he⟩ := C126_unique file _ _ _ _ _ hl (.signed pre pairs vs hbb)
      obtain ⟨post, hpost⟩ := hbb.bytes
      have htk : file.take pre.length = pre := by rw [hpost, List.append_assoc, List.take_left]
      have hstop : file.length - (22 + t.comment.length) - (pre.length + pairs.length + 32) = pos - e := by omega
      have hst : stripped file pre pairs t e = pre ++ (file.drop e).take (pos - e) ++ wireEocd t pre.length := by
        unfold stripped
        rw [hstop, ← he, show e - (pairs.length + 32) = pre.length by omega]
      rw [hst] at hr2 ⊢
      have hml : ((file.drop e).take (pos - e)).length = pos - e := by
        simp only [List.length_take, List.length_drop]; omega
      have hpos2 : pos2 = pre.length + (pos - e) := by
        have hfit2 := endRecord_slice hr2
        have hrec := (RecordAt.shift (d := pre ++ (file.drop e).take (pos - e) ++ wireEocd t pre.length)
          (a := (pre ++ (file.drop e).take (pos - e)).length) (i := 0) (by simp only [List.length_append]; omega)).mp
          (by rw [List.drop_left]; simpa using recordAt_wire t pre.length [] hcm)
        simp only [List.length_append, wireEocd_length, hml, Nat.add_zero] at hfit2 hrec
        by_cases hlt : pos2 < pre.length + (pos - e)
        · exact absurd hrec (hr2.last _ hlt)
        · omega
      unfold regions
      rw [if_pos (by omega), hdrop, patchOffset_wireEocd_append, List.append_nil, htk, List.append_assoc, List.take_left,
        List.drop_left, hpos2, Nat.add_sub_cancel_left]
      congr 2
      symm
      apply take_append_left
      first | exact hml | exact hml.symm
  · intro h
    have h1 := congrArg List.length h
    simp only [List.length_append, wireEocd_length] at h1
    have ha : after = [] := List.eq_nil_of_length_eq_zero (by omega)
    subst ha
    rw [List.append_nil] at h
    have := wireEocd_inj_off (by omega) (by omega) h
    simp only [List.length_nil] at hlen
    omega

/-- C126. What the sign command of the build without ELF support writes is accepted by the verify command of both builds, if nothing follows
the end record of the input and the block of the input, if there is one, stands directly before its directory. This includes inputs
that the full build refuses to read. -/
theorem C126_accepted {E : Env} {p : Profile} {clock : Option UInt64} {m : ModuleSigner} {file out : Bytes} {pos : Nat}
    {t : Tail} {off s e : Nat} (hlen : file.length < 2 ^ 64) (hr : EndRecord file pos t off) (hl : BareLocated file off s e)
    (hplain : Plain t) (hsize : off + 16392 < 2 ^ 32)
    (hsound : ∀ c, m.v2 = some c ∨ m.stamp = some c → Sound E c) (hne : m.v2 ≠ none)
    (h : NoElf.cliSign E p clock m [] false file = (some out, .ok ()))
    (hend : pos + 22 + t.comment.length = file.length) (hdir : e = off) {builtin : Bytes} {root : Option Bytes} {cert : Bytes}
    {now : Nat} (hpem : E.pemParse (root.getD builtin) = some ("CERTIFICATE", cert))
    (ht1 : ∀ c, m.v2 = some c → Trusted E [cert] now c.cert c.chain)
    (ht2 : ∀ c, m.stamp = some c → Trusted E [cert] now c.cert []) :
    cliVerify E p builtin root now out = .ok () ∧ NoElf.cliVerify E p builtin root now out = .ok () := by
  refine (fun h => ⟨h, (C106_command E p builtin root now out).1 h⟩) ?_
  obtain ⟨pos', off', s', e', _, _, _, _, _, _, ⟨raw, pos2, hsrc, hr2, hle, hreg⟩, h6⟩ :=
    bare_sign_core hlen hr hl hplain hsize hsound hne h
  refine (h6 builtin root cert now hpem).2 ht1 ht2 fun c _ => ?_
  rw [hreg, (bare_regions_same hr hl hsrc hr2 hle).1 ⟨hend, hdir⟩]

/-- C126. In all other cases what it writes is refused by both builds with every root certificate and at every time, unless two different
inputs with the same hash value can be read off. -/
theorem C126_refused {E : Env} {p : Profile} {clock : Option UInt64} {m : ModuleSigner} {file out : Bytes} {pos : Nat}
    {t : Tail} {off s e : Nat} (hlen : file.length < 2 ^ 64) (hr : EndRecord file pos t off) (hl : BareLocated file off s e)
    (hplain : Plain t) (hsize : off + 16392 < 2 ^ 32)
    (hsound : ∀ c, m.v2 = some c ∨ m.stamp = some c → Sound E c) (hne : m.v2 ≠ none)
    (h : NoElf.cliSign E p clock m [] false file = (some out, .ok ()))
    (hbad : ¬ (pos + 22 + t.comment.length = file.length ∧ e = off)) :
    ∃ pos' off' s' e', EndRecord out pos' t off' ∧ Located out off' s' e' ∧
      ∀ builtin root now, cliVerify E p builtin root now out = .ok () ∨ NoElf.cliVerify E p builtin root now out = .ok () → ∀ c, m.v2 = some c ∨ m.stamp = some c →
        FixedLength (c.algo.hash E) → Collision (c.algo.hash E) (regions file s e pos) (regions out s' e' pos') := by
  obtain ⟨pos', off', s', e', h1, h2, _, _, _, _, ⟨raw, pos2, hsrc, hr2, hle, hreg⟩, h6⟩ :=
    bare_sign_core hlen hr hl hplain hsize hsound hne h
  refine ⟨pos', off', s', e', h1, h2, fun builtin root now hv c hc hE => ?_⟩
  have hv : cliVerify E p builtin root now out = .ok () := by
    rcases hv with h | h
    · exact h
    · rcases (C106_command E p builtin root now out).2 h with h | ⟨b', hb', hu⟩
      · exact h
      · obtain ⟨e, he, hm⟩ : ∃ e, (Module.new out).getSigningBlock p out = .err e ∧ e.isMissing = false := by
          rcases C106_reads_more_only p out b' hb' with ⟨_, hn⟩ | ⟨he, _⟩
          · obtain ⟨v, hv, hu⟩ := hu
            exact absurd hu (hn v hv)
          · exact he
        exfalso
        cases h2 with
        | signed pre pairs vs hbb =>
          rw [(C89_block p out ⟨pre.length, pre.length + pairs.length + 32, pairs.length + 24, pairs.length, vs,
            pairs.length + 24, Ksusig.magic⟩).mpr ⟨pos', t, off', pre, pairs, h1, hbb, rfl⟩] at he
          cases he
        | unsigned hu =>
          obtain ⟨e', he', hm'⟩ := (C89_missing p out).mpr ⟨pos', t, off', h1, hu⟩
          rw [he] at he'
          cases he'
          rw [hm] at hm'
          cases hm'
  obtain ⟨_, cert, _, _, _, hpem, _⟩ := C35_verify_command.mp hv
  have hd := (h6 builtin root cert now hpem).1 hv c hc
  have hsame := (bare_regions_same hr hl hsrc hr2 hle).2
  have hfit := endRecord_slice hr
  have hfit2 := endRecord_slice hr2
  have hpl : (patchOffset (file.drop pos) s).length = file.length - pos := by
    rw [patchOffset_length (by simp only [List.length_drop]; omega), List.length_drop]
  have hreach := hr.reach
  rcases treeDigest_eq hE hd with h3 | h3
  · exfalso
    rw [hreg] at h3
    unfold regions at h3
    refine hbad (hsame (regions_of_pieces ?_ ?_ ?_ ?_ ?_ h3).2.2)
    · intro h0; rw [h0] at hpl; simp at hpl; omega
    · intro h0
      have := congrArg List.length h0
      rw [wireEocd_length] at this
      simp at this
    · omega
    · rw [wireEocd_length]; have := hr.comment; omega
    · intro h0
      exact absurd (hsame h0) hbad
  · exact h3

/-- C126. Every block the full build reads the other reads, at the same place; and a block that only the other reads has a pair with the
id of a section list that is none. -/
theorem C126_two_readings {file : Bytes} {limit : Nat} {pre pairs : Bytes} :
    (∀ vs, BlockBefore file limit pre pairs vs → ∃ vs', BareBlock file limit pre pairs vs' ∧ SamePairs vs vs') ∧
    (∀ vs', BareBlock file limit pre pairs vs' → (∃ vs, BlockBefore file limit pre pairs vs ∧ SamePairs vs vs') ∨ ∃ v ∈ vs', Unreadable v) := by
  constructor
  · rintro vs ⟨h1, h2, h3, h4, h5, h6⟩
    have key : ∃ vs', BareContent pairs vs' ∧ SamePairs vs vs' := by
      clear h1 h2 h4 h5 h6
      induction h3 with
      | nil => exact ⟨[], .nil, .nil⟩
      | cons id value v rest vs hv _ ih =>
        obtain ⟨vs', hc, hs⟩ := ih
        cases v with
        | v2 s => exact ⟨_ :: vs', .cons id value (.v2 s) rest vs' hv hc, .cons _ _ _ _ rfl hs⟩
        | stamp s => exact ⟨_ :: vs', .cons id value (.stamp s) rest vs' hv hc, .cons _ _ _ _ rfl hs⟩
        | elf e =>
          have hid : id = 0x4c45534b := hv.1
          refine ⟨_ :: vs', .cons id value (.raw ⟨4 + value.length, id, value⟩) rest vs' ⟨rfl, ?_, ?_⟩ hc, .cons _ _ _ _ ⟨_, rfl, hid, rfl, hv⟩ hs⟩
          · rw [hid]; decide
          · rw [hid]; decide
        | raw r =>
          obtain ⟨rfl, n1, n2, n3⟩ := hv
          exact ⟨_ :: vs', .cons id value (.raw _) rest vs' ⟨rfl, n1, n2⟩ hc, .cons _ _ _ _ ⟨rfl, n3⟩ hs⟩
    obtain ⟨vs', hc, hs⟩ := key
    exact ⟨vs', ⟨h1, h2, hc, h4, h5, h6⟩, hs⟩
  · rintro vs' ⟨h1, h2, h3, h4, h5, h6⟩
    have key : (∃ vs, IsContent pairs vs ∧ SamePairs vs vs') ∨ ∃ v ∈ vs', Unreadable v := by
      clear h1 h2 h4 h5 h6
      induction h3 with
      | nil => exact .inl ⟨[], .nil, .nil⟩
      | cons id value v rest vs' hv _ ih =>
        rcases ih with ⟨vs, hc, hs⟩ | ⟨x, hx, hu⟩
        · cases v with
          | v2 s => exact .inl ⟨_ :: vs, .cons id value (.v2 s) rest vs hv hc, .cons _ _ _ _ rfl hs⟩
          | stamp s => exact .inl ⟨_ :: vs, .cons id value (.stamp s) rest vs hv hc, .cons _ _ _ _ rfl hs⟩
          | elf e => exact absurd hv (fun h => h)
          | raw r =>
            obtain ⟨rfl, n1, n2⟩ := hv
            by_cases hid : id = 0x4c45534b
            · by_cases he : ∃ e, IsValue id value (.elf e)
              · obtain ⟨e, he⟩ := he
                exact .inl ⟨_ :: vs, .cons id value (.elf e) rest vs he hc, .cons _ _ _ _ ⟨_, rfl, hid, rfl, he⟩ hs⟩
              · exact .inr ⟨_, List.mem_cons_self .., _, rfl, hid, fun e h => he ⟨e, h⟩⟩
            · exact .inl ⟨_ :: vs, .cons id value (.raw _) rest vs ⟨rfl, n1, n2, hid⟩ hc, .cons _ _ _ _ ⟨rfl, hid⟩ hs⟩
        · exact .inr ⟨x, List.mem_cons_of_mem _ hx, hu⟩
    rcases key with ⟨vs, hc, hs⟩ | h
    · exact .inl ⟨vs, ⟨h1, h2, hc, h4, h5, h6⟩, hs⟩
    · exact .inr h

theorem bare_of_located {file : Bytes} {off s e : Nat} (h : Located file off s e) : BareLocated file off s e := by
  cases h with
  | signed pre pairs vs hb =>
    obtain ⟨vs', hb', _⟩ := C126_two_readings.1 vs hb
    exact .signed pre pairs vs' hb'
  | unsigned hu => exact .unsigned hu

/-- What has to be computed for the example below. -/
theorem bare_witness {file : Bytes}
    (h0 : (match (Module.new file).getSigningBlock .dev file with | .err _ => true | _ => false) = true)
    (h1 : (match NoElf.getSigningBlock .dev (Module.new file) file, findEocd file file.length with
      | .ok b, .ok c => b.fileEnd == c.cdOffset.toNat && c.comment.isEmpty && c.fileOffset + 22 == file.length &&
          decide (b.fileEnd + 16392 < 2 ^ 32)
      | _, _ => false) = true)
    (h2 : (match NoElf.cliSign toyEnv .dev none ⟨some toyConfig, none, false, false⟩ [] false file with
      | (some _, .ok ()) => true | _ => false) = true) (hlen : file.length < 2 ^ 64) :
    (∃ e, (Module.new file).getSigningBlock .dev file = .err e) ∧
    ∃ pos t off s, EndRecord file pos t off ∧ BareLocated file off s off ∧ Plain t ∧
      pos + 22 + t.comment.length = file.length ∧
      ∃ out, NoElf.cliSign toyEnv .dev none ⟨some toyConfig, none, false, false⟩ [] false file = (some out, .ok ()) ∧
        cliVerify toyEnv .dev [7] none 0 out = .ok () := by
  have h0' : ∃ e, (Module.new file).getSigningBlock .dev file = .err e := by
    split at h0
    · exact ⟨_, by assumption⟩
    · cases h0
  refine ⟨h0', ?_⟩
  obtain ⟨out, h2⟩ : ∃ out, NoElf.cliSign toyEnv .dev none ⟨some toyConfig, none, false, false⟩ [] false file = (some out, .ok ()) := by
    split at h2
    · rename_i out heq; exact ⟨out, heq⟩
    · cases h2
  split at h1
  · rename_i b c hb hc
    obtain ⟨pos, t, off, pre, pairs, hr, hbb, he⟩ := (C126_block .dev file b).mp hb
    obtain ⟨pos', t', off', hr', rfl⟩ := findEocd_iff.mp hc
    obtain ⟨rfl, rfl, rfl⟩ := hr.unique hr'
    have hfe : b.fileEnd = pre.length + pairs.length + 32 := by rw [he]
    simp only [Bool.and_eq_true, beq_iff_eq, decide_eq_true_eq, Spec.Tail.eocd, u32_ofNat_toNat hr.offset, List.isEmpty_iff, hfe] at h1
    obtain ⟨⟨⟨e1, e2⟩, e3⟩, e4⟩ := h1
    have hl : BareLocated file off pre.length off := by
      have := BareLocated.signed (off := off) pre pairs _ hbb
      rwa [e1] at this
    have hp : Plain t := plain_no_comment e2
    refine ⟨pos, t, off, pre.length, hr, hl, hp, by rw [e2]; exact e3, out, h2, ?_⟩
    refine (C126_accepted hlen hr hl hp (by omega) ?_ (by intro h; cases h) h2 (by rw [e2]; exact e3) rfl (cert := [7]) rfl ?_ ?_).1
    · rintro c (h | h) <;> cases h
      exact toyConfig_sound
    · intro c h; cases h; exact ⟨by simp, .inl (by simp [toyConfig])⟩
    · intro c h; cases h
  · cases h1

set_option maxRecDepth 100000 in
/-- The hypotheses of `C126_accepted` are met by a file the full build does not read, let alone sign: its block has an empty pair with the id of a
section list. -/
example : (∃ e, (Module.new emptyListFile).getSigningBlock .dev emptyListFile = .err e) ∧
    ∃ pos t off s, EndRecord emptyListFile pos t off ∧ BareLocated emptyListFile off s off ∧ Plain t ∧
      pos + 22 + t.comment.length = emptyListFile.length ∧
      ∃ out, NoElf.cliSign toyEnv .dev none ⟨some toyConfig, none, false, false⟩ [] false emptyListFile = (some out, .ok ()) ∧
        cliVerify toyEnv .dev [7] none 0 out = .ok () :=
  bare_witness (by decide +kernel) (by decide +kernel) (by decide +kernel) (by decide +kernel)

end Ksusig.Props
