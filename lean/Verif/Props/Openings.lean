import Verif.SpecOpenings
import Verif.Props.World
import Verif.Props.Anatomy

/-!
# C54 for files that change between the openings
-/

namespace Ksusig.Props

open Ksusig Spec

/-- C54. Which content a block comes from, for a file that changes between the two openings (but not in length): the end record from the
first, the block from the second. -/
theorem C54_block_across {p : Profile} {file f1 f2 : Bytes} (h1 : f1.length = file.length) (h2 : f2.length = file.length)
    (b : SigningBlock) : (Module.new file).getSigningBlockT p f1 f2 = .ok b ↔
    ∃ pos t off pre pairs, EndRecord f1 pos t off ∧ BlockBefore f2 (min f2.length off) pre pairs b.content ∧
      b = ⟨pre.length, pre.length + pairs.length + 32, pairs.length + 24, pairs.length, b.content, pairs.length + 24,
        Ksusig.magic⟩ := by
  have e : (Module.new file).getSigningBlockT p f1 f2 = (findEocd f1 f1.length >>= fun eocd =>
      SigningBlock.fromReader p f2 f2.length (f2.length - eocd.cdOffset.toNat)) := by
    rw [h1, h2]
    rfl
  rw [e, Res.bind_eq_ok]
  constructor
  · rintro ⟨c, hc, h⟩
    obtain ⟨pos, t, off, hr, rfl⟩ := findEocd_iff.mp hc
    simp only [Spec.Tail.eocd, u32_ofNat_toNat hr.offset] at h
    obtain ⟨pre, pairs, hb, he⟩ := fromReader_before.mp h
    exact ⟨pos, t, off, pre, pairs, hr, hb, he⟩
  · rintro ⟨pos, t, off, pre, pairs, hr, hb, he⟩
    refine ⟨_, findEocd_iff.mpr ⟨pos, t, off, hr, rfl⟩, ?_⟩
    simp only [Spec.Tail.eocd, u32_ofNat_toNat hr.offset]
    exact fromReader_before.mpr ⟨pre, pairs, hb, he⟩

theorem missingT_iff {p : Profile} {file f1 f2 : Bytes} (h1 : f1.length = file.length) (h2 : f2.length = file.length) :
    (∃ e, (Module.new file).getSigningBlockT p f1 f2 = .err e ∧ e.isMissing = true) ↔
    ∃ pos t off, EndRecord f1 pos t off ∧ Unsigned f2 (min f2.length off) := by
  have e : (Module.new file).getSigningBlockT p f1 f2 = (findEocd f1 f1.length >>= fun eocd =>
      SigningBlock.fromReader p f2 f2.length (f2.length - eocd.cdOffset.toNat)) := by
    rw [h1, h2]
    rfl
  rw [e]
  constructor
  · rintro ⟨e, h, hm⟩
    cases hc : findEocd f1 f1.length with
    | ok c =>
      rw [hc, Res.ok_bind] at h
      obtain ⟨pos, t, off, hr, rfl⟩ := findEocd_iff.mp hc
      simp only [Spec.Tail.eocd, u32_ofNat_toNat hr.offset] at h
      exact ⟨pos, t, off, hr, (fromReader_missing (p := p)).mp ⟨e, h, hm⟩⟩
    | err e' =>
      exfalso
      have hk : (Module.new f1).getSigningBlock p f1 = .err e' := by
        have : (Module.new f1).getSigningBlock p f1 = (findEocd f1 f1.length >>= fun eocd =>
          SigningBlock.fromReader p f1 f1.length (f1.length - eocd.cdOffset.toNat)) := rfl
        rw [this, hc]; rfl
      rw [hc] at h
      cases h
      obtain ⟨pos, t, off, hr, _⟩ := (C89_missing p f1).mp ⟨_, hk, hm⟩
      rw [findEocd_iff.mpr ⟨pos, t, off, hr, rfl⟩] at hc
      cases hc
    | panic => rw [hc] at h; cases h
  · rintro ⟨pos, t, off, hr, hu⟩
    obtain ⟨e, h, he⟩ := (fromReader_missing (p := p)).mpr hu
    refine ⟨e, ?_, he⟩
    rw [findEocd_iff.mpr ⟨pos, t, off, hr, rfl⟩]
    simpa only [Res.ok_bind, Spec.Tail.eocd, u32_ofNat_toNat hr.offset] using h

theorem offsetsT_iff {p : Profile} {file f1 f2 f3 : Bytes} (h1 : f1.length = file.length) (h2 : f2.length = file.length)
    (h3 : f3.length = file.length) (o : FileOffsets) : (Module.new file).getOffsetsT p f1 f2 f3 = .ok o ↔
    ∃ s e pos, Bounds f1 f2 f3 s e pos ∧ o = FileOffsets.new s e pos file.length := by
  have hgo : (Module.new file).getOffsetsT p f1 f2 f3 = (findEocd f1 f1.length >>= fun eocd =>
      match (Module.new file).getSigningBlockT p f2 f3 with
      | .ok sig => .ok (FileOffsets.new sig.fileStart sig.fileEnd eocd.fileOffset file.length)
      | .err e => if e.isMissing then .ok (FileOffsets.withoutSignature eocd.cdOffset.toNat eocd.fileOffset file.length)
          else .err .corrupted
      | .panic => .panic) := by
    rw [h1]
    rfl
  rw [hgo, Res.bind_eq_ok]
  constructor
  · rintro ⟨c, hc, h⟩
    obtain ⟨pos, t, off, hr, rfl⟩ := findEocd_iff.mp hc
    cases hg : (Module.new file).getSigningBlockT p f2 f3 with
    | panic => rw [hg] at h; cases h
    | ok b =>
      rw [hg] at h
      cases h
      obtain ⟨pos', t', off', pre, pairs, hr', hb, he⟩ := (C54_block_across h2 h3 b).mp hg
      exact ⟨pre.length, pre.length + pairs.length + 32, pos, .signed pos pos' off off' t t' pre pairs _ hr hr' hb, by rw [he]; rfl⟩
    | err e =>
      rw [hg] at h
      cases hm : e.isMissing with
      | false => simp [hm] at h
      | true =>
        simp only [hm, if_true] at h
        cases h
        obtain ⟨pos', t', off', hr', hu⟩ := (missingT_iff h2 h3).mp ⟨e, hg, hm⟩
        refine ⟨off, off, pos, .unsigned pos pos' off off' t t' hr hr' hu, ?_⟩
        simp only [FileOffsets.withoutSignature, Spec.Tail.eocd, u32_ofNat_toNat hr.offset]
  · rintro ⟨s, e, pos, hb, rfl⟩
    cases hb with
    | signed _ pos' off off' t t' pre pairs vs hr hr' hb =>
      refine ⟨_, findEocd_iff.mpr ⟨pos, t, off, hr, rfl⟩, ?_⟩
      rw [(C54_block_across (p := p) h2 h3 (⟨pre.length, pre.length + pairs.length + 32, pairs.length + 24,
        pairs.length, vs, pairs.length + 24, Ksusig.magic⟩ : SigningBlock)).mpr ⟨pos', t', off', pre, pairs, hr', hb, rfl⟩]
      rfl
    | unsigned _ pos' off off' t t' hr hr' hu =>
      refine ⟨_, findEocd_iff.mpr ⟨pos, t, _, hr, rfl⟩, ?_⟩
      obtain ⟨err, he, hm⟩ := (missingT_iff (p := p) h2 h3).mpr ⟨pos', t', off', hr', hu⟩
      rw [he]
      simp only [hm, if_true, FileOffsets.withoutSignature, Spec.Tail.eocd, u32_ofNat_toNat hr.offset]

theorem bounds_room {f1 f2 f3 : Bytes} {s e pos : Nat} (h : Bounds f1 f2 f3 s e pos) : pos + 22 ≤ f1.length := by
  cases h with
  | signed _ _ _ _ _ _ _ _ _ hr => exact endRecord_room hr
  | unsigned _ _ _ _ _ _ hr => exact endRecord_room hr

/-- C54. Which content each part of a digest comes from, for a file that changes between the four openings (but not in length): the
bytes from the first, the end record from the second, and the block from the last two. -/
theorem C54_digest_across {E : Env} {p : Profile} {file f0 f1 f2 f3 : Bytes} (hlen : file.length < 2 ^ 64)
    (h0 : f0.length = file.length) (h1 : f1.length = file.length) (h2 : f2.length = file.length) (h3 : f3.length = file.length)
    (a : Algo) (d : Bytes) :
    (Module.new file).digestT E p f0 f1 f2 f3 a = .ok d ↔ DigestAcross (a.hash E) p f0 f1 f2 f3 d := by
  have hd : (Module.new file).digestT E p f0 f1 f2 f3 a = ((Module.new file).getOffsetsT p f1 f2 f3 >>= fun o =>
    digestModule E p fullReads fullReads f0 o a) := rfl
  rw [hd, Res.bind_eq_ok]
  constructor
  · rintro ⟨o, ho, h⟩
    obtain ⟨s, e, pos, hb, rfl⟩ := (offsetsT_iff h1 h2 h3 o).mp ho
    have hroom := bounds_room hb
    have hp : e ≤ pos ∨ p = .release := by
      by_cases hle : e ≤ pos
      · exact .inl hle
      · cases p with
        | release => exact .inr rfl
        | dev =>
          rw [← h0, (digestModule_panic (by omega)).mpr ⟨rfl, by omega⟩] at h
          cases h
    rw [← h0, digestModule_regions E p f0 (by omega) s e pos a (by omega) hp] at h
    cases h
    exact ⟨s, e, pos, hb, hp, rfl⟩
  · rintro ⟨s, e, pos, hb, hp, rfl⟩
    have hroom := bounds_room hb
    refine ⟨_, (offsetsT_iff h1 h2 h3 _).mpr ⟨s, e, pos, hb, rfl⟩, ?_⟩
    rw [← h0]
    exact digestModule_regions E p f0 (by omega) s e pos a (by omega) hp

theorem fill_across {E : Env} {p : Profile} {file : Bytes} {files : Nat → Bytes} (hlen : file.length < 2 ^ 64)
    (hf : ∀ k, (files k).length = file.length) {as : List Algo} {k : Nat} {c c' : DigestCtx} (hk : 2 ≤ k)
    (hc : ∀ id d, c.get id = some d → ∃ (a : Algo) (k : Nat), 2 ≤ k ∧ a.toU32 = id ∧
      DigestAcross (a.hash E) p (files k) (files (k + 1)) (files (k + 2)) (files (k + 3)) d)
    (h : fillCtxT E p (Module.new file) files as k c = .ok c') :
    ∀ id d, c'.get id = some d → ∃ (a : Algo) (k : Nat), 2 ≤ k ∧ a.toU32 = id ∧
      DigestAcross (a.hash E) p (files k) (files (k + 1)) (files (k + 2)) (files (k + 3)) d := by
  induction as generalizing k c with
  | nil => cases h; exact hc
  | cons a as ih =>
    rw [fillCtxT] at h
    split at h
    · split at h
      · rename_i d hd
        refine ih (k := k + 4) (by omega) ?_ h
        intro id d' hd'
        rw [DigestCtx.get_add] at hd'
        by_cases hid : id = a.toU32
        · rw [if_pos hid.symm] at hd'
          cases hd'
          exact ⟨a, k, hk, hid.symm, (C54_digest_across hlen (hf _) (hf _) (hf _) (hf _) a d).mp hd⟩
        · rw [if_neg (Ne.symm hid)] at hd'
          exact hc id d' hd'
      · exact ih (k := k + 4) (by omega) hc h
      · cases h
    · exact ih hk hc h

/-- C54, what remains of it for a file that changes between the openings in any way that keeps its length. A fully valid V2 verdict
means: at the first opening the file had an end record, at the second a block in force before the offset of that record, holding a V2
signer; every V2 signer and the first stamp vouch for digests each of which was computed over a content the file had at some later
opening, with bounds from the three openings after that one. (Missing: that these contents are one and the same, which is false,
`C54_race`.) -/
theorem C54_changing_partial {E : Env} {p : Profile} {file : Bytes} {files : Nat → Bytes} {added : List Bytes} {now : Nat} {v : VAll}
    {r : VResult} (hlen : file.length < 2 ^ 64) (hf : ∀ k, (files k).length = file.length)
    (h : (Module.new file).verifyWithRootsT E p files (storeOf E added) now = .ok v) (hv : v.isValid = true) (hr : v.v2 = .ok r) :
    ∃ pos t off pre pairs vs, EndRecord (files 0) pos t off ∧ BlockBefore (files 1) (min (files 1).length off) pre pairs vs ∧
      signersIn vs ≠ [] ∧
      ∃ computed : UInt32 → Option Bytes,
        (∀ id d, computed id = some d → ∃ (a : Algo) (k : Nat), 2 ≤ k ∧ a.toU32 = id ∧
          DigestAcross (a.hash E) p (files k) (files (k + 1)) (files (k + 2)) (files (k + 3)) d) ∧
        (∀ s ∈ signersIn vs, GoodV2 E added now computed s) ∧
        ∀ s rest, stampsIn vs = s :: rest → GoodStamp E added now computed s := by
  unfold Module.verifyWithRootsT at h
  cases hb : (Module.new file).getSigningBlockT p (files 0) (files 1) with
  | err e => rw [hb] at h; cases h; cases hr
  | panic => rw [hb] at h; cases h
  | ok b =>
    rw [hb] at h
    obtain ⟨ctx, hctx, h⟩ := Res.bind_eq_ok.mp h
    cases h
    obtain ⟨pos, t, off, pre, pairs, hr', hbb, he⟩ := (C54_block_across (hf 0) (hf 1) b).mp hb
    refine ⟨pos, t, off, pre, pairs, b.content, hr', hbb, ?_⟩
    have hfill := fill_across hlen hf (Nat.le_refl 2) (fun id d hd => by cases hd) hctx
    have hne : v2Signers b ≠ [] := by
      intro h0
      have := (verifyV2_noSignature (E := E) (roots := storeOf E added) (now := now) (ctx := some ctx)).mpr h0
      have hr' : verifyV2 E (storeOf E added) now b (some ctx) = .ok r := hr
      rw [this] at hr'
      cases hr'
    rw [isValid_iff] at hv
    exact ⟨hne, ctx.get, hfill, hv.1, hv.2⟩

set_option maxRecDepth 100000 in
/-- The hypotheses are met by a file that changes: the contents of `C54_race` all have the same length. -/
example : (raceFiles 0).length < 2 ^ 64 ∧ (∀ k, (raceFiles k).length = (raceFiles 0).length) ∧ raceFiles 0 ≠ raceFiles 2 ∧
    ∃ v r, (Module.new (raceFiles 0)).verifyWithRootsT toyEnv .dev raceFiles (storeOf toyEnv [[7]]) 0 = .ok v ∧ v.isValid = true ∧
      v.v2 = .ok r := by
  obtain ⟨v, h1, h2, h3, -⟩ := C54_race
  refine ⟨by decide +kernel, fun k => ?_, by decide +kernel, v, ?_⟩
  · unfold raceFiles
    split <;> decide +kernel
  · obtain ⟨r, hr, _⟩ := h3
    exact ⟨r, h1, h2, hr⟩

end Ksusig.Props
