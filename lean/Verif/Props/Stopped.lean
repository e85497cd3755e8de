import Verif.Props.Uses
import Verif.Props.SignExact
import Verif.Props.Crash
import Verif.Props.Torn

/-! # C81: an interrupted signing, in any build and for any module -/

namespace Ksusig.Props

open Ksusig Spec

/-- What the sign command writes: the hashed entries, the block, the hashed directory and the end record, if nothing follows the end
record of the input and the block of the input, if any, stands directly before its directory. -/
theorem sign_layout {E : Env} {p : Profile} {clock : Option UInt64} {m : ModuleSigner} {file out : Bytes} {pos : Nat}
    {t : Tail} {off s : Nat} (hlen : file.length < 2 ^ 64) (hr : EndRecord file pos t off) (hl : Located file off s off)
    (hplain : Plain t) (hend : pos + 22 + t.comment.length = file.length)
    (hk : ∀ c, m.v2 = some c ∨ m.stamp = some c → Known c.algo)
    (h : cliSignModule E p clock m false file = (some out, .ok ())) :
    ∃ b r0 r1, Built p b ∧ r0.length = s ∧ regions file s off pos = [r0, r1, wireEocd t s] ∧
      m.sign E p clock (Digests.new (m.requiredAlgorithms.map fun al =>
        Digest.new al (treeDigest (al.hash E) (regions file s off pos)))) = .ok b ∧
      out = r0 ++ b.toU8 ++ r1 ++ wireEocd t (s + b.toU8.length) := by
  obtain ⟨pos1, t1, off1, s1, e1, b, raw, hr1, hl1, hp1, hsign, hsrc, hins⟩ := (C92_sign_command E p clock m file out hlen hk).mp h
  obtain ⟨rfl, rfl, rfl⟩ := hr.unique hr1
  obtain ⟨rfl, rfl⟩ := (C89_unique file).2 _ _ _ _ _ hl hl1
  have hb : Built p b := sign_built_required (D := fun al => treeDigest (al.hash E) (regions file s off pos)) hk hsign
  have hso := located_le hl
  have hraw : ∃ pos2, EndRecord raw pos2 t (off - (off - s)) := by
    cases hsrc with
    | unsigned pos2 t2 off2 hr2 hu =>
      obtain ⟨rfl, rfl, rfl⟩ := hr.unique hr2
      obtain ⟨rfl, _⟩ := (C89_unique file).2 _ _ _ _ _ hl (.unsigned hu)
      exact ⟨pos, by simpa using hr⟩
    | signed _ hs =>
      obtain ⟨pos2, t2, off2, pre, pairs, vs, hr2, hbb, hc⟩ := hs
      obtain ⟨rfl, rfl, rfl⟩ := hr.unique hr2
      obtain ⟨rfl, he⟩ := (C89_unique file).2 _ _ _ _ _ hl (.signed pre pairs vs hbb)
      have : off - pre.length = pairs.length + 32 := by omega
      rw [this]
      have := hr.offset
      exact ⟨_, endRecord_of_plain hplain hr.comment _ (by omega)⟩
  obtain ⟨pos2, hraw⟩ := hraw
  obtain ⟨pos3, t3, off3, hr3, hle⟩ := hins
  obtain ⟨rfl, rfl, rfl⟩ := hraw.unique hr3
  have hreg := (regions_same_iff hr hl hsrc hraw hle).1 ⟨hend, rfl⟩
  have hfit := endRecord_room hraw
  have hos : off - (off - s) = s := by omega
  rw [hos] at hreg hle ⊢
  refine ⟨b, raw.take s, (raw.drop s).take (pos2 - s), hb, ?_, hreg, hsign, rfl⟩
  rw [List.length_take]
  omega

/-- The block of an output is found again in a part of the output that has a block at the same place. -/
theorem frame_within {r0 pairs0 rest pre pairs post : Bytes} {n : Nat} (hlen : r0.length = pre.length) (h0 : pairs0.length + 24 < 2 ^ 64)
    (h1 : pairs.length + 24 < 2 ^ 64) (h : (r0 ++ wireFrame pairs0 ++ rest).take n = pre ++ wireFrame pairs ++ post) :
    pairs0.length = pairs.length := by
  have hn : pre.length + 32 ≤ n := by
    have := congrArg List.length h
    simp only [List.length_take, List.length_append, wireFrame_length'] at this
    omega
  have hd : ((r0 ++ wireFrame pairs0 ++ rest).take n).drop pre.length = wireFrame pairs ++ post := by
    rw [h, List.append_assoc, List.drop_left]
  rw [List.drop_take, List.append_assoc, ← hlen, List.drop_left, hlen] at hd
  have h8 := congrArg (List.take 8) hd
  rw [List.take_take, Nat.min_eq_left (by omega)] at h8
  unfold wireFrame at h8
  simp only [List.append_assoc] at h8
  rw [List.take_append_of_le_length (by simp), List.take_append_of_le_length (by simp),
    List.take_of_length_le (by simp), List.take_of_length_le (by simp)] at h8
  have := leBytes_inj (n := 8) (by omega) (by omega) h8
  omega

theorem hashed_module {acc : Bytes → Bool} {file : Bytes} {parts : List Bytes} {pos : Nat} {t : Tail} {off s e : Nat}
    (h : HashedParts acc (.module (Module.new file) file) parts) (hr : EndRecord file pos t off) (hl : Located file off s e) :
    parts = regions file s e pos := by
  generalize hx : SignableFile.module (Module.new file) file = x at h
  cases h with
  | module file' pos3 t3 off3 s3 e3 hr3 hl3 =>
    obtain ⟨_, rfl⟩ := SignableFile.module.inj hx
    obtain ⟨rfl, rfl, rfl⟩ := hr.unique hr3
    obtain ⟨rfl, rfl⟩ := (C89_unique file).2 _ _ _ _ _ hl hl3
    rfl
  | elf f l hl => cases hx

/-- C81, for any build, any module (nothing follows its end record, which hides no other record; its block, if any, stands directly
before its directory) and any other uses of the keys. Missing is what is false: a part of the output can be accepted (see
`C81_interrupted_accepted`). If it is, then for every signer in it (and the first stamp) the key signed other content that this part
is or a forged signature or two inputs with the same hash value can be read off. The key's use on this module accounts for the part
only in a release build, only if the output is cut off exactly before its end record, and only if the block contains an end record. -/
theorem C81_cut_off_any_build_partial {E : Env} {p p' : Profile} {acc : Bytes → Bool} {builtin : Bytes} {root : Option Bytes}
    {now : Nat} {clock : Option UInt64} {m : ModuleSigner} {file out : Bytes} {pos : Nat} {t : Tail} {off s n : Nat}
    {runs : SignableFile → SigningBlock → Prop} (hruns : ∀ s b, runs s b → SignedOnce E acc s b)
    (h2 : FixedLength E.sha256) (h5 : FixedLength E.sha512) (hlen : file.length < 2 ^ 62)
    (hr : EndRecord file pos t off) (hl : Located file off s off) (hplain : Plain t)
    (hend : pos + 22 + t.comment.length = file.length) (hk : ∀ c, m.v2 = some c ∨ m.stamp = some c → Known c.algo)
    (hsign : cliSignModule E p' clock m false file = (some out, .ok ())) (hn : n < out.length)
    (h : cliVerify E p builtin root now (out.take n) = .ok ()) :
    ∃ pos' t' off' pre pairs vs, EndRecord (out.take n) pos' t' off' ∧
      BlockBefore (out.take n) (min (out.take n).length off') pre pairs vs ∧ signersIn vs ≠ [] ∧
      ∀ pk msg sigs, ((∃ s ∈ signersIn vs, pk = s.pubKey.data ∧ msg = s.signedData.toU8.drop 4 ∧ sigs = s.sigs.data) ∨
          (∃ s rest, stampsIn vs = s :: rest ∧ pk = s.pubKey.data ∧ msg = s.signedData.toU8.drop 4 ∧ sigs = s.sigs.data)) →
        (∃ s0 b0 msg0 parts, runs s0 b0 ∧ SignedBy b0 pk msg0 ∧ HashedParts acc s0 parts ∧
          parts.flatten = (regions (out.take n) pre.length (pre.length + pairs.length + 32) pos').flatten ∧
          (s0 = .module (Module.new file) file → p = .release ∧ pos' < pre.length + pairs.length + 32 ∧
            n + (22 + t.comment.length) = out.length)) ∨
        (∃ g ∈ sigs, CryptoOk E g.algo pk msg g.signature ∧ ∀ s0 b0, runs s0 b0 → ¬ SignedBy b0 pk msg) ∨
        (∃ s0 b0 msg0 parts, runs s0 b0 ∧ SignedBy b0 pk msg0 ∧ HashedParts acc s0 parts ∧ ∃ al, Known al ∧
          Collision (al.hash E) parts (regions (out.take n) pre.length (pre.length + pairs.length + 32) pos')) := by
  obtain ⟨b, r0, r1, hb, hr0, hreg, _, hout⟩ := sign_layout (by omega) hr hl hplain hend hk hsign
  have hbl := built_length hb
  have hroom := endRecord_room hr
  have hr1l : r0.length + r1.length + (22 + t.comment.length) ≤ file.length ∨ r1.length ≤ file.length := by
    right
    unfold regions at hreg
    have := congrArg List.length (List.cons.inj (List.cons.inj hreg).2).1
    rw [← this]
    split
    · simp only [List.length_take, List.length_drop]; omega
    · simp only [List.length_drop]; omega
  have hcm := hr.comment
  have holen : out.length = s + b.toU8.length + r1.length + (22 + t.comment.length) := by
    rw [hout]; simp only [List.length_append, wireEocd_length, hr0]
  have hs63 : s ≤ file.length := by
    have := congrArg List.length (List.cons.inj hreg).1
    simp only [List.length_take] at this
    omega
  have hol : (out.take n).length = n := by rw [List.length_take]; omega
  obtain ⟨pos', t', off', pre, pairs, vs, hr', hbb, hne, hall⟩ := C77_accepted_was_signed hruns h2 h5 (by omega) h
  refine ⟨pos', t', off', pre, pairs, vs, hr', hbb, hne, fun pk msg sigs hpm => ?_⟩
  rcases hall pk msg sigs hpm with ⟨s0, b0, msg0, parts, q1, q2, q3, q4, q5⟩ | hf | hc
  · refine .inl ⟨s0, b0, msg0, parts, q1, q2, q3, q5, fun hs0 => ?_⟩
    subst hs0
    have hparts : parts = [r0, r1, wireEocd t s] := by
      rw [← hreg]
      exact hashed_module q3 hr hl
    have heq := (q4 rfl).symm.trans hparts
    unfold regions at heq
    obtain ⟨e1, heq⟩ := List.cons.inj heq
    obtain ⟨e2, heq⟩ := List.cons.inj heq
    obtain ⟨e3, _⟩ := List.cons.inj heq
    obtain ⟨post, hpost⟩ := hbb.bytes
    have hsmall := hbb.small
    have hroom' := endRecord_room hr'
    have hpre : pre.length = s := by
      have := congrArg List.length e1
      rw [List.length_take, hr0] at this
      have hle : pre.length ≤ (out.take n).length := by rw [hpost]; simp only [List.length_append]; omega
      omega
    have hfr : b.toU8 = wireFrame b.contentToU8 := wf_toU8 hb.wf
    have hfl : b.toU8.length = b.contentToU8.length + 32 := by rw [hfr, wireFrame_length']
    have hpl : b.contentToU8.length = pairs.length := by
      refine frame_within (r0 := r0) (pre := pre) (pairs := pairs) (rest := r1 ++ wireEocd t (s + b.toU8.length)) (n := n) (post := post) (by omega) (by omega) (by omega) ?_
      rw [← hfr, ← List.append_assoc, ← hout]
      exact hpost
    have hin := hbb.inside
    have hl3 : n - pos' = 22 + t.comment.length := by
      have := congrArg List.length e3
      rw [patchOffset_length (by rw [List.length_drop]; omega), List.length_drop, wireEocd_length] at this
      omega
    have hl2 := congrArg List.length e2
    by_cases hle : pre.length + pairs.length + 32 ≤ pos'
    · exfalso
      rw [if_pos hle] at hl2
      simp only [List.length_take, List.length_drop] at hl2
      omega
    · rw [if_neg hle] at hl2
      simp only [List.length_drop] at hl2
      refine ⟨?_, by omega, by omega⟩
      have h' := h
      rw [C90_verify_command E p builtin root now (out.take n) (by omega)] at h'
      obtain ⟨pos4, t4, off4, pre4, pairs4, vs4, _, hr4, hbb4, hp4, _⟩ := h'
      obtain ⟨rfl, rfl, rfl⟩ := hr'.unique hr4
      obtain ⟨k1, k2⟩ := (C89_unique (out.take n)).2 _ _ _ _ _ (.signed pre pairs vs hbb) (.signed pre4 pairs4 vs4 hbb4)
      rcases hp4 with hp4 | hp4
      · omega
      · exact hp4
  · exact .inr (.inl hf)
  · exact .inr (.inr hc)

theorem signModule_ok_some {E : Env} {p : Profile} {clock : Option UInt64} {m : ModuleSigner} {ip : Bool} {file : Bytes} :
    ¬ cliSignModule E p clock m ip file = (none, .ok ()) := by
  intro h
  unfold cliSignModule at h
  dsimp only at h
  split at h <;> cases h

/-- C81, for any build and any module as before, if the keys are not used for anything else: if the sign command is stopped while it
writes and the verify command accepts what is there, then for every signer in it a forged signature or two inputs with the same hash
value can be read off. In a release build there is a third possibility: exactly the end record is missing, and there is an end record
in the block. -/
theorem C81_stopped_signing_partial {M : Machine} {now later : Nat} {clock clock' : Option UInt64} {fs : Fs}
    {input out : Path} {v2 stamp : CredPaths} {root : Option Path} {file : Bytes} {pos : Nat} {t : Tail} {off s n : Nat}
    (h2 : FixedLength M.env.sha256) (h5 : FixedLength M.env.sha512) (hi : fs input = some file) (hlen : file.length < 2 ^ 62)
    (hmod : detectFileFormat file = .ok .module) (hr : EndRecord file pos t off) (hl : Located file off s off) (hplain : Plain t)
    (hend : pos + 22 + t.comment.length = file.length) (hne : out ≠ input)
    (hsign : ((Command.sign input out v2 stamp []).exec M now clock fs).status = 0) :
    ∃ m b full, signerFrom M.keys fs v2 stamp = .ok m ∧ Makes M clock m (.module (Module.new file) file) b ∧
      Run.after M ⟨.sign input out v2 stamp [], now, clock, .finished⟩ fs out = some full ∧
      Run.after M ⟨.sign input out v2 stamp [], now, clock, .writing n⟩ fs out = some (full.take n) ∧
      (n < full.length →
        ((Command.verify out root).exec M later clock' (Run.after M ⟨.sign input out v2 stamp [], now, clock, .writing n⟩ fs)).status = 0 →
        ∃ pos' t' off' pre pairs vs, EndRecord (full.take n) pos' t' off' ∧
          BlockBefore (full.take n) (min (full.take n).length off') pre pairs vs ∧ signersIn vs ≠ [] ∧
          ∀ g ∈ signersIn vs,
            (∃ x ∈ g.sigs.data, CryptoOk M.env x.algo g.pubKey.data (g.signedData.toU8.drop 4) x.signature ∧
              ¬ SignedBy b g.pubKey.data (g.signedData.toU8.drop 4)) ∨
            (∃ al, Known al ∧ Collision (al.hash M.env) (regions file s off pos)
              (regions (full.take n) pre.length (pre.length + pairs.length + 32) pos')) ∨
            (M.profile = .release ∧ pos' < pre.length + pairs.length + 32 ∧ n + (22 + t.comment.length) = full.length)) := by
  have hopen : SignableFile.open M.acc file = .ok (.module (Module.new file) file) := by
    unfold SignableFile.open; rw [hmod]; rfl
  have hx : ∃ m full, signerFrom M.keys fs v2 stamp = .ok m ∧
      cliSignModule M.env M.profile clock m false file = (some full, .ok ()) ∧
      (Command.sign input out v2 stamp []).exec M now clock fs = ⟨some (out, full), [], .ok ()⟩ := by
    unfold Command.exec at hsign ⊢
    dsimp only at hsign ⊢
    cases hm : signerFrom M.keys fs v2 stamp with
    | error x => rw [hm] at hsign; cases hsign
    | ok m =>
      rw [hm, hi] at hsign
      rw [hi]
      dsimp only at hsign ⊢
      have hc : cliSign M.env M.profile M.acc clock m [] (decide (out = input)) file =
          cliSignModule M.env M.profile clock m false file := by
        unfold cliSign; rw [hopen, decide_eq_false hne]; rfl
      rw [hc] at hsign ⊢
      generalize hy : cliSignModule M.env M.profile clock m false file = y at hsign ⊢
      obtain ⟨d, r⟩ := y
      unfold Outcome.create at hsign ⊢
      cases d with
      | none =>
        exfalso
        cases r with
        | ok u => exact signModule_ok_some hy
        | err e => cases hsign
        | panic => cases hsign
      | some d =>
        dsimp only at hsign ⊢
        by_cases hcr : M.creatable out = true
        · rw [if_pos hcr] at hsign ⊢
          cases r with
          | ok u => exact ⟨m, d, rfl, hy, rfl⟩
          | err e => cases hsign
          | panic => cases hsign
        · rw [if_neg hcr] at hsign; cases hsign
  obtain ⟨m, full, hm, hmodule, hexec⟩ := hx
  have hk := signerFrom_known hm
  obtain ⟨b, r0, r1, hb, hr0, hreg, hs, hfull⟩ := sign_layout (by omega) hr hl hplain hend hk hmodule
  obtain ⟨pos1, t1, off1, s1, e1, _, _, hr1, hl1, hp1, _⟩ := (C92_sign_command M.env M.profile clock m file full (by omega) hk).mp hmodule
  obtain ⟨rfl, rfl, rfl⟩ := hr.unique hr1
  obtain ⟨rfl, rfl⟩ := (C89_unique file).2 _ _ _ _ _ hl hl1
  have hmakes : Makes M clock m (.module (Module.new file) file) b := by
    refine ⟨m.requiredAlgorithms.map fun al => (al, treeDigest (al.hash M.env) (regions file s off pos)), b, ⟨?_, ?_⟩, ?_, rfl⟩
    · rw [List.map_map]; exact List.map_id' _
    · intro x hx
      obtain ⟨al, _, rfl⟩ := List.mem_map.mp hx
      exact (C89_digest M.env M.profile file (by omega) al _).mpr ⟨pos, t, off, s, off, hr, hl, hp1, rfl⟩
    · rw [List.map_map]; exact hs
  have hfin : Run.after M ⟨.sign input out v2 stamp [], now, clock, .finished⟩ fs out = some full := by
    rw [after_eq]; dsimp only; rw [hexec]; exact set_same
  have hcut : Run.after M ⟨.sign input out v2 stamp [], now, clock, .writing n⟩ fs out = some (full.take n) := by
    rw [after_eq]; dsimp only; rw [hexec]; exact set_same
  refine ⟨m, b, full, hm, hmakes, hfin, hcut, fun hn hv => ?_⟩
  obtain ⟨file', pem, b', cert, d2, d5, hf', hroot, r2, r1', r3, r4, r5⟩ := C80_verify_status.mp hv
  rw [hcut] at hf'
  cases hf'
  have hver : cliVerify M.env M.profile M.builtin (some pem) later (full.take n) = .ok () :=
    C35_verify_command.mpr ⟨b', cert, d2, d5, r1', r2, r3, r4, r5⟩
  obtain ⟨pos', t', off', pre, pairs, vs, q1, q2, q3, q4⟩ := C81_cut_off_any_build_partial (acc := M.acc)
    (runs := fun s0 b0 => s0 = .module (Module.new file) file ∧ b0 = b)
    (by
      rintro _ _ ⟨rfl, rfl⟩
      refine ⟨M, clock, fs, input, v2, stamp, [], m, rfl, rfl, ?_, ⟨hm, file, hi, ?_⟩, hmakes⟩
      · intro f hf; rw [hi] at hf; cases hf; omega
      · unfold cliOpen; rw [hopen]; rfl)
    h2 h5 hlen hr hl hplain hend hk hmodule hn hver
  refine ⟨pos', t', off', pre, pairs, vs, q1, q2, q3, fun g hg => ?_⟩
  rcases q4 _ _ _ (.inl ⟨g, hg, rfl, rfl, rfl⟩) with ⟨s0, b0, _, _, ⟨h1, _⟩, _, _, _, h⟩ | ⟨x, hx1, hx2, hx3⟩ |
    ⟨s0, b0, _, parts, ⟨h1, _⟩, _, hh, al, hal, hcol⟩
  · exact .inr (.inr (h h1))
  · exact .inl ⟨x, hx1, hx2, hx3 _ _ ⟨rfl, rfl⟩⟩
  · subst h1
    rw [hashed_module hh hr hl] at hcol
    exact .inr (.inl ⟨al, hal, hcol⟩)

/-- The hypotheses are met, in both builds. -/
example : ∃ pos t off s, toyFs "in".toList = some plainArchive.unsigned ∧ plainArchive.unsigned.length < 2 ^ 62 ∧
    detectFileFormat plainArchive.unsigned = .ok .module ∧ EndRecord plainArchive.unsigned pos t off ∧
    Located plainArchive.unsigned off s off ∧ Plain t ∧ pos + 22 + t.comment.length = plainArchive.unsigned.length ∧
    FixedLength toyMachine.env.sha256 ∧ FixedLength toyMachine.env.sha512 ∧
    ((Command.sign "in".toList "out".toList toyPaths noPaths []).exec toyMachine 0 (some 5) toyFs).status = 0 ∧
    ((Command.sign "in".toList "out".toList toyPaths noPaths []).exec { toyMachine with profile := .release } 0 (some 5) toyFs).status = 0 := by
  exact ⟨34, plainArchive.tail, 30, 30, by decide +kernel, by decide +kernel, by decide +kernel, plainArchive_unsigned_record.1,
    plainArchive_unsigned_record.2, plain_no_comment rfl, by decide +kernel, toyHash_fixed (by omega), toyHash_fixed (by omega),
    toySign_ok _ (by decide), by decide +kernel⟩

end Ksusig.Props
