import Verif.Proofs.NarrowSign

/-!
# Signing on 32-bit devices

C120.
-/

namespace Ksusig.Props

open Ksusig Spec

/-- 32-bit machines read a block here in which some size is not as written in the file, or some list is said to be almost 4 GiB long. -/
def OddBlock (p : Profile) (file : Bytes) : Prop :=
  ∃ b, Narrow.getSigningBlock p file = .ok b ∧ ¬ (SizesAsWritten file b ∧ ∀ v ∈ b.content, ¬ HasHuge v)

theorem digests_map {E : Env} {p : Profile} {m : Module} {file : Bytes} : ∀ {as : List Algo} {pairs : List (Algo × Bytes)},
    cliDigests E p m file as = .ok pairs →
    pairs = as.map fun a => (a, match m.digest E p file a with | .ok d => d | _ => [])
  | [], _, h => by cases h; rfl
  | a :: as, pairs, h => by
    unfold cliDigests at h
    obtain ⟨d, h1, h⟩ := Res.bind_eq_ok.mp h
    obtain ⟨rest, h2, h⟩ := Res.bind_eq_ok.mp h
    cases h
    rw [List.map_cons, h1, digests_map h2]

/-- Everything before the output is created. -/
theorem prepare_alike {E : Env} {p : Profile} {clock : Option UInt64} {m : ModuleSigner} {file : Bytes} (hf : file.length + 65557 < 2 ^ 32)
    (hr : Readable p file) :
    (do let _ ← Narrow.digestRegions p file
        let pairs ← Narrow.cliDigests E p file m.requiredAlgorithms
        m.sign E p clock (Digests.new (pairs.map fun x => Digest.new x.1 x.2)) : Res SigningBlock) =
    (do let _ ← (Module.new file).digestRegions p file
        let pairs ← cliDigests E p (Module.new file) file m.requiredAlgorithms
        m.sign E p clock (Digests.new (pairs.map fun x => Digest.new x.1 x.2)) : Res SigningBlock) := by
  obtain ⟨o, ho⟩ := readable_offsets hr
  rw [regions_alike hf ho, digests_alike hf ho]

theorem prepare_short {E : Env} {p : Profile} {clock : Option UInt64} {m : ModuleSigner} {file : Bytes} {b : SigningBlock}
    (hk : ∀ c, m.v2 = some c ∨ m.stamp = some c → Known c.algo)
    (h : (do let _ ← (Module.new file).digestRegions p file
             let pairs ← cliDigests E p (Module.new file) file m.requiredAlgorithms
             m.sign E p clock (Digests.new (pairs.map fun x => Digest.new x.1 x.2)) : Res SigningBlock) = .ok b) : Built p b := by
  obtain ⟨_, _, h⟩ := Res.bind_eq_ok.mp h
  obtain ⟨pairs, h1, h⟩ := Res.bind_eq_ok.mp h
  rw [digests_map h1, List.map_map] at h
  exact sign_built_required (D := fun a => match (Module.new file).digest E p file a with | .ok d => d | _ => []) hk h

theorem write_nothing (p : Profile) (b : SigningBlock) :
    Narrow.signableWrite p [] b = ([], .err .refuseCorrupted) ∧ (Module.new file).signableWrite p [] b = ([], .err .refuseCorrupted) := by
  constructor
  · unfold Narrow.signableWrite
    have : Narrow.signSource p [] = .err .refuseCorrupted := by cases p <;> rfl
    rw [this]
  · unfold Module.signableWrite
    have hfe : ∃ e, findEocd [] file.length = .err e ∧ e.isMissing = false := by
      by_cases h22 : file.length < 22
      · exact ⟨_, findEocd_small h22, rfl⟩
      · exact ⟨_, findEocd_eof (by simp; omega) (by omega), rfl⟩
    obtain ⟨e, he, hmiss⟩ := hfe
    have hg : (Module.new file).getSigningBlock p [] = .err e := by
      simp only [Module.getSigningBlock, Module.getSigningBlockT, Module.new, Module.findEocd, he, Res.err_bind]
      rfl
    have h1 : (Module.new file).signSource p [] = .err .refuseCorrupted := by
      unfold Module.signSource
      rw [hg]
      dsimp only
      rw [hmiss]
      rfl
    rw [h1]

/-- C120. On every file below 2 GiB whose signing block a 64-bit machine reads, or in which it finds none, the sign command ends the same
way on both and leaves the same bytes behind. -/
theorem C120_equal (E : Env) (p : Profile) (clock : Option UInt64) (m : ModuleSigner) (inPlace : Bool) {file : Bytes}
    (h : file.length < 2 ^ 31) (hk : ∀ c, m.v2 = some c ∨ m.stamp = some c → Known c.algo)
    (hr : (∃ b, (Module.new file).getSigningBlock p file = .ok b) ∨
      ∃ e, (Module.new file).getSigningBlock p file = .err e ∧ e.isMissing = true) :
    Narrow.cliSignModule E p clock m inPlace file = cliSignModule E p clock m inPlace file := by
  unfold Narrow.cliSignModule cliSignModule
  rw [prepare_alike (by omega) hr]
  dsimp only
  generalize hx : (do let _ ← (Module.new file).digestRegions p file
                      let pairs ← cliDigests E p (Module.new file) file m.requiredAlgorithms
                      m.sign E p clock (Digests.new (pairs.map fun x => Digest.new x.1 x.2)) : Res SigningBlock) = x
  cases x with
  | err e => rfl
  | panic => rfl
  | ok b =>
    have hl := built_length (prepare_short hk hx)
    dsimp only
    cases inPlace with
    | true => rw [if_pos rfl, (write_nothing (file := file) p b).1, (write_nothing (file := file) p b).2]
    | false => rw [if_neg (by decide), write_equal h hr (by omega)]

theorem offsets_readable {p : Profile} {file : Bytes} {o : FileOffsets} (ho : (Module.new file).getOffsets p file = .ok o) :
    Readable p file := by
  unfold Module.getOffsets Module.getOffsetsT at ho
  obtain ⟨eocd, _, ho⟩ := Res.bind_eq_ok.mp ho
  cases hb : (Module.new file).getSigningBlock p file with
  | ok b => exact .inl ⟨b, hb⟩
  | err e =>
    refine .inr ⟨e, hb, ?_⟩
    have hb' : (Module.new file).getSigningBlockT p file file = .err e := hb
    rw [hb'] at ho
    dsimp only at ho
    split at ho
    · assumption
    · cases ho
  | panic =>
    have hb' : (Module.new file).getSigningBlockT p file file = .panic := hb
    rw [hb'] at ho
    cases ho

theorem signed_offsets {E : Env} {p : Profile} {clock : Option UInt64} {m : ModuleSigner} {inPlace : Bool} {file out : Bytes} {r : Res Unit}
    (hs : cliSignModule E p clock m inPlace file = (some out, r)) : ∃ o, (Module.new file).getOffsets p file = .ok o := by
  unfold cliSignModule at hs
  dsimp only at hs
  split at hs
  · cases hs
  · cases hs
  · rename_i b hb
    obtain ⟨rs, h1, _⟩ := Res.bind_eq_ok.mp hb
    unfold Module.digestRegions at h1
    obtain ⟨o, ho, _⟩ := Res.bind_eq_ok.mp h1
    exact ⟨o, ho⟩

theorem narrow_offsets {E : Env} {p : Profile} {clock : Option UInt64} {m : ModuleSigner} {inPlace : Bool} {file out : Bytes} {r : Res Unit}
    (hs : Narrow.cliSignModule E p clock m inPlace file = (some out, r)) : ∃ o, Narrow.getOffsets p file = .ok o := by
  unfold Narrow.cliSignModule at hs
  split at hs
  · cases hs
  · cases hs
  · rename_i b hb
    obtain ⟨rs, h1, _⟩ := Res.bind_eq_ok.mp hb
    unfold Narrow.digestRegions at h1
    obtain ⟨o, ho, _⟩ := Res.bind_eq_ok.mp h1
    exact ⟨o, ho⟩

/-- C120. Whenever a 64-bit machine gets as far as creating the output, a 32-bit machine does the same, below 2 GiB: what it signs is
signed with the same bytes. -/
theorem C120_wide (E : Env) (p : Profile) (clock : Option UInt64) (m : ModuleSigner) (inPlace : Bool) {file out : Bytes} {r : Res Unit}
    (h : file.length < 2 ^ 31) (hk : ∀ c, m.v2 = some c ∨ m.stamp = some c → Known c.algo)
    (hs : cliSignModule E p clock m inPlace file = (some out, r)) :
    Narrow.cliSignModule E p clock m inPlace file = (some out, r) := by
  obtain ⟨o, ho⟩ := signed_offsets hs
  rw [← hs]
  exact C120_equal E p clock m inPlace h hk (offsets_readable ho)

/-- C120. Conversely, what a 32-bit machine does with the output a 64-bit machine does too, unless the input has a signing block that
32-bit machines read with other sizes than written, or a list said to be almost 4 GiB long. -/
theorem C120_narrow (E : Env) (p : Profile) (clock : Option UInt64) (m : ModuleSigner) (inPlace : Bool) {file out : Bytes} {r : Res Unit}
    (h : file.length < 2 ^ 31) (hk : ∀ c, m.v2 = some c ∨ m.stamp = some c → Known c.algo)
    (hs : Narrow.cliSignModule E p clock m inPlace file = (some out, r)) :
    cliSignModule E p clock m inPlace file = (some out, r) ∨ OddBlock p file := by
  have hf : file.length + 65557 < 2 ^ 32 := by omega
  obtain ⟨o, ho⟩ := narrow_offsets hs
  have hfin : Readable p file → cliSignModule E p clock m inPlace file = (some out, r) ∨ OddBlock p file := fun hr =>
    .inl ((C120_equal E p clock m inPlace h hk hr).symm.trans hs)
  unfold Narrow.getOffsets at ho
  obtain ⟨eocd, _, ho⟩ := Res.bind_eq_ok.mp ho
  cases hb : Narrow.getSigningBlock p file with
  | ok b =>
    by_cases hP : SizesAsWritten file b ∧ ∀ v ∈ b.content, ¬ HasHuge v
    · exact hfin (.inl ⟨b, (C108_exact p hf b).mpr ⟨hb, hP⟩⟩)
    · exact .inr ⟨b, hb, hP⟩
  | err e =>
    rw [hb] at ho
    dsimp only at ho
    split at ho
    · rename_i hm
      exact hfin (.inr ((C108_unsigned p hf).mpr ⟨e, hb, hm⟩))
    · cases ho
  | panic => rw [hb] at ho; cases ho

/-- C120. A 32-bit machine signs no file of 2 GiB or more. If it gets as far as creating the output, the output stays empty. -/
theorem C120_large (E : Env) (p : Profile) (clock : Option UInt64) (m : ModuleSigner) (inPlace : Bool) {file : Bytes}
    (h : 2 ^ 31 ≤ file.length) :
    (∀ out, (Narrow.cliSignModule E p clock m inPlace file).1 = some out → out = []) ∧
    (Narrow.cliSignModule E p clock m inPlace file).2 ≠ .ok () := by
  have hw : ∀ b, (Narrow.signableWrite p file b).1 = [] ∧ (Narrow.signableWrite p file b).2 ≠ .ok () := by
    intro b
    have hsrc : ∀ x, Narrow.signSource p file ≠ .ok x := by
      intro x hx
      unfold Narrow.signSource at hx
      cases hb : Narrow.getSigningBlock p file with
      | ok b =>
        rw [hb] at hx
        dsimp only at hx
        unfold Narrow.getRawModule at hx
        rw [if_pos h] at hx
        cases hx
      | err e =>
        rw [hb] at hx
        dsimp only at hx
        split at hx
        · first | cases hx | (rw [if_pos h] at hx; cases hx)
        · cases hx
      | panic => rw [hb] at hx; cases hx
    unfold Narrow.signableWrite
    cases hx : Narrow.signSource p file with
    | ok x => exact absurd hx (hsrc x)
    | err e => exact ⟨rfl, fun hc => by cases hc⟩
    | panic => exact ⟨rfl, fun hc => by cases hc⟩
  unfold Narrow.cliSignModule
  split
  · exact ⟨fun out ho => by (cases ho), fun hc => by cases hc⟩
  · exact ⟨fun out ho => by (cases ho), fun hc => by cases hc⟩
  · rename_i b hb
    dsimp only
    cases inPlace with
    | true =>
      rw [if_pos rfl, (write_nothing (file := []) p b).1]
      exact ⟨fun out ho => by cases ho; rfl, fun hc => by cases hc⟩
    | false =>
      rw [if_neg (by decide)]
      refine ⟨fun out ho => ?_, (hw b).2⟩
      rw [(hw b).1] at ho
      cases ho
      rfl

/-- C120. And it does get that far: from 2 GiB on to just below 4 GiB, every file a 64-bit machine signs makes a 32-bit machine empty the
output and then report an error. -/
theorem C120_emptied (E : Env) (p : Profile) (clock : Option UInt64) (m : ModuleSigner) {file out : Bytes}
    (h : 2 ^ 31 ≤ file.length) (hf : file.length + 65557 < 2 ^ 32) (hs : cliSignModule E p clock m false file = (some out, .ok ())) :
    Narrow.cliSignModule E p clock m false file = (some [], .err .io) := by
  obtain ⟨o, ho⟩ := signed_offsets hs
  have hr := offsets_readable ho
  unfold cliSignModule at hs
  unfold Narrow.cliSignModule
  rw [prepare_alike hf hr]
  dsimp only at hs
  generalize (do let _ ← (Module.new file).digestRegions p file
                 let pairs ← cliDigests E p (Module.new file) file m.requiredAlgorithms
                 m.sign E p clock (Digests.new (pairs.map fun x => Digest.new x.1 x.2)) : Res SigningBlock) = x at hs ⊢
  cases x with
  | err e => cases hs
  | panic => cases hs
  | ok b =>
    dsimp only
    rw [if_neg (by decide)]
    have hsrc : Narrow.signSource p file = .err .io := by
      unfold Narrow.signSource
      rcases hr with ⟨b', hb'⟩ | ⟨e, he, hm⟩
      · rw [((block_twin p hf b').mp hb').1]
        dsimp only
        unfold Narrow.getRawModule
        rw [if_pos h]
        rfl
      · obtain ⟨e', he', hm'⟩ := (block_missing p hf).mp ⟨e, he, hm⟩
        rw [he']
        dsimp only
        rw [if_pos hm', if_pos h]
    unfold Narrow.signableWrite
    rw [hsrc]

theorem built_slim {p : Profile} {b : SigningBlock} (hb : Built p b) : ∀ v ∈ b.content, ¬ Bulky v := by
  intro v hv hbulky
  have hw := hb.wf.content v hv
  have hs := hb.wf.innerSize_le v hv
  simp only [maxPairSize] at hs
  cases v with
  | raw r => exact hbulky
  | elf e => exact hbulky
  | v2 s =>
    obtain ⟨g, hg, hbig⟩ := hbulky
    obtain ⟨h1, _, h2, h3⟩ := hw
    have h4 := h3 g hg
    have h5 : g.size + 4 ≤ s.signers.size := by
      rw [h2]; exact le_sum_of_mem (List.mem_map.mpr ⟨g, hg, rfl⟩)
    obtain ⟨h6, h7, _⟩ := h4
    have h8 := SignedDataV2.toU8_length h7
    have h9 : s.size ≤ 16 * 1024 := hs
    omega
  | stamp s =>
    have hbig : 2 ^ 31 ≤ s.block.signedData.toU8.length := hbulky
    obtain ⟨h1, _, h6, h7, _⟩ := hw
    have h8 := SignedDataStamp.toU8_length h7
    have h9 : s.size ≤ 16 * 1024 := hs
    omega

/-- The block found in the output of the sign command has the content of the one made for it. -/
theorem signed_slim {E : Env} {p : Profile} {clock : Option UInt64} {m : ModuleSigner} {file out : Bytes} {pos : Nat}
    {t : Tail} {off : Nat} (hlen : file.length < 2 ^ 64) (hr : EndRecord file pos t off)
    (hplain : Spec.Plain t) (hsize : off + 16392 < 2 ^ 32) (hk : ∀ c, m.v2 = some c ∨ m.stamp = some c → Known c.algo)
    (h : cliSignModule E p clock m false file = (some out, .ok ())) :
    out.length ≤ file.length + 81949 ∧ ∃ b, (Module.new out).getSigningBlock p out = .ok b ∧ ∀ v ∈ b.content, ¬ Bulky v := by
  obtain ⟨pos1, t1, off1, s, e, b, raw, hr1, hl, hp1, hsign, hsrc, hins⟩ := (C92_sign_command E p clock m file out hlen hk).mp h
  obtain ⟨rfl, rfl, rfl⟩ := hr.unique hr1
  have hb : Built p b := sign_built_required (D := fun al => treeDigest (al.hash E) (regions file s e pos)) hk hsign
  have hbl := built_length hb
  -- the end record of what is signed
  have hraw : ∃ pos2, EndRecord raw pos2 t (off - (e - s)) := by
    cases hsrc with
    | unsigned pos2 t2 off2 hr2 hu =>
      obtain ⟨rfl, rfl, rfl⟩ := hr.unique hr2
      obtain ⟨rfl, rfl⟩ := (C89_unique file).2 _ _ _ _ _ hl (.unsigned hu)
      exact ⟨pos, by simpa using hr⟩
    | signed _ hs =>
      obtain ⟨pos2, t2, off2, pre, pairs, vs, hr2, hbb, hc⟩ := hs
      obtain ⟨rfl, rfl, rfl⟩ := hr.unique hr2
      obtain ⟨rfl, rfl⟩ := (C89_unique file).2 _ _ _ _ _ hl (.signed pre pairs vs hbb)
      have : pre.length + pairs.length + 32 - pre.length = pairs.length + 32 := by omega
      rw [this]
      exact ⟨_, endRecord_of_plain hplain hr.comment _ (by omega)⟩
  obtain ⟨pos2, hraw⟩ := hraw
  obtain ⟨pos3, t3, off3, hr3, hle⟩ := hins
  obtain ⟨rfl, rfl, rfl⟩ := hraw.unique hr3
  have hfit := endRecord_slice hraw
  generalize hoff : off - (e - s) = o at *
  have hA : raw.take o ++ b.toU8 ++ (raw.drop o).take (pos2 - o) ++ wireEocd t (o + b.toU8.length) =
      (⟨raw.take o, (raw.drop o).take (pos2 - o), t⟩ : Archive).signed b.toU8 := by
    simp only [Archive.signed, List.length_take]
    rw [Nat.min_eq_left (by omega)]
  generalize hAe : (⟨raw.take o, (raw.drop o).take (pos2 - o), t⟩ : Archive) = a at hA
  have hab : a.body.length = o := by rw [← hAe]; simp only [List.length_take]; omega
  have hacd : a.cd.length = pos2 - o := by rw [← hAe]; simp only [List.length_take, List.length_drop]; omega
  have hat : a.tail = t := by rw [← hAe]
  rw [hA]
  have hclean : a.CleanAt (a.body.length + b.toU8.length) := by
    intro k hk'; rw [hat]; exact hplain _ k hk'
  have hok : a.Ok := by unfold Archive.Ok; rw [hat]; exact hr.comment
  have hsz : a.body.length + b.toU8.length < 2 ^ 32 := by omega
  have hget := getSigningBlock_signed p hb.wf hok hclean hsz
  refine ⟨?_, _, hget, fun v hv => built_slim hb v hv⟩
  have hrl : raw.length ≤ file.length + 65557 := by
    have hcm := hr.comment
    cases hsrc with
    | unsigned pos2 t2 off2 hr2 hu => omega
    | signed _ hs =>
      obtain ⟨pos2, t2, off2, pre, pairs, vs, hr2, hbb, hc⟩ := hs
      obtain ⟨rfl, rfl, rfl⟩ := hr.unique hr2
      have := hbb.inside
      simp only [stripped, List.length_append, List.length_take, List.length_drop, wireEocd_length]
      omega
  rw [Archive.signed_length, hat]
  omega

/-- C120. A module signed on a 32-bit machine verifies on 32-bit and on 64-bit machines, and one signed on a 64-bit machine does on
32-bit machines, under the conditions that make it verify on the machine that signed it (C93): nothing follows the end record of the
input, its block (if any) stands directly before its directory and is read alike by both, the signers are sound and trusted. -/
theorem C120_crosswise {E : Env} {p : Profile} {clock : Option UInt64} {m : ModuleSigner} {file out : Bytes} {pos : Nat}
    {t : Tail} {off s e : Nat} (hlen : file.length < 2 ^ 31) (hr : EndRecord file pos t off) (hl : Located file off s e)
    (hplain : Spec.Plain t) (hsize : off + 16392 < 2 ^ 32)
    (hsound : ∀ c, m.v2 = some c ∨ m.stamp = some c → Sound E c) (hne : m.v2 ≠ none)
    (h : Narrow.cliSignModule E p clock m false file = (some out, .ok ()) ∧ ¬ OddBlock p file ∨
      cliSignModule E p clock m false file = (some out, .ok ()))
    (hend : pos + 22 + t.comment.length = file.length) (hdir : e = off) {builtin : Bytes} {root : Option Bytes} {cert : Bytes}
    {now : Nat} (hpem : E.pemParse (root.getD builtin) = some ("CERTIFICATE", cert))
    (ht1 : ∀ c, m.v2 = some c → Trusted E [cert] now c.cert c.chain)
    (ht2 : ∀ c, m.stamp = some c → Trusted E [cert] now c.cert []) :
    cliVerify E p builtin root now out = .ok () ∧ Narrow.cliVerify E p builtin root now out = .ok () := by
  have hk : ∀ c, m.v2 = some c ∨ m.stamp = some c → Known c.algo := fun c hc => known_of_matching (hsound c hc).matching
  have hs : cliSignModule E p clock m false file = (some out, .ok ()) := by
    rcases h with ⟨h, hn⟩ | h
    · rcases C120_narrow E p clock m false hlen hk h with h | h
      · exact h
      · exact absurd h hn
    · exact h
  have hv := C93_accepted (by omega) hr hl hplain hsize hsound hne hs hend hdir hpem ht1 ht2
  obtain ⟨ho, b, hb, hslim⟩ := signed_slim (by omega) hr hplain hsize hk hs
  refine ⟨hv, ?_⟩
  rcases (C108_command E p builtin root now (file := out) (by omega)).1 hv with h | ⟨_, b', hb', v, hv', hbulky⟩
  · exact h
  · rw [hb] at hb'
    cases hb'
    exact absurd hbulky (hslim v hv')

/-- Whether the command succeeded. -/
def succeeds (r : Option Bytes × Res Unit) : Bool := r.1.isSome && r.2.isOk

theorem succeeds_eq {r : Option Bytes × Res Unit} (h : succeeds r = true) : ∃ out, r = (some out, .ok ()) := by
  obtain ⟨o, r⟩ := r
  cases o with
  | none => cases h
  | some out =>
    cases r with
    | ok u => exact ⟨out, rfl⟩
    | err e => cases h
    | panic => cases h

set_option maxRecDepth 100000 in
/-- C120. The exception is real: a file that 32-bit machines sign, in either profile, and 64-bit machines refuse to touch. -/
theorem C120_signs_more (p : Profile) :
    (∃ out, Narrow.cliSignModule toyEnv p (some 5) (.v2Only toyConfig) false wideFile = (some out, .ok ())) ∧
      (cliSignModule toyEnv p (some 5) (.v2Only toyConfig) false wideFile).1 = none ∧ OddBlock p wideFile := by
  have h1 : succeeds (Narrow.cliSignModule toyEnv p (some 5) (.v2Only toyConfig) false wideFile) = true := by cases p <;> decide +kernel
  have h2 : (cliSignModule toyEnv p (some 5) (.v2Only toyConfig) false wideFile).1 = none := by cases p <;> decide +kernel
  have hl : wideFile.length < 2 ^ 31 := by decide +kernel
  obtain ⟨out, h1⟩ := succeeds_eq h1
  refine ⟨⟨out, h1⟩, h2, ?_⟩
  rcases C120_narrow toyEnv p (some 5) (.v2Only toyConfig) false hl
    (by rintro c (h | h) <;> cases h; exact known_of_matching toyConfig_sound.matching) h1 with h | h
  · rw [h] at h2
    cases h2
  · exact h

set_option maxRecDepth 100000 in
/-- The hypotheses of `C120_equal`, `C120_wide`, `C120_narrow` and `C120_crosswise` are met: a small unsigned archive. -/
example : ∃ out, Narrow.cliSignModule toyEnv .dev (some 5) (.v2Only toyConfig) false plainArchive.unsigned = (some out, .ok ()) ∧
    cliVerify toyEnv .dev [7] none 0 out = .ok () ∧ Narrow.cliVerify toyEnv .dev [7] none 0 out = .ok () := by
  have h : succeeds (cliSignModule toyEnv .dev (some 5) (.v2Only toyConfig) false plainArchive.unsigned) = true := by decide +kernel
  obtain ⟨out, h⟩ := succeeds_eq h
  refine ⟨out, C120_wide _ _ _ _ _ (by decide +kernel) (by rintro c (h | h) <;> cases h; exact known_of_matching toyConfig_sound.matching) h, ?_⟩
  refine C120_crosswise (by decide +kernel) plainArchive_unsigned_record.1 plainArchive_unsigned_record.2 (plain_no_comment rfl)
    (by omega) ?_ (by intro h; cases h) (.inr h) (by decide +kernel) rfl (cert := [7]) rfl ?_ ?_
  · rintro c (h | h) <;> cases h
    exact toyConfig_sound
  · intro c h; cases h; exact ⟨by simp, .inl (by simp [toyConfig])⟩
  · intro c h; cases h

/-- A hash that does not look at its input. -/
def flatEnv : Env := { toyEnv with sha256 := fun _ => [1, 2, 3, 4] }

/-- The hypotheses of `C120_emptied` are met: an archive with 2 GiB of entries. -/
example : ∃ file out, 2 ^ 31 ≤ file.length ∧ file.length + 65557 < 2 ^ 32 ∧
    cliSignModule flatEnv .dev (some 5) (.v2Only toyConfig) false file = (some out, .ok ()) ∧
    Narrow.cliSignModule flatEnv .dev (some 5) (.v2Only toyConfig) false file = (some [], .err .io) := by
  have key : ∀ a : Archive, a.body.length = 2 ^ 31 → a.cd = [] → a.tail = ⟨0, 0, 1, 1, 4, []⟩ → a.NoMagic →
      ∃ file out, 2 ^ 31 ≤ file.length ∧ file.length + 65557 < 2 ^ 32 ∧
      cliSignModule flatEnv .dev (some 5) (.v2Only toyConfig) false file = (some out, .ok ()) ∧
      Narrow.cliSignModule flatEnv .dev (some 5) (.v2Only toyConfig) false file = (some [], .err .io) := by
    intro a hb hcd ht hno
    have hlen : a.unsigned.length = 2 ^ 31 + 22 := by
      simp only [Archive.unsigned, List.length_append, wireEocd_length, hb, hcd, ht, List.length_nil]
    obtain ⟨r, hr, hc⟩ := C25_sign_command (E := flatEnv) (p := .dev) (clock := some 5) (m := .v2Only toyConfig) (a := a)
      (file := a.unsigned) (.inl ⟨rfl, hno⟩) (fun n hn => signable_no_comment (by rw [ht]) (by omega))
      (by rintro c (h | h) <;> cases h; exact known_of_matching toyConfig_sound.matching)
    have hd : ∀ al, al ∈ (ModuleSigner.v2Only toyConfig).requiredAlgorithms → contentDigest flatEnv a al = [1, 2, 3, 4] := by
      intro al hal
      have : al = .p256 := by
        have h : (ModuleSigner.v2Only toyConfig).requiredAlgorithms = [.p256] := by decide +kernel
        rw [h] at hal
        simpa using hal
      rw [this]
      rfl
    have hm : ((ModuleSigner.v2Only toyConfig).requiredAlgorithms.map fun al => Digest.new al (contentDigest flatEnv a al)) =
        (ModuleSigner.v2Only toyConfig).requiredAlgorithms.map fun al => Digest.new al [1, 2, 3, 4] :=
      List.map_congr_left fun al hal => by rw [hd al hal]
    rw [hm] at hr
    obtain ⟨b, hb'⟩ : ∃ b, (ModuleSigner.v2Only toyConfig).sign flatEnv .dev (some 5)
      (Digests.new ((ModuleSigner.v2Only toyConfig).requiredAlgorithms.map fun al => Digest.new al [1, 2, 3, 4])) = .ok b :=
      Res.exists_of_isOk (by decide +kernel)
    rw [hb'] at hr
    subst hr
    exact ⟨a.unsigned, _, by omega, by omega, hc, C120_emptied _ _ _ _ (by omega) (by omega) hc⟩
  exact key ⟨List.replicate (2 ^ 31) 0, [], ⟨0, 0, 1, 1, 4, []⟩⟩ List.length_replicate rfl rfl
    ⟨by rw [List.length_replicate]; omega, fun u => replicate_noMagic _ u⟩

end Ksusig.Props
