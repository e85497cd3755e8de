import Verif.Props.Anatomy
import Verif.Props.Digest

/-!
# C93: for which files the output of the sign command is accepted by the verify command

The statements mention the bytes of the file only; see `Verif/SpecAnatomy.lean`.
-/

namespace Ksusig.Props

open Ksusig Spec

theorem plain_no_comment {t : Tail} (h : t.comment = []) : Plain t := by
  intro off k hk hr
  have h1 := hr.2.1
  rw [wireEocd_length, h] at h1
  simp only [List.length_nil] at h1
  omega

/-- A file that ends with a plain end record has that record in force. -/
theorem endRecord_of_plain {t : Tail} (hp : Plain t) (hc : t.comment.length ≤ 65535) (before : Bytes) {off : Nat}
    (ho : off < 2 ^ 32) : EndRecord (before ++ wireEocd t off) before.length t off := by
  have hl := wireEocd_length t off
  refine ⟨⟨before, [], by simp, rfl⟩, hc, ho, by simp only [List.length_append]; omega, fun k hk hr => ?_⟩
  have := (RecordAt.shift (d := before ++ wireEocd t off) (a := before.length) (i := k - before.length)
    (by simp)).mpr (by rwa [show before.length + (k - before.length) = k by omega])
  rw [List.drop_left] at this
  exact hp off _ (by omega) this

theorem wireEocd_inj_off {t : Tail} {a b : Nat} (ha : a < 2 ^ 32) (hb : b < 2 ^ 32) (h : wireEocd t a = wireEocd t b) : a = b := by
  have h1 := patchOffset_wireEocd t 0 a
  have h2 := patchOffset_wireEocd t 0 b
  refine patchOffset_inj_off (t := wireEocd t 0) (t' := wireEocd t 0) ha hb ?_ ?_ (by rw [h1, h2, h])
  all_goals rw [wireEocd_length]; omega

/-- What the verify command says about an archive with a block that was made for other digests: it accepts exactly if they agree
with those of the archive for the algorithms of the configured signers. -/
theorem verify_made_iff {E : Env} {p : Profile} {clock : Option UInt64} {m : ModuleSigner} {a : Archive} {D : Algo → Bytes}
    {b : SigningBlock} (hsound : ∀ c, m.v2 = some c ∨ m.stamp = some c → Sound E c) (hne : m.v2 ≠ none)
    (hsign : m.sign E p clock (Digests.new (m.requiredAlgorithms.map fun al => Digest.new al (D al))) = .ok b)
    (hok : a.Ok) (hclean : a.CleanAt (a.body.length + b.toU8.length)) (hsz : a.body.length + b.toU8.length < 2 ^ 32)
    {builtin : Bytes} {root : Option Bytes} {cert : Bytes} {now : Nat}
    (hpem : E.pemParse (root.getD builtin) = some ("CERTIFICATE", cert)) :
    (cliVerify E p builtin root now (a.signed b.toU8) = .ok () →
      ∀ c, m.v2 = some c ∨ m.stamp = some c → D c.algo = contentDigest E a c.algo) ∧
    ((∀ c, m.v2 = some c → Trusted E [cert] now c.cert c.chain) →
      (∀ c, m.stamp = some c → Trusted E [cert] now c.cert []) →
      (∀ c, m.v2 = some c ∨ m.stamp = some c → D c.algo = contentDigest E a c.algo) →
      cliVerify E p builtin root now (a.signed b.toU8) = .ok ()) := by
  have hk : ∀ c, m.v2 = some c ∨ m.stamp = some c → Known c.algo := fun c hc => known_of_matching (hsound c hc).matching
  have hb : Built p b := sign_built_required hk hsign
  have hmap : ((m.requiredAlgorithms.map fun al => (al, D al)).map fun x => Digest.new x.1 x.2) =
      m.requiredAlgorithms.map fun al => Digest.new al (D al) := by
    rw [List.map_map]; rfl
  have hsign' : m.sign E p clock (pairDigests (m.requiredAlgorithms.map fun al => (al, D al))) = .ok b := by
    unfold pairDigests; rw [hmap]; exact hsign
  have hsp := split_signed p hb.wf hok hclean hsz
  have hdig : ∀ al, (Module.new (a.signed b.toU8)).digest E p (a.signed b.toU8) al = .ok (contentDigest E a al) := by
    intro al
    rw [hsp.digest E al, patchOffset_wireEocd]; rfl
  have htab : ∀ c, m.v2 = some c ∨ m.stamp = some c →
      table (contentDigest E a .p256) (contentDigest E a .p384) c.algo.toU32 = some (contentDigest E a c.algo) :=
    fun c hc => table_known (hk c hc)
  have hget := getSigningBlock_signed p hb.wf hok hclean hsz
  obtain ⟨hv2, hst⟩ := signers_of_shape hsign'
  have hmem : ∀ cf : SignerConfig, (m.v2 = some cf ∨ m.stamp = some cf) → cf.algo ∈ m.requiredAlgorithms := by
    intro cf hcf
    rw [(C37_required_algorithms m).2]
    rcases hcf with h | h
    · exact .inl ⟨cf, h, rfl⟩
    · exact .inr ⟨cf, h, rfl⟩
  have first_unique : ∀ cf : SignerConfig, cf.algo ∈ m.requiredAlgorithms → ∀ d,
      FirstFor cf.algo (pairDigests (m.requiredAlgorithms.map fun al => (al, D al))).data d → d.digest = D cf.algo := by
    intro cf h d hd
    have h1 := find?_firstFor.mpr hd
    rw [find?_firstFor.mpr (firstFor_map (D := D) h)] at h1
    cases h1
    rfl
  constructor
  · intro h c hc
    obtain ⟨b', cert', d1, d2, hb', _, h1, h2, _, hgood, hgs⟩ := C35_verify_command.mp h
    rw [hget] at hb'
    cases hb'
    rw [hdig] at h1 h2
    cases h1
    cases h2
    rcases hc with hc | hc
    · rcases hv2 with ⟨h0, _⟩ | ⟨cf, g, hcf, hg, hmade⟩
      · rw [h0] at hc; cases hc
      · obtain rfl : cf = c := Option.some.inj (hcf.symm.trans hc)
        obtain ⟨sg, hs1, hs2, _⟩ := hmade.sig
        have hG := hgood g (by show g ∈ v2Signers b; rw [hg]; simp)
        obtain ⟨d, hd1, hd2⟩ := hG.content sg (by rw [hs1]; simp)
        rw [hs2, hmade.digests] at hd1
        rw [hs2, htab cf (.inl hcf)] at hd2
        rw [← first_unique cf (hmem cf (.inl hcf)) d hd1]
        exact (Option.some.inj hd2).symm
    · rcases hst with ⟨h0, _⟩ | ⟨cf, g, hcf, hg, hmade⟩
      · rw [h0] at hc; cases hc
      · obtain rfl : cf = c := Option.some.inj (hcf.symm.trans hc)
        obtain ⟨sg, hs1, hs2, _⟩ := hmade.sig
        have hG := hgs g [] hg
        have hf := firstFor_map (D := D) (hmem cf (.inr hcf))
        have hd2 := hG.content sg (by rw [hs1]; simp) _ (by rw [hs2, hmade.digests]; exact hf)
        rw [hs2, htab cf (.inr hcf)] at hd2
        exact (Option.some.inj hd2).symm
  · intro t1 t2 hD
    rw [C35_verify_command]
    refine ⟨_, cert, _, _, hget, hpem, hdig _, hdig _, ?_, fun s hs => ?_, fun s rest hs => ?_⟩
    · show v2Signers b ≠ []
      rcases hv2 with ⟨h0, _⟩ | ⟨cf, g, hcf, hg, hmade⟩
      · exact absurd h0 hne
      · rw [hg]; simp
    · have hs : s ∈ v2Signers b := hs
      rcases hv2 with ⟨_, h0⟩ | ⟨cf, g, hcf, hg, hmade⟩
      · rw [h0] at hs; cases hs
      · rw [hg] at hs
        have : s = g := by simpa using hs
        subst this
        obtain ⟨k1, k2, k3⟩ := v2SigOk_made (hsound cf (.inl hcf)) hmade (hmem cf (.inl hcf))
          (by rw [hD cf (.inl hcf)]; exact table_known (hk cf (.inl hcf)))
        exact ⟨k1, fun g hg => (k2 g hg).1, fun g hg => (k2 g hg).2, _, _, hmade.certs, k3, t1 cf hcf⟩
    · have hs : stamps b = s :: rest := hs
      rcases hst with ⟨_, h0⟩ | ⟨cf, g, hcf, hg, hmade⟩
      · rw [h0] at hs; cases hs
      · rw [hg] at hs
        cases hs
        obtain ⟨k1, k2, k3⟩ := stampSigOk_made (hsound cf (.inr hcf)) hmade (hmem cf (.inr hcf))
          (by rw [hD cf (.inr hcf)]; exact table_known (hk cf (.inr hcf)))
        exact ⟨k1, fun g hg => (k2 g hg).1, fun g hg => (k2 g hg).2, _, _, hmade.certs, k3, t2 cf hcf⟩

/-- The regions of an archive with a block. -/
theorem regions_signed {a : Archive} {block : Bytes} :
    regions (a.signed block) a.body.length (a.body.length + block.length) (a.body.length + block.length + a.cd.length) =
      [a.body, a.cd, wireEocd a.tail a.body.length] := by
  have hf : a.signed block = (a.body ++ block) ++ (a.cd ++ wireEocd a.tail (a.body.length + block.length)) := by
    simp [Archive.signed]
  have hf' : a.signed block = (a.body ++ block ++ a.cd) ++ wireEocd a.tail (a.body.length + block.length) := by
    simp [Archive.signed]
  unfold regions
  rw [if_pos (by omega)]
  congr 1
  · rw [hf, List.append_assoc, List.take_left]
  congr 1
  · rw [hf]
    rw [show a.body.length + block.length = (a.body ++ block).length by simp, List.drop_left, Nat.add_sub_cancel_left,
      List.take_left]
  congr 1
  · rw [hf', show a.body.length + block.length + a.cd.length = (a.body ++ block ++ a.cd).length by simp; omega,
      List.drop_left, patchOffset_wireEocd]

theorem sign_core {E : Env} {p : Profile} {clock : Option UInt64} {m : ModuleSigner} {file out : Bytes} {pos : Nat}
    {t : Tail} {off s e : Nat} (hlen : file.length < 2 ^ 64) (hr : EndRecord file pos t off) (hl : Located file off s e)
    (hplain : Plain t) (hsize : off + 16392 < 2 ^ 32)
    (hsound : ∀ c, m.v2 = some c ∨ m.stamp = some c → Sound E c) (hne : m.v2 ≠ none)
    (h : cliSignModule E p clock m false file = (some out, .ok ())) :
    ∃ pos' off' s' e', EndRecord out pos' t off' ∧ Located out off' s' e' ∧ e' = off' ∧ pos' + 22 + t.comment.length = out.length ∧
      s' = off - (e - s) ∧ (e ≤ pos ∨ p = .release) ∧
      (∃ raw pos2, Source file raw ∧ EndRecord raw pos2 t (off - (e - s)) ∧ off - (e - s) ≤ pos2 ∧
        regions out s' e' pos' = [raw.take (off - (e - s)), (raw.drop (off - (e - s))).take (pos2 - (off - (e - s))),
          wireEocd t (off - (e - s))]) ∧
      ∀ builtin root cert now, E.pemParse (Option.getD root builtin) = some ("CERTIFICATE", cert) →
        (cliVerify E p builtin root now out = .ok () → ∀ c, m.v2 = some c ∨ m.stamp = some c →
          treeDigest (c.algo.hash E) (regions file s e pos) = treeDigest (c.algo.hash E) (regions out s' e' pos')) ∧
        ((∀ c, m.v2 = some c → Trusted E [cert] now c.cert c.chain) →
          (∀ c, m.stamp = some c → Trusted E [cert] now c.cert []) →
          (∀ c, m.v2 = some c ∨ m.stamp = some c →
            treeDigest (c.algo.hash E) (regions file s e pos) = treeDigest (c.algo.hash E) (regions out s' e' pos')) →
          cliVerify E p builtin root now out = .ok ()) := by
  have hk : ∀ c, m.v2 = some c ∨ m.stamp = some c → Known c.algo := fun c hc => known_of_matching (hsound c hc).matching
  obtain ⟨pos1, t1, off1, s1, e1, b, raw, hr1, hl1, hp1, hsign, hsrc, hins⟩ := (C92_sign_command E p clock m file out hlen hk).mp h
  obtain ⟨rfl, rfl, rfl⟩ := hr.unique hr1
  obtain ⟨rfl, rfl⟩ := (C89_unique file).2 _ _ _ _ _ hl hl1
  have hb : Built p b := sign_built_required (D := fun al => treeDigest (al.hash E) (regions file s e pos)) hk hsign
  have hbl := built_length hb
  -- the end record of what is signed
  have hraw : ∃ pos2, EndRecord raw pos2 t (off - (e - s)) := by
    cases hsrc with
    | unsigned pos2 t2 off2 hr2 hu =>
      obtain ⟨rfl, rfl, rfl⟩ := hr.unique hr2
      obtain ⟨rfl, rfl⟩ := (C89_unique file).2 _ _ _ _ _ hl (.unsigned hu)
      exact ⟨pos, by simpa using hr⟩
    | signed _ hs =>
      obtain ⟨pos2, t2, off2, pre, pairs, vs, hr2, hbb, hc⟩ := hs
      obtain ⟨rfl, rfl, rfl⟩ := hr.unique hr2
      obtain ⟨rfl, rfl⟩ := (C89_unique file).2 _ _ _ _ _ hl (.signed pre pairs vs hbb)
      have : pre.length + pairs.length + 32 - pre.length = pairs.length + 32 := by omega
      rw [this]
      exact ⟨_, endRecord_of_plain hplain hr.comment _ (by omega)⟩
  obtain ⟨pos2, hraw⟩ := hraw
  obtain ⟨pos3, t3, off3, hr3, hle⟩ := hins
  obtain ⟨rfl, rfl, rfl⟩ := hraw.unique hr3
  have hfit := endRecord_slice hraw
  generalize hoff : off - (e - s) = o at *
  have hA : raw.take o ++ b.toU8 ++ (raw.drop o).take (pos2 - o) ++ wireEocd t (o + b.toU8.length) =
      (⟨raw.take o, (raw.drop o).take (pos2 - o), t⟩ : Archive).signed b.toU8 := by
    simp only [Archive.signed, List.length_take]
    rw [Nat.min_eq_left (by omega)]
  generalize hAe : (⟨raw.take o, (raw.drop o).take (pos2 - o), t⟩ : Archive) = a at hA
  have hab : a.body.length = o := by rw [← hAe]; simp only [List.length_take]; omega
  have hacd : a.cd.length = pos2 - o := by rw [← hAe]; simp only [List.length_take, List.length_drop]; omega
  have hat : a.tail = t := by rw [← hAe]
  rw [hA]
  have hclean : a.CleanAt (a.body.length + b.toU8.length) := by
    intro k hk'; rw [hat]; exact hplain _ k hk'
  have hok : a.Ok := by unfold Archive.Ok; rw [hat]; exact hr.comment
  have hsz : a.body.length + b.toU8.length < 2 ^ 32 := by omega
  have hget := getSigningBlock_signed p hb.wf hok hclean hsz
  obtain ⟨pos4, t4, off4, pre, pairs, hr4, hbb, heq⟩ := (C89_block p _ _).mp hget
  have hfst : pre.length = a.body.length := (congrArg SigningBlock.fileStart heq).symm
  have hfen : pre.length + pairs.length + 32 = a.body.length + b.toU8.length := (congrArg SigningBlock.fileEnd heq).symm
  have hout : EndRecord (a.signed b.toU8) (a.body.length + b.toU8.length + a.cd.length) t (a.body.length + b.toU8.length) := by
    have := endRecord_of_plain hplain hr.comment (a.body ++ b.toU8 ++ a.cd) hsz
    unfold Archive.signed
    rw [hat]
    simpa only [List.length_append] using this
  obtain ⟨rfl, rfl, rfl⟩ := hr4.unique hout
  refine ⟨_, _, a.body.length, a.body.length + b.toU8.length, hout, ?_, rfl, ?_, hab, hp1, ⟨raw, pos2, hsrc, hraw, hle, ?_⟩, ?_⟩
  · have := Located.signed (off := a.body.length + b.toU8.length) pre pairs _ hbb
    rwa [hfen, hfst] at this
  · rw [Archive.signed_length, hat]; omega
  · rw [regions_signed, hat, hab, ← hAe]
  · intro builtin root cert now hpem
    rw [regions_signed]
    exact verify_made_iff hsound hne hsign hok hclean hsz hpem

/-- C93. The file written by the sign command has its own end record and block, and the verify command accepts it exactly if the
digests of its regions are those of the regions of the input, for the algorithms of the configured signers (given that their
certificates are trusted; the signers are sound). The end record must hide no other one, and the file must stay below 4 GiB. -/
theorem C93_accepted_iff {E : Env} {p : Profile} {clock : Option UInt64} {m : ModuleSigner} {file out : Bytes} {pos : Nat}
    {t : Tail} {off s e : Nat} (hlen : file.length < 2 ^ 64) (hr : EndRecord file pos t off) (hl : Located file off s e)
    (hplain : Plain t) (hsize : off + 16392 < 2 ^ 32)
    (hsound : ∀ c, m.v2 = some c ∨ m.stamp = some c → Sound E c) (hne : m.v2 ≠ none)
    (h : cliSignModule E p clock m false file = (some out, .ok ())) :
    ∃ pos' off' s' e', EndRecord out pos' t off' ∧ Located out off' s' e' ∧ e' = off' ∧ pos' + 22 + t.comment.length = out.length ∧
      s' = off - (e - s) ∧
      ∀ builtin root cert now, E.pemParse (Option.getD root builtin) = some ("CERTIFICATE", cert) →
        (∀ c, m.v2 = some c → Trusted E [cert] now c.cert c.chain) →
        (∀ c, m.stamp = some c → Trusted E [cert] now c.cert []) →
        (cliVerify E p builtin root now out = .ok () ↔ ∀ c, m.v2 = some c ∨ m.stamp = some c →
          treeDigest (c.algo.hash E) (regions file s e pos) = treeDigest (c.algo.hash E) (regions out s' e' pos')) := by
  obtain ⟨pos', off', s', e', h1, h2, h3, h4, h5, _, _, h6⟩ := sign_core hlen hr hl hplain hsize hsound hne h
  exact ⟨pos', off', s', e', h1, h2, h3, h4, h5, fun builtin root cert now hp t1 t2 =>
    ⟨(h6 builtin root cert now hp).1, (h6 builtin root cert now hp).2 t1 t2⟩⟩

/-- The regions of the output are those of the input exactly if nothing follows the end record of the input and its block (if
any) stands directly before its directory. -/
theorem regions_same_iff {file raw : Bytes} {pos pos2 : Nat} {t : Tail} {off s e : Nat} (hr : EndRecord file pos t off)
    (hl : Located file off s e) (hsrc : Source file raw) (hr2 : EndRecord raw pos2 t (off - (e - s)))
    (hle : off - (e - s) ≤ pos2) :
    (pos + 22 + t.comment.length = file.length ∧ e = off →
      regions file s e pos = [raw.take (off - (e - s)), (raw.drop (off - (e - s))).take (pos2 - (off - (e - s))),
          wireEocd t (off - (e - s))]) ∧
    (patchOffset (file.drop pos) s = wireEocd t (off - (e - s)) →
      pos + 22 + t.comment.length = file.length ∧ e = off) := by
  have hfit := endRecord_slice hr
  have hr' := hr
  obtain ⟨⟨before, after, hf, hbl⟩, hcm, hoff, hreach, _⟩ := hr'
  have hdrop : file.drop pos = wireEocd t off ++ after := by
    rw [hf, ← hbl, List.append_assoc, List.drop_left]
  have hlen : file.length = pos + (22 + t.comment.length) + after.length := by
    rw [hf]; simp only [List.length_append, wireEocd_length]; omega
  rw [hdrop, patchOffset_wireEocd_append]
  have hse : s ≤ e ∧ e ≤ off := by
    cases hl with
    | signed pre pairs vs hbb => have := hbb.inside; omega
    | unsigned _ => omega
  constructor
  · rintro ⟨h1, rfl⟩
    have ha : after = [] := List.eq_nil_of_length_eq_zero (by omega)
    subst ha
    have hes : e - (e - s) = s := by omega
    rw [hes] at hr2 hle ⊢
    cases hsrc with
    | unsigned pos3 t3 off3 hr3 hu =>
      obtain ⟨rfl, rfl, rfl⟩ := hr.unique hr3
      obtain ⟨rfl, _⟩ := (C89_unique file).2 _ _ _ _ _ hl (.unsigned hu)
      obtain ⟨rfl, _⟩ := hr.unique hr2
      unfold regions
      rw [if_pos hle, hdrop, patchOffset_wireEocd_append, List.append_nil]
    | signed _ hs =>
      obtain ⟨pos3, t3, off3, pre, pairs, vs, hr3, hbb, hc⟩ := hs
      obtain ⟨rfl, rfl, rfl⟩ := hr.unique hr3
      obtain ⟨rfl, he⟩ := (C89_unique file).2 _ _ _ _ _ hl (.signed pre pairs vs hbb)
      obtain ⟨post, hpost⟩ := hbb.bytes
      have htk : file.take pre.length = pre := by rw [hpost, List.append_assoc, List.take_left]
      have hstop : file.length - (22 + t.comment.length) - (pre.length + pairs.length + 32) = pos - e := by omega
      have hst : stripped file pre pairs t e = pre ++ (file.drop e).take (pos - e) ++ wireEocd t pre.length := by
        unfold stripped
        rw [hstop, ← he, show e - (pairs.length + 32) = pre.length by omega]
      rw [hst] at hr2 ⊢
      have hml : ((file.drop e).take (pos - e)).length = pos - e := by
        simp only [List.length_take, List.length_drop]; omega
      have hpos2 : pos2 = pre.length + (pos - e) := by
        have hfit2 := endRecord_slice hr2
        have hrec := (RecordAt.shift (d := pre ++ (file.drop e).take (pos - e) ++ wireEocd t pre.length)
          (a := (pre ++ (file.drop e).take (pos - e)).length) (i := 0) (by simp only [List.length_append]; omega)).mp
          (by rw [List.drop_left]; simpa using recordAt_wire t pre.length [] hcm)
        simp only [List.length_append, wireEocd_length, hml, Nat.add_zero] at hfit2 hrec
        by_cases hlt : pos2 < pre.length + (pos - e)
        · exact absurd hrec (hr2.last _ hlt)
        · omega
      unfold regions
      rw [if_pos (by omega), hdrop, patchOffset_wireEocd_append, List.append_nil, htk, List.append_assoc, List.take_left,
        List.drop_left, hpos2, Nat.add_sub_cancel_left]
      congr 2
      symm
      apply take_append_left
      first | exact hml | exact hml.symm
  · intro h
    have h1 := congrArg List.length h
    simp only [List.length_append, wireEocd_length] at h1
    have ha : after = [] := List.eq_nil_of_length_eq_zero (by omega)
    subst ha
    rw [List.append_nil] at h
    have := wireEocd_inj_off (by omega) (by omega) h
    simp only [List.length_nil] at hlen
    omega

/-- C93. The output of the sign command is accepted if nothing follows the end record of the input and the block of the input, if
there is one, stands directly before its directory, whatever else the input contains. -/
theorem C93_accepted {E : Env} {p : Profile} {clock : Option UInt64} {m : ModuleSigner} {file out : Bytes} {pos : Nat}
    {t : Tail} {off s e : Nat} (hlen : file.length < 2 ^ 64) (hr : EndRecord file pos t off) (hl : Located file off s e)
    (hplain : Plain t) (hsize : off + 16392 < 2 ^ 32)
    (hsound : ∀ c, m.v2 = some c ∨ m.stamp = some c → Sound E c) (hne : m.v2 ≠ none)
    (h : cliSignModule E p clock m false file = (some out, .ok ()))
    (hend : pos + 22 + t.comment.length = file.length) (hdir : e = off) {builtin : Bytes} {root : Option Bytes} {cert : Bytes}
    {now : Nat} (hpem : E.pemParse (root.getD builtin) = some ("CERTIFICATE", cert))
    (ht1 : ∀ c, m.v2 = some c → Trusted E [cert] now c.cert c.chain)
    (ht2 : ∀ c, m.stamp = some c → Trusted E [cert] now c.cert []) :
    cliVerify E p builtin root now out = .ok () := by
  obtain ⟨pos', off', s', e', _, _, _, _, _, _, ⟨raw, pos2, hsrc, hr2, hle, hreg⟩, h6⟩ :=
    sign_core hlen hr hl hplain hsize hsound hne h
  refine (h6 builtin root cert now hpem).2 ht1 ht2 fun c _ => ?_
  rw [hreg, (regions_same_iff hr hl hsrc hr2 hle).1 ⟨hend, hdir⟩]

/-- C93. In all other cases the output of the sign command is refused with every root certificate and at every time, unless two
different inputs with the same hash value can be read off. -/
theorem C93_refused {E : Env} {p : Profile} {clock : Option UInt64} {m : ModuleSigner} {file out : Bytes} {pos : Nat}
    {t : Tail} {off s e : Nat} (hlen : file.length < 2 ^ 64) (hr : EndRecord file pos t off) (hl : Located file off s e)
    (hplain : Plain t) (hsize : off + 16392 < 2 ^ 32)
    (hsound : ∀ c, m.v2 = some c ∨ m.stamp = some c → Sound E c) (hne : m.v2 ≠ none)
    (h : cliSignModule E p clock m false file = (some out, .ok ()))
    (hbad : ¬ (pos + 22 + t.comment.length = file.length ∧ e = off)) :
    ∃ pos' off' s' e', EndRecord out pos' t off' ∧ Located out off' s' e' ∧
      ∀ builtin root now, cliVerify E p builtin root now out = .ok () → ∀ c, m.v2 = some c ∨ m.stamp = some c →
        FixedLength (c.algo.hash E) → Collision (c.algo.hash E) (regions file s e pos) (regions out s' e' pos') := by
  obtain ⟨pos', off', s', e', h1, h2, _, _, _, _, ⟨raw, pos2, hsrc, hr2, hle, hreg⟩, h6⟩ :=
    sign_core hlen hr hl hplain hsize hsound hne h
  refine ⟨pos', off', s', e', h1, h2, fun builtin root now hv c hc hE => ?_⟩
  obtain ⟨_, cert, _, _, _, hpem, _⟩ := C35_verify_command.mp hv
  have hd := (h6 builtin root cert now hpem).1 hv c hc
  have hsame := (regions_same_iff hr hl hsrc hr2 hle).2
  have hfit := endRecord_slice hr
  have hfit2 := endRecord_slice hr2
  have hpl : (patchOffset (file.drop pos) s).length = file.length - pos := by
    rw [patchOffset_length (by simp only [List.length_drop]; omega), List.length_drop]
  have hreach := hr.reach
  rcases treeDigest_eq hE hd with h3 | h3
  · exfalso
    rw [hreg] at h3
    unfold regions at h3
    refine hbad (hsame (regions_of_pieces ?_ ?_ ?_ ?_ ?_ h3).2.2)
    · intro h0; rw [h0] at hpl; simp at hpl; omega
    · intro h0
      have := congrArg List.length h0
      rw [wireEocd_length] at this
      simp at this
    · omega
    · rw [wireEocd_length]; have := hr.comment; omega
    · intro h0
      exact absurd (hsame h0) hbad
  · exact h3

theorem plainArchive_unsigned_record : EndRecord plainArchive.unsigned 34 plainArchive.tail 30 ∧
    Located plainArchive.unsigned 30 30 30 := by
  have h : EndRecord plainArchive.unsigned (plainArchive.body ++ plainArchive.cd).length plainArchive.tail 30 :=
    endRecord_of_plain (plain_no_comment rfl) (by decide) (plainArchive.body ++ plainArchive.cd) (by decide)
  have hl : (plainArchive.body ++ plainArchive.cd).length = 34 := by decide +kernel
  rw [hl] at h
  obtain ⟨pos, t, off, hr, hu⟩ := (C89_missing .dev plainArchive.unsigned).mp ⟨.magicNotFound, by decide +kernel, rfl⟩
  obtain ⟨rfl, rfl, rfl⟩ := h.unique hr
  exact ⟨h, .unsigned hu⟩

/-- The hypotheses of `C93_accepted` are met: a small unsigned archive, a sound signer whose certificate is the root. -/
example : ∃ out, cliSignModule toyEnv .dev (some 1700000000) (.v2Only toyConfig) false plainArchive.unsigned = (some out, .ok ()) ∧
    cliVerify toyEnv .dev [7] none 0 out = .ok () := by
  have h : (match cliSignModule toyEnv .dev (some 1700000000) (.v2Only toyConfig) false plainArchive.unsigned with
    | (some _, .ok ()) => true | _ => false) = true := by decide +kernel
  obtain ⟨out, h⟩ : ∃ out, cliSignModule toyEnv .dev (some 1700000000) (.v2Only toyConfig) false plainArchive.unsigned =
      (some out, .ok ()) := by
    split at h
    · rename_i out heq; exact ⟨out, heq⟩
    · cases h
  refine ⟨out, h, C93_accepted (by decide +kernel) plainArchive_unsigned_record.1 plainArchive_unsigned_record.2
    (plain_no_comment rfl) (by omega) ?_ (by intro h; cases h) h (by decide +kernel) rfl (cert := [7]) rfl ?_ ?_⟩
  · rintro c (h | h) <;> cases h
    exact toyConfig_sound
  · intro c h; cases h; exact ⟨by simp, .inl (by simp [toyConfig])⟩
  · intro c h; cases h

set_option maxRecDepth 100000 in
/-- The hypotheses of `C93_refused` are met: an archive with a block inside an entry, and so not directly before the directory. -/
example : ∃ out, cliSignModule toyEnv .dev none ⟨some toyConfig, none, false, false⟩ false nestedPlain.unsigned =
      (some out, .ok ()) ∧
    ∃ pos' off' s' e', EndRecord out pos' nestedPlain.tail off' ∧ Located out off' s' e' ∧
      ∀ builtin root now, cliVerify toyEnv .dev builtin root now out = .ok () →
        Collision (toyConfig.algo.hash toyEnv) (regions nestedPlain.unsigned 3 434 441) (regions out s' e' pos') := by
  have h : (match cliSignModule toyEnv .dev none ⟨some toyConfig, none, false, false⟩ false nestedPlain.unsigned with
    | (some _, .ok ()) => true | _ => false) = true := by decide +kernel
  obtain ⟨out, h⟩ : ∃ out, cliSignModule toyEnv .dev none ⟨some toyConfig, none, false, false⟩ false nestedPlain.unsigned =
      (some out, .ok ()) := by
    split at h
    · rename_i out heq; exact ⟨out, heq⟩
    · cases h
  have hr : EndRecord nestedPlain.unsigned 441 nestedPlain.tail 437 := by
    have h : EndRecord nestedPlain.unsigned (nestedPlain.body ++ nestedPlain.cd).length nestedPlain.tail nestedPlain.body.length :=
      endRecord_of_plain (plain_no_comment rfl) (by decide) (nestedPlain.body ++ nestedPlain.cd) (by decide +kernel)
    have h1 : (nestedPlain.body ++ nestedPlain.cd).length = 441 := by decide +kernel
    have h2 : nestedPlain.body.length = 437 := by decide +kernel
    rwa [h1, h2] at h
  have hl : Located nestedPlain.unsigned 437 3 434 := by
    have h : ((Module.new nestedPlain.unsigned).getSigningBlock .dev nestedPlain.unsigned >>= fun b =>
      Res.ok (decide (b.fileStart = 3 ∧ b.fileEnd = 434))) = .ok true := by decide +kernel
    obtain ⟨b, hb, h⟩ := Res.bind_eq_ok.mp h
    simp only [Res.ok.injEq, decide_eq_true_eq] at h
    obtain ⟨pos, t, off, pre, pairs, hr', hbb, heq⟩ := (C89_block ..).mp hb
    obtain ⟨rfl, rfl, rfl⟩ := hr.unique hr'
    have h3 : pre.length = 3 := by rw [← h.1, heq]
    have h4 : pre.length + pairs.length + 32 = 434 := by rw [← h.2, heq]
    have := Located.signed (off := 437) pre pairs _ hbb
    rwa [h4, h3] at this
  obtain ⟨pos', off', s', e', h1, h2, h3⟩ := C93_refused (by decide +kernel) hr hl (plain_no_comment rfl) (by omega)
    (by rintro c (h | h) <;> cases h; exact toyConfig_sound) (by intro h; cases h) h (by decide)
  exact ⟨out, h, pos', off', s', e', h1, h2, fun builtin root now hv =>
    h3 builtin root now hv toyConfig (.inl rfl) (toyHash_fixed (by decide))⟩

end Ksusig.Props
