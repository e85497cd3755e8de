import Verif.Props.Cli

/-! # C25: signing, then verifying -/

namespace Ksusig.Props

open Ksusig Spec

/-! ### Lemmas -/

theorem cliDigests_eq {E : Env} {p : Profile} {m : Module} {file : Bytes} {D : Algo → Bytes}
    (h : ∀ a, m.digest E p file a = .ok (D a)) (as : List Algo) :
    cliDigests E p m file as = .ok (as.map fun a => (a, D a)) := by
  induction as with
  | nil => rfl
  | cons a as ih => rw [cliDigests, h, Res.ok_bind, ih]; rfl

theorem firstFor_map {D : Algo → Bytes} {as : List Algo} {a : Algo} (h : a ∈ as) :
    FirstFor a (pairDigests (as.map fun a => (a, D a))).data (Digest.new a (D a)) := by
  rw [← find?_firstFor]
  show ((as.map fun a => (a, D a)).map fun x => Digest.new x.1 x.2).find? _ = _
  rw [List.map_map]
  induction as with
  | nil => cases h
  | cons b bs ih =>
    rw [List.map_cons, List.find?_cons]
    by_cases hb : b = a
    · subst hb
      have : ((Digest.new b (D b)).algo == b) = true := by simp [Digest.new]
      dsimp only [Function.comp]
      rw [this]
    · have : ((Digest.new b (D b)).algo == a) = false := by simpa [Digest.new] using hb
      dsimp only [Function.comp]
      rw [this]
      rcases List.mem_cons.mp h with h | h
      · exact absurd h.symm hb
      · exact ih h

theorem known_of_matching {c : SignerConfig} (h : Matching c.algo c.key) : Known c.algo := by
  unfold Matching at h
  split at h
  · rename_i h1 _; exact .inl h1
  · rename_i h1 _; exact .inr h1
  · exact h.elim

theorem v2SigOk_made {E : Env} {c : SignerConfig} {as : List Algo} {D : Algo → Bytes} {s : SignerV2}
    {computed : UInt32 → Option Bytes} (hs : Sound E c) (hm : MadeV2 E c (pairDigests (as.map fun a => (a, D a))) s)
    (ha : c.algo ∈ as) (hg : computed c.algo.toU32 = some (D c.algo)) :
    s.sigs.data ≠ [] ∧ (∀ g ∈ s.sigs.data,
      V2SigOk E computed s.pubKey.data (s.signedData.toU8.drop 4) s.signedData.digests.data g) ∧
      E.certSpki c.cert = some s.pubKey.data := by
  obtain ⟨g, h1, h2, h3⟩ := hm.sig
  obtain ⟨pk, k1, k2, k3⟩ := hs.cert
  have hpk : pk = s.pubKey.data := by rw [hm.key] at k1; injection k1 with k1; exact k1.symm
  subst hpk
  refine ⟨by rw [h1]; simp, fun g' hg' => ?_, k2⟩
  rw [h1] at hg'
  have : g' = g := by simpa using hg'
  subst this
  refine ⟨by rw [h2]; exact k3 _ _ h3, Digest.new c.algo (D c.algo), ?_, ?_⟩
  · rw [h2, hm.digests]; exact firstFor_map ha
  · rw [h2]; exact hg

theorem stampSigOk_made {E : Env} {c : SignerConfig} {ts : Bool} {clock : Option UInt64} {as : List Algo}
    {D : Algo → Bytes} {s : StampBlock} {computed : UInt32 → Option Bytes} (hs : Sound E c)
    (hm : MadeStamp E c ts clock (pairDigests (as.map fun a => (a, D a))) s)
    (ha : c.algo ∈ as) (hg : computed c.algo.toU32 = some (D c.algo)) :
    (∃ g ∈ s.sigs.data, ∃ d, FirstFor g.algo s.signedData.digests.data d) ∧ (∀ g ∈ s.sigs.data,
      StampSigOk E computed s.pubKey.data (s.signedData.toU8.drop 4) s.signedData.digests.data g) ∧
      E.certSpki c.cert = some s.pubKey.data := by
  obtain ⟨g, h1, h2, h3⟩ := hm.sig
  obtain ⟨pk, k1, k2, k3⟩ := hs.cert
  have hpk : pk = s.pubKey.data := by rw [hm.key] at k1; injection k1 with k1; exact k1.symm
  subst hpk
  have hf : FirstFor g.algo s.signedData.digests.data (Digest.new c.algo (D c.algo)) := by
    rw [h2, hm.digests]; exact firstFor_map ha
  refine ⟨⟨g, by rw [h1]; simp, _, hf⟩, fun g' hg' => ?_, k2⟩
  rw [h1] at hg'
  have : g' = g := by simpa using hg'
  subst this
  refine ⟨by rw [h2]; exact k3 _ _ h3, fun d hd => ?_⟩
  have hd' := find?_firstFor.mpr hd
  rw [find?_firstFor.mpr hf] at hd'
  cases hd'
  rw [h2]; exact hg

/-- What was signed, as the verifier sees it. -/
theorem signers_of_shape {E : Env} {p : Profile} {clock : Option UInt64} {m : ModuleSigner} {ds : Digests}
    {b : SigningBlock} (h : m.sign E p clock ds = .ok b) :
    (m.v2 = none ∧ v2Signers b = [] ∨ ∃ c g, m.v2 = some c ∧ v2Signers b = [g] ∧ MadeV2 E c ds g) ∧
    (m.stamp = none ∧ stamps b = [] ∨ ∃ c g, m.stamp = some c ∧ stamps b = [g] ∧
      MadeStamp E c m.timestamp clock ds g) := by
  obtain ⟨v2, st, pad, hc, h1, h2, h3, _⟩ := C37_output_shape h
  constructor
  · rcases h1 with ⟨hm, rfl⟩ | ⟨c, x, g, hm, rfl, _, hx, hg⟩
    · refine .inl ⟨hm, ?_⟩
      rcases h2 with ⟨_, rfl⟩ | ⟨_, _, _, rfl, _⟩ <;> rcases h3 with rfl | ⟨_, n, rfl⟩ <;> simp [v2Signers, hc]
    · refine .inr ⟨c, g, hm, ?_, hg⟩
      rcases h2 with ⟨_, rfl⟩ | ⟨_, _, _, rfl, _⟩ <;> rcases h3 with rfl | ⟨_, n, rfl⟩ <;> simp [v2Signers, hc, hx]
  · rcases h2 with ⟨hm, rfl⟩ | ⟨c, x, hm, rfl, _, hg⟩
    · refine .inl ⟨hm, ?_⟩
      rcases h1 with ⟨_, rfl⟩ | ⟨_, _, _, _, rfl, _⟩ <;> rcases h3 with rfl | ⟨_, n, rfl⟩ <;> simp [stamps, hc]
    · refine .inr ⟨c, _, hm, ?_, hg⟩
      rcases h1 with ⟨_, rfl⟩ | ⟨_, _, _, _, rfl, _⟩ <;> rcases h3 with rfl | ⟨_, n, rfl⟩ <;> simp [stamps, hc]

/-- One V2 signer without error. -/
theorem verifyV2_single {E : Env} {roots : Roots} {now : Nat} {b : SigningBlock} {ctx : Option DigestCtx} {g : SignerV2}
    (hb : v2Signers b = [g])
    (h : ∀ i, (verifySigner E roots now ctx i g).sigValid = true ∧ (verifySigner E roots now ctx i g).digestValid = true ∧
      (verifySigner E roots now ctx i g).error = none) :
    ∃ r, verifyV2 E roots now b ctx = .ok r ∧ r.sigValid = true ∧ r.digestValid = true := by
  have hall : ∀ r ∈ v2Results E roots now b ctx, r.sigValid = true ∧ r.digestValid = true ∧ r.error = none := by
    intro r hr
    obtain ⟨s, hs, i, rfl⟩ := mem_v2Results hr
    rw [hb] at hs
    have : s = g := by simpa using hs
    subst this
    exact h i
  have hne : v2Results E roots now b ctx ≠ [] := by rw [ne_eq, v2Results_eq_nil, hb]; simp
  rw [verifyV2_eq]
  rcases concludeVerify_cases (v2Results E roots now b ctx) with ⟨h0, _⟩ | ⟨_, ⟨r, hr, he⟩, _⟩ | ⟨_, _, he⟩
  · exact absurd h0 hne
  · exact absurd (hall r hr).2.2 he
  · rw [he]
    obtain ⟨f1, f2, _⟩ := fromSigners_flags hne
    refine ⟨_, rfl, ?_, ?_⟩
    · rw [f1]; simpa using fun r hr => (hall r hr).1
    · rw [f2]; simpa using fun r hr => (hall r hr).2.1

theorem verifySourceStamp_single {E : Env} {roots : Roots} {now : Nat} {b : SigningBlock} {ctx : Option DigestCtx}
    {g : StampBlock} (hb : stamps b = [g])
    (h : (verifyStamp E roots now ctx g).1.sigValid = true ∧ (verifyStamp E roots now ctx g).1.digestValid = true ∧
      (verifyStamp E roots now ctx g).1.error = none) :
    ∃ r, verifySourceStamp E roots now b ctx = .ok r ∧ r.sigValid = true ∧ r.digestValid = true := by
  unfold verifySourceStamp
  rw [stampLoop_eq, hb]
  dsimp only
  rcases concludeVerify_cases [(verifyStamp E roots now ctx g).1] with ⟨h0, _⟩ | ⟨_, ⟨r, hr, he⟩, _⟩ | ⟨hne, _, he⟩
  · cases h0
  · have : r = (verifyStamp E roots now ctx g).1 := by simpa using hr
    subst this
    exact absurd h.2.2 he
  · rw [he]
    obtain ⟨f1, f2, _⟩ := fromSigners_flags hne
    refine ⟨_, rfl, ?_, ?_⟩
    · rw [f1]; simpa using h.1
    · rw [f2]; simpa using h.2.1

/-! ### C25 -/

/-- The inputs C25 is proved for: an archive without a signing block and without the magic in its entries, or a signed
archive, whatever its entries contain. -/
def SignInput (a : Archive) (file : Bytes) : Prop :=
  (file = a.unsigned ∧ a.NoMagic) ∨
    ∃ p' b0, Built p' b0 ∧ Signable a b0.toU8.length ∧ file = a.signed b0.toU8

/-- The digest of the contents of an archive: entries, directory, and the end record pointing right behind the entries. -/
def contentDigest (E : Env) (a : Archive) (al : Algo) : Bytes :=
  treeDigest (al.hash E) [a.body, a.cd, wireEocd a.tail a.body.length]

theorem signInput_split {p : Profile} {a : Archive} {file : Bytes} (hs : Signable a 0) (h : SignInput a file) :
    ∃ block off, Split p file a.body block a.cd (wireEocd a.tail off) := by
  rcases h with ⟨rfl, hno⟩ | ⟨p', b0, hb0, hs0, rfl⟩
  · exact ⟨_, _, split_unsigned p hs.comment hs.cleanOld (by have := hs.size; omega) hno⟩
  · exact ⟨_, _, split_signed p hb0.wf hs0.comment hs0.cleanNew hs0.size⟩

theorem signInput_write {p : Profile} {a : Archive} {file : Bytes} {b : SigningBlock} (hs : Signable a b.toU8.length)
    (h : SignInput a file) :
    (Module.new file).signableWrite p file b = (a.signed b.toU8, .ok ()) := by
  rcases h with ⟨rfl, hno⟩ | ⟨p', b0, hb0, hs0, rfl⟩
  · exact C24_sign_unsigned_partial hs hno
  · exact C24_sign_signed hb0 hs0 hs

theorem built_length {p : Profile} {b : SigningBlock} (h : Built p b) : b.toU8.length ≤ 16392 := by
  have h1 := h.wf.toU8_length
  have h2 := h.wf.limit
  simp only [maxBlockSize] at h2
  omega

/-- C25: what the sign command does: it signs the content digests for the required algorithms, and if that succeeds it
writes the archive with the resulting block right before the directory. -/
theorem C25_sign_command {E : Env} {p : Profile} {clock : Option UInt64} {m : ModuleSigner} {a : Archive} {file : Bytes}
    (hin : SignInput a file) (hs : ∀ n, n ≤ 16392 → Signable a n)
    (hk : ∀ c, m.v2 = some c ∨ m.stamp = some c → Known c.algo) :
    ∃ r, m.sign E p clock (Digests.new (m.requiredAlgorithms.map fun al => Digest.new al (contentDigest E a al))) = r ∧
      cliSignModule E p clock m false file = match r with
        | .ok b => (some (a.signed b.toU8), .ok ())
        | .err e => (none, .err e)
        | .panic => (none, .panic) := by
  refine ⟨_, rfl, ?_⟩
  obtain ⟨block, off, hsp⟩ := signInput_split (p := p) (hs 0 (by omega)) hin
  have hd : ∀ al, (Module.new file).digest E p file al = .ok (contentDigest E a al) := by
    intro al
    rw [hsp.digest E al, patchOffset_wireEocd]; rfl
  have hr : ∃ rs, (Module.new file).digestRegions p file = .ok rs := by
    have hl : file.length = a.body.length + block.length + a.cd.length + (wireEocd a.tail off).length := by
      rw [hsp.file_eq]; simp only [List.length_append]
    unfold Module.digestRegions
    simp only [hsp.offsets, Res.ok_bind, FileOffsets.new]
    rw [usub_of_le (by omega), usub_of_le (by omega), usub_of_le (by omega)]
    exact ⟨_, rfl⟩
  obtain ⟨rs, hr⟩ := hr
  have hmap : ((m.requiredAlgorithms.map fun al => (al, contentDigest E a al)).map fun x => Digest.new x.1 x.2) =
      m.requiredAlgorithms.map fun al => Digest.new al (contentDigest E a al) := by
    rw [List.map_map]; rfl
  unfold cliSignModule
  dsimp only
  simp only [hr, cliDigests_eq hd, Res.ok_bind, hmap]
  cases hx : m.sign E p clock (Digests.new (m.requiredAlgorithms.map fun al => Digest.new al (contentDigest E a al))) with
  | err e => rfl
  | panic => rfl
  | ok b =>
    have hb : Built p b := by
      refine sign_built (E := E) (clock := clock) (m := m) (pairs := m.requiredAlgorithms.map fun al => (al, contentDigest E a al)) ?_ ?_
      · intro x hx
        obtain ⟨al, hal, rfl⟩ := List.mem_map.mp hx
        rcases ((C37_required_algorithms m).2 al).mp hal with ⟨c, hc, rfl⟩ | ⟨c, hc, rfl⟩
        · rcases hk c (.inl hc) with h | h <;> simp [AlgoOk, h]
        · rcases hk c (.inr hc) with h | h <;> simp [AlgoOk, h]
      · unfold pairDigests; rw [hmap]; exact hx
    have hw := signInput_write (p := p) (hs _ (built_length hb)) hin
    simp [hw]

/-- C25, for every input as in `SignInput` (missing: archives with the magic in their entries, for which it fails, see
`C25_nested_block`): if the sign command succeeds with sound signers, verifying what it wrote reports for every configured signer
a valid signature and a valid digest, and "no signature" where none is configured, with every trust store at every
time; and if the configured certificates are trusted, the verdict is valid. -/
theorem C25_sign_then_verify_partial {E : Env} {p : Profile} {clock : Option UInt64} {m : ModuleSigner} {a : Archive}
    {file out : Bytes} (hin : SignInput a file) (hs : ∀ n, n ≤ 16392 → Signable a n)
    (hsound : ∀ c, m.v2 = some c ∨ m.stamp = some c → Sound E c)
    (h : cliSignModule E p clock m false file = (some out, .ok ())) :
    (∀ roots now, ∃ v, (Module.new out).verifyWithRoots E p out roots now = .ok v ∧
      (m.v2 ≠ none → ∃ r, v.v2 = .ok r ∧ r.sigValid = true ∧ r.digestValid = true) ∧
      (m.v2 = none → v.v2 = .err .noSignature) ∧
      (m.stamp ≠ none → ∃ r, v.stamp = .ok r ∧ r.sigValid = true ∧ r.digestValid = true) ∧
      (m.stamp = none → v.stamp = .err .noSignature)) ∧
    (∀ added now, (∀ c, m.v2 = some c → Trusted E added now c.cert c.chain) →
      (∀ c, m.stamp = some c → Trusted E added now c.cert []) →
      ∃ v, (Module.new out).verifyWithRoots E p out (storeOf E added) now = .ok v ∧ v.isValid = true) ∧
    (∀ builtin root cert now, E.pemParse (Option.getD root builtin) = some ("CERTIFICATE", cert) → m.v2 ≠ none →
      (∀ c, m.v2 = some c → Trusted E [cert] now c.cert c.chain) →
      (∀ c, m.stamp = some c → Trusted E [cert] now c.cert []) →
      cliVerify E p builtin root now out = .ok ()) := by
  have hk : ∀ c, m.v2 = some c ∨ m.stamp = some c → Known c.algo := fun c hc => known_of_matching (hsound c hc).matching
  obtain ⟨r, hr, hc⟩ := C25_sign_command (E := E) (p := p) (clock := clock) hin hs hk
  rw [h] at hc
  cases r with
  | err e => cases hc
  | panic => cases hc
  | ok b =>
  dsimp only at hc
  injection hc with hc _
  injection hc with hc
  subst hc
  have hmap : ((m.requiredAlgorithms.map fun al => (al, contentDigest E a al)).map fun x => Digest.new x.1 x.2) =
      m.requiredAlgorithms.map fun al => Digest.new al (contentDigest E a al) := by
    rw [List.map_map]; rfl
  have hsign : m.sign E p clock (pairDigests (m.requiredAlgorithms.map fun al => (al, contentDigest E a al))) = .ok b := by
    unfold pairDigests; rw [hmap]; exact hr
  have hb : Built p b := by
    refine sign_built ?_ hsign
    intro x hx
    obtain ⟨al, hal, rfl⟩ := List.mem_map.mp hx
    rcases ((C37_required_algorithms m).2 al).mp hal with ⟨c, hc, rfl⟩ | ⟨c, hc, rfl⟩
    · rcases hk c (.inl hc) with h | h <;> simp [AlgoOk, h]
    · rcases hk c (.inr hc) with h | h <;> simp [AlgoOk, h]
  have hsb := hs _ (built_length hb)
  have hsp := split_signed p hb.wf hsb.comment hsb.cleanNew hsb.size
  have hdig : ∀ E al, (Module.new (a.signed b.toU8)).digest E p (a.signed b.toU8) al =
      .ok (treeDigest (al.hash E) [a.body, a.cd, wireEocd a.tail a.body.length]) := by
    intro E al
    rw [hsp.digest E al, patchOffset_wireEocd]
  have hget := getSigningBlock_signed p hb.wf hsb.comment hsb.cleanNew hsb.size
  generalize hb' : ({ b with fileStart := a.body.length, fileEnd := a.body.length + b.toU8.length } : SigningBlock) = b' at hget
  have hcont : b'.content = b.content := by rw [← hb']
  obtain ⟨hv2, hst⟩ := signers_of_shape hsign
  have hv2' : v2Signers b' = v2Signers b := by unfold v2Signers; rw [hcont]
  have hst' : stamps b' = stamps b := by unfold stamps; rw [hcont]
  have hcan := storedAlgos_canon (getSigningBlock_canon hget)
  obtain ⟨c, hf, _⟩ := fillCtx_parts (E := E) hdig (storedAlgos b') DigestCtx.new
  have hcg := fillCtx_get hdig hcan hf
  have hmem : ∀ cf : SignerConfig, (m.v2 = some cf ∨ m.stamp = some cf) → cf.algo ∈ m.requiredAlgorithms := by
    intro cf hcf
    rw [(C37_required_algorithms m).2]
    rcases hcf with h | h
    · exact .inl ⟨cf, h, rfl⟩
    · exact .inr ⟨cf, h, rfl⟩
  -- the facts about the V2 signer and the stamp for any table of digests with the right entry
  have fv2 : ∀ cf g, m.v2 = some cf → v2Signers b = [g] →
      MadeV2 E cf (pairDigests (m.requiredAlgorithms.map fun al => (al, contentDigest E a al))) g →
      c.get cf.algo.toU32 = some (contentDigest E a cf.algo) := by
    intro cf g hcf hg hmade
    refine hcg _ (mem_storedAlgos_v2 (s := g) (d := Digest.new cf.algo (contentDigest E a cf.algo)) (by rw [hv2', hg]; simp) ?_)
    obtain ⟨pre, post, he, _⟩ := firstFor_map (D := contentDigest E a) (hmem cf (.inl hcf))
    rw [hmade.digests, he]; simp
  have fst : ∀ cf g, m.stamp = some cf → stamps b = [g] →
      MadeStamp E cf m.timestamp clock (pairDigests (m.requiredAlgorithms.map fun al => (al, contentDigest E a al))) g →
      c.get cf.algo.toU32 = some (contentDigest E a cf.algo) := by
    intro cf g hcf hg hmade
    refine hcg _ (mem_storedAlgos_stamp (s := g) (d := Digest.new cf.algo (contentDigest E a cf.algo)) (by rw [hst', hg]; simp) ?_)
    obtain ⟨pre, post, he, _⟩ := firstFor_map (D := contentDigest E a) (hmem cf (.inr hcf))
    rw [hmade.digests, he]; simp
  have goodV2 : ∀ added now (f : UInt32 → Option Bytes), (∀ al, Known al → f al.toU32 = some (contentDigest E a al)) →
      (∀ c, m.v2 = some c → Trusted E added now c.cert c.chain) → ∀ s ∈ v2Signers b, GoodV2 E added now f s := by
    intro added now f hf ht s hs
    rcases hv2 with ⟨_, h0⟩ | ⟨cf, g, hcf, hg, hmade⟩
    · rw [h0] at hs; cases hs
    · rw [hg] at hs
      have : s = g := by simpa using hs
      subst this
      obtain ⟨k1, k2, k3⟩ := v2SigOk_made (hsound cf (.inl hcf)) hmade (hmem cf (.inl hcf)) (hf _ (hk cf (.inl hcf)))
      exact ⟨k1, fun g hg => (k2 g hg).1, fun g hg => (k2 g hg).2, _, _, hmade.certs, k3, ht cf hcf⟩
  have goodSt : ∀ added now (f : UInt32 → Option Bytes), (∀ al, Known al → f al.toU32 = some (contentDigest E a al)) →
      (∀ c, m.stamp = some c → Trusted E added now c.cert []) → ∀ s rest, stamps b = s :: rest → GoodStamp E added now f s := by
    intro added now f hf ht s rest hs
    rcases hst with ⟨_, h0⟩ | ⟨cf, g, hcf, hg, hmade⟩
    · rw [h0] at hs; cases hs
    · rw [hg] at hs
      cases hs
      obtain ⟨k1, k2, k3⟩ := stampSigOk_made (hsound cf (.inr hcf)) hmade (hmem cf (.inr hcf)) (hf _ (hk cf (.inr hcf)))
      exact ⟨k1, fun g hg => (k2 g hg).1, fun g hg => (k2 g hg).2, _, _, hmade.certs, k3, ht cf hcf⟩
  refine ⟨fun roots now => ⟨verifyAll E roots now b' (some c), by rw [verifyWithRoots_eq, hget]; dsimp only; rw [hf]; rfl, ?_⟩, ?_, ?_⟩
  · refine ⟨fun hne => ?_, fun h0 => ?_, fun hne => ?_, fun h0 => ?_⟩
    · rcases hv2 with ⟨h0, _⟩ | ⟨cf, g, hcf, hg, hmade⟩
      · exact absurd h0 hne
      · obtain ⟨k1, k2, k3⟩ := v2SigOk_made (hsound cf (.inl hcf)) hmade (hmem cf (.inl hcf)) (fv2 cf g hcf hg hmade)
        exact verifyV2_single (by rw [hv2', hg]) fun i => verifySigner_flags k1 k2 hmade.certs k3
    · rcases hv2 with ⟨_, h1⟩ | ⟨cf, _, hcf, _⟩
      · exact verifyV2_noSignature.mpr (by rw [hv2', h1])
      · rw [h0] at hcf; cases hcf
    · rcases hst with ⟨h0, _⟩ | ⟨cf, g, hcf, hg, hmade⟩
      · exact absurd h0 hne
      · obtain ⟨k1, k2, k3⟩ := stampSigOk_made (hsound cf (.inr hcf)) hmade (hmem cf (.inr hcf)) (fst cf g hcf hg hmade)
        exact verifySourceStamp_single (by rw [hst', hg]) (verifyStamp_flags k1 k2 hmade.certs k3)
    · rcases hst with ⟨_, h1⟩ | ⟨cf, _, hcf, _⟩
      · exact verifySourceStamp_noSignature.mpr (by rw [hst', h1])
      · rw [h0] at hcf; cases hcf
  · intro added now t1 t2
    refine ⟨verifyAll E (storeOf E added) now b' (some c), by rw [verifyWithRoots_eq, hget]; dsimp only; rw [hf]; rfl, ?_⟩
    rw [isValid_iff, hv2', hst']
    -- only the algorithms that were signed are in the context, so go through the full table
    let tbl := table (contentDigest E a .p256) (contentDigest E a .p384)
    have ht : ∀ al, Known al → tbl al.toU32 = some (contentDigest E a al) := fun al h => table_known h
    refine ⟨fun s hs => ?_, fun s rest hs => ?_⟩
    · refine (goodV2 added now tbl ht t1 s hs).congr fun d hd hkn => ?_
      rw [ht _ hkn, hcg _ (mem_storedAlgos_v2 (by rw [hv2']; exact hs) hd)]; rfl
    · refine (goodSt added now tbl ht t2 s rest hs).congr fun d hd hkn => ?_
      rw [ht _ hkn, hcg _ (mem_storedAlgos_stamp (by rw [hst', hs]; simp) hd)]; rfl
  · intro builtin root cert now hp hne t1 t2
    rw [C35_verify_command]
    refine ⟨b', cert, _, _, hget, hp, hdig _ _, hdig _ _, ?_, ?_, ?_⟩
    · rw [hv2']
      rcases hv2 with ⟨h0, _⟩ | ⟨cf, g, hcf, hg, hmade⟩
      · exact absurd h0 hne
      · rw [hg]; simp
    · rw [hv2']
      exact goodV2 [cert] now _ (fun al h => table_known h) t1
    · rw [hst']
      exact goodSt [cert] now _ (fun al h => table_known h) t2

theorem toyConfig_sound : Sound toyEnv toyConfig :=
  ⟨by decide, [7], rfl, rfl, fun msg sig h => by cases h; exact .inl ⟨rfl, by simp [toyEnv, toyConfig, Algo.hash]⟩⟩

theorem toyStampConfig_sound : Sound toyEnv toyStampConfig :=
  ⟨by decide, [5], rfl, rfl, fun msg sig h => by cases h; exact .inr ⟨rfl, by simp [toyEnv, toyStampConfig, Algo.hash]⟩⟩

/-- The directory entry of `sampleArchive` without its comment. -/
def plainArchive : Archive := ⟨sampleArchive.body, sampleArchive.cd, { sampleArchive.tail with comment := [] }⟩

theorem plainArchive_signable : ∀ n, n ≤ 16392 → Signable plainArchive n := fun n hn =>
  signable_no_comment rfl (by have : plainArchive.body.length = 30 := by decide
                              omega)

theorem plainArchive_input : SignInput plainArchive plainArchive.unsigned :=
  .inl ⟨rfl, noMagic_of_bounded (by decide +kernel) (by decide +kernel)⟩

/-- Signing and verifying with the toy environment, time stamp and padding included. -/
example : ∃ out, cliSignModule toyEnv .dev (some 1700000000) (.withSourceStamp toyConfig toyStampConfig) false
    plainArchive.unsigned = (some out, .ok ()) ∧
    ∃ v, (Module.new out).verifyWithRoots toyEnv .dev out (storeOf toyEnv [[7], [5]]) 0 = .ok v ∧ v.isValid = true := by
  have hsound : ∀ c, (ModuleSigner.withSourceStamp toyConfig toyStampConfig).v2 = some c ∨
      (ModuleSigner.withSourceStamp toyConfig toyStampConfig).stamp = some c → Sound toyEnv c := by
    rintro c (h | h) <;> cases h
    · exact toyConfig_sound
    · exact toyStampConfig_sound
  obtain ⟨r, hr, hc⟩ := C25_sign_command (E := toyEnv) (p := .dev) (clock := some 1700000000)
    (m := .withSourceStamp toyConfig toyStampConfig) plainArchive_input plainArchive_signable
    (fun c hc => known_of_matching (hsound c hc).matching)
  have hok : ∃ b, (ModuleSigner.withSourceStamp toyConfig toyStampConfig).sign toyEnv .dev (some 1700000000)
    (Digests.new ((ModuleSigner.withSourceStamp toyConfig toyStampConfig).requiredAlgorithms.map fun al =>
      Digest.new al (contentDigest toyEnv plainArchive al))) = .ok b := Res.exists_of_isOk (by decide +kernel)
  obtain ⟨b, hb⟩ := hok
  rw [hb] at hr
  subst hr
  refine ⟨_, hc, (C25_sign_then_verify_partial plainArchive_input plainArchive_signable hsound hc).2.1 _ _ ?_ ?_⟩
  · intro c h; cases h; exact ⟨by simp, .inl (by simp [toyConfig])⟩
  · intro c h; cases h; exact ⟨by simp, .inl (by simp [toyStampConfig])⟩

/-- C25 fails when an entry contains a signing block that is followed by further entry bytes: signing succeeds, and verifying
the result never gives a valid verdict with any roots, unless two different inputs with the same hash value can be read
off. -/
theorem C25_nested_block {E : Env} {p p' : Profile} {clock : Option UInt64} {m : ModuleSigner} {c : SignerConfig}
    {b0 : SigningBlock} (hb0 : Built p' b0) (pre mid : Bytes) (a : Archive) (hbody : a.body = pre ++ b0.toU8 ++ mid)
    (hmid : mid ≠ []) (hs : Signable a 0) (hs' : ∀ n, n ≤ 16392 → Signable { a with body := pre ++ mid } n)
    (hwin : b0.toU8.length + mid.length ≤ 2 ^ 24)
    (hlast : ∀ u, pre.length + b0.toU8.length - 16 < u → ¬ MagicAtPos a.body u)
    (hm : m.v2 = some c) (hk : ∀ c, m.v2 = some c ∨ m.stamp = some c → Known c.algo)
    (hE : FixedLength (c.algo.hash E)) {b : SigningBlock}
    (hsign : m.sign E p clock (Digests.new (m.requiredAlgorithms.map fun al => Digest.new al
        (treeDigest (al.hash E) [pre, mid ++ a.cd, wireEocd a.tail pre.length]))) = .ok b) :
    ∃ out, cliSignModule E p clock m false a.unsigned = (some out, .ok ()) ∧
      ((∃ added now v, (Module.new out).verifyWithRoots E p out (storeOf E added) now = .ok v ∧ v.isValid = true) →
        Collision (c.algo.hash E) [pre ++ mid, a.cd, wireEocd a.tail (pre ++ mid).length]
          [pre, mid ++ a.cd, wireEocd a.tail pre.length]) := by
  have hbl : a.body.length = pre.length + b0.toU8.length + mid.length := by rw [hbody]; simp only [List.length_append]
  have hsp : Split p a.unsigned pre b0.toU8 (mid ++ a.cd) (wireEocd a.tail a.body.length) :=
    ⟨by simp [Archive.unsigned, hbody], _, findEocd_unsigned hs.comment hs.cleanOld,
      by simp only [Spec.Tail.eocd, List.length_append]; omega,
      .inl ⟨_, getSigningBlock_nested (p := p) hb0.wf pre mid a hbody hs.comment hs.cleanOld hs.sizeOld hwin hlast, rfl, rfl⟩⟩
  have hd : ∀ al, (Module.new a.unsigned).digest E p a.unsigned al =
      .ok (treeDigest (al.hash E) [pre, mid ++ a.cd, wireEocd a.tail pre.length]) := by
    intro al
    rw [hsp.digest E al, patchOffset_wireEocd]
  have hr : ∃ rs, (Module.new a.unsigned).digestRegions p a.unsigned = .ok rs := by
    have hl : a.unsigned.length = pre.length + b0.toU8.length + (mid ++ a.cd).length + (wireEocd a.tail a.body.length).length := by
      rw [hsp.file_eq]; simp only [List.length_append]
    unfold Module.digestRegions
    simp only [hsp.offsets, Res.ok_bind, FileOffsets.new]
    rw [usub_of_le (by omega), usub_of_le (by omega), usub_of_le (by omega)]
    exact ⟨_, rfl⟩
  obtain ⟨rs, hr⟩ := hr
  have hmap : ((m.requiredAlgorithms.map fun al => (al, treeDigest (al.hash E) [pre, mid ++ a.cd, wireEocd a.tail pre.length])).map
      fun x => Digest.new x.1 x.2) =
      m.requiredAlgorithms.map fun al => Digest.new al (treeDigest (al.hash E) [pre, mid ++ a.cd, wireEocd a.tail pre.length]) := by
    rw [List.map_map]; rfl
  have hsign' : m.sign E p clock (pairDigests (m.requiredAlgorithms.map fun al =>
      (al, treeDigest (al.hash E) [pre, mid ++ a.cd, wireEocd a.tail pre.length]))) = .ok b := by
    unfold pairDigests; rw [hmap]; exact hsign
  have hb : Built p b := by
    refine sign_built ?_ hsign'
    intro x hx
    obtain ⟨al, hal, rfl⟩ := List.mem_map.mp hx
    rcases ((C37_required_algorithms m).2 al).mp hal with ⟨c, hc, rfl⟩ | ⟨c, hc, rfl⟩
    · rcases hk c (.inl hc) with h | h <;> simp [AlgoOk, h]
    · rcases hk c (.inr hc) with h | h <;> simp [AlgoOk, h]
  have hsb := hs' _ (built_length hb)
  have hsz := hsb.size
  have hcl := hsb.cleanOld
  simp only [List.length_append] at hsz hcl
  have hw := C24_nested_block_removed (p := p) (b := b) hb0 pre mid a hbody hs.comment hs.cleanOld hcl
    hs.sizeOld hsz hwin hlast
  have hout : pre ++ mid ++ b.toU8 ++ a.cd ++ wireEocd a.tail (pre.length + mid.length + b.toU8.length) =
      ({ a with body := pre ++ mid } : Archive).signed b.toU8 := by simp [Archive.signed]
  rw [hout] at hw
  refine ⟨({ a with body := pre ++ mid } : Archive).signed b.toU8, ?_, ?_⟩
  · unfold cliSignModule
    dsimp only
    simp only [hr, cliDigests_eq hd, Res.ok_bind, hmap, hsign]
    simp [hw]
  · rintro ⟨added, now, v, hv, hval⟩
    have hspo := split_signed p hb.wf hsb.comment hsb.cleanNew hsb.size
    have hget := getSigningBlock_signed p hb.wf hsb.comment hsb.cleanNew hsb.size
    have hdig : ∀ E al, (Module.new (({ a with body := pre ++ mid } : Archive).signed b.toU8)).digest E p
        (({ a with body := pre ++ mid } : Archive).signed b.toU8) al =
        .ok (treeDigest (al.hash E) [pre ++ mid, a.cd, wireEocd a.tail (pre ++ mid).length]) := by
      intro E al
      rw [hspo.digest E al, patchOffset_wireEocd]
    rcases (signers_of_shape hsign').1 with ⟨h0, _⟩ | ⟨cf, g, hcf, hg, hmade⟩
    · rw [hm] at h0; cases h0
    rw [hm] at hcf
    cases hcf
    rw [verifyWithRoots_eq, hget] at hv
    dsimp only at hv
    generalize hb' : ({ b with fileStart := (pre ++ mid).length, fileEnd := (pre ++ mid).length + b.toU8.length } : SigningBlock) = b'
      at hget hv
    have hg' : v2Signers b' = [g] := by rw [← hg, ← hb']; rfl
    obtain ⟨ctx, hf, hv⟩ := Res.bind_eq_ok.mp hv
    cases hv
    have hgood := (isValid_iff.mp hval).1 g (by rw [hg']; simp)
    have hcan := storedAlgos_canon (getSigningBlock_canon hget)
    have hcg := fillCtx_get hdig hcan hf
    obtain ⟨sg, h1, h2, _⟩ := hmade.sig
    obtain ⟨d, hd1, hd2⟩ := hgood.content sg (by rw [h1]; simp)
    have hmem : c.algo ∈ m.requiredAlgorithms := ((C37_required_algorithms m).2 _).mpr (.inl ⟨c, hm, rfl⟩)
    have hff := firstFor_map (D := fun al => treeDigest (al.hash E) [pre, mid ++ a.cd, wireEocd a.tail pre.length]) hmem
    rw [hmade.digests, h2] at hd1
    have hd' := find?_firstFor.mpr hd1
    rw [find?_firstFor.mpr hff] at hd'
    injection hd' with hd'
    have hst : c.algo ∈ storedAlgos b' := by
      obtain ⟨pr, po, he, _⟩ := hff
      refine mem_storedAlgos_v2 (s := g) (d := Digest.new c.algo
        (treeDigest (c.algo.hash E) [pre, mid ++ a.cd, wireEocd a.tail pre.length])) (by rw [hg']; simp) ?_
      rw [hmade.digests, he]; simp
    rw [h2, hcg _ hst, ← hd'] at hd2
    have heq : treeDigest (c.algo.hash E) [pre ++ mid, a.cd, wireEocd a.tail (pre ++ mid).length] =
        treeDigest (c.algo.hash E) [pre, mid ++ a.cd, wireEocd a.tail pre.length] := by
      injection hd2
    rcases tamper_evident hE hspo hsp (hspo.digest E c.algo) (by
        rw [hd c.algo, ← heq, patchOffset_wireEocd]) with ⟨h1, _⟩ | h1
    · have := congrArg List.length h1
      simp only [List.length_append] at this
      exact absurd (List.eq_nil_of_length_eq_zero (by omega)) hmid
    · rw [patchOffset_wireEocd, patchOffset_wireEocd] at h1
      exact h1

/-- An archive whose entry contains a signing block, without comment. -/
def nestedPlain : Archive := ⟨nestedArchive.body, nestedArchive.cd, { nestedArchive.tail with comment := [] }⟩

set_option maxRecDepth 100000 in
example : ∃ out, cliSignModule toyEnv .dev none ⟨some toyConfig, none, false, false⟩ false nestedPlain.unsigned =
    (some out, .ok ()) := by
  have hok : ∃ b, (⟨some toyConfig, none, false, false⟩ : ModuleSigner).sign toyEnv .dev none (Digests.new
      ((⟨some toyConfig, none, false, false⟩ : ModuleSigner).requiredAlgorithms.map fun al => Digest.new al
        (treeDigest (al.hash toyEnv) [[1, 2, 3], [4, 5, 6] ++ nestedPlain.cd, wireEocd nestedPlain.tail 3]))) = .ok b :=
    Res.exists_of_isOk (by decide +kernel)
  obtain ⟨b, hb⟩ := hok
  obtain ⟨out, h, _⟩ := C25_nested_block (E := toyEnv) (p := .dev) (c := toyConfig) (sampleBlock_built .dev) [1, 2, 3] [4, 5, 6]
    nestedPlain rfl (by decide)
    (signable_no_comment rfl (by decide +kernel))
    (fun n hn => signable_no_comment rfl (show 6 + n < 2 ^ 32 by omega)) (by decide +kernel) nestedArchive_last rfl
    (by rintro c (h | h) <;> cases h; exact .inl rfl) (toyHash_fixed (by decide)) hb
  exact ⟨out, h⟩

end Ksusig.Props
