import Verif.Proofs.Signer
import Verif.SpecSign
import Verif.Props.Parse
import Verif.Props.Sign
import Verif.Props.Verify

/-! Property theorems C37–C39: the signers. -/

namespace Ksusig.Props

open Ksusig Ksusig.Spec

/-- A toy signer configuration, used only in examples. -/
def toyConfig : SignerConfig := ⟨.p256 [7], [7], .p256, [[8], [9]]⟩

/-- Another one, for stamps. -/
def toyStampConfig : SignerConfig := ⟨.p384 [5], [5], .p384, []⟩

/-! ### C37 -/

/-- One V2 signer made with `c` for `ds`: it stores exactly these digests and the leaf followed by the chain, no attributes,
and one signature by the configured algorithm, made with the configured key over its own signed data. -/
structure MadeV2 (E : Env) (c : SignerConfig) (ds : Digests) (s : SignerV2) : Prop where
  digests : s.signedData.digests = ds
  certs : s.signedData.certs.data.map (·.cert) = c.cert :: c.chain
  attrs : s.signedData.attrs.data = []
  key : c.key.publicKeyDer E = .ok s.pubKey.data
  sig : ∃ g, s.sigs.data = [g] ∧ g.algo = c.algo ∧
    c.algo.sign E c.key (s.signedData.toU8.drop 4) = .ok g.signature

/-- The same for a stamp: only the leaf certificate, and the time as the only attribute if time stamps are on. -/
structure MadeStamp (E : Env) (c : SignerConfig) (timestamp : Bool) (clock : Option UInt64) (ds : Digests) (s : StampBlock) :
    Prop where
  digests : s.signedData.digests = ds
  certs : s.signedData.certs.data.map (·.cert) = [c.cert]
  attrs : (timestamp = false ∧ s.signedData.attrs.data = []) ∨
    (timestamp = true ∧ ∃ t, clock = some t ∧ s.signedData.attrs.data = [⟨12, 0xe43c5946, leBytes 8 t.toNat⟩])
  key : c.key.publicKeyDer E = .ok s.pubKey.data
  sig : ∃ g, s.sigs.data = [g] ∧ g.algo = c.algo ∧
    c.algo.sign E c.key (s.signedData.toU8.drop 4) = .ok g.signature

theorem v2Sign_made {E : Env} {c : SignerConfig} {ds : Digests} {s : SchemeV2} (h : v2Sign E c ds = .ok s) :
    ∃ g, s.signers.data = [g] ∧ MadeV2 E c ds g ∧ s.id = 0x7109871a := by
  obtain ⟨sig, pk, h1, h2, rfl⟩ := v2Sign_ok.mp h
  exact ⟨_, rfl, ⟨rfl, certs_new_data c, rfl, h2, _, rfl, rfl, h1⟩, rfl⟩

theorem stampSign_made {E : Env} {c : SignerConfig} {ts : Bool} {clock : Option UInt64} {ds : Digests} {s : SourceStamp}
    (h : stampSign E c ts clock ds = .ok s) : MadeStamp E c ts clock ds s.block ∧ s.id = 0x6dff800d := by
  obtain ⟨attrs, sig, pk, h0, h1, h2, rfl⟩ := stampSign_ok.mp h
  refine ⟨⟨rfl, rfl, ?_, h2, _, rfl, rfl, h1⟩, rfl⟩
  rcases stampAttrs_ok h0 with ⟨ht, rfl⟩ | ⟨t, ht, hc, rfl⟩
  · exact .inl ⟨ht, rfl⟩
  · exact .inr ⟨ht, t, hc, rfl⟩

/-- C37: what `ModuleSigner::sign` returns is, in this order, a V2 block with one signer iff a V2 configuration is set, a
source stamp iff a stamp configuration is set, and at most one padding block of zeros, only if padding is on. -/
theorem C37_output_shape {E : Env} {p : Profile} {clock : Option UInt64} {m : ModuleSigner} {ds : Digests}
    {b : SigningBlock} (h : m.sign E p clock ds = .ok b) :
    ∃ v2 st pad, b.content = v2 ++ st ++ pad ∧
      (m.v2 = none ∧ v2 = [] ∨ ∃ c x g, m.v2 = some c ∧ v2 = [.v2 x] ∧ x.id = 0x7109871a ∧ x.signers.data = [g] ∧
        MadeV2 E c ds g) ∧
      (m.stamp = none ∧ st = [] ∨ ∃ c x, m.stamp = some c ∧ st = [.stamp x] ∧ x.id = 0x6dff800d ∧
        MadeStamp E c m.timestamp clock ds x.block) ∧
      (pad = [] ∨ m.padding = true ∧ ∃ n, pad = [.raw ⟨4 + n, 0x42726577, List.replicate n 0⟩]) ∧
      (m.padding = true → (contentSum b.content + 32) % 4096 = 0) := by
  obtain ⟨b1, b2, h1, h2, _, h3⟩ := sign_ok h
  have hal : m.padding = true → (contentSum b.content + 32) % 4096 = 0 := by
    intro hp
    unfold ModuleSigner.finish at h3
    rw [if_pos hp] at h3
    obtain ⟨_, pad, _, ha, _, rfl⟩ := SigningBlock.newWithPadding_ok h3
    exact ha
  obtain ⟨pad, hc, hpad⟩ := finish_ok h3
  refine ⟨b1, b2, pad, hc, ?_, ?_, ?_, hal⟩
  · rcases signV2Part_ok h1 with h | ⟨c, s, hm, hs, rfl⟩
    · exact .inl h
    · obtain ⟨g, h4, h5, h6⟩ := v2Sign_made hs
      exact .inr ⟨c, s, g, hm, rfl, h6, h4, h5⟩
  · rcases signStampPart_ok h2 with h | ⟨c, s, hm, hs, rfl⟩
    · exact .inl h
    · exact .inr ⟨c, s, hm, rfl, (stampSign_made hs).2, (stampSign_made hs).1⟩
  · rcases hpad with h | ⟨h, n, rfl⟩
    · exact .inl h
    · exact .inr ⟨h, n, by simp [padBlock, RawData.new, paddingBlockId]⟩

/-- C37: `required_algorithms` has no duplicates and contains exactly the configured algorithms. -/
theorem C37_required_algorithms (m : ModuleSigner) :
    m.requiredAlgorithms.Nodup ∧
      ∀ a, a ∈ m.requiredAlgorithms ↔ (∃ c, m.v2 = some c ∧ c.algo = a) ∨ (∃ c, m.stamp = some c ∧ c.algo = a) := by
  obtain ⟨v2, st, t, pd⟩ := m
  unfold ModuleSigner.requiredAlgorithms
  cases v2 with
  | none => cases st <;> simp [eq_comm]
  | some c =>
    cases st with
    | none => simp [eq_comm]
    | some c' =>
      by_cases h : c'.algo = c.algo
      · simp [h, eq_comm]
      · have h' : ¬ c.algo = c'.algo := fun e => h e.symm
        simp [h, h', eq_comm]

/-- C37: with no configuration signing fails. -/
theorem C37_no_configuration {E : Env} {p : Profile} {clock : Option UInt64} {m : ModuleSigner} {ds : Digests}
    (h1 : m.v2 = none) (h2 : m.stamp = none) : ∃ e, m.sign E p clock ds = .err e := by
  refine ⟨.noSigner, ?_⟩
  unfold ModuleSigner.sign ModuleSigner.signV2Part ModuleSigner.signStampPart
  rw [h1, h2]
  rfl

/-- C37: signing gets as far as assembling the block whenever there is a configuration, all configured keys match their
algorithms and have an encodable public key, and the clock is after the epoch (or time stamps are off); when assembling
succeeds is C03 and C11. -/
theorem C37_signing_succeeds {E : Env} {p : Profile} {clock : Option UInt64} {m : ModuleSigner} {ds : Digests}
    (hne : m.v2 ≠ none ∨ m.stamp ≠ none)
    (hv : ∀ c, m.v2 = some c ∨ m.stamp = some c → Matching c.algo c.key ∧ ∃ pk, c.key.publicKeyDer E = .ok pk)
    (hclock : m.timestamp = true → clock ≠ none) :
    ∃ blocks, blocks ≠ [] ∧ m.sign E p clock ds =
      if m.padding then SigningBlock.newWithPadding p blocks else SigningBlock.new blocks := by
  have hsign : ∀ c, m.v2 = some c ∨ m.stamp = some c → ∀ d, ∃ sig, c.algo.sign E c.key d = .ok sig := by
    intro c hc d
    have := (hv c hc).1
    unfold Matching at this
    unfold Algo.sign
    cases ha : c.algo <;> cases hk : c.key <;> simp_all
  have h1 : ∃ b1, m.signV2Part E ds = .ok b1 ∧ (m.v2 ≠ none → b1 ≠ []) := by
    unfold ModuleSigner.signV2Part
    cases h : m.v2 with
    | none => exact ⟨[], rfl, fun h => absurd rfl h⟩
    | some c =>
      obtain ⟨sig, hs⟩ := hsign c (.inl h) ((v2SignedData c ds).toU8.drop 4)
      obtain ⟨pk, hpk⟩ := (hv c (.inl h)).2
      have hk := v2Sign_ok.mpr ⟨sig, pk, hs, hpk, rfl⟩
      dsimp only
      rw [hk]
      exact ⟨_, rfl, fun _ => List.cons_ne_nil _ _⟩
  have h2 : ∃ b2, m.signStampPart E clock ds = .ok b2 ∧ (m.stamp ≠ none → b2 ≠ []) := by
    unfold ModuleSigner.signStampPart
    cases h : m.stamp with
    | none => exact ⟨[], rfl, fun h => absurd rfl h⟩
    | some c =>
      have hattr : ∃ attrs, stampAttrs m.timestamp clock = .ok attrs := by
        unfold stampAttrs
        cases ht : m.timestamp with
        | false => exact ⟨_, rfl⟩
        | true =>
          cases hc : clock with
          | none => exact absurd hc (hclock ht)
          | some t => exact ⟨_, rfl⟩
      obtain ⟨attrs, hattr⟩ := hattr
      obtain ⟨sig, hs⟩ := hsign c (.inr h) ((stampSignedData c attrs ds).toU8.drop 4)
      obtain ⟨pk, hpk⟩ := (hv c (.inr h)).2
      have hk := stampSign_ok.mpr ⟨attrs, sig, pk, hattr, hs, hpk, rfl⟩
      dsimp only
      rw [hk]
      exact ⟨_, rfl, fun _ => List.cons_ne_nil _ _⟩
  obtain ⟨b1, e1, n1⟩ := h1
  obtain ⟨b2, e2, n2⟩ := h2
  have hne' : b1 ++ b2 ≠ [] := by
    rcases hne with h | h
    · simp [n1 h]
    · simp [n2 h]
  refine ⟨b1 ++ b2, hne', ?_⟩
  unfold ModuleSigner.sign
  rw [e1, e2]
  simp only [Res.ok_bind]
  rw [if_neg (by simpa using hne')]
  rfl

example : ∃ b, (ModuleSigner.withSourceStamp toyConfig toyStampConfig).sign toyEnv .dev (some 1700000000)
    (Digests.new [Digest.new .p256 [1, 2], Digest.new .p384 [3]]) = .ok b ∧ b.content.length = 3 ∧ b.toU8.length = 4096 := by
  have h : ((ModuleSigner.withSourceStamp toyConfig toyStampConfig).sign toyEnv .dev (some 1700000000)
    (Digests.new [Digest.new .p256 [1, 2], Digest.new .p384 [3]]) >>= fun b =>
      Res.ok (b.content.length, b.toU8.length)) = .ok (3, 4096) := by decide +kernel
  obtain ⟨b, h1, h2⟩ := Res.bind_eq_ok.mp h
  injection h2 with h2
  exact ⟨b, h1, by simpa using h2⟩

example : (ModuleSigner.withSourceStamp toyConfig toyStampConfig).requiredAlgorithms = [.p256, .p384] ∧
    (ModuleSigner.withSourceStamp toyConfig toyConfig).requiredAlgorithms = [.p256] := by decide

/-! ### C38 -/

/-- No V2 block of the content claims the id of the padding block. -/
def NoDisguisedV2 (b : SigningBlock) : Prop := ∀ s, Value.v2 s ∈ b.content → s.id ≠ paddingBlockId

theorem noDisguised_of_tiled {x : Bytes} {vs : List Value} (h : Tiled x vs) :
    ∀ s, Value.v2 s ∈ vs → s.id ≠ paddingBlockId := by
  induction h with
  | nil => intro s hs; cases hs
  | cons id value v rest vs hv _ ih =>
    intro s hs
    rcases List.mem_cons.mp hs with rfl | hs
    · obtain ⟨h1, h2, _⟩ := hv
      rw [h2, h1]
      decide
    · exact ih s hs

/-- Blocks that were read, or built with the public constructors, contain no disguised V2 blocks. -/
theorem noDisguised_of_read {p : Profile} {d : Bytes} {b : SigningBlock} (h : SigningBlock.fromU8 p d = .ok b) :
    NoDisguisedV2 b := by
  obtain ⟨_, _, _, _, _, ht, _⟩ := C07_from_u8 p d b h
  exact noDisguised_of_tiled ht

theorem noDisguised_of_reader {p : Profile} {d : Bytes} {n k : Nat} {b : SigningBlock}
    (h : SigningBlock.fromReader p d n k = .ok b) : NoDisguisedV2 b := by
  obtain ⟨_, _, _, _, _, ht, _⟩ := C07_from_reader p d n k b h
  exact noDisguised_of_tiled ht

theorem noDisguised_of_built {p : Profile} {b : SigningBlock} (h : Built p b) : NoDisguisedV2 b := by
  obtain ⟨cs, hok, h⟩ := h
  have key : ∃ cs' : List ContentSpec, b.content = cs'.map ContentSpec.build := by
    rcases h with h | h
    · obtain ⟨_, rfl⟩ := SigningBlock.new_eq_ok.mp h
      exact ⟨cs, rfl⟩
    · obtain ⟨cs', _, _, h⟩ := padded_spec hok h
      obtain ⟨_, rfl⟩ := SigningBlock.new_eq_ok.mp h
      exact ⟨cs', rfl⟩
  obtain ⟨cs', hc⟩ := key
  intro s hs
  rw [hc] at hs
  obtain ⟨c, _, he⟩ := List.mem_map.mp hs
  cases c with
  | v2 ss =>
    cases he
    show v2BlockId ≠ paddingBlockId
    decide
  | raw id d => cases he
  | stamp x => cases he
  | elf x => cases he

/-- C38: the new content is the old content in order without stamps and padding blocks, then one stamp made with the
configured signer, then at most one padding block; and the V2 verdict is unchanged for all roots, times and digest contexts. -/
theorem C38_add_source_stamp {E : Env} {p : Profile} {clock : Option UInt64} {m : ModuleSigner} {old b : SigningBlock}
    {ds : Digests} (hold : NoDisguisedV2 old) (h : m.addSourceStamp E p clock old ds = .ok b) :
    (∃ c x pad, m.stamp = some c ∧ MadeStamp E c m.timestamp clock ds x.block ∧
      b.content = (old.content.filter fun v => !(match v with | .stamp _ => true | _ => false) && v.id != paddingBlockId) ++
        [.stamp x] ++ pad ∧
      (pad = [] ∨ m.padding = true ∧ ∃ n, pad = [.raw ⟨4 + n, 0x42726577, List.replicate n 0⟩])) ∧
    ∀ roots now ctx, verifyV2 E roots now b ctx = verifyV2 E roots now old ctx := by
  unfold ModuleSigner.addSourceStamp at h
  obtain ⟨c, h1, h⟩ := Res.bind_eq_ok.mp h
  obtain ⟨x, h2, h⟩ := Res.bind_eq_ok.mp h
  obtain ⟨pad, hc, hpad⟩ := finish_ok h
  have hcfg : m.stamp = some c := by
    cases hm : m.stamp with
    | none => rw [hm] at h1; cases h1
    | some c' => rw [hm] at h1; cases h1; rfl
  have hkeep : old.content.filter keepForStamp =
      old.content.filter fun v => !(match v with | .stamp _ => true | _ => false) && v.id != paddingBlockId := by
    apply List.filter_congr
    intro v _
    cases v <;> rfl
  have hpad' : pad = [] ∨ m.padding = true ∧ ∃ n, pad = [.raw ⟨4 + n, 0x42726577, List.replicate n 0⟩] := by
    rcases hpad with h | ⟨h, n, rfl⟩
    · exact .inl h
    · exact .inr ⟨h, n, by simp [padBlock, RawData.new, paddingBlockId]⟩
  refine ⟨⟨c, x, pad, hcfg, (stampSign_made h2).1, by rw [hc, hkeep], hpad'⟩, fun roots now ctx => ?_⟩
  unfold verifyV2
  congr 1
  rw [hc, List.flatMap_append, List.flatMap_append]
  have hp0 : ∀ f : Value → List SignerResult, (∀ r, f (.raw r) = []) → pad.flatMap f = [] := by
    intro f hf
    rcases hpad with rfl | ⟨_, n, rfl⟩
    · rfl
    · simp [padBlock, hf]
  rw [hp0 _ (fun _ => rfl)]
  simp only [List.flatMap_cons, List.flatMap_nil, List.append_nil]
  have hall : ∀ s, Value.v2 s ∈ old.content → s.id ≠ paddingBlockId := hold
  clear hc hkeep h hpad hpad' hp0
  generalize old.content = vs at hall
  clear hold
  induction vs with
  | nil => rfl
  | cons v vs ih =>
    have ih := ih (fun s hs => hall s (List.mem_cons_of_mem _ hs))
    rw [List.filter_cons, List.flatMap_cons]
    cases v with
    | raw r =>
      split
      · rw [List.flatMap_cons, ih]
      · rw [ih]; rfl
    | stamp r => simpa [keepForStamp] using ih
    | elf r =>
      split
      · rw [List.flatMap_cons, ih]
      · rw [ih]; rfl
    | v2 s =>
      have : keepForStamp (.v2 s) = true := by
        have := hall s (by simp)
        simpa [keepForStamp, Value.id] using this
      rw [if_pos this, List.flatMap_cons, ih]

/-- C38: the hypothesis holds for every block that was read or built. -/
theorem C38_applies {p : Profile} {b : SigningBlock}
    (h : Built p b ∨ (∃ d, SigningBlock.fromU8 p d = .ok b) ∨ ∃ d n k, SigningBlock.fromReader p d n k = .ok b) :
    NoDisguisedV2 b := by
  rcases h with h | ⟨d, h⟩ | ⟨d, n, k, h⟩
  · exact noDisguised_of_built h
  · exact noDisguised_of_read h
  · exact noDisguised_of_reader h

example : ∃ b, (ModuleSigner.stampOnly toyStampConfig).addSourceStamp toyEnv .dev (some 5) sampleBlock
    (Digests.new [Digest.new .p384 [3]]) = .ok b ∧ (stamps b).length = 1 := by
  have h : ((ModuleSigner.stampOnly toyStampConfig).addSourceStamp toyEnv .dev (some 5) sampleBlock
    (Digests.new [Digest.new .p384 [3]]) >>= fun b => Res.ok (stamps b).length) = .ok 1 := by decide +kernel
  obtain ⟨b, h1, h2⟩ := Res.bind_eq_ok.mp h
  injection h2 with h2
  exact ⟨b, h1, by simpa using h2⟩

/-! ### C39 -/

/-- C39: both implementations of the stamp signer return the same for equal arguments, in every case. -/
theorem C39_stamp_signers_agree {E : Env} (c : SignerConfig) (timestamp : Bool) (clock : Option UInt64) (ds : Digests)
    (pairs : List (Algo × Bytes)) :
    stampSign' E ⟨c.key, c.cert, c.algo, timestamp⟩ clock ds = stampSign E c timestamp clock ds ∧
    stampSignWithDigests' E ⟨c.key, c.cert, c.algo, timestamp⟩ clock pairs = stampSignWithDigests E c timestamp clock pairs := by
  have key : ∀ ds, stampSign' E ⟨c.key, c.cert, c.algo, timestamp⟩ clock ds = stampSign E c timestamp clock ds := by
    intro ds
    unfold stampSign' stampSign stampAttrs
    have hr : ∀ t : UInt64, resizeZero (leBytes 8 t.toNat) 8 = leBytes 8 t.toNat := by
      intro t
      unfold resizeZero
      rw [leBytes_length, List.take_of_length_le (by rw [leBytes_length]; omega)]
      simp
    cases timestamp with
    | false => rfl
    | true =>
      cases clock with
      | none => rfl
      | some t =>
        simp only [if_true, Res.ofOption_some, Res.ok_bind, hr]
  exact ⟨key ds, key _⟩

/-- C39: the builder's default is the default of the other implementation (time stamps on). -/
theorem C39_defaults_agree {E : Env} (c : SignerConfig) (clock : Option UInt64) (ds : Digests) :
    stampSign' E (StampConfig.build c.key c.cert c.algo) clock ds =
      stampSign E c (ModuleSigner.stampOnly c).timestamp clock ds :=
  (C39_stamp_signers_agree c true clock ds []).1

example : ∃ s, stampSign' toyEnv (StampConfig.build (.p256 [7]) [7] .p256) (some 3) (Digests.new [Digest.new .p256 [1]]) =
    .ok s := Res.exists_of_isOk (by decide +kernel)

end Ksusig.Props
