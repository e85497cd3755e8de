import Verif.Props.SignVerify

/-!
# C74: what the constructors and switches of the signers do to the signed block
-/

namespace Ksusig.Props

open Ksusig Spec

/-- A switch of `ModuleSigner`. -/
inductive Setting where
  | timestamp (on : Bool)
  | padding (on : Bool)

/-- A signer after a sequence of switch calls. -/
def applySettings (m : ModuleSigner) : List Setting → ModuleSigner
  | [] => m
  | .timestamp on :: rest => applySettings (m.timestampEnabled on) rest
  | .padding on :: rest => applySettings (m.paddingEnabled on) rest

/-- The last value given to the time stamp switch, `true` if it was never called. -/
def lastTimestamp (ss : List Setting) : Bool :=
  ((ss.filterMap fun s => match s with | .timestamp on => some on | _ => none).getLast?).getD true

/-- The last value given to the padding switch, `true` if it was never called. -/
def lastPadding (ss : List Setting) : Bool :=
  ((ss.filterMap fun s => match s with | .padding on => some on | _ => none).getLast?).getD true

theorem getLast?_cons_getD {α : Type} (a b : α) (l : List α) : ((a :: l).getLast?).getD b = (l.getLast?).getD a := by
  cases l with
  | nil => rfl
  | cons x xs =>
    rw [List.getLast?_cons_cons]
    cases h : (x :: xs).getLast? with
    | none => simp at h
    | some y => rfl

theorem applySettings_eq (ss : List Setting) : ∀ m : ModuleSigner,
    applySettings m ss = ⟨m.v2, m.stamp,
      ((ss.filterMap fun s => match s with | .timestamp on => some on | _ => none).getLast?).getD m.timestamp,
      ((ss.filterMap fun s => match s with | .padding on => some on | _ => none).getLast?).getD m.padding⟩ := by
  induction ss with
  | nil => intro m; rfl
  | cons s ss ih =>
    intro m
    cases s with
    | timestamp on =>
      rw [applySettings, ih]
      simp only [List.filterMap_cons, getLast?_cons_getD, ModuleSigner.timestampEnabled]
    | padding on =>
      rw [applySettings, ih]
      simp only [List.filterMap_cons, getLast?_cons_getD, ModuleSigner.paddingEnabled]

/-- What the padding switch means for the finished block: with it the block is a multiple of 4096 bytes long, without it the block
contains nothing but signatures. -/
def PaddedAs (on : Bool) (b : SigningBlock) : Prop :=
  (on = true → b.toU8.length % 4096 = 0) ∧
  (on = false → ∀ v ∈ b.content, (∃ x, v = .v2 x) ∨ ∃ x, v = .stamp x)

theorem sign_padded {E : Env} {p : Profile} {clock : Option UInt64} {m : ModuleSigner} {pairs : List (Algo × Bytes)}
    {b : SigningBlock} (hp : ∀ x ∈ pairs, AlgoOk x.1) (h : m.sign E p clock (pairDigests pairs) = .ok b) :
    PaddedAs m.padding b := by
  have hw := (sign_built hp h).wf
  obtain ⟨v2, st, pad, hc, h1, h2, h3, h4⟩ := C37_output_shape h
  constructor
  · intro hon
    have := h4 hon
    have h2 := hw.toU8_length
    have h3 := hw.sizeStart
    omega
  · intro hoff v hv
    rw [hc] at hv
    rcases h3 with rfl | ⟨hon, _⟩
    · rw [List.append_nil, List.mem_append] at hv
      rcases hv with hv | hv
      · rcases h1 with ⟨_, rfl⟩ | ⟨_, x, _, _, rfl, _⟩
        · cases hv
        · exact .inl ⟨x, by simpa using hv⟩
      · rcases h2 with ⟨_, rfl⟩ | ⟨_, x, _, rfl, _⟩
        · cases hv
        · exact .inr ⟨x, by simpa using hv⟩
    · rw [hoff] at hon; cases hon

/-- C74: a signer made with `v2_only` for a key, certificate, algorithm and chain signs with exactly these and makes no source
stamp. The block is padded unless the last call of the padding switch turned it off; no other switch matters. -/
theorem C74_v2_only {E : Env} {p : Profile} {clock : Option UInt64} {key : PrivateKey} {cert : Bytes} {algo : Algo}
    {chain : List Bytes} {ss : List Setting} {pairs : List (Algo × Bytes)} {b : SigningBlock} (hp : ∀ x ∈ pairs, AlgoOk x.1)
    (h : (applySettings (.v2Only (.withCertChain key cert algo chain)) ss).sign E p clock (pairDigests pairs) = .ok b) :
    stamps b = [] ∧ (∃ s, v2Signers b = [s] ∧ MadeV2 E ⟨key, cert, algo, chain⟩ (pairDigests pairs) s) ∧
      PaddedAs (lastPadding ss) b := by
  have hpad := sign_padded hp h
  rw [applySettings_eq] at h hpad
  obtain ⟨h1, h2⟩ := signers_of_shape h
  refine ⟨?_, ?_, hpad⟩
  · rcases h2 with ⟨_, h2⟩ | ⟨c, g, hc, _⟩
    · exact h2
    · cases hc
  · rcases h1 with ⟨hc, _⟩ | ⟨c, g, hc, h1, h3⟩
    · cases hc
    · cases hc
      exact ⟨g, h1, h3⟩

/-- C74: a signer made with `with_source_stamp` signs with the first configuration and stamps with the second. The stamp carries
the time unless the last call of the time stamp switch turned it off. -/
theorem C74_with_source_stamp {E : Env} {p : Profile} {clock : Option UInt64} {key key' : PrivateKey} {cert cert' : Bytes}
    {algo algo' : Algo} {chain chain' : List Bytes} {ss : List Setting} {pairs : List (Algo × Bytes)} {b : SigningBlock}
    (hp : ∀ x ∈ pairs, AlgoOk x.1)
    (h : (applySettings (.withSourceStamp (.withCertChain key cert algo chain) (.withCertChain key' cert' algo' chain')) ss).sign
      E p clock (pairDigests pairs) = .ok b) :
    (∃ s, v2Signers b = [s] ∧ MadeV2 E ⟨key, cert, algo, chain⟩ (pairDigests pairs) s) ∧
    (∃ s, stamps b = [s] ∧ MadeStamp E ⟨key', cert', algo', chain'⟩ (lastTimestamp ss) clock (pairDigests pairs) s) ∧
      PaddedAs (lastPadding ss) b := by
  have hpad := sign_padded hp h
  rw [applySettings_eq] at h hpad
  obtain ⟨h1, h2⟩ := signers_of_shape h
  refine ⟨?_, ?_, hpad⟩
  · rcases h1 with ⟨hc, _⟩ | ⟨c, g, hc, h1, h3⟩
    · cases hc
    · cases hc
      exact ⟨g, h1, h3⟩
  · rcases h2 with ⟨hc, _⟩ | ⟨c, g, hc, h1, h3⟩
    · cases hc
    · cases hc
      exact ⟨g, h1, h3⟩

/-- C74: a signer made with `stamp_only` makes a source stamp with the given configuration and no V2 signature. -/
theorem C74_stamp_only {E : Env} {p : Profile} {clock : Option UInt64} {key : PrivateKey} {cert : Bytes} {algo : Algo}
    {chain : List Bytes} {ss : List Setting} {pairs : List (Algo × Bytes)} {b : SigningBlock} (hp : ∀ x ∈ pairs, AlgoOk x.1)
    (h : (applySettings (.stampOnly (.withCertChain key cert algo chain)) ss).sign E p clock (pairDigests pairs) = .ok b) :
    v2Signers b = [] ∧
    (∃ s, stamps b = [s] ∧ MadeStamp E ⟨key, cert, algo, chain⟩ (lastTimestamp ss) clock (pairDigests pairs) s) ∧
      PaddedAs (lastPadding ss) b := by
  have hpad := sign_padded hp h
  rw [applySettings_eq] at h hpad
  obtain ⟨h1, h2⟩ := signers_of_shape h
  refine ⟨?_, ?_, hpad⟩
  · rcases h1 with ⟨_, h2⟩ | ⟨c, g, hc, _⟩
    · exact h2
    · cases hc
  · rcases h2 with ⟨hc, _⟩ | ⟨c, g, hc, h1, h3⟩
    · cases hc
    · cases hc
      exact ⟨g, h1, h3⟩

/-- C74: configurations made with `new` sign with the given key, certificate and algorithm and store no further certificates. -/
theorem C74_new_configurations {E : Env} {p : Profile} {clock : Option UInt64} {key key' : PrivateKey} {cert cert' : Bytes}
    {algo algo' : Algo} {ss : List Setting} {pairs : List (Algo × Bytes)} {b : SigningBlock} (hp : ∀ x ∈ pairs, AlgoOk x.1)
    (h : (applySettings (.withSourceStamp (.new key cert algo) (.new key' cert' algo')) ss).sign E p clock (pairDigests pairs) =
      .ok b) :
    (∃ s g, v2Signers b = [s] ∧ s.signedData.certs.data.map (·.cert) = [cert] ∧ s.sigs.data = [g] ∧ g.algo = algo ∧
      algo.sign E key (s.signedData.toU8.drop 4) = .ok g.signature) ∧
    (∃ s g, stamps b = [s] ∧ s.signedData.certs.data.map (·.cert) = [cert'] ∧ s.sigs.data = [g] ∧ g.algo = algo' ∧
      algo'.sign E key' (s.signedData.toU8.drop 4) = .ok g.signature) := by
  obtain ⟨⟨s, h1, h2⟩, ⟨t, h3, h4⟩, -⟩ := C74_with_source_stamp (chain := []) (chain' := []) hp h
  obtain ⟨g, g1, g2, g3⟩ := h2.sig
  obtain ⟨g', g1', g2', g3'⟩ := h4.sig
  exact ⟨⟨s, g, h1, h2.certs, g1, g2, g3⟩, ⟨t, g', h3, h4.certs, g1', g2', g3'⟩⟩

/-- C74: the builder of stamp signers: the time is included unless the last call of its switch turned it off. -/
theorem C74_stamp_builder {E : Env} {clock : Option UInt64} {key : PrivateKey} {cert : Bytes} {algo : Algo} {ss : List Bool}
    {ds : Digests} {s : SourceStamp}
    (h : stampSign' E (ss.foldl StampConfig.timestampEnabled (.build key cert algo)) clock ds = .ok s) :
    MadeStamp E ⟨key, cert, algo, []⟩ ((ss.getLast?).getD true) clock ds s.block := by
  have key' : ∀ (ss : List Bool) (c : StampConfig), ss.foldl StampConfig.timestampEnabled c =
      ⟨c.key, c.cert, c.algo, (ss.getLast?).getD c.timestamp⟩ := by
    intro ss
    induction ss with
    | nil => intro c; rfl
    | cons x xs ih =>
      intro c
      rw [List.foldl_cons, ih, getLast?_cons_getD]
      rfl
  rw [key'] at h
  have := (C39_stamp_signers_agree (E := E) ⟨key, cert, algo, []⟩ ((ss.getLast?).getD true) clock ds []).1
  rw [show (⟨(StampConfig.build key cert algo).key, (StampConfig.build key cert algo).cert, (StampConfig.build key cert algo).algo,
    (ss.getLast?).getD (StampConfig.build key cert algo).timestamp⟩ : StampConfig) =
      ⟨key, cert, algo, (ss.getLast?).getD true⟩ from rfl] at h
  exact (stampSign_made (this.symm.trans h)).1

example : ∃ b, (applySettings (.withSourceStamp (.withCertChain (.p256 [7]) [7] .p256 [[8]]) (.new (.p384 [5]) [5] .p384))
    [.padding true, .timestamp false, .padding false]).sign toyEnv .dev none (pairDigests [(.p256, [1]), (.p384, [2])]) = .ok b := by
  have : ((applySettings (.withSourceStamp (.withCertChain (.p256 [7]) [7] .p256 [[8]]) (.new (.p384 [5]) [5] .p384))
    [.padding true, .timestamp false, .padding false]).sign toyEnv .dev none (pairDigests [(.p256, [1]), (.p384, [2])])).isOk = true := by
    decide +kernel
  exact Res.exists_of_isOk this

example : ∃ b, (applySettings (.v2Only (.new (.p256 [7]) [7] .p256)) [.timestamp false]).sign toyEnv .dev none
    (pairDigests [(.p256, [1])]) = .ok b := by
  have : ((applySettings (.v2Only (.new (.p256 [7]) [7] .p256)) [.timestamp false]).sign toyEnv .dev none
    (pairDigests [(.p256, [1])])).isOk = true := by decide +kernel
  exact Res.exists_of_isOk this

end Ksusig.Props
