import Verif.Proofs.Document
import Verif.Props.Serde
import Verif.Props.Handle

namespace Ksusig.Props

open Ksusig Spec

/-! ### C101: the documents -/

/-- C101. A document is loaded, and as which block: exactly as serde's data model of the structures says (`SpecDocument.lean`). -/
theorem C101_document (j : Json) (b : SigningBlock) : SigningBlock.ofJson j = some b ↔ DocBlock j b :=
  docBlock j b

/-- C101. What a block is stored as is a document of that block, unless it cannot be stored. -/
theorem C101_stored (b : SigningBlock) : DocBlock b.toJson b ↔ Storable b := by
  rw [← C101_document, C101_round_trip]

/-- C101. A document stands for at most one block. -/
theorem C101_one_block (j : Json) (b b' : SigningBlock) (h : DocBlock j b) (h' : DocBlock j b') : b = b' :=
  Option.some.inj (((C101_document j b).mpr h).symm.trans ((C101_document j b').mpr h'))

example : DocBlock sampleBlock.toJson sampleBlock := (C101_document _ _).mp (C101_built .dev _ (sampleBlock_built .dev))

/-- A field missing, a field twice, a sequence that is too long: not documents of a pair. -/
example : ¬ (∃ r, DocRaw (.obj [("size", .num 4), ("id", .num 5)]) r) ∧
    ¬ (∃ r, DocRaw (.obj [("size", .num 4), ("id", .num 5), ("data", .arr []), ("id", .num 5)]) r) ∧
    ¬ (∃ r, DocRaw (.arr [.num 4, .num 5, .arr [], .num 7]) r) ∧
    DocRaw (.arr [.num 4, .num 5, .arr []]) ⟨4, 5, []⟩ ∧
    DocRaw (.obj [("data", .arr [.num 255]), ("size", .num 5), ("x", .bool true), ("id", .num 5)]) ⟨5, 5, [255]⟩ := by
  refine ⟨?_, ?_, ?_, ?_, ?_⟩
  · rintro ⟨r, h⟩
    exact absurd ((docRaw _ _).mpr h) (by simp [show RawData.ofJson (.obj [("size", .num 4), ("id", .num 5)]) = none by decide +kernel])
  · rintro ⟨r, h⟩
    exact absurd ((docRaw _ _).mpr h) (by
      simp [show RawData.ofJson (.obj [("size", .num 4), ("id", .num 5), ("data", .arr []), ("id", .num 5)]) = none by decide +kernel])
  · rintro ⟨r, h⟩
    exact absurd ((docRaw _ _).mpr h) (by simp [show RawData.ofJson (.arr [.num 4, .num 5, .arr [], .num 7]) = none by decide +kernel])
  · exact (docRaw _ _).mp (by decide +kernel)
  · exact (docRaw _ _).mp (by decide +kernel)

/-! ### C37: the digests that are recorded -/

theorem pairs_map (pairs : List (Algo × Bytes)) :
    ((Digests.new (pairs.map fun x => Digest.new x.1 x.2)).data.map fun d => (d.algo, d.digest)) = pairs := by
  show (pairs.map fun x => Digest.new x.1 x.2).map (fun d => (d.algo, d.digest)) = pairs
  rw [List.map_map]
  exact List.map_id _

/-- C37. `sign_with_digests`: the V2 signature holds one signer, with the given digests under the given algorithms in the given order, the
certificate of the configuration followed by its chain, and one signature, under the configuration's algorithm. -/
theorem C37_pairs_recorded {E : Env} {c : SignerConfig} {pairs : List (Algo × Bytes)} {v : SchemeV2}
    (h : v2SignWithDigests E c pairs = .ok v) :
    ∃ g s, v.signers.data = [g] ∧ (g.signedData.digests.data.map fun d => (d.algo, d.digest)) = pairs ∧
      (g.signedData.certs.data.map fun x => x.cert) = c.cert :: c.chain ∧ g.signedData.attrs.data = [] ∧
      (g.sigs.data.map fun x => (x.algo, x.signature)) = [(c.algo, s)] := by
  obtain ⟨sig, pk, _, _, rfl⟩ := v2Sign_ok.mp h
  refine ⟨_, sig, rfl, pairs_map pairs, ?_, rfl, rfl⟩
  show ([Cert.new c.cert] ++ c.chain.map Cert.new).map (fun x => x.cert) = _
  rw [List.map_append, List.map_map]
  exact congrArg (c.cert :: ·) (List.map_id _)

/-- C37. The same for stamps, made by either stamp signer: one certificate, and the time of signing if it was asked for. -/
theorem C37_pairs_recorded_stamp {E : Env} {clock : Option UInt64} {pairs : List (Algo × Bytes)} {v : SourceStamp} :
    (∀ c timestamp, stampSignWithDigests E c timestamp clock pairs = .ok v →
      (v.block.signedData.digests.data.map fun d => (d.algo, d.digest)) = pairs ∧
      (v.block.signedData.certs.data.map fun x => x.cert) = [c.cert] ∧
      ∃ s, (v.block.sigs.data.map fun x => (x.algo, x.signature)) = [(c.algo, s)]) ∧
    (∀ c, stampSignWithDigests' E c clock pairs = .ok v →
      (v.block.signedData.digests.data.map fun d => (d.algo, d.digest)) = pairs ∧
      (v.block.signedData.certs.data.map fun x => x.cert) = [c.cert] ∧
      ∃ s, (v.block.sigs.data.map fun x => (x.algo, x.signature)) = [(c.algo, s)]) := by
  have key : ∀ c timestamp, stampSignWithDigests E c timestamp clock pairs = .ok v →
      (v.block.signedData.digests.data.map fun d => (d.algo, d.digest)) = pairs ∧
      (v.block.signedData.certs.data.map fun x => x.cert) = [c.cert] ∧
      ∃ s, (v.block.sigs.data.map fun x => (x.algo, x.signature)) = [(c.algo, s)] := by
    intro c ts h
    obtain ⟨attrs, sig, pk, _, _, _, rfl⟩ := stampSign_ok.mp h
    exact ⟨pairs_map pairs, rfl, sig, rfl⟩
  refine ⟨key, fun c h => ?_⟩
  have h' := (C39_stamp_signers_agree (E := E) ⟨c.key, c.cert, c.algo, []⟩ c.timestamp clock ⟨0, []⟩ pairs).2
  rw [show (⟨c.key, c.cert, c.algo, c.timestamp⟩ : StampConfig) = c from rfl, h] at h'
  exact key ⟨c.key, c.cert, c.algo, []⟩ c.timestamp h'.symm

/-- C37. Conversely, signing succeeds only with a configuration whose keys all belong to their algorithms and have a public key, and,
for a stamp with the time, only if the clock is after the epoch. -/
theorem C37_signing_needs {E : Env} {p : Profile} {clock : Option UInt64} {m : ModuleSigner} {ds : Digests} {b : SigningBlock}
    (h : m.sign E p clock ds = .ok b) :
    (m.v2 ≠ none ∨ m.stamp ≠ none) ∧
    (∀ c, m.v2 = some c ∨ m.stamp = some c → Matching c.algo c.key ∧ ∃ pk, PublicOf E c.key pk) ∧
    (m.stamp ≠ none → m.timestamp = true → clock ≠ none) := by
  obtain ⟨v2, st, pad, _, h1, h2, _⟩ := C37_output_shape h
  refine ⟨?_, ?_, ?_⟩
  · rcases h1 with ⟨n1, _⟩ | ⟨c, _, _, hc, _⟩
    · rcases h2 with ⟨n2, _⟩ | ⟨c, _, hc, _⟩
      · obtain ⟨e, he⟩ := C37_no_configuration (E := E) (p := p) (clock := clock) (ds := ds) n1 n2
        rw [he] at h
        cases h
      · exact .inr (by rw [hc]; nofun)
    · exact .inl (by rw [hc]; nofun)
  · rintro c (hc | hc)
    · rcases h1 with ⟨n1, _⟩ | ⟨c', x, g, hc', _, _, _, hm⟩
      · rw [n1] at hc; cases hc
      · cases hc.symm.trans hc'
        obtain ⟨s, _, _, hs⟩ := hm.sig
        exact ⟨C40_sign_iff.2.1.mp ⟨_, hs⟩, _, publicKeyDer_iff.mp hm.key⟩
    · rcases h2 with ⟨n1, _⟩ | ⟨c', x, hc', _, _, hm⟩
      · rw [n1] at hc; cases hc
      · cases hc.symm.trans hc'
        obtain ⟨s, _, _, hs⟩ := hm.sig
        exact ⟨C40_sign_iff.2.1.mp ⟨_, hs⟩, _, publicKeyDer_iff.mp hm.key⟩
  · intro hst ht
    rcases h2 with ⟨n1, _⟩ | ⟨c', x, hc', _, _, hm⟩
    · exact absurd n1 hst
    · rcases hm.attrs with ⟨hf, _⟩ | ⟨_, t, hc, _⟩
      · rw [ht] at hf; cases hf
      · rw [hc]; nofun

/-- Two digests, one under an algorithm that is not the signer's. -/
example : ∃ v, v2SignWithDigests toyEnv toyConfig [(.p384, [1]), (.p256, [2, 3])] = .ok v :=
  Res.exists_of_isOk (by decide +kernel)

end Ksusig.Props
