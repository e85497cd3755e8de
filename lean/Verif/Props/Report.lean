import Verif.Proofs.Verify
import Verif.Props.Verify
import Verif.Model.Cli

/-!
# C73, C75, C76: what the report of a verification says about the signers
-/

namespace Ksusig.Props

open Ksusig Spec

/-- The certificates a V2 signer carries, leaf first. -/
def certsOf (s : SignerV2) : List Bytes := s.signedData.certs.data.map (·.cert)

/-- The certificates a source stamp carries. -/
def stampCertsOf (s : StampBlock) : List Bytes := s.signedData.certs.data.map (·.cert)

/-- What `verify_chain` says about the leaf, in terms of the certificates added as roots. -/
def ChainMsg.TrueOf (E : Env) (added : List Bytes) (now : Nat) (leaf : Bytes) (inters : List Bytes) : ChainMsg → Prop
  | .noRoots => added = []
  | .leafUnparsable => added ≠ [] ∧ leaf ∉ added ∧ E.eeOk leaf = false
  | .expired => added ≠ [] ∧ leaf ∉ added ∧ E.eeOk leaf = true ∧ E.pki (added.filter E.anchorOk) leaf inters now = .expired
  | .notYetValid =>
    added ≠ [] ∧ leaf ∉ added ∧ E.eeOk leaf = true ∧ E.pki (added.filter E.anchorOk) leaf inters now = .notYetValid
  | .unknownIssuer =>
    added ≠ [] ∧ leaf ∉ added ∧ E.eeOk leaf = true ∧ E.pki (added.filter E.anchorOk) leaf inters now = .unknownIssuer
  | .noCodeSigning =>
    added ≠ [] ∧ leaf ∉ added ∧ E.eeOk leaf = true ∧ E.pki (added.filter E.anchorOk) leaf inters now = .ekuMissing
  | .other => added ≠ [] ∧ leaf ∉ added ∧ E.eeOk leaf = true ∧ E.pki (added.filter E.anchorOk) leaf inters now = .other

/-- The message of `verify_chain` is the one that applies. -/
theorem verifyChain_msg {E : Env} {added : List Bytes} {now : Nat} {leaf : Bytes} {inters : List Bytes} (m : ChainMsg) :
    (verifyChain E (storeOf E added) now leaf inters).2.2 = some m ↔ ChainMsg.TrueOf E added now leaf inters m := by
  rw [storeOf_eq]
  unfold verifyChain Roots.isEmpty Roots.isDirect
  dsimp only
  by_cases h0 : added = []
  · subst h0
    cases m <;> simp [ChainMsg.TrueOf]
  · have h0' : added.isEmpty = false := by simpa using h0
    rw [h0']
    simp only [Bool.false_eq_true, if_false]
    by_cases h1 : leaf ∈ added
    · have : (added.any (· == leaf)) = true := by simpa using h1
      rw [this]
      cases m <;> simp [ChainMsg.TrueOf, h0, h1]
    · have : (added.any (· == leaf)) = false := by
        rw [Bool.eq_false_iff]; simpa using h1
      rw [this]
      simp only [Bool.false_eq_true, if_false]
      cases h2 : E.eeOk leaf with
      | false => cases m <;> simp [ChainMsg.TrueOf, h0, h1, h2]
      | true =>
        cases h3 : E.pki (added.filter E.anchorOk) leaf inters now <;> cases m <;>
          simp [ChainMsg.TrueOf, h0, h1, h2, h3]

/-- A chain without message is trusted. -/
theorem verifyChain_none {E : Env} {roots : Roots} {now : Nat} {leaf : Bytes} {inters : List Bytes} :
    (verifyChain E roots now leaf inters).2.2 = none ↔ (verifyChain E roots now leaf inters).2.1 = true := by
  unfold verifyChain
  split
  · simp
  split
  · simp
  split
  · simp
  split <;> simp

/-- A signer result without error, field by field. -/
theorem finishSigner_fields {E : Env} {roots : Roots} {now idx : Nat} {pk : Bytes} {certs inters shown : List Bytes}
    {st : SigState} (h : (finishSigner E roots now idx pk certs inters shown st).error = none) :
    st.error = none ∧ (finishSigner E roots now idx pk certs inters shown st).index = idx ∧
    (finishSigner E roots now idx pk certs inters shown st).cert = certs.head? ∧
    (finishSigner E roots now idx pk certs inters shown st).sigValid = st.sigValid ∧
    (certs = [] ∧ (finishSigner E roots now idx pk certs inters shown st).chain = [] ∧
        (finishSigner E roots now idx pk certs inters shown st).trusted = false ∧
        (finishSigner E roots now idx pk certs inters shown st).chainValid = false ∧
        (finishSigner E roots now idx pk certs inters shown st).warnings = st.warnings ∨
      ∃ leaf rest, certs = leaf :: rest ∧ E.certSpki leaf = some pk ∧
        (finishSigner E roots now idx pk certs inters shown st).chain = shown ∧
        (finishSigner E roots now idx pk certs inters shown st).chainValid = (verifyChain E roots now leaf inters).1 ∧
        (finishSigner E roots now idx pk certs inters shown st).trusted = (verifyChain E roots now leaf inters).2.1 ∧
        (finishSigner E roots now idx pk certs inters shown st).warnings =
          st.warnings ++ (match (verifyChain E roots now leaf inters).2.2 with | some m => [.chain m] | none => [])) := by
  cases certs with
  | nil =>
    simp only [finishSigner] at h ⊢
    simp [h]
  | cons leaf rest =>
    unfold finishSigner at h ⊢
    by_cases hb : verifyPubkeyBinding E pk leaf = true
    · simp only [hb, Bool.not_true, Bool.false_eq_true, if_false] at h ⊢
      simp only [h, List.head?_cons, true_and, Option.isNone_none, Bool.and_true, reduceCtorEq, false_and, false_or]
      exact ⟨leaf, rest, rfl, verifyPubkeyBinding_iff.mp hb, rfl, rfl, rfl⟩
    · simp only [hb, Bool.not_false, if_true] at h
      cases h

/-- The results of all signers are without error when a result is returned. -/
theorem verifyV2_no_error {E : Env} {roots : Roots} {now : Nat} {b : SigningBlock} {ctx : Option DigestCtx} {r : VResult}
    (h : verifyV2 E roots now b ctx = .ok r) : ∀ x ∈ r.signers, x.error = none := by
  rw [verifyV2_eq] at h
  rcases concludeVerify_cases (v2Results E roots now b ctx) with ⟨_, he⟩ | ⟨_, _, he⟩ | ⟨hn, hall, he⟩
  · rw [he] at h; cases h
  · rw [he] at h; cases h
  · rw [he] at h
    cases h
    rw [(fromSigners_flags hn).2.2.2.2]
    exact hall

/-- The `i`-th entry of the report is the result of the `i`-th signer. -/
theorem report_entry {E : Env} {roots : Roots} {now : Nat} {b : SigningBlock} {ctx : Option DigestCtx} {r : VResult}
    (h : verifyV2 E roots now b ctx = .ok r) : r.signers.length = (v2Signers b).length ∧
    ∀ i (h1 : i < r.signers.length) (h2 : i < (v2Signers b).length), ∃ n,
      r.signers[i] = verifySigner E roots now ctx n (v2Signers b)[i] := by
  obtain ⟨hs, -, -⟩ := verifyV2_signers h
  obtain ⟨idx, hlen, hz⟩ := v2Results_zip E roots now b ctx
  rw [hz] at hs
  refine ⟨by rw [hs]; simp [hlen], fun i h1 h2 => ⟨idx[i]'(by omega), ?_⟩⟩
  simp [hs]

/-- The fields of the `i`-th entry. -/
theorem report_fields {E : Env} {roots : Roots} {now : Nat} {b : SigningBlock} {ctx : Option DigestCtx} {r : VResult}
    (h : verifyV2 E roots now b ctx = .ok r) (i : Nat) (h1 : i < r.signers.length) (h2 : i < (v2Signers b).length) :
    ∃ st, st = v2SigLoop E ctx (v2Signers b)[i].pubKey.data ((v2Signers b)[i].signedData.toU8.drop 4)
        (v2Signers b)[i].signedData.digests.data (v2Signers b)[i].sigs.data SigState.init ∧ st.error = none ∧
      r.signers[i].cert = (certsOf (v2Signers b)[i]).head? ∧ r.signers[i].sigValid = st.sigValid ∧
      r.signers[i].digestValid = st.digestValid ∧
      r.signers[i].chain = (certsOf (v2Signers b)[i]).drop 1 ∧
      (certsOf (v2Signers b)[i] = [] ∧ r.signers[i].trusted = false ∧ r.signers[i].chainValid = false ∧
          r.signers[i].warnings = st.warnings ∨
        ∃ leaf rest, certsOf (v2Signers b)[i] = leaf :: rest ∧ E.certSpki leaf = some (v2Signers b)[i].pubKey.data ∧
          r.signers[i].chainValid = (verifyChain E roots now leaf rest).1 ∧
          r.signers[i].trusted = (verifyChain E roots now leaf rest).2.1 ∧
          r.signers[i].warnings = st.warnings ++
            (match (verifyChain E roots now leaf rest).2.2 with | some m => [.chain m] | none => [])) := by
  obtain ⟨n, hn⟩ := (report_entry h).2 i h1 h2
  have he : r.signers[i].error = none := verifyV2_no_error h _ (List.getElem_mem h1)
  generalize (v2Signers b)[i] = s at *
  generalize r.signers[i] = x at *
  unfold verifySigner at hn
  rw [sliceFrom?_4_signed] at hn
  dsimp only at hn
  rw [hn] at he
  obtain ⟨e1, e2, e3, e4, e5⟩ := finishSigner_fields he
  refine ⟨_, rfl, e1, by rw [hn]; exact e3, by rw [hn]; exact e4, by rw [hn]; exact finishSigner_digestValid, ?_, ?_⟩
  · rcases e5 with ⟨c1, c2, -⟩ | ⟨leaf, rest, c1, c2, c3, -⟩
    · rw [hn, c2]; unfold certsOf; rw [c1]; rfl
    · rw [hn, c3]; rfl
  · rcases e5 with ⟨c1, c2, c3, c4, c5⟩ | ⟨leaf, rest, c1, c2, c3, c4, c5, c6⟩
    · left; rw [hn]; exact ⟨c1, c3, c4, c5⟩
    · right
      rw [c1] at c4 c5 c6
      refine ⟨leaf, rest, c1, c2, ?_, ?_, ?_⟩
      · rw [hn, c1]; exact c4
      · rw [hn, c1]; exact c5
      · rw [hn, c1]; exact c6

theorem head_cons_tail {α : Type} {l : List α} (h : 0 < l.length) : l[0] :: l.tail = l := by
  cases l with
  | nil => cases h
  | cons a as => rfl

theorem fromSigners_first {l : List SignerResult} (h : 0 < l.length) :
    (VResult.fromSigners l).cert = l[0].cert ∧ (VResult.fromSigners l).chain = l[0].chain := by
  cases l with
  | nil => cases h
  | cons a as => exact ⟨rfl, rfl⟩

/-! ### C73 -/

/-- C73: a returned V2 report has one entry per signer of the block, in order. Entry `i` shows the leaf certificate and the
other certificates of signer `i`, and calls it trusted exactly if its leaf is trusted with its other certificates. The
certificate and chain shown for the whole block are those of the first signer. A warning with number `n` is a warning of the
`n`-th signer, and all warnings are listed. -/
theorem C73_report_identifies_signers {E : Env} {added : List Bytes} {now : Nat} {b : SigningBlock} {ctx : Option DigestCtx}
    {r : VResult} (h : verifyV2 E (storeOf E added) now b ctx = .ok r) :
    r.signers.length = (v2Signers b).length ∧
    (∀ i (h1 : i < r.signers.length) (h2 : i < (v2Signers b).length),
      r.signers[i].cert = (certsOf (v2Signers b)[i]).head? ∧ r.signers[i].chain = (certsOf (v2Signers b)[i]).drop 1 ∧
      (r.signers[i].trusted = true ↔
        ∃ leaf rest, certsOf (v2Signers b)[i] = leaf :: rest ∧ Trusted E added now leaf rest)) ∧
    (∃ s more, v2Signers b = s :: more ∧ r.cert = (certsOf s).head? ∧ r.chain = (certsOf s).drop 1) ∧
    ∀ n w, (n, w) ∈ r.warnings ↔ ∃ i, ∃ h1 : i < r.signers.length, n = i + 1 ∧ w ∈ r.signers[i].warnings := by
  have hent := report_entry h
  have hf := fun i h1 h2 => report_fields h i h1 h2
  refine ⟨hent.1, fun i h1 h2 => ?_, ?_, ?_⟩
  · obtain ⟨st, -, -, e1, -, -, e2, e3⟩ := hf i h1 h2
    refine ⟨e1, e2, ?_⟩
    rcases e3 with ⟨c1, c2, -⟩ | ⟨leaf, rest, c1, -, -, c2, -⟩
    · rw [c2, c1]; simp
    · rw [c2, verifyChain_trusted, c1]
      constructor
      · intro ht; exact ⟨leaf, rest, rfl, ht⟩
      · rintro ⟨l, r', hl, ht⟩
        cases hl; exact ht
  · obtain ⟨hs, hne, hr⟩ := verifyV2_signers h
    have hl : 0 < r.signers.length := List.length_pos_iff.mpr hne
    have hl2 : 0 < (v2Signers b).length := by rw [← hent.1]; exact hl
    obtain ⟨st, -, -, e1, -, -, e2, -⟩ := hf 0 hl hl2
    refine ⟨(v2Signers b)[0], (v2Signers b).tail, ?_, ?_, ?_⟩
    · exact (head_cons_tail hl2).symm
    · rw [← e1]
      exact (congrArg VResult.cert hr).trans (fromSigners_first hl).1
    · rw [← e2]
      exact (congrArg VResult.chain hr).trans (fromSigners_first hl).2
  · obtain ⟨hs, hne, hr⟩ := verifyV2_signers h
    intro n w
    have hw : r.warnings = r.signers.zipIdx.flatMap fun x => x.1.warnings.map fun w => (x.2 + 1, w) := by
      conv => lhs; rw [hr]
      cases hv : r.signers with
      | nil => exact absurd hv hne
      | cons x xs => rfl
    rw [hw]
    constructor
    · intro hm
      obtain ⟨⟨x, i⟩, hx, hm⟩ := List.mem_flatMap.mp hm
      obtain ⟨w', hw', he⟩ := List.mem_map.mp hm
      obtain ⟨hi, hxe⟩ : ∃ hi : i < r.signers.length, r.signers[i] = x := by
        have := List.mem_zipIdx hx
        simp only [Nat.zero_add, Nat.sub_zero] at this
        exact ⟨this.2.1, this.2.2.symm⟩
      injection he with he1 he2
      refine ⟨i, hi, he1.symm, ?_⟩
      rw [hxe, ← he2]; exact hw'
    · rintro ⟨i, hi, rfl, hm⟩
      refine List.mem_flatMap.mpr ⟨(r.signers[i], i), ?_, List.mem_map.mpr ⟨w, hm, rfl⟩⟩
      rw [List.mk_mem_zipIdx_iff_getElem?]
      exact List.getElem?_eq_getElem hi

/-- Two signers, the second with an intermediate and not trusted. -/
def reportBlock : SigningBlock :=
  let sd := SignedDataV2.new (Digests.new [Digest.new .p256 [1, 2]]) (Certs.new [Cert.new [9], Cert.new [8]]) (Attrs.new [])
  blockOf [Value.newV2 (SignersV2.new [toySigner [1, 2],
    SignerV2.new sd (Sigs.new [Sig.new .p256 ([9] ++ toyHash 4 (sd.toU8.drop 4))]) (PubKey.new [9])])]

example : ∃ r, verifyV2 toyEnv (storeOf toyEnv [[7]]) 0 reportBlock (some (toyCtx [1, 2])) = .ok r ∧
    (r.signers.map (·.cert) == [some [7], some [9]] && r.signers.map (·.chain) == [[], [[8]]] &&
      r.signers.map (·.trusted) == [true, false] && r.warnings.map (·.1) == [2]) = true :=
  exists_verdict (by decide +kernel)

/-- C73: the flags of entry `i` are all set exactly if signer `i` is good in the sense of C27. -/
theorem C73_flags_per_signer {E : Env} {added : List Bytes} {now : Nat} {b : SigningBlock} {c : DigestCtx} {r : VResult}
    (h : verifyV2 E (storeOf E added) now b (some c) = .ok r) (i : Nat) (h1 : i < r.signers.length)
    (h2 : i < (v2Signers b).length) :
    (r.signers[i].sigValid = true ∧ r.signers[i].digestValid = true ∧ r.signers[i].chainValid = true ∧
      r.signers[i].trusted = true) ↔ GoodV2 E added now c.get (v2Signers b)[i] := by
  obtain ⟨n, hn⟩ := (report_entry h).2 i h1 h2
  rw [← verifySigner_good (idx := n), ← hn]
  have he : r.signers[i].error = none := verifyV2_no_error h _ (List.getElem_mem h1)
  unfold SignerResult.Good
  simp [he]

/-- C73 fails for the numbers of the entries: they start again with every V2 block, so the entries of the first signers of two
V2 blocks carry the same number (and the number the warnings use is a different one). -/
theorem C73_numbers_restart {E : Env} {roots : Roots} {now : Nat} {b : SigningBlock} {ctx : Option DigestCtx} {r : VResult}
    {s1 s2 : SignerV2} {x1 x2 : SchemeV2} {more1 more2 : List SignerV2} {pre mid post : List Value}
    (hb : b.content = pre ++ .v2 x1 :: mid ++ .v2 x2 :: post) (h1 : x1.signers.data = s1 :: more1)
    (h2 : x2.signers.data = s2 :: more2) (h : verifyV2 E roots now b ctx = .ok r) :
    ∃ i j, ∃ hi : i < r.signers.length, ∃ hj : j < r.signers.length, i < j ∧ r.signers[i].index = 0 ∧
      r.signers[j].index = 0 := by
  obtain ⟨hs, -, -⟩ := verifyV2_signers h
  have hidx : ∀ n s, (verifySigner E roots now ctx n s).index = n := by
    intro n s
    unfold verifySigner
    rw [sliceFrom?_4_signed]
    dsimp only
    unfold finishSigner
    cases s.signedData.certs.data.map (·.cert) with
    | nil => rfl
    | cons a as => dsimp only; split <;> rfl
  have hform : ∃ A B C, r.signers = A ++ verifySigner E roots now ctx 0 s1 :: B ++ verifySigner E roots now ctx 0 s2 :: C := by
    rw [hs]
    unfold v2Results
    rw [hb]
    simp only [List.flatMap_append, List.flatMap_cons, h1, h2, List.zipIdx_cons, List.map_cons, List.append_assoc,
      List.cons_append]
    exact ⟨_, _ ++ _, _, by simp only [List.append_assoc]; rfl⟩
  obtain ⟨A, B, C, hABC⟩ := hform
  refine ⟨A.length, A.length + 1 + B.length, by rw [hABC]; simp, by rw [hABC]; simp; omega, by omega, ?_, ?_⟩
  · simp [hABC, hidx]
  · have : A.length + 1 + B.length = (A ++ verifySigner E roots now ctx 0 s1 :: B).length := by simp; omega
    simp only [hABC, this, List.getElem_append_right (Nat.le_refl _), Nat.sub_self, List.getElem_cons_zero, hidx]

example : ∃ r, verifyV2 toyEnv (storeOf toyEnv [[7]]) 0 (toyBlock [1, 2]) (some (toyCtx [1, 2])) = .ok r ∧
    (r.signers.map (·.index) == [0, 0]) = true := exists_verdict (by decide +kernel)

/-- C73, what holds: with a single V2 block the entries are numbered 0, 1, 2, … (missing: several V2 blocks). -/
theorem C73_numbers_partial {E : Env} {roots : Roots} {now : Nat} {b : SigningBlock} {ctx : Option DigestCtx} {r : VResult}
    {x : SchemeV2} {pre post : List Value} (hb : b.content = pre ++ .v2 x :: post)
    (hpre : ∀ v ∈ pre ++ post, ∀ y, v ≠ .v2 y) (h : verifyV2 E roots now b ctx = .ok r) (i : Nat)
    (hi : i < r.signers.length) : r.signers[i].index = i := by
  obtain ⟨hs, -, -⟩ := verifyV2_signers h
  have hidx : ∀ n s, (verifySigner E roots now ctx n s).index = n := by
    intro n s
    unfold verifySigner
    rw [sliceFrom?_4_signed]
    dsimp only
    unfold finishSigner
    cases s.signedData.certs.data.map (·.cert) with
    | nil => rfl
    | cons a as => dsimp only; split <;> rfl
  have hno : ∀ l : List Value, (∀ v ∈ l, ∀ y, v ≠ .v2 y) → (l.flatMap fun v => match v with
      | .v2 s => s.signers.data.zipIdx.map fun x => verifySigner E roots now ctx x.2 x.1
      | _ => []) = [] := by
    intro l hl
    rw [List.flatMap_eq_nil_iff]
    intro v hv
    cases v with
    | v2 y => exact absurd rfl (hl _ hv y)
    | _ => rfl
  have hform : r.signers = x.signers.data.zipIdx.map fun y => verifySigner E roots now ctx y.2 y.1 := by
    rw [hs]
    unfold v2Results
    rw [hb, List.flatMap_append, List.flatMap_cons]
    have e1 := hno pre fun v hv => hpre v (by simp [hv])
    have e2 := hno post fun v hv => hpre v (by simp [hv])
    exact (congr (congrArg (· ++ ·) e1) (congrArg (_ ++ ·) e2)).trans (by simp)
  simp [hform, hidx]

example : ∃ r, verifyV2 toyEnv (storeOf toyEnv [[7]]) 0 reportBlock (some (toyCtx [1, 2])) = .ok r ∧
    (r.signers.map (·.index) == [0, 1]) = true := exists_verdict (by decide +kernel)

/-- C73 for source stamps: the report has one entry, for the first stamp, with its first certificate and no chain. -/
theorem C73_stamp_report {E : Env} {added : List Bytes} {now : Nat} {b : SigningBlock} {ctx : Option DigestCtx}
    {r : VResult} (h : verifySourceStamp E (storeOf E added) now b ctx = .ok r) :
    ∃ s rest x, stamps b = s :: rest ∧ r.signers = [x] ∧ x.index = 0 ∧ x.cert = (stampCertsOf s).head? ∧ x.chain = [] ∧
      (x.trusted = true ↔ ∃ leaf more, stampCertsOf s = leaf :: more ∧ Trusted E added now leaf []) ∧
      r.cert = x.cert ∧ r.chain = [] ∧ r.warnings = x.warnings.map fun w => (1, w) := by
  obtain ⟨s, rest, hs, hr⟩ := verifySourceStamp_signers h
  have he : (verifyStamp E (storeOf E added) now ctx s).1.error = none := by
    rw [verifySourceStamp, stampLoop_eq, hs] at h
    dsimp only at h
    rcases concludeVerify_cases [(verifyStamp E (storeOf E added) now ctx s).1] with ⟨h1, _⟩ | ⟨_, _, he⟩ | ⟨_, hall, _⟩
    · cases h1
    · rw [he] at h; cases h
    · exact hall _ (by simp)
  subst hr
  unfold verifyStamp at he ⊢
  rw [sliceFrom?_4_stamp] at he ⊢
  dsimp only at he ⊢
  generalize stampAdjust ctx _ = st at he ⊢
  obtain ⟨e1, e2, e3, e4, e5⟩ := finishSigner_fields he
  refine ⟨s, rest, _, hs, rfl, e2, e3, ?_, ?_, rfl, ?_, ?_⟩
  · rcases e5 with ⟨_, c, _⟩ | ⟨_, _, _, _, c, _⟩ <;> exact c
  · rcases e5 with ⟨c1, c2, c3, _⟩ | ⟨leaf, more, c1, _, _, _, c3, _⟩
    · rw [c3]; unfold stampCertsOf; rw [c1]; simp
    · rw [c3, verifyChain_trusted]
      unfold stampCertsOf
      rw [c1]
      constructor
      · intro ht; exact ⟨leaf, more, rfl, ht⟩
      · rintro ⟨l, r', hl, ht⟩
        cases hl; exact ht
  · rcases e5 with ⟨_, c, _⟩ | ⟨_, _, _, _, c, _⟩ <;> exact c
  · simp [VResult.fromSigners]

example : ∃ r, verifySourceStamp toyEnv (storeOf toyEnv [[7]]) 0 (toyBlock [1, 2]) (some (toyCtx [1, 2])) = .ok r ∧
    (r.cert == some [7] && r.trusted) = true := exists_verdict (by decide +kernel)

/-! ### C75 -/

/-- Where the warnings of the V2 signature loop come from. -/
theorem v2SigLoop_warnings {E : Env} {ctx : Option DigestCtx} {pk raw : Bytes} {ds : List Digest} :
    ∀ (sigs : List Sig) (st : SigState),
      (∀ w ∈ st.warnings, w ∈ (v2SigLoop E ctx pk raw ds sigs st).warnings) ∧
      ∀ w ∈ (v2SigLoop E ctx pk raw ds sigs st).warnings, w ∈ st.warnings ∨
        (∃ g ∈ sigs, w = .noDigest g.algo ∧ ∀ d ∈ ds, d.algo ≠ g.algo) ∨ (w = .notVerified ∧ ctx = none)
  | [], st => ⟨fun w h => h, fun w h => .inl h⟩
  | g :: gs, st => by
    rw [v2SigLoop]
    cases hf : ds.find? (fun d => d.algo == g.algo) with
    | none =>
      have hno : ∀ d ∈ ds, d.algo ≠ g.algo := by
        intro d hd he
        have := List.find?_eq_none.mp hf d hd
        simp [he] at this
      refine ⟨fun w h => by simp [h], fun w h => ?_⟩
      simp only [List.mem_append, List.mem_singleton] at h
      rcases h with h | h
      · exact .inl h
      · exact .inr (.inl ⟨g, by simp, h, hno⟩)
    | some d =>
      dsimp only
      split
      · exact ⟨fun w h => h, fun w h => .inl h⟩
      · have lift : ∀ st', (∀ w ∈ st'.warnings, w ∈ st.warnings ∨ (w = .notVerified ∧ ctx = none)) →
            (∀ w ∈ st.warnings, w ∈ st'.warnings) →
            (∀ w ∈ st.warnings, w ∈ (v2SigLoop E ctx pk raw ds gs st').warnings) ∧
            ∀ w ∈ (v2SigLoop E ctx pk raw ds gs st').warnings, w ∈ st.warnings ∨
              (∃ g' ∈ g :: gs, w = .noDigest g'.algo ∧ ∀ d ∈ ds, d.algo ≠ g'.algo) ∨ (w = .notVerified ∧ ctx = none) := by
          intro st' h1 h2
          obtain ⟨i1, i2⟩ := v2SigLoop_warnings (E := E) (ctx := ctx) (pk := pk) (raw := raw) (ds := ds) gs st'
          refine ⟨fun w hw => i1 w (h2 w hw), fun w hw => ?_⟩
          rcases i2 w hw with h | ⟨g', hg', h⟩ | h
          · rcases h1 w h with h | h
            · exact .inl h
            · exact .inr (.inr h)
          · exact .inr (.inl ⟨g', by simp [hg'], h⟩)
          · exact .inr (.inr h)
        cases ctx with
        | none =>
          dsimp only
          refine lift _ (fun w hw => ?_) (fun w hw => by simp [hw])
          simp only [List.mem_append, List.mem_singleton] at hw
          rcases hw with hw | hw
          · exact .inl hw
          · exact .inr ⟨hw, rfl⟩
        | some c =>
          dsimp only
          split
          · exact lift _ (fun w hw => .inl hw) (fun w hw => hw)
          · exact lift _ (fun w hw => .inl hw) (fun w hw => hw)

/-- An error stays. -/
theorem v2SigLoop_error {E : Env} {ctx : Option DigestCtx} {pk raw : Bytes} {ds : List Digest} :
    ∀ (sigs : List Sig) (st : SigState), (v2SigLoop E ctx pk raw ds sigs st).error = none → st.error = none
  | [], st, h => h
  | g :: gs, st, h => by
    rw [v2SigLoop] at h
    split at h
    · exact h
    · split at h
      · cases h
      · split at h
        · split at h
          · have := v2SigLoop_error gs _ h
            cases this
          · have := v2SigLoop_error gs _ h
            exact this
        · have := v2SigLoop_error gs _ h
          exact this

/-- Flags the V2 signature loop leaves unset without an error have a warning. -/
theorem v2SigLoop_explained {E : Env} {ctx : Option DigestCtx} {pk raw : Bytes} {ds : List Digest} :
    ∀ (sigs : List Sig) (st : SigState), (v2SigLoop E ctx pk raw ds sigs st).error = none →
      ((v2SigLoop E ctx pk raw ds sigs st).sigValid = false →
        st.sigValid = false ∨ ∃ a, .noDigest a ∈ (v2SigLoop E ctx pk raw ds sigs st).warnings) ∧
      ((v2SigLoop E ctx pk raw ds sigs st).digestValid = false →
        (sigs = [] ∧ st.digestValid = false) ∨ (∃ a, .noDigest a ∈ (v2SigLoop E ctx pk raw ds sigs st).warnings) ∨
          .notVerified ∈ (v2SigLoop E ctx pk raw ds sigs st).warnings)
  | [], st, _ => ⟨fun h => .inl h, fun h => .inl ⟨rfl, h⟩⟩
  | g :: gs, st, h => by
    rw [v2SigLoop] at h ⊢
    split
    · rename_i hf
      exact ⟨fun _ => .inr ⟨g.algo, by simp⟩, fun _ => .inr (.inl ⟨g.algo, by simp⟩)⟩
    · rename_i d hf
      rw [hf] at h
      dsimp only at h
      split
      · rename_i hv
        rw [if_pos hv] at h
        cases h
      · rename_i hv
        rw [if_neg hv] at h
        cases ctx with
        | none =>
          dsimp only at h ⊢
          obtain ⟨i1, i2⟩ := v2SigLoop_explained gs _ h
          refine ⟨fun hh => ?_, fun hh => ?_⟩
          · exact i1 hh
          · refine .inr (.inr ((v2SigLoop_warnings gs _).1 _ ?_))
            simp
        | some c =>
          dsimp only at h ⊢
          split
          · rename_i hc
            rw [if_pos hc] at h
            have := v2SigLoop_error gs _ h
            cases this
          · rename_i hc
            rw [if_neg hc] at h
            obtain ⟨i1, i2⟩ := v2SigLoop_explained gs _ h
            refine ⟨fun hh => i1 hh, fun hh => ?_⟩
            rcases i2 hh with ⟨_, h'⟩ | h' | h'
            · cases h'
            · exact .inr (.inl h')
            · exact .inr (.inr h')

/-- C75: every warning of entry `i` of a V2 report is true of signer `i`: a missing digest is missing, "not verified" appears
only if no computed digest was given, and a message about the certificate chain is the one that applies to it. -/
theorem C75_warnings_true {E : Env} {added : List Bytes} {now : Nat} {b : SigningBlock} {ctx : Option DigestCtx} {r : VResult}
    (h : verifyV2 E (storeOf E added) now b ctx = .ok r) (i : Nat) (h1 : i < r.signers.length)
    (h2 : i < (v2Signers b).length) (w : Warn) (hw : w ∈ r.signers[i].warnings) :
    (∃ g ∈ (v2Signers b)[i].sigs.data, w = .noDigest g.algo ∧
      ∀ d ∈ (v2Signers b)[i].signedData.digests.data, d.algo ≠ g.algo) ∨
    (w = .notVerified ∧ ctx = none) ∨
    ∃ leaf rest m, certsOf (v2Signers b)[i] = leaf :: rest ∧ w = .chain m ∧ ChainMsg.TrueOf E added now leaf rest m := by
  obtain ⟨st, hst, -, -, -, -, -, e⟩ := report_fields h i h1 h2
  have hloop := (v2SigLoop_warnings (E := E) (ctx := ctx) (pk := (v2Signers b)[i].pubKey.data)
    (raw := (v2Signers b)[i].signedData.toU8.drop 4) (ds := (v2Signers b)[i].signedData.digests.data)
    (v2Signers b)[i].sigs.data SigState.init).2
  rw [← hst] at hloop
  have hin : w ∈ st.warnings → (∃ g ∈ (v2Signers b)[i].sigs.data, w = .noDigest g.algo ∧
      ∀ d ∈ (v2Signers b)[i].signedData.digests.data, d.algo ≠ g.algo) ∨ (w = .notVerified ∧ ctx = none) := by
    intro hw
    rcases hloop w hw with h | h | h
    · cases h
    · exact .inl h
    · exact .inr h
  rcases e with ⟨_, _, _, e⟩ | ⟨leaf, rest, e1, _, _, _, e⟩
  · rw [e] at hw
    rcases hin hw with h | h
    · exact .inl h
    · exact .inr (.inl h)
  · rw [e] at hw
    rcases List.mem_append.mp hw with hw | hw
    · rcases hin hw with h | h
      · exact .inl h
      · exact .inr (.inl h)
    · cases hm : (verifyChain E (storeOf E added) now leaf rest).2.2 with
      | none => rw [hm] at hw; cases hw
      | some m =>
        rw [hm] at hw
        exact .inr (.inr ⟨leaf, rest, m, e1, by simpa using hw, (verifyChain_msg m).mp hm⟩)

/-- C75 fails for signers without certificate: such a signer is neither trusted nor does its chain count as valid, and no
warning about the chain says so; nor does anything say that a signer without signatures has not verified any content. -/
theorem C75_unexplained {E : Env} {added : List Bytes} {now : Nat} {b : SigningBlock} {ctx : Option DigestCtx} {r : VResult}
    (h : verifyV2 E (storeOf E added) now b ctx = .ok r) (i : Nat) (h1 : i < r.signers.length)
    (h2 : i < (v2Signers b).length) :
    (certsOf (v2Signers b)[i] = [] → r.signers[i].trusted = false ∧ r.signers[i].chainValid = false ∧
      ∀ m, .chain m ∉ r.signers[i].warnings) ∧
    ((v2Signers b)[i].sigs.data = [] → r.signers[i].digestValid = false ∧
      ∀ w ∈ r.signers[i].warnings, ∃ m, w = .chain m) := by
  constructor
  · intro hc
    obtain ⟨st, hst, -, -, -, -, -, e⟩ := report_fields h i h1 h2
    rcases e with ⟨_, e2, e3, e4⟩ | ⟨leaf, rest, e1, _⟩
    · refine ⟨e2, e3, fun m hm => ?_⟩
      rcases C75_warnings_true h i h1 h2 _ hm with ⟨_, _, h, _⟩ | ⟨h, _⟩ | ⟨l, r', m', hc', _⟩
      · cases h
      · cases h
      · rw [hc] at hc'; cases hc'
    · rw [hc] at e1; cases e1
  · intro hs
    obtain ⟨st, hst, -, -, -, ed, -, e⟩ := report_fields h i h1 h2
    rw [hs] at hst
    refine ⟨by rw [ed, hst]; rfl, fun w hw => ?_⟩
    have hw0 : st.warnings = [] := by rw [hst]; rfl
    rcases e with ⟨_, _, _, e⟩ | ⟨leaf, rest, _, _, _, _, e⟩
    · rw [e, hw0] at hw; cases hw
    · rw [e, hw0] at hw
      split at hw
      · rename_i m _
        exact ⟨m, by simpa using hw⟩
      · cases hw

/-- A correctly signed block without certificates. -/
def nakedBlock : SigningBlock :=
  let sd := SignedDataV2.new (Digests.new [Digest.new .p256 [1, 2]]) (Certs.new []) (Attrs.new [])
  blockOf [Value.newV2 (SignersV2.new [
    SignerV2.new sd (Sigs.new [Sig.new .p256 ([9] ++ toyHash 4 (sd.toU8.drop 4))]) (PubKey.new [9])])]

example : ∃ r, verifyV2 toyEnv (storeOf toyEnv [[7]]) 0 nakedBlock (some (toyCtx [1, 2])) = .ok r ∧
    (r.sigValid && r.digestValid && !r.trusted && !r.chainValid && r.warnings.isEmpty) = true :=
  exists_verdict (by decide +kernel)

/-- C75, what holds: for a signer with a certificate and a signature, every flag that is not set has a warning that explains it
(missing: signers without certificates or without signatures). -/
theorem C75_flags_explained_partial {E : Env} {added : List Bytes} {now : Nat} {b : SigningBlock} {ctx : Option DigestCtx}
    {r : VResult} (h : verifyV2 E (storeOf E added) now b ctx = .ok r) (i : Nat) (h1 : i < r.signers.length)
    (h2 : i < (v2Signers b).length) :
    (r.signers[i].sigValid = false → ∃ a, .noDigest a ∈ r.signers[i].warnings) ∧
    ((v2Signers b)[i].sigs.data ≠ [] → r.signers[i].digestValid = false →
      .notVerified ∈ r.signers[i].warnings ∨ ∃ a, .noDigest a ∈ r.signers[i].warnings) ∧
    (certsOf (v2Signers b)[i] ≠ [] → r.signers[i].trusted = false ∨ r.signers[i].chainValid = false →
      ∃ m, .chain m ∈ r.signers[i].warnings) := by
  obtain ⟨st, hst, herr, -, es, ed, -, e⟩ := report_fields h i h1 h2
  have hx := v2SigLoop_explained (E := E) (ctx := ctx) (pk := (v2Signers b)[i].pubKey.data)
    (raw := (v2Signers b)[i].signedData.toU8.drop 4) (ds := (v2Signers b)[i].signedData.digests.data)
    (v2Signers b)[i].sigs.data SigState.init
  rw [← hst] at hx
  obtain ⟨x1, x2⟩ := hx herr
  have hsub : ∀ w ∈ st.warnings, w ∈ r.signers[i].warnings := by
    intro w hw
    rcases e with ⟨_, _, _, e⟩ | ⟨leaf, rest, _, _, _, _, e⟩
    · rw [e]; exact hw
    · rw [e]; exact List.mem_append_left _ hw
  refine ⟨fun hs => ?_, fun hn hd => ?_, fun hc ht => ?_⟩
  · rw [es] at hs
    rcases x1 hs with h | ⟨a, ha⟩
    · cases h
    · exact ⟨a, hsub _ ha⟩
  · rw [ed] at hd
    rcases x2 hd with ⟨h, _⟩ | ⟨a, ha⟩ | h
    · exact absurd h hn
    · exact .inr ⟨a, hsub _ ha⟩
    · exact .inl (hsub _ h)
  · rcases e with ⟨e1, _⟩ | ⟨leaf, rest, e1, _, e2, e3, e4⟩
    · exact absurd e1 hc
    · have hf : (verifyChain E (storeOf E added) now leaf rest).2.1 = false := by
        rcases ht with ht | ht
        · rw [← e3]; exact ht
        · cases hv : (verifyChain E (storeOf E added) now leaf rest).2.1 with
          | false => rfl
          | true =>
            rw [e2, verifyChain_valid_of_trusted hv] at ht
            cases ht
      cases hm : (verifyChain E (storeOf E added) now leaf rest).2.2 with
      | none =>
        rw [verifyChain_none, hf] at hm
        cases hm
      | some m =>
        refine ⟨m, ?_⟩
        rw [e4, hm]
        simp

example : ∃ r, verifyV2 toyEnv (storeOf toyEnv [[7]]) 0 reportBlock (some (toyCtx [1, 2])) = .ok r ∧
    (r.warnings.length == 1 && !r.trusted) = true := exists_verdict (by decide +kernel)

/-- The stamp signature loop adds no warnings; without an error the signatures count as valid, and both digest flags say
whether a digest was compared. -/
theorem stampSigLoop_facts {E : Env} {ctx : Option DigestCtx} {pk raw : Bytes} {ds : List Digest} :
    ∀ (sigs : List Sig) (st : SigState), st.digestValid = st.digestVerified →
      (stampSigLoop E ctx pk raw ds sigs st).warnings = st.warnings ∧
      ((stampSigLoop E ctx pk raw ds sigs st).error = none → st.error = none ∧
        (stampSigLoop E ctx pk raw ds sigs st).sigValid = st.sigValid ∧
        (stampSigLoop E ctx pk raw ds sigs st).digestValid = (stampSigLoop E ctx pk raw ds sigs st).digestVerified ∧
        (ctx ≠ none → ((stampSigLoop E ctx pk raw ds sigs st).digestVerified = true ↔
          st.digestVerified = true ∨ ∃ g ∈ sigs, ∃ d, FirstFor g.algo ds d)))
  | [], st, h0 => ⟨rfl, fun h => ⟨h, rfl, h0, fun _ => by simp [stampSigLoop]⟩⟩
  | g :: gs, st, h0 => by
    rw [stampSigLoop]
    by_cases hv : g.algo.verify E pk raw g.signature = true
    · simp only [hv, Bool.not_true, Bool.false_eq_true, if_false]
      cases hf : ds.find? (fun d => d.algo == g.algo) with
      | none =>
        dsimp only
        have hno : ∀ d, ¬ FirstFor g.algo ds d := by
          intro d hd
          rw [← find?_firstFor, hf] at hd
          cases hd
        obtain ⟨i1, i2⟩ := stampSigLoop_facts (E := E) (ctx := ctx) (pk := pk) (raw := raw) (ds := ds) gs st h0
        refine ⟨i1, fun h => ?_⟩
        obtain ⟨j1, j2, j3, j4⟩ := i2 h
        refine ⟨j1, j2, j3, fun hc => (j4 hc).trans ?_⟩
        constructor
        · rintro (h | ⟨x, hx, d⟩)
          · exact .inl h
          · exact .inr ⟨x, by simp [hx], d⟩
        · rintro (h | ⟨x, hx, d, hd⟩)
          · exact .inl h
          · rcases List.mem_cons.mp hx with rfl | hx
            · exact absurd hd (hno d)
            · exact .inr ⟨x, hx, d, hd⟩
      | some d =>
        have hd := find?_firstFor.mp hf
        dsimp only
        cases ctx with
        | none =>
          dsimp only
          obtain ⟨i1, i2⟩ := stampSigLoop_facts (E := E) (ctx := none) (pk := pk) (raw := raw) (ds := ds) gs st h0
          refine ⟨i1, fun h => ?_⟩
          obtain ⟨j1, j2, j3, _⟩ := i2 h
          exact ⟨j1, j2, j3, fun hc => absurd rfl hc⟩
        | some c =>
          dsimp only
          by_cases hc : c.verify g.algo.toU32 d.digest = true
          · simp only [hc, Bool.not_true, Bool.false_eq_true, if_false]
            obtain ⟨i1, i2⟩ := stampSigLoop_facts (E := E) (ctx := some c) (pk := pk) (raw := raw) (ds := ds) gs
              { st with digestValid := true, digestVerified := true } rfl
            refine ⟨i1, fun h => ?_⟩
            obtain ⟨j1, j2, j3, j4⟩ := i2 h
            refine ⟨j1, j2, j3, fun hcn => ?_⟩
            constructor
            · intro _; exact .inr ⟨g, by simp, d, hd⟩
            · intro _; exact (j4 hcn).mpr (.inl rfl)
          · simp only [hc, Bool.not_false, if_true]
            have hmono : ∀ (l : List Sig) (st' : SigState), st'.error ≠ none →
                (stampSigLoop E (some c) pk raw ds l st').error ≠ none ∧
                (stampSigLoop E (some c) pk raw ds l st').warnings = st'.warnings := by
              intro l
              induction l with
              | nil => intro st' h; exact ⟨h, rfl⟩
              | cons x xs ih =>
                intro st' h
                rw [stampSigLoop]
                split
                · exact ⟨by simp, rfl⟩
                · split
                  · exact ih st' h
                  · dsimp only
                    split
                    · exact ih _ (by simp)
                    · exact ih _ h
            have := hmono gs { st with error := some .digestMismatch, digestValid := false } (by simp)
            exact ⟨this.2, fun h => absurd h this.1⟩
    · simp only [hv, Bool.not_false, if_true]
      exact ⟨trivial, fun h => by cases h⟩

/-- C75 for source stamps: in a returned report the signatures are always valid; a digest flag that is not set has a warning;
with a certificate, so has a trust or chain flag that is not set; and every warning is true of the first stamp. -/
theorem C75_stamp_explained {E : Env} {added : List Bytes} {now : Nat} {b : SigningBlock} {ctx : Option DigestCtx}
    {r : VResult} (h : verifySourceStamp E (storeOf E added) now b ctx = .ok r) :
    ∃ s rest, stamps b = s :: rest ∧ r.sigValid = true ∧
      (r.digestValid = false → (1, .notVerified) ∈ r.warnings ∨ (1, .noMatchingDigest) ∈ r.warnings) ∧
      (stampCertsOf s ≠ [] → r.trusted = false ∨ r.chainValid = false → ∃ m, (1, .chain m) ∈ r.warnings) ∧
      ∀ n w, (n, w) ∈ r.warnings → n = 1 ∧ ((w = .notVerified ∧ ctx = none) ∨
        (w = .noMatchingDigest ∧ ∀ g ∈ s.sigs.data, ∀ d ∈ s.signedData.digests.data, d.algo ≠ g.algo) ∨
        ∃ leaf more m, stampCertsOf s = leaf :: more ∧ w = .chain m ∧ ChainMsg.TrueOf E added now leaf [] m) := by
  obtain ⟨s, rest, hs, hr⟩ := verifySourceStamp_signers h
  have he : (verifyStamp E (storeOf E added) now ctx s).1.error = none := by
    rw [verifySourceStamp, stampLoop_eq, hs] at h
    dsimp only at h
    rcases concludeVerify_cases [(verifyStamp E (storeOf E added) now ctx s).1] with ⟨h1, _⟩ | ⟨_, _, he⟩ | ⟨_, hall, _⟩
    · cases h1
    · rw [he] at h; cases h
    · exact hall _ (by simp)
  subst hr
  unfold verifyStamp at he ⊢
  rw [sliceFrom?_4_stamp] at he ⊢
  dsimp only at he ⊢
  have hfacts := stampSigLoop_facts (E := E) (ctx := ctx) (pk := s.pubKey.data) (raw := s.signedData.toU8.drop 4)
    (ds := s.signedData.digests.data) s.sigs.data SigState.init rfl
  have hadj : ∀ st0, st0.warnings = [] → (st0.error = none → SigState.init.error = none ∧ st0.sigValid = SigState.init.sigValid ∧
      st0.digestValid = st0.digestVerified ∧ (ctx ≠ none → (st0.digestVerified = true ↔ SigState.init.digestVerified = true ∨
        ∃ g ∈ s.sigs.data, ∃ d, FirstFor g.algo s.signedData.digests.data d))) →
      (stampAdjust ctx st0).error = none → (stampAdjust ctx st0).sigValid = true ∧
      ((stampAdjust ctx st0).digestValid = false → .notVerified ∈ (stampAdjust ctx st0).warnings ∨
        .noMatchingDigest ∈ (stampAdjust ctx st0).warnings) ∧
      ∀ w ∈ (stampAdjust ctx st0).warnings, (w = .notVerified ∧ ctx = none) ∨
        (w = .noMatchingDigest ∧ ∀ g ∈ s.sigs.data, ∀ d ∈ s.signedData.digests.data, d.algo ≠ g.algo) := by
    intro st0 hw hf hae
    unfold stampAdjust at hae ⊢
    cases ctx with
    | none =>
      simp only [Option.isNone_none, if_true] at hae ⊢
      obtain ⟨-, f2, -⟩ := hf hae
      refine ⟨f2, fun _ => .inl (by simp), fun w hm => .inl ⟨?_, trivial⟩⟩
      rw [hw] at hm; simpa using hm
    | some c =>
      simp only [Option.isNone_some, Bool.false_eq_true, if_false] at hae ⊢
      cases hd : st0.digestVerified with
      | true =>
        simp only [hd, Bool.not_true, Bool.false_and, Bool.false_eq_true, if_false] at hae ⊢
        obtain ⟨-, f2, f3, -⟩ := hf hae
        refine ⟨f2, fun h => ?_, fun w hm => ?_⟩
        · rw [f3, hd] at h; cases h
        · rw [hw] at hm; cases hm
      | false =>
        cases hse : st0.error with
        | some e =>
          simp only [hd, hse, Bool.not_false, Bool.true_and, Option.isNone_some, Bool.false_eq_true, if_false] at hae
          cases hae
        | none =>
          simp only [Bool.not_false, Bool.true_and, Option.isNone_none, if_true]
          obtain ⟨-, f2, -, f4⟩ := hf hse
          refine ⟨f2, fun _ => .inr (by simp), fun w hm => .inr ⟨by rw [hw] at hm; simpa using hm, fun g hg d hdm hda => ?_⟩⟩
          have hex : ∃ d', FirstFor g.algo s.signedData.digests.data d' := by
            cases hfind : s.signedData.digests.data.find? (fun d => d.algo == g.algo) with
            | none =>
              have := List.find?_eq_none.mp hfind d hdm
              simp [hda] at this
            | some d' => exact ⟨d', find?_firstFor.mp hfind⟩
          have := (f4 (by simp)).mpr (.inr ⟨g, hg, hex⟩)
          rw [hd] at this; cases this
  have hadj' := hadj _ (by rw [hfacts.1]; rfl) hfacts.2
  generalize stampAdjust ctx _ = st at he hadj' ⊢
  obtain ⟨e1, e2, e3, e4, e5⟩ := finishSigner_fields he
  obtain ⟨a1, a2, a3⟩ := hadj' e1
  have hwarn : (VResult.fromSigners [finishSigner E (storeOf E added) now 0 s.pubKey.data
      (s.signedData.certs.data.map (·.cert)) [] [] st]).warnings = (finishSigner E (storeOf E added) now 0 s.pubKey.data
      (s.signedData.certs.data.map (·.cert)) [] [] st).warnings.map fun w => (1, w) := by
    simp [VResult.fromSigners]
  have hmem : ∀ n w, (n, w) ∈ (VResult.fromSigners [finishSigner E (storeOf E added) now 0 s.pubKey.data
      (s.signedData.certs.data.map (·.cert)) [] [] st]).warnings ↔ n = 1 ∧ w ∈ (finishSigner E (storeOf E added) now 0
      s.pubKey.data (s.signedData.certs.data.map (·.cert)) [] [] st).warnings := by
    intro n w
    rw [hwarn]
    simp only [List.mem_map, Prod.mk.injEq]
    constructor
    · rintro ⟨x, hx, rfl, rfl⟩; exact ⟨rfl, hx⟩
    · rintro ⟨rfl, hx⟩; exact ⟨w, hx, rfl, rfl⟩
  have hsub : ∀ w ∈ st.warnings, w ∈ (finishSigner E (storeOf E added) now 0 s.pubKey.data
      (s.signedData.certs.data.map (·.cert)) [] [] st).warnings := by
    intro w hw
    rcases e5 with ⟨_, _, _, _, e⟩ | ⟨leaf, more, _, _, _, _, _, e⟩
    · rw [e]; exact hw
    · rw [e]; exact List.mem_append_left _ hw
  refine ⟨s, rest, hs, ?_, fun hd => ?_, fun hc ht => ?_, fun n w hm => ?_⟩
  · simp [VResult.fromSigners, e4, a1]
  · have hd' : st.digestValid = false := by
      have : (VResult.fromSigners [finishSigner E (storeOf E added) now 0 s.pubKey.data
        (s.signedData.certs.data.map (·.cert)) [] [] st]).digestValid = st.digestValid := by
        simp [VResult.fromSigners, finishSigner_digestValid]
      rw [← this]; exact hd
    rcases a2 hd' with h | h
    · exact .inl ((hmem 1 _).mpr ⟨rfl, hsub _ h⟩)
    · exact .inr ((hmem 1 _).mpr ⟨rfl, hsub _ h⟩)
  · rcases e5 with ⟨c1, _⟩ | ⟨leaf, more, c1, _, _, c3, c4, c5⟩
    · exact absurd c1 hc
    · have hf : (verifyChain E (storeOf E added) now leaf []).2.1 = false := by
        rcases ht with ht | ht
        · rw [← c4]; simpa [VResult.fromSigners] using ht
        · cases hv : (verifyChain E (storeOf E added) now leaf []).2.1 with
          | false => rfl
          | true =>
            have ht' : (finishSigner E (storeOf E added) now 0 s.pubKey.data
              (s.signedData.certs.data.map (·.cert)) [] [] st).chainValid = false := by
              simpa [VResult.fromSigners] using ht
            rw [c3, verifyChain_valid_of_trusted hv] at ht'
            cases ht'
      cases hm : (verifyChain E (storeOf E added) now leaf []).2.2 with
      | none => rw [verifyChain_none, hf] at hm; cases hm
      | some m =>
        refine ⟨m, (hmem 1 _).mpr ⟨rfl, ?_⟩⟩
        rw [c5, hm]; simp
  · obtain ⟨rfl, hw⟩ := (hmem n w).mp hm
    refine ⟨rfl, ?_⟩
    rcases e5 with ⟨_, _, _, _, e⟩ | ⟨leaf, more, c1, _, _, _, _, e⟩
    · rw [e] at hw
      rcases a3 w hw with h | h
      · exact .inl h
      · exact .inr (.inl h)
    · rw [e] at hw
      rcases List.mem_append.mp hw with hw | hw
      · rcases a3 w hw with h | h
        · exact .inl h
        · exact .inr (.inl h)
      · cases hm : (verifyChain E (storeOf E added) now leaf []).2.2 with
        | none => rw [hm] at hw; cases hw
        | some m =>
          rw [hm] at hw
          exact .inr (.inr ⟨leaf, more, m, c1, by simpa using hw, (verifyChain_msg m).mp hm⟩)

example : ∃ r, verifySourceStamp toyEnv (storeOf toyEnv [[8]]) 0 (toyBlock [1, 2]) none = .ok r ∧
    (r.warnings.length == 2 && !r.trusted && !r.digestValid) = true := exists_verdict (by decide +kernel)

/-! ### C76 -/

/-- A V2 signer fails verification with the computed digests: its leaf certificate carries another key; or one of its
signatures, all earlier ones having a digest and being correct, has a digest and is incorrect or its digest is not the
computed one. (A signature without a digest ends the examination with a warning.) -/
def SignerFails (E : Env) (computed : UInt32 → Option Bytes) (s : SignerV2) : Prop :=
  (∃ leaf rest, certsOf s = leaf :: rest ∧ E.certSpki leaf ≠ some s.pubKey.data) ∨
  ∃ pre g post d, s.sigs.data = pre ++ g :: post ∧
    (∀ x ∈ pre, CryptoOk E x.algo s.pubKey.data (s.signedData.toU8.drop 4) x.signature ∧
      ∃ e, FirstFor x.algo s.signedData.digests.data e) ∧
    FirstFor g.algo s.signedData.digests.data d ∧
    (¬ CryptoOk E g.algo s.pubKey.data (s.signedData.toU8.drop 4) g.signature ∨ computed g.algo.toU32 ≠ some d.digest)

theorem v2SigLoop_fails {E : Env} {c : DigestCtx} {pk raw : Bytes} {ds : List Digest} :
    ∀ (sigs : List Sig) (st : SigState), (v2SigLoop E (some c) pk raw ds sigs st).error ≠ none ↔ st.error ≠ none ∨
      ∃ pre g post d, sigs = pre ++ g :: post ∧
        (∀ x ∈ pre, CryptoOk E x.algo pk raw x.signature ∧ ∃ e, FirstFor x.algo ds e) ∧ FirstFor g.algo ds d ∧
        (¬ CryptoOk E g.algo pk raw g.signature ∨ c.get g.algo.toU32 ≠ some d.digest)
  | [], st => by
    constructor
    · intro h; exact .inl h
    · rintro (h | ⟨pre, g, post, d, h, _⟩)
      · exact h
      · simp at h
  | g :: gs, st => by
    rw [v2SigLoop]
    cases hf : ds.find? (fun d => d.algo == g.algo) with
    | none =>
      have hno : ∀ d, ¬ FirstFor g.algo ds d := by
        intro d hd
        rw [← find?_firstFor, hf] at hd
        cases hd
      constructor
      · intro h; exact .inl h
      · rintro (h | ⟨pre, x, post, d, h, h2, h3, _⟩)
        · exact h
        · exfalso
          cases pre with
          | nil => injection h with h; subst h; exact hno d h3
          | cons y ys =>
            injection h with h; subst h
            obtain ⟨_, e, he⟩ := h2 g (by simp)
            exact hno e he
    | some d =>
      have hd := find?_firstFor.mp hf
      dsimp only
      by_cases hv : g.algo.verify E pk raw g.signature = true
      · have hcr := Algo.verify_iff.mp hv
        simp only [hv, Bool.not_true, Bool.false_eq_true, if_false]
        by_cases hc : c.verify g.algo.toU32 d.digest = true
        · have hcd := DigestCtx.verify_iff.mp hc
          simp only [hc, Bool.not_true, Bool.false_eq_true, if_false]
          rw [v2SigLoop_fails gs]
          constructor
          · rintro (h | ⟨pre, x, post, e, h1, h2, h3⟩)
            · exact .inl h
            · refine .inr ⟨g :: pre, x, post, e, by rw [h1]; rfl, fun y hy => ?_, h3⟩
              rcases List.mem_cons.mp hy with rfl | hy
              · exact ⟨hcr, d, hd⟩
              · exact h2 y hy
          · rintro (h | ⟨pre, x, post, e, h1, h2, h3, h4⟩)
            · exact .inl h
            · cases pre with
              | nil =>
                injection h1 with h1; subst h1
                exfalso
                have : d = e := by
                  have := find?_firstFor.mpr h3
                  rw [hf] at this
                  injection this
                subst this
                rcases h4 with h4 | h4
                · exact h4 hcr
                · exact h4 hcd
              | cons y ys =>
                injection h1 with h1 h1'
                exact .inr ⟨ys, x, post, e, h1', fun z hz => h2 z (by simp [hz]), h3, h4⟩
        · simp only [hc, Bool.not_false, if_true]
          rw [v2SigLoop_fails gs]
          constructor
          · intro _
            exact .inr ⟨[], g, gs, d, rfl, by simp, hd, .inr fun h => hc (DigestCtx.verify_iff.mpr h)⟩
          · intro _; exact .inl (by simp)
      · simp only [hv, Bool.not_false, if_true]
        constructor
        · intro _
          exact .inr ⟨[], g, gs, d, rfl, by simp, hd, .inl fun h => hv (Algo.verify_iff.mpr h)⟩
        · intro _; simp

theorem verifySigner_fails {E : Env} {roots : Roots} {now n : Nat} {c : DigestCtx} {s : SignerV2} :
    (verifySigner E roots now (some c) n s).error ≠ none ↔ SignerFails E c.get s := by
  unfold verifySigner SignerFails certsOf
  rw [sliceFrom?_4_signed]
  dsimp only
  have hl := v2SigLoop_fails (E := E) (c := c) (pk := s.pubKey.data) (raw := s.signedData.toU8.drop 4)
    (ds := s.signedData.digests.data) s.sigs.data SigState.init
  have h0 : ¬ SigState.init.error ≠ none := by simp [SigState.init]
  rw [or_iff_right h0] at hl
  rw [← hl]
  generalize v2SigLoop E (some c) s.pubKey.data _ _ _ _ = st
  cases s.signedData.certs.data.map (·.cert) with
  | nil => simp [finishSigner]
  | cons leaf rest =>
    unfold finishSigner
    by_cases hb : verifyPubkeyBinding E s.pubKey.data leaf = true
    · have hk := verifyPubkeyBinding_iff.mp hb
      simp only [hb, Bool.not_true, Bool.false_eq_true, if_false]
      constructor
      · intro h; exact .inr h
      · rintro (⟨l, r, h, h'⟩ | h)
        · injection h with h; subst h; exact absurd hk h'
        · exact h
    · simp only [hb, Bool.not_false, if_true]
      constructor
      · intro _
        exact .inl ⟨leaf, rest, rfl, fun h => hb (verifyPubkeyBinding_iff.mpr h)⟩
      · intro _; simp

/-- The errors of the signers, one place per signer, as far as verification lists them. -/
theorem failures_outcome {E : Env} {roots : Roots} {now : Nat} {b : SigningBlock} {c : DigestCtx}
    {es : List SignerErr} (h : verifyV2 E roots now b (some c) = .err (.multiSigner es)) :
    ∃ outcome : List (Option SignerErr), outcome.length = (v2Signers b).length ∧ es = outcome.filterMap id ∧ es ≠ [] ∧
      ∀ i (h1 : i < outcome.length) (h2 : i < (v2Signers b).length),
        outcome[i] ≠ none ↔ SignerFails E c.get (v2Signers b)[i] := by
  obtain ⟨idx, hlen, hz⟩ := v2Results_zip E roots now b (some c)
  rw [verifyV2_eq] at h
  rcases concludeVerify_cases (v2Results E roots now b (some c)) with ⟨_, he⟩ | ⟨_, ⟨x, hx, hxe⟩, he⟩ | ⟨_, _, he⟩
  · rw [he] at h; cases h
  · rw [he] at h
    injection h with h
    injection h with h
    refine ⟨(v2Results E roots now b (some c)).map (·.error), by rw [hz]; simp [hlen], ?_, ?_, fun i h1 h2 => ?_⟩
    · rw [← h, List.filterMap_map]; rfl
    · rw [← h]
      intro hn
      rw [List.filterMap_eq_nil_iff] at hn
      exact hxe (hn x hx)
    · rw [← verifySigner_fails (roots := roots) (now := now) (n := idx[i]'(by omega))]
      simp [hz]
  · rw [he] at h; cases h

/-- The failing signers of a block. -/
def CountFails (E : Env) (computed : UInt32 → Option Bytes) : List SignerV2 → Nat → Prop
  | [], n => n = 0
  | s :: ss, n => (SignerFails E computed s ∧ ∃ k, n = k + 1 ∧ CountFails E computed ss k) ∨
    (¬ SignerFails E computed s ∧ CountFails E computed ss n)

/-- C76: V2 verification is refused with a list of failures exactly if some signer fails, and the list then has one failure
per failing signer. -/
theorem C76_one_failure_each {E : Env} {roots : Roots} {now : Nat} {b : SigningBlock} {c : DigestCtx} :
    ((∃ es, verifyV2 E roots now b (some c) = .err (.multiSigner es)) ↔ ∃ s ∈ v2Signers b, SignerFails E c.get s) ∧
    ∀ es, verifyV2 E roots now b (some c) = .err (.multiSigner es) → CountFails E c.get (v2Signers b) es.length := by
  constructor
  · constructor
    · rintro ⟨es, h⟩
      obtain ⟨out, h1, h2, h3, h4⟩ := failures_outcome h
      obtain ⟨e, hem⟩ := List.exists_mem_of_ne_nil _ h3
      rw [h2, List.mem_filterMap] at hem
      obtain ⟨o, ho, hoe⟩ := hem
      obtain ⟨i, hi, rfl⟩ := List.getElem_of_mem ho
      refine ⟨_, List.getElem_mem (by omega), (h4 i hi (by omega)).mp ?_⟩
      simp only [id] at hoe
      rw [hoe]; simp
    · rintro ⟨s, hs, hf⟩
      obtain ⟨i, hm⟩ := v2Results_of_mem (E := E) (roots := roots) (now := now) (ctx := some c) hs
      have hne := (verifySigner_fails (roots := roots) (now := now) (n := i)).mpr hf
      rw [verifyV2_eq]
      rcases concludeVerify_cases (v2Results E roots now b (some c)) with ⟨h, _⟩ | ⟨_, _, he⟩ | ⟨_, hall, _⟩
      · rw [h] at hm; cases hm
      · exact ⟨_, he⟩
      · exact absurd (hall _ hm) hne
  · intro es h
    obtain ⟨out, h1, h2, -, h4⟩ := failures_outcome h
    subst h2
    generalize v2Signers b = ss at *
    clear h
    induction ss generalizing out with
    | nil =>
      have : out = [] := List.length_eq_zero_iff.mp h1
      subst this; rfl
    | cons s ss ih =>
      cases out with
      | nil => simp at h1
      | cons o os =>
        have h0 := h4 0 (by simp) (by simp)
        simp only [List.getElem_cons_zero] at h0
        have ih' := ih os (by simpa using h1) (fun i h1 h2 => by
          have := h4 (i + 1) (by simpa using h1) (by simpa using h2)
          simpa using this)
        cases o with
        | none =>
          refine .inr ⟨fun hf => absurd rfl (h0.mpr hf), ?_⟩
          simpa using ih'
        | some e =>
          refine .inl ⟨h0.mp (by simp), (os.filterMap id).length, by simp, ih'⟩

/-- C76 fails for the numbers the verify command prints in front of the failures: if the first signer does not fail but
another one does, the command says that signer number 1 failed. -/
theorem C76_wrong_signer_named {E : Env} {roots : Roots} {now : Nat} {b : SigningBlock} {c : DigestCtx} {s t : SignerV2}
    {more : List SignerV2} (hb : v2Signers b = s :: more) (hs : ¬ SignerFails E c.get s) (ht : t ∈ more)
    (hf : SignerFails E c.get t) :
    ∃ es e h0, verifyV2 E roots now b (some c) = .err (.multiSigner es) ∧ (1, e) ∈ cliFailureLines es ∧
      ¬ SignerFails E c.get ((v2Signers b)[0]'h0) := by
  have hm : t ∈ v2Signers b := by rw [hb]; simp [ht]
  obtain ⟨es, he⟩ := (C76_one_failure_each (E := E) (roots := roots) (now := now) (b := b) (c := c)).1.mpr ⟨t, hm, hf⟩
  obtain ⟨_, _, _, hne, _⟩ := failures_outcome he
  cases es with
  | nil => exact absurd rfl hne
  | cons e es => exact ⟨_, e, by rw [hb]; simp, he, by simp [cliFailureLines, List.zipIdx_cons], by simpa [hb] using hs⟩

/-- A correct signer followed by one whose signature is wrong. -/
def secondBad : SigningBlock :=
  blockOf [Value.newV2 (SignersV2.new [toySigner [1, 2],
    SignerV2.new (toySigned [1, 2]) (Sigs.new [Sig.new .p256 [0]]) (PubKey.new [7])])]

example : ∃ es, verifyV2 toyEnv (storeOf toyEnv [[7]]) 0 secondBad (some (toyCtx [1, 2])) = .err (.multiSigner es) ∧
    cliFailureLines es = [(1, .signatureFailed)] :=
  ⟨[.signatureFailed], by decide +kernel, rfl⟩

/-- C76, what holds: if no failing signer comes behind one that does not fail, the number printed in front of each failure is
that of a failing signer, and every failing signer is named (missing: other orders). -/
theorem C76_numbers_partial {E : Env} {roots : Roots} {now : Nat} {b : SigningBlock} {c : DigestCtx} {bad good : List SignerV2}
    (hb : v2Signers b = bad ++ good) (hbad : ∀ s ∈ bad, SignerFails E c.get s) (hgood : ∀ s ∈ good, ¬ SignerFails E c.get s)
    (hne : bad ≠ []) :
    ∃ es, verifyV2 E roots now b (some c) = .err (.multiSigner es) ∧
      ∀ n, (∃ e, (n, e) ∈ cliFailureLines es) ↔ ∃ i, ∃ h : i < (v2Signers b).length, n = i + 1 ∧
        SignerFails E c.get (v2Signers b)[i] := by
  obtain ⟨t, ht⟩ := List.exists_mem_of_ne_nil _ hne
  have hm : t ∈ v2Signers b := by rw [hb]; simp [ht]
  obtain ⟨es, he⟩ := (C76_one_failure_each (E := E) (roots := roots) (now := now) (b := b) (c := c)).1.mpr ⟨t, hm, hbad t ht⟩
  have hcount := (C76_one_failure_each (E := E) (roots := roots) (now := now) (b := b) (c := c)).2 es he
  have hlen : es.length = bad.length := by
    rw [hb] at hcount
    clear he hb hne hm ht
    generalize es.length = n at hcount ⊢
    have hg : ∀ (l : List SignerV2) n, (∀ s ∈ l, ¬ SignerFails E c.get s) → CountFails E c.get l n → n = 0 := by
      intro l
      induction l with
      | nil => intro n _ h; exact h
      | cons s ss ih =>
        intro n hl h
        rcases h with ⟨h, _⟩ | ⟨_, h⟩
        · exact absurd h (hl s (by simp))
        · exact ih n (fun x hx => hl x (by simp [hx])) h
    induction bad generalizing n with
    | nil => exact hg good n hgood hcount
    | cons s ss ih =>
      rcases hcount with ⟨_, k, rfl, h⟩ | ⟨h, _⟩
      · rw [ih (fun x hx => hbad x (by simp [hx])) k h]; rfl
      · exact absurd (hbad s (by simp)) h
  refine ⟨es, he, fun n => ?_⟩
  have hmem : (∃ e, (n, e) ∈ cliFailureLines es) ↔ ∃ i, i < es.length ∧ n = i + 1 := by
    unfold cliFailureLines
    constructor
    · rintro ⟨e, h⟩
      obtain ⟨⟨x, i⟩, hx, h⟩ := List.mem_map.mp h
      injection h with h1 h2
      have := List.mem_zipIdx hx
      simp only [Nat.zero_add, Nat.sub_zero] at this
      exact ⟨i, this.2.1, h1.symm⟩
    · rintro ⟨i, hi, rfl⟩
      refine ⟨es[i], List.mem_map.mpr ⟨(es[i], i), ?_, rfl⟩⟩
      rw [List.mk_mem_zipIdx_iff_getElem?]
      exact List.getElem?_eq_getElem hi
  rw [hmem, hlen]
  constructor
  · rintro ⟨i, hi, rfl⟩
    refine ⟨i, by rw [hb]; simp; omega, rfl, ?_⟩
    have : (v2Signers b)[i]'(by rw [hb]; simp; omega) = bad[i] := by
      simp only [hb, List.getElem_append_left hi]
    rw [this]
    exact hbad _ (List.getElem_mem hi)
  · rintro ⟨i, hi, rfl, hf⟩
    refine ⟨i, ?_, rfl⟩
    rcases Nat.lt_or_ge i bad.length with h | h
    · exact h
    · exfalso
      have hl : i < (bad ++ good).length := by rw [← hb]; exact hi
      have : (v2Signers b)[i] = good[i - bad.length]'(by simp at hl; omega) := by
        simp only [hb, List.getElem_append_right h]
      rw [this] at hf
      exact hgood _ (List.getElem_mem _) hf

example : ∃ es, verifyV2 toyEnv (storeOf toyEnv [[7]]) 0
    (blockOf [Value.newV2 (SignersV2.new [SignerV2.new (toySigned [1, 2]) (Sigs.new [Sig.new .p256 [0]]) (PubKey.new [7]),
      toySigner [1, 2]])]) (some (toyCtx [1, 2])) = .err (.multiSigner es) ∧ cliFailureLines es = [(1, .signatureFailed)] :=
  ⟨[.signatureFailed], by decide +kernel, rfl⟩

end Ksusig.Props
