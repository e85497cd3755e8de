import Verif.Props.Commands
import Verif.SpecKeys

/-!
Property theorems C40, C41 and C66–C69: loading keys and certificates, and the credentials of the sign command.
-/

namespace Ksusig.Props

open Ksusig Ksusig.Spec

/-! ### A toy key store for the examples -/

/-- Text starting with 1 is a P-256 key, with 2 a P-384 key, with 3 a P-256 key encrypted with the password that follows it.
A bundle is a list of bytes: 0 is a broken block, 1 a block that is no certificate, everything else a certificate. -/
def toyKeys : KeyEnv where
  p256Pkcs8Pem d := match d with | 1 :: k => some k | _ => none
  p384Pkcs8Pem d := match d with | 2 :: k => some k | _ => none
  p256Sec1Pem _ := none
  p384Sec1Pem _ := none
  p256EncPem d pwd := match d with | 3 :: k => if pwd.isPrefixOf k then some (k.drop pwd.length) else none | _ => none
  p384EncPem _ _ := none
  p256Pkcs8Der d := match d with | 1 :: k => some k | _ => none
  p384Pkcs8Der d := match d with | 2 :: k => some k | _ => none
  p256Sec1Der _ := none
  p384Sec1Der _ := none
  pemBlocks d := d.map fun b => if b = 0 then none else if b = 1 then some ("EC PRIVATE KEY", [b]) else some ("CERTIFICATE", [b])
  p12Ok d := d != []
  p12Keys d pwd := if pwd = [1] then some [d] else none
  p12Certs d pwd := if pwd = [1] then some (d.map fun b => [b]) else none

/-! ### C40 -/

/-- C40: signing succeeds exactly when key and algorithm belong together, and then the algorithm's id is the one of the
key's curve; otherwise it reports the mismatch. -/
theorem C40_sign_iff {E : Env} {a : Algo} {key : PrivateKey} {msg : Bytes} :
    ((∃ sig, a.sign E key msg = .ok sig) ↔
      (∃ k, key = .p256 k ∧ a.toU32 = 0x0201 ∧ Known a) ∨ ∃ k, key = .p384 k ∧ a.toU32 = 0x0202 ∧ Known a) ∧
    ((∃ sig, a.sign E key msg = .ok sig) ↔ Matching a key) ∧
    (¬ Matching a key → a.sign E key msg = .err .keyMismatch) := by
  cases a <;> cases key <;> simp [Algo.sign, Matching, Algo.toU32, Known]

example : Matching .p256 (.p256 [7]) ∧ ¬ Matching .p384 (.p256 [7]) := by decide

theorem firstKey_mem : ∀ {l : List (Option (PrivateKey × Algo))} {x : PrivateKey × Algo}, firstKey l = some x → some x ∈ l
  | some y :: _, x, h => by
    simp only [firstKey, Option.some.injEq] at h
    rw [h]; exact List.mem_cons_self
  | none :: l, x, h => List.mem_cons_of_mem _ (firstKey_mem (l := l) h)

theorem asP256_eq {k : Option Bytes} {key : PrivateKey} {a : Algo} (h : some (key, a) = asP256 k) :
    ∃ k', k = some k' ∧ key = .p256 k' ∧ a = .p256 := by
  cases k with
  | none => cases h
  | some k' => cases h; exact ⟨k', rfl, rfl, rfl⟩

theorem asP384_eq {k : Option Bytes} {key : PrivateKey} {a : Algo} (h : some (key, a) = asP384 k) :
    ∃ k', k = some k' ∧ key = .p384 k' ∧ a = .p384 := by
  cases k with
  | none => cases h
  | some k' => cases h; exact ⟨k', rfl, rfl, rfl⟩

/-- C40: a private key loaded from text comes with its own algorithm, and is what a decoder for its curve returned. -/
theorem C40_key_from_pem {K : KeyEnv} {text : Bytes} {password : Option Bytes} {key : PrivateKey} {a : Algo}
    (h : parseKeyPem K text password = .ok (key, a)) : Matching a key ∧ PemKey K text password key := by
  unfold parseKeyPem at h
  split at h
  · cases h
  split at h
  · rename_i x hx
    cases h
    have hm := firstKey_mem hx
    simp only [List.mem_cons, List.not_mem_nil, or_false] at hm
    rcases hm with hm | hm | hm | hm
    · obtain ⟨k, h1, rfl, rfl⟩ := asP256_eq hm; exact ⟨trivial, .inl h1⟩
    · obtain ⟨k, h1, rfl, rfl⟩ := asP384_eq hm; exact ⟨trivial, .inl h1⟩
    · obtain ⟨k, h1, rfl, rfl⟩ := asP256_eq hm; exact ⟨trivial, .inr (.inl h1)⟩
    · obtain ⟨k, h1, rfl, rfl⟩ := asP384_eq hm; exact ⟨trivial, .inr (.inl h1)⟩
  split at h
  · rename_i pwd
    split at h
    · rename_i x hx
      cases h
      have hm := firstKey_mem hx
      simp only [List.mem_cons, List.not_mem_nil, or_false] at hm
      rcases hm with hm | hm
      · obtain ⟨k, h1, rfl, rfl⟩ := asP256_eq hm; exact ⟨trivial, .inr (.inr ⟨pwd, rfl, h1⟩)⟩
      · obtain ⟨k, h1, rfl, rfl⟩ := asP384_eq hm; exact ⟨trivial, .inr (.inr ⟨pwd, rfl, h1⟩)⟩
    · cases h
  · split at h <;> cases h

/-- C40: the same for binary encodings. -/
theorem C40_key_from_der {K : KeyEnv} {der : Bytes} {key : PrivateKey} {a : Algo}
    (h : parseKeyDer K der = .ok (key, a)) : Matching a key ∧ DerKey K der key := by
  unfold parseKeyDer at h
  split at h
  · rename_i x hx
    cases h
    have hm := firstKey_mem hx
    simp only [List.mem_cons, List.not_mem_nil, or_false] at hm
    rcases hm with hm | hm | hm | hm
    · obtain ⟨k, h1, rfl, rfl⟩ := asP256_eq hm; exact ⟨trivial, .inl h1⟩
    · obtain ⟨k, h1, rfl, rfl⟩ := asP384_eq hm; exact ⟨trivial, .inl h1⟩
    · obtain ⟨k, h1, rfl, rfl⟩ := asP256_eq hm; exact ⟨trivial, .inr h1⟩
    · obtain ⟨k, h1, rfl, rfl⟩ := asP384_eq hm; exact ⟨trivial, .inr h1⟩
  · cases h

theorem firstKey_none : ∀ {l : List (Option (PrivateKey × Algo))}, firstKey l = none ↔ ∀ x ∈ l, x = none
  | [] => by simp [firstKey]
  | some y :: _ => by simp [firstKey]
  | none :: l => by
    rw [firstKey, firstKey_none (l := l)]
    simp

/-- C40: a key that some decoder accepts is loaded (and then the first of them decides). -/
theorem C40_key_loads {K : KeyEnv} {text : Bytes} {password : Option Bytes} {key : PrivateKey} (hu : validUtf8 text = true)
    (h : PemKey K text password key) : ∃ key' a, parseKeyPem K text password = .ok (key', a) := by
  unfold parseKeyPem
  rw [if_neg (by simp [hu])]
  split
  · exact ⟨_, _, rfl⟩
  · rename_i hn
    rw [firstKey_none] at hn
    simp only [List.mem_cons, List.not_mem_nil, or_false, forall_eq_or_imp, forall_eq, asP256, asP384,
      Option.map_eq_none_iff] at hn
    obtain ⟨n1, n2, n3, n4⟩ := hn
    have he : ∃ pwd, password = some pwd ∧ ∃ k, K.p256EncPem text pwd = some k ∨ K.p384EncPem text pwd = some k := by
      cases key with
      | p256 k =>
        rcases h with h | h | ⟨pwd, hp, h⟩
        · rw [n1] at h; cases h
        · rw [n3] at h; cases h
        · exact ⟨pwd, hp, k, .inl h⟩
      | p384 k =>
        rcases h with h | h | ⟨pwd, hp, h⟩
        · rw [n2] at h; cases h
        · rw [n4] at h; cases h
        · exact ⟨pwd, hp, k, .inr h⟩
    obtain ⟨pwd, rfl, k, hk⟩ := he
    dsimp only
    split
    · exact ⟨_, _, rfl⟩
    · rename_i hn
      rw [firstKey_none] at hn
      simp only [List.mem_cons, List.not_mem_nil, or_false, forall_eq_or_imp, forall_eq, asP256, asP384,
        Option.map_eq_none_iff] at hn
      rcases hk with h | h
      · rw [hn.1] at h; cases h
      · rw [hn.2] at h; cases h

example : parseKeyPem toyKeys [3, 9, 9, 5] (some [9, 9]) = .ok (.p256 [5], .p256) ∧
    parseKeyPem toyKeys [2, 9] none = .ok (.p384 [9], .p384) := by decide +kernel

theorem loadPem_ok {K : KeyEnv} {key cert : Bytes} {password : Option Bytes} {c : Credentials}
    (h : loadPem K key cert password = .ok c) :
    parseKeyPem K key password = .ok (c.key, c.algo) ∧ parseChainPem K cert = .ok (c.cert, c.chain) := by
  unfold loadPem at h
  split at h
  · cases h
  split at h
  · cases h
  unfold loadPemBytes at h
  split at h
  · cases h
  · rename_i k a hk
    split at h
    · cases h
    · rename_i l ch hc
      cases h
      exact ⟨hk, hc⟩

theorem loadP12_ok {K : KeyEnv} {data pwd : Bytes} {c : Credentials} (h : loadP12 K data pwd = .ok c) :
    K.p12Ok data = true ∧ (∃ key keys, K.p12Keys data pwd = some (key :: keys) ∧ parseKeyDer K key = .ok (c.key, c.algo)) ∧
      K.p12Certs data pwd = some (c.cert :: c.chain) := by
  unfold loadP12 at h
  split at h
  · cases h
  rename_i h0
  split at h
  · cases h
  · cases h
  · cases h
  · cases h
  · rename_i key keys leaf chain hk hc
    split at h
    · cases h
    · rename_i k a hd
      cases h
      exact ⟨by simpa using h0, ⟨key, keys, hk, hd⟩, hc⟩

theorem load_ok {K : KeyEnv} {a : CredArgs} {c : Credentials} (h : a.load K = .ok (some c)) :
    (∃ data pwd, a.p12 = some data ∧ a.password = some pwd ∧ loadP12 K data pwd = .ok c) ∨
    ∃ key cert, a.p12 = none ∧ a.key = some key ∧ a.cert = some cert ∧ loadPem K key cert a.password = .ok c := by
  unfold CredArgs.load at h
  split at h
  · rename_i data hd
    split at h
    · cases h
    · rename_i pwd hp
      cases hl : loadP12 K data pwd with
      | error e => rw [hl] at h; cases h
      | ok c' => rw [hl] at h; cases h; exact .inl ⟨data, pwd, hd, hp, hl⟩
  · rename_i hn
    split at h
    · rename_i key hk
      split at h
      · cases h
      · rename_i cert hc
        cases hl : loadPem K key cert a.password with
        | error e => rw [hl] at h; cases h
        | ok c' => rw [hl] at h; cases h; exact .inr ⟨key, cert, hn, hk, hc, hl⟩
    · cases h

/-- C40: every credential the loaders return pairs a key with its own algorithm. -/
theorem C40_loaded_credentials_match {K : KeyEnv} :
    (∀ key cert password c, loadPem K key cert password = .ok c → Matching c.algo c.key) ∧
    (∀ key cert password c, loadPemBytes K key cert password = .ok c → Matching c.algo c.key) ∧
    (∀ data pwd c, loadP12 K data pwd = .ok c → Matching c.algo c.key) := by
  refine ⟨fun _ _ _ _ h => (C40_key_from_pem (loadPem_ok h).1).1, ?_, ?_⟩
  · intro key cert password c h
    unfold loadPemBytes at h
    split at h
    · cases h
    · rename_i k a hk
      split at h
      · cases h
      · cases h; exact (C40_key_from_pem hk).1
  · intro data pwd c h
    obtain ⟨_, ⟨_, _, _, hd⟩, _⟩ := loadP12_ok h
    exact (C40_key_from_der hd).1

example : loadPem toyKeys [1, 7] [7, 1, 8, 9] none = .ok ⟨.p256 [7], [7], .p256, [[8], [9]]⟩ ∧
    loadP12 toyKeys [2, 9] [1] = .ok ⟨.p384 [9], [2], .p384, [[9]]⟩ := by decide +kernel

theorem cliSigner_ok {K : KeyEnv} {v2 stamp : CredArgs} {m : ModuleSigner} (h : cliSigner K v2 stamp = .ok m) :
    ∃ c, v2.load K = .ok (some c) ∧
      ((stamp.load K = .ok none ∧ m = .v2Only (.ofCredentials c)) ∨
        ∃ s, stamp.load K = .ok (some s) ∧ m = .withSourceStamp (.ofCredentials c) (.ofCredentials s)) := by
  unfold cliSigner at h
  split at h
  · cases h
  · cases h
  · rename_i c hc
    split at h
    · cases h
    · rename_i hs; cases h; exact ⟨c, hc, .inl ⟨hs, rfl⟩⟩
    · rename_i s hs; cases h; exact ⟨c, hc, .inr ⟨s, hs, rfl⟩⟩

theorem load_match {K : KeyEnv} {a : CredArgs} {c : Credentials} (h : a.load K = .ok (some c)) : Matching c.algo c.key := by
  rcases load_ok h with ⟨data, pwd, _, _, hl⟩ | ⟨key, cert, _, _, _, hl⟩
  · exact C40_loaded_credentials_match.2.2 _ _ _ hl
  · exact C40_loaded_credentials_match.1 _ _ _ _ hl

theorem cliSigner_match {K : KeyEnv} {v2 stamp : CredArgs} {m : ModuleSigner} (h : cliSigner K v2 stamp = .ok m) :
    ∀ c, m.v2 = some c ∨ m.stamp = some c → Matching c.algo c.key := by
  obtain ⟨c, hc, h | ⟨s, hs, h⟩⟩ := cliSigner_ok h
  · obtain ⟨_, rfl⟩ := h
    rintro c' (h | h) <;> cases h
    exact load_match hc
  · subst h
    rintro c' (h | h) <;> cases h
    · exact load_match hc
    · exact load_match hs

theorem newWithPadding_errors {p : Profile} {c : List Value} {e : Err} (h : SigningBlock.newWithPadding p c = .err e) :
    e = .paddingExists ∨ e = .paddingTooLow ∨ e = .blockTooLarge := by
  rw [C04_exact_outcome_partial] at h
  split at h
  · cases h; simp
  · split at h
    · cases p <;> cases h
      simp
    · split at h
      · cases h; simp
      · cases h

theorem sign_no_mismatch {E : Env} {a : Algo} {key : PrivateKey} {msg : Bytes} (h : Matching a key) :
    a.sign E key msg ≠ .err .keyMismatch := by
  intro hx
  obtain ⟨sig, hs⟩ := C40_sign_iff.2.1.mpr h
  rw [hs] at hx; cases hx

theorem ofOption_err {α : Type} {e e' : Err} {o : Option α} (h : Res.ofOption e o = .err e') : e' = e := by
  cases o with
  | none => cases h; rfl
  | some _ => cases h

/-- A step that never ends with error `e`. -/
theorem bind_avoids {α β : Type} {e : Err} {x : Res α} {f : α → Res β} (h1 : x ≠ .err e) (h2 : ∀ a, f a ≠ .err e) :
    (x >>= f) ≠ .err e := by
  cases x with
  | ok a => exact h2 a
  | err e' => intro h; cases h; exact h1 rfl
  | panic => intro h; cases h

theorem ofOption_avoids {α : Type} {e e' : Err} {o : Option α} (h : e ≠ e') : Res.ofOption e o ≠ .err e' := by
  intro hx; exact h (ofOption_err hx).symm

theorem publicKeyDer_avoids {E : Env} {k : PrivateKey} : k.publicKeyDer E ≠ .err .keyMismatch := by
  cases k <;> exact ofOption_avoids (by decide)

theorem v2Sign_no_mismatch {E : Env} {c : SignerConfig} {ds : Digests} (h : Matching c.algo c.key) :
    v2Sign E c ds ≠ .err .keyMismatch := by
  unfold v2Sign
  refine bind_avoids (ofOption_avoids (by decide)) fun _ => ?_
  refine bind_avoids (sign_no_mismatch h) fun _ => ?_
  exact bind_avoids publicKeyDer_avoids fun _ hx => by cases hx

theorem stampSign_no_mismatch {E : Env} {c : SignerConfig} {ts : Bool} {clock : Option UInt64} {ds : Digests}
    (h : Matching c.algo c.key) : stampSign E c ts clock ds ≠ .err .keyMismatch := by
  unfold stampSign
  refine bind_avoids ?_ fun _ => ?_
  · unfold stampAttrs
    cases ts
    · intro hx; cases hx
    · exact bind_avoids (ofOption_avoids (by decide)) fun _ hx => by cases hx
  refine bind_avoids (ofOption_avoids (by decide)) fun _ => ?_
  refine bind_avoids (sign_no_mismatch h) fun _ => ?_
  exact bind_avoids publicKeyDer_avoids fun _ hx => by cases hx

/-- C40: signing anything with loaded credentials never fails with a mismatch of key and algorithm. -/
theorem C40_never_mismatch {K : KeyEnv} {E : Env} {p : Profile} {clock : Option UInt64} {v2 stamp : CredArgs} {m : ModuleSigner}
    {ds : Digests} (h : cliSigner K v2 stamp = .ok m) : m.sign E p clock ds ≠ .err .keyMismatch := by
  have hm := cliSigner_match h
  unfold ModuleSigner.sign
  refine bind_avoids ?_ fun b1 => bind_avoids ?_ fun b2 => ?_
  · unfold ModuleSigner.signV2Part
    split
    · rename_i c hc
      exact bind_avoids (v2Sign_no_mismatch (hm c (.inl hc))) fun _ hx => by cases hx
    · intro hx; cases hx
  · unfold ModuleSigner.signStampPart
    split
    · rename_i c hc
      exact bind_avoids (stampSign_no_mismatch (hm c (.inr hc))) fun _ hx => by cases hx
    · intro hx; cases hx
  · dsimp only
    split
    · intro hx; cases hx
    · unfold ModuleSigner.finish
      split
      · intro hx
        rcases newWithPadding_errors hx with h | h | h <;> cases h
      · intro hx
        rcases C05_writer_limit_partial (b1 ++ b2) with ⟨⟨b, hb, _⟩, _⟩ | ⟨hb, _⟩ <;> rw [hb] at hx <;> cases hx

/-- Arguments `--key … --cert …` of the examples. -/
def toyArgs : CredArgs := ⟨some [1, 7], some [7, 1, 8, 9], none, none⟩

/-- Arguments `--stamp-p12 … --stamp-password …` of the examples. -/
def toyStampArgs : CredArgs := ⟨none, none, some [2, 5], some [1]⟩

example : cliSigner toyKeys toyArgs toyStampArgs =
    .ok (.withSourceStamp toyConfig ⟨.p384 [5], [2], .p384, [[5]]⟩) := by decide +kernel

/-! ### C41 -/

theorem allBlocks_some : ∀ (l : List (String × Bytes)), allBlocks (l.map some) = some l
  | [] => rfl
  | x :: l => by simp [allBlocks, allBlocks_some l]

theorem allBlocks_none : ∀ {l : List (Option (String × Bytes))}, none ∈ l → allBlocks l = none
  | none :: _, _ => rfl
  | some x :: l, h => by
    have h' : none ∈ l := by simpa using h
    simp [allBlocks, allBlocks_none h']

theorem certificates_eq (l : List (String × Bytes)) :
    (l.filter fun x => x.1 == "CERTIFICATE").map (·.2) = certificatesOf l := by
  induction l with
  | nil => rfl
  | cons x l ih =>
    unfold certificatesOf at ih ⊢
    by_cases hx : x.1 = "CERTIFICATE"
    · simp [hx, ih]
    · simp [hx, ih]

/-- C41 where every block of the bundle can be decoded (missing: bundles with a broken block, for which it fails, see
`C41_broken_block_drops_chain`): loading succeeds exactly if there is a certificate block, the leaf is the first and the chain
are the others in order; blocks of other kinds do not matter. -/
theorem C41_chain_in_order_partial {K : KeyEnv} {text : Bytes} {blocks : List (String × Bytes)}
    (hb : K.pemBlocks text = blocks.map some) :
    (∀ leaf chain, parseChainPem K text = .ok (leaf, chain) ↔ certificatesOf blocks = leaf :: chain) ∧
    ((∃ e, parseChainPem K text = .error e) ↔ certificatesOf blocks = []) := by
  have hx : parseChainPem K text = match certificatesOf blocks with
      | [] => .error .cert
      | leaf :: chain => .ok (leaf, chain) := by
    unfold parseChainPem
    rw [hb, allBlocks_some]
    dsimp only
    rw [certificates_eq]
    cases blocks with
    | nil => rfl
    | cons x l => rfl
  rw [hx]
  cases certificatesOf blocks with
  | nil => simp
  | cons l c => simp

example : toyKeys.pemBlocks [7, 1, 8, 9] = [("CERTIFICATE", [7]), ("EC PRIVATE KEY", [1]), ("CERTIFICATE", [8]),
    ("CERTIFICATE", [9])].map some ∧ parseChainPem toyKeys [7, 1, 8, 9] = .ok ([7], [[8], [9]]) ∧
    parseChainPem toyKeys [1] = .error .cert := by decide +kernel

/-- C41 fails for a bundle with a broken block anywhere behind the first certificate: loading succeeds, and the whole chain is
silently dropped. -/
theorem C41_broken_block_drops_chain {K : KeyEnv} {text leaf : Bytes} {rest : List (Option (String × Bytes))}
    (hb : K.pemBlocks text = some ("CERTIFICATE", leaf) :: rest) (hn : none ∈ rest) :
    parseChainPem K text = .ok (leaf, []) := by
  unfold parseChainPem parseCertPem
  rw [hb, allBlocks_none (List.mem_cons_of_mem _ hn)]
  rfl

example : parseChainPem toyKeys [7, 8, 9] = .ok ([7], [[8], [9]]) ∧ parseChainPem toyKeys [7, 8, 9, 0] = .ok ([7], []) :=
  ⟨by decide +kernel, C41_broken_block_drops_chain (rest := [some ("CERTIFICATE", [8]), some ("CERTIFICATE", [9]), none]) rfl
    (by simp)⟩

/-- C41, the other broken bundles: if the first block is broken or no certificate and some block is broken, loading fails. -/
theorem C41_broken_first {K : KeyEnv} {text : Bytes} (hn : none ∈ K.pemBlocks text)
    (hf : ∀ leaf rest, K.pemBlocks text ≠ some ("CERTIFICATE", leaf) :: rest) : ∃ e, parseChainPem K text = .error e := by
  unfold parseChainPem parseCertPem
  rw [allBlocks_none hn]
  cases hb : K.pemBlocks text with
  | nil => exact ⟨_, rfl⟩
  | cons x l =>
    cases x with
    | none => exact ⟨_, rfl⟩
    | some x =>
      obtain ⟨tag, c⟩ := x
      have ht : tag ≠ "CERTIFICATE" := fun h => hf c l (by rw [hb, h])
      simp only [firstBlock, if_pos ht]
      exact ⟨_, rfl⟩

example : ∃ e, parseChainPem toyKeys [1, 7, 0] = .error e :=
  C41_broken_first (by decide +kernel) (by intro leaf rest h; simp [toyKeys] at h)

/-- C41: a certificate given in binary is taken as it is, and refused exactly if there are no bytes. -/
theorem C41_certificate_from_der (der : Bytes) :
    (∀ c, loadCertDer der = .ok c ↔ der ≠ [] ∧ c = der) ∧ ((∃ e, loadCertDer der = .error e) ↔ der = []) := by
  cases der with
  | nil => simp [loadCertDer]
  | cons b bs => simp [loadCertDer, eq_comm]

example : loadCertDer [48, 0] = .ok [48, 0] ∧ loadCertDer [] = .error .cert := by decide

/-- C41: from a PKCS#12 container the leaf is the first certificate and the chain the others in order. -/
theorem C41_chain_from_p12 {K : KeyEnv} {data pwd : Bytes} {c : Credentials} (h : loadP12 K data pwd = .ok c) :
    K.p12Certs data pwd = some (c.cert :: c.chain) := (loadP12_ok h).2.2

example : loadP12 toyKeys [2, 9, 8] [1] = .ok ⟨.p384 [9, 8], [2], .p384, [[9], [8]]⟩ := by decide +kernel

/-- C41: the V2 signer stores leaf and chain of the loaded credentials in this order. -/
theorem C41_stored_in_order {K : KeyEnv} {E : Env} {p : Profile} {clock : Option UInt64} {v2 stamp : CredArgs} {m : ModuleSigner}
    {ds : Digests} {b : SigningBlock} {key cert : Bytes} {blocks : List (String × Bytes)} (h : cliSigner K v2 stamp = .ok m)
    (hs : m.sign E p clock ds = .ok b) (h1 : v2.p12 = none) (h2 : v2.key = some key) (h3 : v2.cert = some cert)
    (hb : K.pemBlocks cert = blocks.map some) :
    ∃ s, v2Signers b = [s] ∧ s.signedData.certs.data.map (·.cert) = certificatesOf blocks := by
  obtain ⟨c, hc, hm⟩ := cliSigner_ok h
  have hv : m.v2 = some (.ofCredentials c) := by
    rcases hm with ⟨_, rfl⟩ | ⟨_, _, rfl⟩ <;> rfl
  have hl : parseChainPem K cert = .ok (c.cert, c.chain) := by
    rcases load_ok hc with ⟨data, pwd, hd, _⟩ | ⟨key', cert', _, _, hc', hl⟩
    · rw [h1] at hd; cases hd
    · rw [h3] at hc'; cases hc'; exact (loadPem_ok hl).2
  rcases (signers_of_shape hs).1 with ⟨h0, _⟩ | ⟨cf, g, hcf, hg, hmade⟩
  · rw [hv] at h0; cases h0
  · rw [hv] at hcf
    cases hcf
    exact ⟨g, hg, by rw [hmade.certs, ((C41_chain_in_order_partial hb).1 _ _).mp hl]; rfl⟩

example : ∃ m b, cliSigner toyKeys toyArgs toyStampArgs = .ok m ∧
    m.sign toyEnv .dev (some 5) (Digests.new [Digest.new .p256 [1, 2]]) = .ok b := by
  have h : cliSigner toyKeys toyArgs toyStampArgs =
    .ok (.withSourceStamp toyConfig ⟨.p384 [5], [2], .p384, [[5]]⟩) := by decide +kernel
  obtain ⟨b, hb⟩ := Res.exists_of_isOk (x := (ModuleSigner.withSourceStamp toyConfig ⟨.p384 [5], [2], .p384, [[5]]⟩).sign toyEnv
    .dev (some 5) (Digests.new [Digest.new .p256 [1, 2]])) (by decide +kernel)
  exact ⟨_, b, h, hb⟩

/-! ### C67 -/

theorem fromArgs_of_load {K : KeyEnv} {a : CredArgs} {c : Credentials} (h : a.load K = .ok (some c)) : FromArgs K a c := by
  rcases load_ok h with ⟨data, pwd, h1, h2, hl⟩ | ⟨key, cert, h1, h2, h3, hl⟩
  · obtain ⟨k1, ⟨key, keys, k2, k3⟩, k4⟩ := loadP12_ok hl
    exact .p12 data pwd key keys h1 h2 k1 k2 (C40_key_from_der k3).2 k4
  · obtain ⟨k1, k2⟩ := loadPem_ok hl
    exact .pem key cert h1 h2 h3 (C40_key_from_pem k1).2 k2

theorem load_none {K : KeyEnv} {a : CredArgs} : a.load K = .ok none ↔ a.p12 = none ∧ a.key = none := by
  unfold CredArgs.load
  split
  · rename_i data hd
    split
    · simp [hd]
    · rename_i pwd hp
      cases loadP12 K data pwd <;> simp [Except.map, hd]
  · rename_i hn
    split
    · rename_i key hk
      split
      · simp [hk]
      · rename_i cert hc
        cases loadPem K key cert a.password <;> simp [Except.map, hk]
    · rename_i hk; simp [hn, hk]

/-- C67 (missing: stamp options without a stamp key, which are ignored, see `C67_stamp_options_ignored`): if the credentials
load, the V2 signature is made with the ones given by the V2 options, there is a source stamp exactly if a stamp key or a stamp
container was given, and it is made with the ones given by the stamp options; time stamp and padding are on. -/
theorem C67_signer_from_options_partial {K : KeyEnv} {v2 stamp : CredArgs} {m : ModuleSigner}
    (h : cliSigner K v2 stamp = .ok m) :
    (∃ c, m.v2 = some (.ofCredentials c) ∧ FromArgs K v2 c) ∧
    (m.stamp = none ↔ stamp.p12 = none ∧ stamp.key = none) ∧
    (∀ c, m.stamp = some c → ∃ s, c = .ofCredentials s ∧ FromArgs K stamp s) ∧
    m.timestamp = true ∧ m.padding = true := by
  obtain ⟨c, hc, ⟨hs, rfl⟩ | ⟨s, hs, rfl⟩⟩ := cliSigner_ok h
  · exact ⟨⟨c, rfl, fromArgs_of_load hc⟩, ⟨fun _ => load_none.mp hs, fun _ => rfl⟩, fun _ h => (by cases h), rfl, rfl⟩
  · refine ⟨⟨c, rfl, fromArgs_of_load hc⟩, ⟨fun h => (by cases h), fun h => ?_⟩, fun _ h => ?_, rfl, rfl⟩
    · rw [load_none.mpr h] at hs; cases hs
    · cases h; exact ⟨s, rfl, fromArgs_of_load hs⟩

/-- C67: options that are missing are an error, and the output is not touched: no key at all, a container without password, a key
without certificate, for the V2 signature and for the stamp. -/
theorem C67_missing_options {K : KeyEnv} {E : Env} {p : Profile} {acc : Bytes → Bool} {clock : Option UInt64} {v2 stamp : CredArgs}
    {names : List (List Char)} {ip : Bool} {file : Bytes}
    (h : (v2.p12 = none ∧ v2.key = none) ∨ (v2.p12 ≠ none ∧ v2.password = none) ∨
      (v2.p12 = none ∧ v2.key ≠ none ∧ v2.cert = none) ∨ (stamp.p12 ≠ none ∧ stamp.password = none) ∨
      (stamp.p12 = none ∧ stamp.key ≠ none ∧ stamp.cert = none)) :
    ∃ e, cliSignArgs K E p acc clock v2 stamp names ip file = (none, .err e) := by
  have hx : ∃ e, cliSigner K v2 stamp = .error e := by
    cases hc : cliSigner K v2 stamp with
    | error e => exact ⟨e, rfl⟩
    | ok m =>
      exfalso
      obtain ⟨⟨c, _, hv⟩, hn, hst, _⟩ := C67_signer_from_options_partial hc
      have hs : (stamp.p12 = none ∧ stamp.key = none) ∨ ∃ s, FromArgs K stamp s := by
        cases hm : m.stamp with
        | none => exact .inl (hn.mp hm)
        | some c' => obtain ⟨s, _, hs⟩ := hst c' hm; exact .inr ⟨s, hs⟩
      have key : ∀ {a : CredArgs} {c : Credentials}, FromArgs K a c →
          ¬ ((a.p12 = none ∧ a.key = none) ∨ (a.p12 ≠ none ∧ a.password = none) ∨ (a.p12 = none ∧ a.key ≠ none ∧ a.cert = none)) := by
        intro a c hf
        cases hf with
        | p12 _ _ _ _ h1 h2 => simp [h1, h2]
        | pem _ _ h1 h2 h3 => simp [h1, h2, h3]
      rcases h with h | h | h | h | h
      · exact key hv (.inl h)
      · exact key hv (.inr (.inl h))
      · exact key hv (.inr (.inr h))
      · rcases hs with ⟨h0, _⟩ | ⟨s, hs⟩
        · exact h.1 h0
        · exact key hs (.inr (.inl h))
      · rcases hs with ⟨_, h0⟩ | ⟨s, hs⟩
        · exact h.2.1 h0
        · exact key hs (.inr (.inr h))
  obtain ⟨e, he⟩ := hx
  unfold cliSignArgs
  rw [he]
  exact ⟨_, rfl⟩

/-- C67: whenever loading the credentials fails, the output is not touched. -/
theorem C67_load_failure_untouched {K : KeyEnv} {E : Env} {p : Profile} {acc : Bytes → Bool} {clock : Option UInt64}
    {v2 stamp : CredArgs} {names : List (List Char)} {ip : Bool} {file : Bytes}
    (h : (∃ e, v2.load K = .error e) ∨ ∃ e, stamp.load K = .error e) :
    ∃ e, cliSignArgs K E p acc clock v2 stamp names ip file = (none, .err e) := by
  have hx : ∃ e, cliSigner K v2 stamp = .error e := by
    cases hc : cliSigner K v2 stamp with
    | error e => exact ⟨e, rfl⟩
    | ok m =>
      exfalso
      obtain ⟨c, h1, h2⟩ := cliSigner_ok hc
      rcases h with ⟨e, h⟩ | ⟨e, h⟩
      · rw [h1] at h; cases h
      · rcases h2 with ⟨h2, _⟩ | ⟨s, h2, _⟩ <;> rw [h2] at h <;> cases h
  obtain ⟨e, he⟩ := hx
  unfold cliSignArgs
  rw [he]
  exact ⟨_, rfl⟩

example : (∃ e, (⟨some [9], some [7], none, none⟩ : CredArgs).load toyKeys = .error e) ∧
    (⟨none, some [7], none, none⟩ : CredArgs).p12 = none ∧ (⟨none, some [7], none, none⟩ : CredArgs).key = none :=
  ⟨⟨.unsupported, by decide +kernel⟩, rfl, rfl⟩

/-- C67: a container takes precedence, whatever key and certificate are given. -/
theorem C67_container_first {K : KeyEnv} {E : Env} {p : Profile} {acc : Bytes → Bool} {clock : Option UInt64}
    {stamp : CredArgs} {names : List (List Char)} {ip : Bool} {file data : Bytes} {pwd key cert key' cert' : Option Bytes} :
    cliSignArgs K E p acc clock ⟨key, cert, some data, pwd⟩ stamp names ip file =
      cliSignArgs K E p acc clock ⟨key', cert', some data, pwd⟩ stamp names ip file ∧
    cliSignArgs K E p acc clock stamp ⟨key, cert, some data, pwd⟩ names ip file =
      cliSignArgs K E p acc clock stamp ⟨key', cert', some data, pwd⟩ names ip file := ⟨rfl, rfl⟩

/-- C67 fails: a stamp certificate or a stamp password without a stamp key is silently ignored, the command signs without a
source stamp. -/
theorem C67_stamp_options_ignored {K : KeyEnv} {E : Env} {p : Profile} {acc : Bytes → Bool} {clock : Option UInt64}
    {v2 : CredArgs} {cert pwd : Option Bytes} {names : List (List Char)} {ip : Bool} {file : Bytes} :
    cliSignArgs K E p acc clock v2 ⟨none, cert, none, pwd⟩ names ip file =
      cliSignArgs K E p acc clock v2 ⟨none, none, none, none⟩ names ip file ∧
    ∀ m, cliSigner K v2 ⟨none, cert, none, pwd⟩ = .ok m → m.stamp = none :=
  ⟨rfl, fun _ h => (C67_signer_from_options_partial h).2.1.mpr ⟨rfl, rfl⟩⟩

example : cliSigner toyKeys toyArgs ⟨none, some [7], none, some [1]⟩ = .ok (.v2Only toyConfig) := by decide +kernel

/-! ### C66 -/

theorem signed_parts {E : Env} {p : Profile} {clock : Option UInt64} {m : ModuleSigner} {a : Archive} {file out : Bytes}
    (hin : SignInput a file) (hs : ∀ n, n ≤ 16392 → Signable a n)
    (hk : ∀ c, m.v2 = some c ∨ m.stamp = some c → Known c.algo)
    (h : cliSignModule E p clock m false file = (some out, .ok ())) :
    ∃ b b', m.sign E p clock (Digests.new (m.requiredAlgorithms.map fun al => Digest.new al (contentDigest E a al))) = .ok b ∧
      (Module.new out).getSigningBlock p out = .ok b' ∧ b'.content = b.content := by
  obtain ⟨r, hr, hc⟩ := C25_sign_command (E := E) (p := p) (clock := clock) hin hs hk
  rw [h] at hc
  cases r with
  | err e => cases hc
  | panic => cases hc
  | ok b =>
  dsimp only at hc
  injection hc with hc _
  injection hc with hc
  subst hc
  have hmap : ((m.requiredAlgorithms.map fun al => (al, contentDigest E a al)).map fun x => Digest.new x.1 x.2) =
      m.requiredAlgorithms.map fun al => Digest.new al (contentDigest E a al) := by
    rw [List.map_map]; rfl
  have hsign : m.sign E p clock (pairDigests (m.requiredAlgorithms.map fun al => (al, contentDigest E a al))) = .ok b := by
    unfold pairDigests; rw [hmap]; exact hr
  have hb : Built p b := by
    refine sign_built ?_ hsign
    intro x hx
    obtain ⟨al, hal, rfl⟩ := List.mem_map.mp hx
    rcases ((C37_required_algorithms m).2 al).mp hal with ⟨c, hc, rfl⟩ | ⟨c, hc, rfl⟩
    · rcases hk c (.inl hc) with h | h <;> simp [AlgoOk, h]
    · rcases hk c (.inr hc) with h | h <;> simp [AlgoOk, h]
  have hsb := hs _ (built_length hb)
  exact ⟨b, _, hr, getSigningBlock_signed p hb.wf hsb.comment hsb.cleanNew hsb.size, rfl⟩

/-- Nothing that needs good signers and stamps accepts this file. -/
theorem refused_of {E : Env} {p : Profile} {out : Bytes} {b : SigningBlock} {added : List Bytes} {now : Nat}
    (hb : (Module.new out).getSigningBlock p out = .ok b)
    (hbad : (∃ s ∈ v2Signers b, ∀ f, ¬ GoodV2 E added now f s) ∨
      ∃ s rest, stamps b = s :: rest ∧ ∀ f, ¬ GoodStamp E added now f s) :
    (∀ v, (Module.new out).verifyWithRoots E p out (storeOf E added) now = .ok v → v.isValid = false) ∧
    ∀ builtin root cert, added = [cert] → E.pemParse (Option.getD root builtin) = some ("CERTIFICATE", cert) →
      cliVerify E p builtin root now out ≠ .ok () := by
  constructor
  · intro v hv
    rw [verifyWithRoots_eq, hb] at hv
    obtain ⟨c, _, hv⟩ := Res.bind_eq_ok.mp hv
    cases hv
    rw [← Bool.not_eq_true, isValid_iff]
    rintro ⟨h1, h2⟩
    rcases hbad with ⟨s, hs, hg⟩ | ⟨s, rest, hs, hg⟩
    · exact hg _ (h1 s hs)
    · exact hg _ (h2 s rest hs)
  · intro builtin root cert ha hp hv
    subst ha
    obtain ⟨b', cert', d1, d2, hb', hp', _, _, _, h1, h2⟩ := C35_verify_command.mp hv
    rw [hb] at hb'
    cases hb'
    rw [hp] at hp'
    cases hp'
    rcases hbad with ⟨s, hs, hg⟩ | ⟨s, rest, hs, hg⟩
    · exact hg _ (h1 s hs)
    · exact hg _ (h2 s rest hs)

theorem signers_of_content {b b' : SigningBlock} (h : b'.content = b.content) :
    v2Signers b' = v2Signers b ∧ stamps b' = stamps b := by
  unfold v2Signers stamps; rw [h]; exact ⟨rfl, rfl⟩

/-- C66 fails: whenever the command succeeds with a certificate that carries another public key than the one of the signing key
(for the V2 signature or for the stamp), no verification ever accepts what it wrote, whatever is trusted. -/
theorem C66_mismatch_never_verifies {E : Env} {p : Profile} {clock : Option UInt64} {m : ModuleSigner} {a : Archive}
    {file out : Bytes} (hin : SignInput a file) (hs : ∀ n, n ≤ 16392 → Signable a n)
    (hk : ∀ c, m.v2 = some c ∨ m.stamp = some c → Known c.algo)
    (h : cliSignModule E p clock m false file = (some out, .ok ())) {c : SignerConfig}
    (hc : m.v2 = some c ∨ m.stamp = some c) (hmis : ∀ pk, c.key.publicKeyDer E = .ok pk → E.certSpki c.cert ≠ some pk) :
    (∀ added now v, (Module.new out).verifyWithRoots E p out (storeOf E added) now = .ok v → v.isValid = false) ∧
    ∀ builtin root now, cliVerify E p builtin root now out ≠ .ok () := by
  obtain ⟨b, b', hb, hb', hcont⟩ := signed_parts hin hs hk h
  obtain ⟨e1, e2⟩ := signers_of_content hcont
  have hbad : ∀ added now, (∃ s ∈ v2Signers b', ∀ f, ¬ GoodV2 E added now f s) ∨
      ∃ s rest, stamps b' = s :: rest ∧ ∀ f, ¬ GoodStamp E added now f s := by
    intro added now
    rw [e1, e2]
    obtain ⟨h1, h2⟩ := signers_of_shape hb
    rcases hc with hc | hc
    · rcases h1 with ⟨h0, _⟩ | ⟨cf, g, hcf, hg, hmade⟩
      · rw [hc] at h0; cases h0
      · rw [hc] at hcf
        cases hcf
        refine .inl ⟨g, by rw [hg]; simp, fun f hgood => ?_⟩
        obtain ⟨leaf, rest, k1, k2, _⟩ := hgood.cert
        rw [hmade.certs] at k1
        cases k1
        exact hmis _ hmade.key k2
    · rcases h2 with ⟨h0, _⟩ | ⟨cf, g, hcf, hg, hmade⟩
      · rw [hc] at h0; cases h0
      · rw [hc] at hcf
        cases hcf
        refine .inr ⟨g, [], hg, fun f hgood => ?_⟩
        obtain ⟨leaf, rest, k1, k2, _⟩ := hgood.cert
        rw [hmade.certs] at k1
        cases k1
        exact hmis _ hmade.key k2
  refine ⟨fun added now => (refused_of hb' (hbad added now)).1, fun builtin root now hv => ?_⟩
  obtain ⟨_, cert, _, _, _, hp, _⟩ := C35_verify_command.mp hv
  exact (refused_of hb' (hbad [cert] now)).2 builtin root cert rfl hp hv

theorem cliSign_module {E : Env} {p : Profile} {acc : Bytes → Bool} {clock : Option UInt64} {m : ModuleSigner} {ip : Bool}
    {file : Bytes} (h : SignableFile.open acc file = .ok (.module (Module.new file) file)) :
    cliSign E p acc clock m [] ip file = cliSignModule E p clock m ip file := by
  unfold cliSign
  rw [h]
  rfl

/-- The certificate of another key. -/
def wrongArgs : CredArgs := ⟨some [1, 7], some [9], none, none⟩

/-- C66 fails: signing an archive with the certificate of another key succeeds. -/
theorem C66_mismatch_accepted : ∃ out, cliSignArgs toyKeys toyEnv .dev anyElf (some 5) wrongArgs ⟨none, none, none, none⟩ [] false
      plainArchive.unsigned = (some out, .ok ()) ∧
    ∀ builtin root now, cliVerify toyEnv .dev builtin root now out ≠ .ok () := by
  have hs : cliSigner toyKeys wrongArgs ⟨none, none, none, none⟩ = .ok (.v2Only ⟨.p256 [7], [9], .p256, []⟩) := by decide +kernel
  have hopen : SignableFile.open anyElf plainArchive.unsigned = .ok (.module (Module.new plainArchive.unsigned) plainArchive.unsigned) := by
    unfold SignableFile.open
    rw [show detectFileFormat plainArchive.unsigned = .ok .module by decide +kernel]
    rfl
  have hk : ∀ c, (ModuleSigner.v2Only ⟨.p256 [7], [9], .p256, []⟩).v2 = some c ∨
      (ModuleSigner.v2Only ⟨.p256 [7], [9], .p256, []⟩).stamp = some c → Known c.algo := by
    rintro c (h | h) <;> cases h
    exact .inl rfl
  obtain ⟨r, hr, hc⟩ := C25_sign_command (E := toyEnv) (p := .dev) (clock := some 5)
    (m := .v2Only ⟨.p256 [7], [9], .p256, []⟩) plainArchive_input plainArchive_signable hk
  have hok : ∃ b, (ModuleSigner.v2Only ⟨.p256 [7], [9], .p256, []⟩).sign toyEnv .dev (some 5)
    (Digests.new ((ModuleSigner.v2Only ⟨.p256 [7], [9], .p256, []⟩).requiredAlgorithms.map fun al =>
      Digest.new al (contentDigest toyEnv plainArchive al))) = .ok b := Res.exists_of_isOk (by decide +kernel)
  obtain ⟨b, hb⟩ := hok
  rw [hb] at hr
  subst hr
  refine ⟨_, ?_, (C66_mismatch_never_verifies plainArchive_input plainArchive_signable hk hc (.inl rfl) ?_).2⟩
  · unfold cliSignArgs
    rw [hs]
    dsimp only
    exact (cliSign_module hopen).trans hc
  · intro pk hpk
    cases hpk
    decide

theorem digest_env {E : Env} {p : Profile} {m : Module} {file : Bytes} {al : Algo} (f : Bytes → Option Bytes) :
    m.digest { E with certSpki := f } p file al = m.digest E p file al := rfl

theorem cliDigests_env {E : Env} {p : Profile} {m : Module} {file : Bytes} (f : Bytes → Option Bytes) :
    ∀ als, cliDigests { E with certSpki := f } p m file als = cliDigests E p m file als
  | [] => rfl
  | a :: als => by rw [cliDigests, cliDigests, digest_env, cliDigests_env f als]

theorem cliElfDigests_env {E : Env} {acc : Bytes → Bool} {x : ElfFile} (f : Bytes → Option Bytes) :
    ∀ als, cliElfDigests { E with certSpki := f } acc x als = cliElfDigests E acc x als
  | [] => rfl
  | a :: als => by
    rw [cliElfDigests, cliElfDigests, cliElfDigests_env f als]
    rfl

theorem sign_env {E : Env} {p : Profile} {clock : Option UInt64} {m : ModuleSigner} {ds : Digests} (f : Bytes → Option Bytes) :
    m.sign { E with certSpki := f } p clock ds = m.sign E p clock ds := rfl

/-- C66: the command never looks into the certificates: replacing what reads the key of a certificate does not change what it
does. -/
theorem C66_certificate_not_read {K : KeyEnv} {E : Env} {p : Profile} {acc : Bytes → Bool} {clock : Option UInt64}
    {v2 stamp : CredArgs} {names : List (List Char)} {ip : Bool} {file : Bytes} (f : Bytes → Option Bytes) :
    cliSignArgs K { E with certSpki := f } p acc clock v2 stamp names ip file =
      cliSignArgs K E p acc clock v2 stamp names ip file := by
  unfold cliSignArgs
  cases cliSigner K v2 stamp with
  | error e => rfl
  | ok m =>
    dsimp only
    unfold cliSign cliSignModule cliElfBlock
    simp only [cliDigests_env, cliElfDigests_env, sign_env]

/-- C66 for credentials that belong together (missing: the others are not refused, see `C66_mismatch_accepted`): what the command
wrote for a module is accepted by the verify command, if the certificates are trusted. -/
theorem C66_matching_verifies_partial {K : KeyEnv} {E : Env} {p : Profile} {acc : Bytes → Bool} {clock : Option UInt64}
    {v2 stamp : CredArgs} {a : Archive} {file out builtin cert : Bytes} {root : Option Bytes} {now : Nat}
    (hf : detectFileFormat file = .ok .module) (hin : SignInput a file) (hs : ∀ n, n ≤ 16392 → Signable a n)
    (hsound : ∀ c, FromArgs K v2 c ∨ FromArgs K stamp c → Matching c.algo c.key → Sound E (.ofCredentials c))
    (h : cliSignArgs K E p acc clock v2 stamp [] false file = (some out, .ok ()))
    (hroot : E.pemParse (root.getD builtin) = some ("CERTIFICATE", cert))
    (ht : ∀ c, FromArgs K v2 c → Trusted E [cert] now c.cert c.chain)
    (ht' : ∀ c, FromArgs K stamp c → Trusted E [cert] now c.cert []) :
    cliVerify E p builtin root now out = .ok () := by
  unfold cliSignArgs at h
  cases hc : cliSigner K v2 stamp with
  | error e => rw [hc] at h; cases h
  | ok m =>
    rw [hc] at h
    have hm := cliSigner_match hc
    obtain ⟨⟨c, hv, hfv⟩, _, hst, _⟩ := C67_signer_from_options_partial hc
    refine C64_signed_module_accepted_partial hf hin hs ?_ (by rw [hv]; simp) h hroot ?_ ?_
    · rintro c' (h | h)
      · rw [hv] at h
        cases h
        exact hsound c (.inl hfv) (hm _ (.inl hv))
      · obtain ⟨s, rfl, hfs⟩ := hst c' h
        exact hsound s (.inr hfs) (hm _ (.inr h))
    · intro c' h
      rw [hv] at h
      cases h
      exact ht c hfv
    · intro c' h
      obtain ⟨s, rfl, hfs⟩ := hst c' h
      exact ht' s hfs

theorem plain_open : SignableFile.open anyElf plainArchive.unsigned =
    .ok (.module (Module.new plainArchive.unsigned) plainArchive.unsigned) := by
  unfold SignableFile.open
  rw [show detectFileFormat plainArchive.unsigned = .ok .module by decide +kernel]
  rfl

/-- Signing the sample archive, given that the block could be made. -/
theorem plain_signs {E : Env} {m : ModuleSigner} (hk : ∀ c, m.v2 = some c ∨ m.stamp = some c → Known c.algo)
    (hok : (m.sign E .dev (some 5) (Digests.new (m.requiredAlgorithms.map fun al =>
      Digest.new al (contentDigest E plainArchive al)))).isOk = true) :
    ∃ out, cliSignModule E .dev (some 5) m false plainArchive.unsigned = (some out, .ok ()) := by
  obtain ⟨r, hr, hc⟩ := C25_sign_command (E := E) (p := .dev) (clock := some 5) (m := m) plainArchive_input
    plainArchive_signable hk
  obtain ⟨b, hb⟩ := Res.exists_of_isOk hok
  rw [hb] at hr
  subst hr
  exact ⟨_, hc⟩

/-- Credentials of the examples whose key and certificate belong together. -/
def goodArgs : CredArgs := ⟨some [1, 7], some [7, 8], none, none⟩

example : ∃ out, cliSignArgs toyKeys toyEnv .dev anyElf (some 5) goodArgs ⟨none, none, none, none⟩ [] false
      plainArchive.unsigned = (some out, .ok ()) ∧ cliVerify toyEnv .dev [7] none 0 out = .ok () := by
  have hs : cliSigner toyKeys goodArgs ⟨none, none, none, none⟩ = .ok (.v2Only ⟨.p256 [7], [7], .p256, [[8]]⟩) := by decide +kernel
  obtain ⟨out, ho⟩ := plain_signs (E := toyEnv) (m := .v2Only ⟨.p256 [7], [7], .p256, [[8]]⟩)
    (by rintro c (h | h) <;> cases h; exact .inl rfl) (by decide +kernel)
  have h : cliSignArgs toyKeys toyEnv .dev anyElf (some 5) goodArgs ⟨none, none, none, none⟩ [] false
      plainArchive.unsigned = (some out, .ok ()) := by
    unfold cliSignArgs
    rw [hs]
    exact (cliSign_module plain_open).trans ho
  have key : ∀ c, FromArgs toyKeys goodArgs c → c.key = .p256 [7] ∧ c.cert = [7] ∧ c.chain = [[8]] := by
    intro c hc
    cases hc with
    | p12 _ _ _ _ h1 => cases h1
    | pem key cert _ h2 h3 h4 h5 =>
      cases h2
      cases h3
      have hch : parseChainPem toyKeys [7, 8] = .ok ([7], [[8]]) := by decide +kernel
      rw [hch] at h5
      injection h5 with h5
      injection h5 with h5 h6
      refine ⟨?_, h5.symm, h6.symm⟩
      cases hk : c.key with
      | p256 k =>
        rw [hk] at h4
        rcases h4 with h | h | ⟨_, h, _⟩
        · cases h; rfl
        · cases h
        · cases h
      | p384 k =>
        rw [hk] at h4
        rcases h4 with h | h | ⟨_, h, _⟩ <;> cases h
  have nokey : ∀ c, ¬ FromArgs toyKeys ⟨none, none, none, none⟩ c := by
    intro c hc
    cases hc with
    | p12 _ _ _ _ h1 => cases h1
    | pem _ _ _ h2 => cases h2
  refine ⟨out, h, C66_matching_verifies_partial (by decide +kernel) plainArchive_input plainArchive_signable ?_ h (cert := [7]) rfl ?_ ?_⟩
  · rintro c (hc | hc) hm
    · obtain ⟨h1, h2, h3⟩ := key c hc
      have h4 : c.algo = .p256 := by
        rw [h1] at hm
        cases ha : c.algo with
        | p256 => rfl
        | p384 => rw [ha] at hm; cases hm
        | unknown u => rw [ha] at hm; cases hm
      have : SignerConfig.ofCredentials c = ⟨.p256 [7], [7], .p256, [[8]]⟩ := by simp [SignerConfig.ofCredentials, h1, h2, h3, h4]
      rw [this]
      exact ⟨trivial, [7], rfl, rfl, fun msg sig h => by cases h; exact .inl ⟨rfl, by simp [toyEnv, Algo.hash]⟩⟩
    · exact absurd hc (nokey c)
  · intro c hc
    rw [(key c hc).2.1]
    exact ⟨by simp, .inl (by simp)⟩
  · intro c hc
    exact absurd hc (nokey c)

/-! ### C68 -/

/-- C68 fails: a source stamp never carries the chain of its credentials, so the chain does not matter. -/
theorem C68_chain_ignored {E : Env} {p : Profile} {clock : Option UInt64} {m : ModuleSigner} {c : SignerConfig} {ds : Digests}
    (chain : List Bytes) : ({ m with stamp := some c } : ModuleSigner).sign E p clock ds =
      ({ m with stamp := some { c with chain := chain } } : ModuleSigner).sign E p clock ds := rfl

/-- C68 fails: a stamp whose certificate is only trusted through its intermediates is refused, although they were given. -/
theorem C68_intermediates_missing {E : Env} {p : Profile} {clock : Option UInt64} {m : ModuleSigner} {a : Archive}
    {file out : Bytes} (hin : SignInput a file) (hs : ∀ n, n ≤ 16392 → Signable a n)
    (hk : ∀ c, m.v2 = some c ∨ m.stamp = some c → Known c.algo)
    (h : cliSignModule E p clock m false file = (some out, .ok ())) {c : SignerConfig} (hc : m.stamp = some c)
    {added : List Bytes} {now : Nat} (ht : ¬ Trusted E added now c.cert []) :
    (∀ v, (Module.new out).verifyWithRoots E p out (storeOf E added) now = .ok v → v.isValid = false) ∧
    ∀ builtin root cert, added = [cert] → E.pemParse (Option.getD root builtin) = some ("CERTIFICATE", cert) →
      cliVerify E p builtin root now out ≠ .ok () := by
  obtain ⟨b, b', hb, hb', hcont⟩ := signed_parts hin hs hk h
  obtain ⟨_, e2⟩ := signers_of_content hcont
  refine refused_of hb' (.inr ?_)
  rw [e2]
  rcases (signers_of_shape hb).2 with ⟨h0, _⟩ | ⟨cf, g, hcf, hg, hmade⟩
  · rw [hc] at h0; cases h0
  · rw [hc] at hcf
    cases hcf
    refine ⟨g, [], hg, fun f hgood => ?_⟩
    obtain ⟨leaf, rest, k1, _, k3⟩ := hgood.cert
    rw [hmade.certs] at k1
    cases k1
    exact ht k3

/-- An environment in which a certificate is trusted through the intermediate `[8]` with the root `[9]`. -/
def chainEnv : Env := { toyEnv with pki := fun roots _ inters _ => if [8] ∈ inters ∧ [9] ∈ roots then .ok else .unknownIssuer }

/-- Credentials with the intermediate. -/
def chainConfig : SignerConfig := ⟨.p256 [7], [7], .p256, [[8]]⟩

theorem chainConfig_sound : Sound chainEnv chainConfig :=
  ⟨trivial, [7], rfl, rfl, fun msg sig h => by cases h; exact .inl ⟨rfl, by simp [chainEnv, toyEnv, chainConfig, Algo.hash]⟩⟩

theorem chain_pki (now : Nat) : chainEnv.pki ([[9]].filter chainEnv.anchorOk) [7] [[8]] now = .ok ∧
    chainEnv.pki ([[9]].filter chainEnv.anchorOk) [7] [] now = .unknownIssuer := by
  constructor <;> rfl

/-- C68 fails: the same credentials make an acceptable V2 signature, but with a source stamp made with them as well the verify
command refuses the file. -/
theorem C68_same_credentials_refused : ∃ out out',
    cliSignModule chainEnv .dev (some 5) (.v2Only chainConfig) false plainArchive.unsigned = (some out, .ok ()) ∧
    cliVerify chainEnv .dev [9] none 0 out = .ok () ∧
    cliSignModule chainEnv .dev (some 5) (.withSourceStamp chainConfig chainConfig) false plainArchive.unsigned =
      (some out', .ok ()) ∧ cliVerify chainEnv .dev [9] none 0 out' ≠ .ok () := by
  have hk1 : ∀ c, (ModuleSigner.v2Only chainConfig).v2 = some c ∨ (ModuleSigner.v2Only chainConfig).stamp = some c →
      c = chainConfig := by
    rintro c (h | h) <;> cases h; rfl
  have hk2 : ∀ c, (ModuleSigner.withSourceStamp chainConfig chainConfig).v2 = some c ∨
      (ModuleSigner.withSourceStamp chainConfig chainConfig).stamp = some c → c = chainConfig := by
    rintro c (h | h) <;> cases h <;> rfl
  obtain ⟨out, ho⟩ := plain_signs (E := chainEnv) (m := .v2Only chainConfig)
    (fun c h => by rw [hk1 c h]; exact .inl rfl) (by decide +kernel)
  have hk2' : ∀ c, (ModuleSigner.withSourceStamp chainConfig chainConfig).v2 = some c ∨
      (ModuleSigner.withSourceStamp chainConfig chainConfig).stamp = some c → Known c.algo :=
    fun c h => by rw [hk2 c h]; exact .inl rfl
  obtain ⟨out', ho'⟩ := plain_signs (E := chainEnv) (m := .withSourceStamp chainConfig chainConfig) hk2' (by decide +kernel)
  refine ⟨out, out', ho, ?_, ho', ?_⟩
  · refine (C25_sign_then_verify_partial plainArchive_input plainArchive_signable (fun c h => ?_) ho).2.2 [9] none [9] 0 rfl
      (by simp [ModuleSigner.v2Only]) ?_ ?_
    · rw [hk1 c h]; exact chainConfig_sound
    · intro c h
      rw [hk1 c (.inl h)]
      exact ⟨by simp, .inr ⟨rfl, (chain_pki 0).1⟩⟩
    · intro c h; cases h
  · refine (C68_intermediates_missing plainArchive_input plainArchive_signable hk2' ho' (c := chainConfig) rfl (added := [[9]]) ?_).2
      [9] none [9] rfl rfl
    rintro ⟨_, h | ⟨_, h⟩⟩
    · exact absurd h (by decide)
    · rw [show chainConfig.cert = [7] from rfl, (chain_pki 0).2] at h; cases h

/-- C68 where the certificate needs no intermediates (missing: the others, see `C68_intermediates_missing`): V2 signature and
stamp made with the same credentials are both accepted. -/
theorem C68_direct_trust_partial {E : Env} {p : Profile} {clock : Option UInt64} {c : SignerConfig} {a : Archive}
    {file out : Bytes} (hin : SignInput a file) (hs : ∀ n, n ≤ 16392 → Signable a n) (hsound : Sound E c)
    (h : cliSignModule E p clock (.withSourceStamp c c) false file = (some out, .ok ())) {added : List Bytes} {now : Nat}
    (ht : Trusted E added now c.cert c.chain) (ht' : Trusted E added now c.cert []) :
    ∃ v, (Module.new out).verifyWithRoots E p out (storeOf E added) now = .ok v ∧ v.isValid = true := by
  refine (C25_sign_then_verify_partial hin hs ?_ h).2.1 added now ?_ ?_
  · rintro c' (h | h) <;> cases h <;> exact hsound
  · intro c' h; cases h; exact ht
  · intro c' h; cases h; exact ht'

example : Sound toyEnv toyConfig ∧ Trusted toyEnv [[7]] 0 toyConfig.cert toyConfig.chain ∧ Trusted toyEnv [[7]] 0 toyConfig.cert [] :=
  ⟨toyConfig_sound, ⟨by simp, .inl (by simp [toyConfig])⟩, ⟨by simp, .inl (by simp [toyConfig])⟩⟩

/-! ### C69 -/

theorem containsBytes_iff {needle : Bytes} : ∀ {d : Bytes}, containsBytes needle d = true ↔ ∃ pre post, d = pre ++ needle ++ post
  | [] => by
    cases needle with
    | nil => simp [containsBytes]
    | cons b n => simp [containsBytes]
  | b :: d => by
    rw [containsBytes, Bool.or_eq_true, containsBytes_iff, List.isPrefixOf_iff_prefix]
    constructor
    · rintro (⟨post, h⟩ | ⟨pre, post, rfl⟩)
      · exact ⟨[], post, by simp [← h]⟩
      · exact ⟨b :: pre, post, by simp⟩
    · rintro ⟨pre, post, h⟩
      cases pre with
      | nil => exact .inl ⟨post, by simpa using h.symm⟩
      | cons x pre =>
        simp only [List.cons_append, List.cons.injEq] at h
        exact .inr ⟨pre, post, h.2⟩

/-- No decoder for unencrypted keys accepts the text. -/
def NotPlain (K : KeyEnv) (text : Bytes) : Prop :=
  K.p256Pkcs8Pem text = none ∧ K.p384Pkcs8Pem text = none ∧ K.p256Sec1Pem text = none ∧ K.p384Sec1Pem text = none

theorem parseKeyPem_notPlain {K : KeyEnv} {text : Bytes} {password : Option Bytes} (hu : validUtf8 text = true)
    (h : NotPlain K text) : parseKeyPem K text password = match password with
      | some pwd =>
        match firstKey [asP256 (K.p256EncPem text pwd), asP384 (K.p384EncPem text pwd)] with
        | some x => .ok x
        | none => .error .invalidPassword
      | none => if containsBytes encryptedWord text then .error .passwordRequired else .error .unsupported := by
  unfold parseKeyPem
  rw [if_neg (by simp [hu]), h.1, h.2.1, h.2.2.1, h.2.2.2]
  rfl

/-- C69: a password is asked for exactly if none was given and the text is no unencrypted key but mentions encryption. -/
theorem C69_password_required {K : KeyEnv} {text : Bytes} {password : Option Bytes} :
    parseKeyPem K text password = .error .passwordRequired ↔
      validUtf8 text = true ∧ NotPlain K text ∧ password = none ∧ ∃ pre post, text = pre ++ "ENCRYPTED".toUTF8.toList ++ post := by
  have hw : "ENCRYPTED".toUTF8.toList = encryptedWord := by decide +kernel
  rw [hw]
  constructor
  · intro h
    unfold parseKeyPem at h
    split at h
    · cases h
    rename_i hu
    split at h
    · cases h
    rename_i hn
    rw [firstKey_none] at hn
    simp only [List.mem_cons, List.not_mem_nil, or_false, forall_eq_or_imp, forall_eq, asP256, asP384,
      Option.map_eq_none_iff] at hn
    split at h
    · split at h <;> cases h
    · split at h
      · rename_i hc
        exact ⟨by simpa using hu, hn, rfl, containsBytes_iff.mp hc⟩
      · cases h
  · rintro ⟨hu, hn, rfl, hc⟩
    rw [parseKeyPem_notPlain hu hn]
    dsimp only
    rw [if_pos (containsBytes_iff.mpr hc)]

/-- C69: a wrong password for an encrypted key is reported as such, with the right one the key loads. -/
theorem C69_password_checked_partial {K : KeyEnv} {text pwd : Bytes} (hu : validUtf8 text = true) (hn : NotPlain K text) :
    ((K.p256EncPem text pwd = none ∧ K.p384EncPem text pwd = none) →
      parseKeyPem K text (some pwd) = .error .invalidPassword) ∧
    (∀ k, K.p256EncPem text pwd = some k → parseKeyPem K text (some pwd) = .ok (.p256 k, .p256)) ∧
    (∀ k, K.p256EncPem text pwd = none → K.p384EncPem text pwd = some k →
      parseKeyPem K text (some pwd) = .ok (.p384 k, .p384)) := by
  rw [parseKeyPem_notPlain hu hn]
  refine ⟨fun ⟨h1, h2⟩ => ?_, fun k h => ?_, fun k h1 h2 => ?_⟩
  · simp [h1, h2, asP256, asP384, firstKey]
  · simp [h, asP256, firstKey]
  · simp [h1, h2, asP256, asP384, firstKey]

example : validUtf8 [3, 9, 9, 5] = true ∧ NotPlain toyKeys [3, 9, 9, 5] ∧ toyKeys.p256EncPem [3, 9, 9, 5] [9, 9] = some [5] ∧
    toyKeys.p256EncPem [3, 9, 9, 5] [8] = none := by
  refine ⟨by decide +kernel, ⟨rfl, rfl, rfl, rfl⟩, by decide +kernel, by decide +kernel⟩

/-- C69: for a key that is not encrypted the password does not matter. -/
theorem C69_password_ignored {K : KeyEnv} {text : Bytes} {password : Option Bytes} (h : ¬ NotPlain K text) :
    parseKeyPem K text password = parseKeyPem K text none := by
  unfold parseKeyPem
  split
  · rfl
  split
  · rfl
  · rename_i hn
    rw [firstKey_none] at hn
    simp only [List.mem_cons, List.not_mem_nil, or_false, forall_eq_or_imp, forall_eq, asP256, asP384,
      Option.map_eq_none_iff] at hn
    exact absurd hn h

/-- C69 fails: a text that no decoder accepts, for example a key of an unsupported kind, is reported as a wrong password as soon
as any password is given, whether it is encrypted or not. -/
theorem C69_unsupported_key_blames_password {K : KeyEnv} {text pwd : Bytes} (hu : validUtf8 text = true)
    (h : ∀ pw key, ¬ PemKey K text pw key) : parseKeyPem K text (some pwd) = .error .invalidPassword ∧
      (parseKeyPem K text none = .error .unsupported ∨ parseKeyPem K text none = .error .passwordRequired) := by
  have n1 : ∀ {o : Option Bytes}, (∀ k, o ≠ some k) → o = none := by
    intro o ho
    cases o with
    | none => rfl
    | some k => exact absurd rfl (ho k)
  have hn : NotPlain K text :=
    ⟨n1 fun k hk => h none (.p256 k) (.inl hk), n1 fun k hk => h none (.p384 k) (.inl hk),
      n1 fun k hk => h none (.p256 k) (.inr (.inl hk)), n1 fun k hk => h none (.p384 k) (.inr (.inl hk))⟩
  refine ⟨(C69_password_checked_partial hu hn).1 ⟨n1 fun k hk => h (some pwd) (.p256 k) (.inr (.inr ⟨pwd, rfl, hk⟩)),
    n1 fun k hk => h (some pwd) (.p384 k) (.inr (.inr ⟨pwd, rfl, hk⟩))⟩, ?_⟩
  rw [parseKeyPem_notPlain hu hn]
  dsimp only
  split
  · exact .inr rfl
  · exact .inl rfl

example : parseKeyPem toyKeys [4, 4] (some [1]) = .error .invalidPassword ∧ parseKeyPem toyKeys [4, 4] none = .error .unsupported := by
  decide +kernel

end Ksusig.Props
