import Verif.Proofs.NarrowMiss
import Verif.Props.NoElf

/-!
# C108: 32-bit devices
-/

namespace Ksusig.Props

open Ksusig Spec

/-- C108. Of a file below 4 GiB (less the longest possible end record) a 64-bit machine reads a block exactly when a 32-bit machine reads
that block and the block says what the file says: both sizes and the size of every pair are the ones written, all 64 bits of them, and no
list is said to be about 4 GiB long. -/
theorem C108_exact (p : Profile) {file : Bytes} (h : file.length + 65557 < 2 ^ 32) (b : SigningBlock) :
    (Module.new file).getSigningBlock p file = .ok b ↔
      Narrow.getSigningBlock p file = .ok b ∧ SizesAsWritten file b ∧ ∀ v ∈ b.content, ¬ HasHuge v := block_twin p h b

/-- C108. The two agree on which files have no block. -/
theorem C108_unsigned (p : Profile) {file : Bytes} (h : file.length + 65557 < 2 ^ 32) :
    (∃ e, (Module.new file).getSigningBlock p file = .err e ∧ e.isMissing = true) ↔
      ∃ e, Narrow.getSigningBlock p file = .err e ∧ e.isMissing = true := block_missing p h

/-- C108. Every content digest a 64-bit machine determines, signed or not, a 32-bit machine determines too. -/
theorem C108_same_digest (E : Env) (p : Profile) {file d : Bytes} (h : file.length + 65557 < 2 ^ 32) (a : Algo)
    (hd : (Module.new file).digest E p file a = .ok d) : Narrow.digest E p file a = .ok d := by
  have hd0 := hd
  unfold Module.digest Module.digestT at hd
  obtain ⟨o, ho, _⟩ := Res.bind_eq_ok.mp hd
  rw [digest_twin h ho a]
  exact hd0

/-- C108. What is left when the signature is taken off is the same, up to 2 GiB. -/
theorem C108_same_raw (p : Profile) {file raw : Bytes} (h : file.length < 2 ^ 31) (hr : (Module.new file).getRawModule p file = .ok raw) :
    Narrow.getRawModule p file = .ok raw := by
  have hf : file.length + 65557 < 2 ^ 32 := by omega
  unfold Module.getRawModule at hr
  rw [if_neg (by simp [Module.new])] at hr
  obtain ⟨b, h1, hr⟩ := Res.bind_eq_ok.mp hr
  obtain ⟨n, h2, hr⟩ := Res.bind_eq_ok.mp hr
  obtain ⟨s, h3, hr⟩ := Res.bind_eq_ok.mp hr
  obtain ⟨eocd, h4, hr⟩ := Res.bind_eq_ok.mp hr
  obtain ⟨cd, h5, hr⟩ := Res.bind_eq_ok.mp hr
  obtain ⟨stop, h6, hr⟩ := Res.bind_eq_ok.mp hr
  obtain ⟨rest, h7, hr9⟩ := Res.bind_eq_ok.mp hr
  clear hr
  have h4' : findEocd file file.length = .ok eocd := h4
  have hb' : (findEocd file file.length >>= fun eocd =>
    SigningBlock.fromReader p file file.length (file.length - eocd.cdOffset.toNat)) = .ok b := h1
  obtain ⟨eocd', _, h8⟩ := Res.bind_eq_ok.mp hb'
  obtain ⟨pre, pairs, post, _, _, _, _, _, _, _, g8⟩ := fromReader_iff.mp h8
  have hle : b.fileStart ≤ b.fileEnd := by rw [g8]; dsimp only; omega
  unfold usub at h2
  rw [if_pos hle] at h2
  have hstop : ({ eocd with cdOffset := cd } : Eocd).toU8.length ≤ file.length := by
    rcases Nat.lt_or_ge file.length ({ eocd with cdOffset := cd } : Eocd).toU8.length with hlt | hge
    · exfalso
      unfold usub at h6
      rw [if_neg (by omega)] at h6
      cases p with
      | dev => cases h6
      | release =>
        cases h6
        cases hs : slice? file b.fileEnd (2 ^ 64 + file.length - ({ eocd with cdOffset := cd } : Eocd).toU8.length) with
        | none => rw [hs] at h7; cases h7
        | some x =>
          have h9 := (slice?_eq_some hs).2.1
          have hlen : ({ eocd with cdOffset := cd } : Eocd).toU8.length < 2 ^ 32 := by
            obtain ⟨pos, t, off, ht, rfl⟩ := findEocd_iff.mp h4'
            have hc : t.comment.length ≤ 65535 := ht.comment
            simp only [Eocd.toU8, Tail.eocd, List.length_append, leBytes_length, eocdSig, List.length_cons, List.length_nil]
            omega
          omega
    · exact hge
  unfold usub at h6
  rw [if_pos hstop] at h6
  unfold Narrow.getRawModule
  rw [if_neg (by omega), ((block_twin p hf b).mp h1).1, narrow_len hf, findEocd_eq p hf, h4']
  simp only [Res.ok_bind]
  unfold Narrow.usub
  rw [if_pos hle]
  simp only [Res.ok_bind]
  rw [h3]
  simp only [Res.ok_bind]
  cases h2
  rw [h5]
  simp only [Res.ok_bind]
  rw [if_pos hstop]
  cases h6
  simp only [Res.ok_bind]
  rw [h7]
  exact hr9

theorem narrowV2_cases (E : Env) (roots : Roots) (now : Nat) (b : SigningBlock) (ctx : Option DigestCtx) :
    Narrow.verifyV2 E roots now b ctx = .ok (verifyV2 E roots now b ctx) ∨
    (Narrow.verifyV2 E roots now b ctx = .panic ∧ ∃ v ∈ b.content, Bulky v) := by
  unfold Narrow.verifyV2
  split
  · exact .inl rfl
  · rename_i h
    refine .inr ⟨rfl, ?_⟩
    simp only [List.all_eq_true, Classical.not_forall] at h
    obtain ⟨v, hv, h⟩ := h
    refine ⟨v, hv, ?_⟩
    cases v with
    | v2 s =>
      simp only [List.all_eq_true, Classical.not_forall, decide_eq_true_eq, Nat.not_lt] at h
      obtain ⟨g, hg, h⟩ := h
      exact ⟨g, hg, h⟩
    | stamp s => exact absurd rfl h
    | elf s => exact absurd rfl h
    | raw s => exact absurd rfl h

theorem narrowStamp_cases (E : Env) (roots : Roots) (now : Nat) (b : SigningBlock) (ctx : Option DigestCtx) :
    Narrow.verifySourceStamp E roots now b ctx = .ok (verifySourceStamp E roots now b ctx) ∨
    (Narrow.verifySourceStamp E roots now b ctx = .panic ∧ ∃ v ∈ b.content, Bulky v) := by
  unfold Narrow.verifySourceStamp
  split
  · exact .inl rfl
  · rename_i h
    refine .inr ⟨rfl, ?_⟩
    generalize hf : List.findSome? _ b.content = y at h
    cases y with
    | none => exact absurd rfl h
    | some x =>
      obtain ⟨v, hv, hx⟩ := List.exists_of_findSome?_eq_some hf
      refine ⟨v, hv, ?_⟩
      cases v with
      | stamp s =>
        cases hx
        exact Nat.not_lt.mp (by simpa using h)
      | v2 s => cases hx
      | elf s => cases hx
      | raw s => cases hx

/-- C108. The verify command. What a 64-bit machine accepts, a 32-bit machine accepts, unless it runs out of address space writing signed
data again that is said to take 2 GiB or more; what a 32-bit machine accepts in addition are only files with a size that is not what is
written or a list that is said to be about 4 GiB long. -/
theorem C108_command (E : Env) (p : Profile) (pem : Bytes) (root : Option Bytes) (now : Nat) {file : Bytes} (h : file.length + 65557 < 2 ^ 32) :
    (cliVerify E p pem root now file = .ok () → Narrow.cliVerify E p pem root now file = .ok () ∨
      (Narrow.cliVerify E p pem root now file = .panic ∧
        ∃ b, (Module.new file).getSigningBlock p file = .ok b ∧ ∃ v ∈ b.content, Bulky v)) ∧
    (Narrow.cliVerify E p pem root now file = .ok () → cliVerify E p pem root now file = .ok () ∨
      ∃ b, Narrow.getSigningBlock p file = .ok b ∧ ¬ (SizesAsWritten file b ∧ ∀ v ∈ b.content, ¬ HasHuge v)) := by
  have main : ∀ b, (Module.new file).getSigningBlock p file = .ok b →
      Narrow.cliVerify E p pem root now file = cliVerify E p pem root now file ∨
      (Narrow.cliVerify E p pem root now file = .panic ∧ ∃ v ∈ b.content, Bulky v) := by
    intro b hb
    have hb' := ((C108_exact p h b).mp hb).1
    have hd : ∀ a, Narrow.digest E p file a = (Module.new file).digest E p file a := by
      intro a
      cases ho : (Module.new file).getOffsets p file with
      | ok o => exact digest_twin h ho a
      | err e =>
        exfalso
        unfold Module.getOffsets Module.getOffsetsT at ho
        have e0 : (Module.new file).getSigningBlockT p file file = .ok b := hb
        rw [e0] at ho
        rcases bind_err.mp ho with he | ⟨_, _, he⟩
        · have hb2 : ((Module.new file).findEocd file >>= fun eocd =>
            SigningBlock.fromReader p file file.length (file.length - eocd.cdOffset.toNat)) = .ok b := hb
          rw [he] at hb2
          cases hb2
        · cases he
      | panic =>
        exfalso
        unfold Module.getOffsets Module.getOffsetsT at ho
        have e0 : (Module.new file).getSigningBlockT p file file = .ok b := hb
        rw [e0] at ho
        have hb2 : ((Module.new file).findEocd file >>= fun eocd =>
            SigningBlock.fromReader p file file.length (file.length - eocd.cdOffset.toNat)) = .ok b := hb
        cases he : (Module.new file).findEocd file with
        | ok x => rw [he] at ho; cases ho
        | err e => rw [he] at hb2; cases hb2
        | panic => rw [he] at hb2; cases hb2
    have ha : ∀ a c, Narrow.cliAddDigest E p file a c = cliAddDigest E p (Module.new file) file a c := by
      intro a c
      unfold cliAddDigest Narrow.cliAddDigest
      rw [hd]
      rfl
    unfold cliVerify Narrow.cliVerify
    dsimp only
    rw [hb, hb']
    simp only [Res.mapErr, Res.ok_bind, ha]
    cases cliRoots E pem root with
    | err e => exact .inl rfl
    | panic => exact .inl rfl
    | ok roots =>
      simp only [Res.ok_bind]
      cases cliAddDigest E p (Module.new file) file .p256 DigestCtx.new with
      | err e => exact .inl rfl
      | panic => exact .inl rfl
      | ok c1 =>
        simp only [Res.ok_bind]
        cases cliAddDigest E p (Module.new file) file .p384 c1 with
        | err e => exact .inl rfl
        | panic => exact .inl rfl
        | ok c2 =>
          simp only [Res.ok_bind]
          cases c2.entries.isEmpty with
          | true => exact .inl rfl
          | false =>
            simp only [Bool.false_eq_true, if_false]
            rcases narrowV2_cases E roots now b (some c2) with h2 | ⟨h2, hk⟩
            · rw [h2]
              simp only [Res.ok_bind]
              cases cliV2 (verifyV2 E roots now b (some c2)) with
              | err e => exact .inl rfl
              | panic => exact .inl rfl
              | ok v2 =>
                simp only [Res.ok_bind]
                rcases narrowStamp_cases E roots now b (some c2) with h3 | ⟨h3, hk⟩
                · rw [h3]
                  exact .inl rfl
                · rw [h3]
                  exact .inr ⟨rfl, hk⟩
            · rw [h2]
              exact .inr ⟨rfl, hk⟩
  constructor
  · intro hv
    obtain ⟨b, hb, _⟩ := Res.bind_eq_ok.mp hv
    have hb' : (Module.new file).getSigningBlock p file = .ok b := by
      revert hb
      cases (Module.new file).getSigningBlock p file <;> intro hb <;> cases hb
      rfl
    rcases main b hb' with hm | ⟨hm, hk⟩
    · exact .inl (by rw [hm]; exact hv)
    · exact .inr ⟨hm, b, hb', hk⟩
  · intro hv
    obtain ⟨b, hb, _⟩ := Res.bind_eq_ok.mp hv
    have hb' : Narrow.getSigningBlock p file = .ok b := by
      revert hb
      cases Narrow.getSigningBlock p file <;> intro hb <;> cases hb
      rfl
    by_cases hP : SizesAsWritten file b ∧ ∀ v ∈ b.content, ¬ HasHuge v
    · rcases main b ((C108_exact p h b).mpr ⟨hb', hP⟩) with hm | ⟨hm, _⟩
      · exact .inl (by rw [← hm]; exact hv)
      · rw [hm] at hv; cases hv
    · exact .inr ⟨b, hb', hP⟩

/-- C108. Of larger files a 32-bit machine sees only a prefix, as long as the remainder of the length by 4 GiB. -/
theorem C108_prefix (p : Profile) (file : Bytes) :
    Narrow.getSigningBlock p file = Narrow.getSigningBlock p (file.take (file.length % 2 ^ 32)) := by
  have hn : file.length % 2 ^ 32 ≤ file.length := Nat.mod_le _ _
  have hl : Narrow.fileLen (file.take (file.length % 2 ^ 32)) = file.length % 2 ^ 32 := by
    unfold Narrow.fileLen Narrow.asUsize
    rw [List.length_take, Nat.min_eq_left hn, Nat.mod_mod]
  have hl' : Narrow.fileLen file = file.length % 2 ^ 32 := rfl
  unfold Narrow.getSigningBlock
  rw [hl, hl']
  generalize file.length % 2 ^ 32 = n at *
  have hr : ∀ a k, a + k ≤ n → readExactAt (file.take n) a k = readExactAt file a k := by
    intro a k hk
    unfold readExactAt
    rw [slice_take hk]
  have he : Narrow.findEocd p (file.take n) n = Narrow.findEocd p file n := by
    unfold Narrow.findEocd
    by_cases h22 : n < minEocdSize
    · rw [if_pos h22, if_pos h22]
    · rw [if_neg h22, if_neg h22]
      dsimp only
      rw [hr _ _ (by omega)]
  rw [he]
  refine bind_same fun eocd => ?_
  generalize n - eocd.cdOffset.toNat = eo
  unfold Narrow.fromReader
  dsimp only
  by_cases h : min (n - eo) maxWindow < 16 + 8
  · rw [if_pos h, if_pos h]
  · rw [if_neg h, if_neg h, hr _ _ (by omega)]
    refine bind_same fun w => ?_
    have scan : ∀ k, k + 15 ≤ min (n - eo) maxWindow →
        Narrow.fromReaderScan p file n (n - eo - min (n - eo) maxWindow) w k =
          Narrow.fromReaderScan p (file.take n) n (n - eo - min (n - eo) maxWindow) w k := by
      intro k
      induction k with
      | zero => intro _; rfl
      | succ k ih =>
        intro hk
        have ih := ih (by omega)
        rw [Narrow.fromReaderScan, Narrow.fromReaderScan, ih]
        have hat : ∀ s, Narrow.fromReaderAt p file n (n - eo - min (n - eo) maxWindow) w k s =
            Narrow.fromReaderAt p (file.take n) n (n - eo - min (n - eo) maxWindow) w k s := by
          intro s
          rw [at_narrow_eq, at_narrow_eq]
          unfold atWith
          generalize narrowSize s = size
          dsimp only
          by_cases h1 : n - eo - min (n - eo) maxWindow + (k + 16) < size + 8
          · simp only [h1, if_true]
          · rw [hr _ _ (by omega)]
        simp only [hat]
    exact scan _ (by omega)

/-- The block of the examples, with a bit beyond 32 set in both of its sizes. -/
def wideFile : Bytes :=
  match (Module.new plainArchive.unsigned).digest toyEnv .dev plainArchive.unsigned .p256 with
  | .ok d =>
    match SigningBlock.newWithPadding .dev [Value.newV2 (SignersV2.new [toySigner d])] with
    | .ok b =>
      let w := b.toU8
      plainArchive.signed (leBytes 8 (b.sizeStart + 2 ^ 40) ++ (w.drop 8).take (w.length - 32) ++ leBytes 8 (b.sizeEnd + 2 ^ 40) ++ Ksusig.magic)
    | _ => []
  | _ => []

/-- C108. The difference shows: a file a 32-bit machine verifies, in either profile, and a 64-bit machine rejects. -/
theorem C108_accepts_more (p : Profile) :
    Narrow.cliVerify toyEnv p [7] none 0 wideFile = .ok () ∧ cliVerify toyEnv p [7] none 0 wideFile ≠ .ok () := by
  have h : ((Narrow.cliVerify toyEnv p [7] none 0 wideFile).isOk && !(cliVerify toyEnv p [7] none 0 wideFile).isOk) = true := by
    cases p <;> decide +kernel
  revert h
  cases Narrow.cliVerify toyEnv p [7] none 0 wideFile with
  | ok u =>
    intro h
    refine ⟨rfl, fun hc => ?_⟩
    rw [hc] at h
    cases h
  | err e => intro h; cases h
  | panic => intro h; cases h

/-- A V2 pair with one signer whose attributes are said to be 2^32 - 1 bytes long, and no more bytes. -/
def hugeFile : Bytes :=
  let signed := leBytes 4 12 ++ (leBytes 4 0 ++ leBytes 4 0 ++ leBytes 4 0xffffffff)
  let signer := leBytes 4 24 ++ (signed ++ leBytes 4 0 ++ leBytes 4 0)
  plainArchive.signed (wireFrame (wirePair v2BlockId (leBytes 4 signer.length ++ signer)))

/-- C108. The sum of position and size: with overflow checks a 32-bit machine panics, without them it reads an empty list; a 64-bit machine
reports an error. -/
theorem C108_overflow :
    Narrow.getSigningBlock .dev hugeFile = .panic ∧ (∃ b, Narrow.getSigningBlock .release hugeFile = .ok b) ∧
      ∀ p, ∃ e, (Module.new hugeFile).getSigningBlock p hugeFile = .err e := by
  refine ⟨by decide +kernel, ?_, ?_⟩
  · have h : (Narrow.getSigningBlock .release hugeFile).isOk = true := by decide +kernel
    revert h
    cases Narrow.getSigningBlock .release hugeFile with
    | ok b => exact fun _ => ⟨b, rfl⟩
    | err e => intro h; cases h
    | panic => intro h; cases h
  · intro p
    refine ⟨.outOfBounds, ?_⟩
    cases p <;> decide +kernel

/-- A section list with 2^32 - 1 announced entries, and no more bytes. -/
def countFile : Bytes := plainArchive.signed (wireFrame (wirePair elfInfoBlockId (leBytes 4 0xffffffff)))

/-- C108. The room reserved for sections: a 32-bit machine panics, in either profile; a 64-bit machine reports an error. -/
theorem C108_reserve (p : Profile) :
    Narrow.getSigningBlock p countFile = .panic ∧ ∃ e, (Module.new countFile).getSigningBlock p countFile = .err e := by
  refine ⟨?_, .outOfBounds, ?_⟩
  · cases p <;> decide +kernel
  · cases p <;> decide +kernel

/-- The block of the examples, its digest said to be 2 GiB long. -/
def bulkyFile : Bytes :=
  match (Module.new plainArchive.unsigned).digest toyEnv .dev plainArchive.unsigned .p256 with
  | .ok d =>
    match SigningBlock.newWithPadding .dev [Value.newV2 (SignersV2.new [toySigner d])] with
    | .ok b =>
      let w := b.toU8
      plainArchive.signed (w.take 36 ++ leBytes 4 (2 ^ 31) ++ w.drop 40)
    | _ => []
  | _ => []

/-- The examples' environment with a signature check that accepts everything (a signer could as well sign the 2 GiB). -/
def laxEnv : Env := { toyEnv with p256Verify := fun _ _ _ => true, p384Verify := fun _ _ _ => true }

/-- A signer with a digest that is said to be 2 GiB long. -/
def bulkyDigest (b : SigningBlock) : Bool :=
  b.content.any fun v => match v with
    | .v2 s => s.signers.data.any fun g => g.signedData.digests.data.any fun d => d.size == 2 ^ 31
    | _ => false

theorem narrowV2_bulky (E : Env) (roots : Roots) (now : Nat) (ctx : Option DigestCtx) {b : SigningBlock} (h : bulkyDigest b = true) :
    Narrow.verifyV2 E roots now b ctx = .panic := by
  unfold Narrow.verifyV2
  rw [if_neg]
  intro hall
  rw [List.all_eq_true] at hall
  obtain ⟨v, hv, hb⟩ := List.any_eq_true.mp h
  have hv' := hall v hv
  cases v with
  | v2 s =>
    obtain ⟨g, hg, hb⟩ := List.any_eq_true.mp hb
    obtain ⟨d, hd, hb⟩ := List.any_eq_true.mp hb
    have := of_decide_eq_true (List.all_eq_true.mp hv' g hg)
    have hs : d.size = 2 ^ 31 := by simpa using hb
    have h1 : 2 ^ 31 ≤ d.toU8.length := by
      simp only [Digest.toU8, zeroPad, List.length_append, List.length_replicate]; omega
    have h2 : d.toU8.length ≤ g.signedData.digests.content.length :=
      (List.sublist_flatten_of_mem (List.mem_map_of_mem (f := Digest.toU8) hd)).length_le
    simp only [SignedDataV2.toU8, SignedDataV2.content, Digests.toU8, List.length_append] at this
    omega
  | _ => simp at hb

/-- Whether a reading gives a block with such a signer. -/
def readsBulky (r : Res SigningBlock) : Bool := match r with | .ok b => bulkyDigest b | _ => false

theorem narrow_bulky (E : Env) (p : Profile) (pem : Bytes) (root : Option Bytes) (now : Nat) {file : Bytes}
    (hb : readsBulky (Narrow.getSigningBlock p file) = true) : Narrow.cliVerify E p pem root now file ≠ .ok () := by
  intro h
  unfold Narrow.cliVerify at h
  obtain ⟨b, h1, h⟩ := Res.bind_eq_ok.mp h
  obtain ⟨_, _, h⟩ := Res.bind_eq_ok.mp h
  obtain ⟨_, _, h⟩ := Res.bind_eq_ok.mp h
  obtain ⟨_, _, h⟩ := Res.bind_eq_ok.mp h
  split at h
  · cases h
  · obtain ⟨_, h2, _⟩ := Res.bind_eq_ok.mp h
    rw [narrowV2_bulky] at h2
    · cases h2
    · cases hg : Narrow.getSigningBlock p file <;> rw [hg] at h1 hb <;> simp_all [Res.mapErr, readsBulky]

/-- `verifySigner` without the bytes the signatures are about, which `laxEnv` does not look at. -/
def laxSigner (roots : Roots) (now : Nat) (ctx : Option DigestCtx) (idx : Nat) (s : SignerV2) : SignerResult :=
  let st := v2SigLoop laxEnv ctx s.pubKey.data [] s.signedData.digests.data s.sigs.data SigState.init
  let certs := s.signedData.certs.data.map (·.cert)
  finishSigner laxEnv roots now idx s.pubKey.data certs (certs.drop 1) (certs.drop 1) st

theorem lax_algo (a : Algo) (k r s : Bytes) : a.verify laxEnv k r s = a.verify laxEnv k [] s := by
  cases a <;> rfl

theorem lax_loop (ctx : Option DigestCtx) (k r : Bytes) (ds : List Digest) (sigs : List Sig) :
    ∀ st, v2SigLoop laxEnv ctx k r ds sigs st = v2SigLoop laxEnv ctx k [] ds sigs st := by
  induction sigs with
  | nil => intro st; rfl
  | cons g gs ih =>
    intro st
    simp only [v2SigLoop, lax_algo g.algo k r, ih]

theorem lax_signer (roots : Roots) (now : Nat) (ctx : Option DigestCtx) (idx : Nat) (s : SignerV2) :
    verifySigner laxEnv roots now ctx idx s = laxSigner roots now ctx idx s := by
  have h : sliceFrom? s.signedData.toU8 4 = some (s.signedData.toU8.drop 4) := by
    unfold sliceFrom?
    rw [if_pos]
    simp only [SignedDataV2.toU8, List.length_append, leBytes_length]; omega
  unfold verifySigner laxSigner
  rw [h]
  simp only [lax_loop ctx s.pubKey.data (s.signedData.toU8.drop 4)]

/-- `cliVerify` in that environment. -/
def laxVerify (p : Profile) (pem : Bytes) (root : Option Bytes) (now : Nat) (file : Bytes) : Res Unit := do
  let m := Module.new file
  let b ← (m.getSigningBlock p file).mapErr fun _ => .verifyFailed
  let roots ← cliRoots laxEnv pem root
  let c1 ← cliAddDigest laxEnv p m file .p256 DigestCtx.new
  let c2 ← cliAddDigest laxEnv p m file .p384 c1
  if c2.entries.isEmpty then .err .verifyFailed
  else do
    let v2 ← cliV2 (concludeVerify (b.content.flatMap fun v =>
      match v with
      | .v2 s => s.signers.data.zipIdx.map fun x => laxSigner roots now (some c2) x.2 x.1
      | _ => []))
    let stampFailed := cliStampFailed (verifySourceStamp laxEnv roots now b (some c2))
    let fully := match v2 with
      | some r => r.sigValid && r.digestValid && r.chainValid && r.trusted
      | none => false
    if fully then
      if stampFailed then .err .verifyFailed else .ok ()
    else .err .verifyFailed

theorem lax_verify (p : Profile) (pem : Bytes) (root : Option Bytes) (now : Nat) (file : Bytes) :
    cliVerify laxEnv p pem root now file = laxVerify p pem root now file := by
  simp only [cliVerify, laxVerify, verifyV2, lax_signer]
  rfl

theorem bulky_wide (p : Profile) : cliVerify laxEnv p [7] none 0 bulkyFile = .ok () := by
  rw [lax_verify]
  cases p <;> decide +kernel

theorem bulky_narrow (p : Profile) : readsBulky (Narrow.getSigningBlock p bulkyFile) = true := by cases p <;> decide +kernel

/-- C108. The room for signed data: a file a 64-bit machine verifies, and a 32-bit machine panics, in either profile. -/
theorem C108_bulky (p : Profile) :
    cliVerify laxEnv p [7] none 0 bulkyFile = .ok () ∧ Narrow.cliVerify laxEnv p [7] none 0 bulkyFile = .panic := by
  have hl : bulkyFile.length + 65557 < 2 ^ 32 := by decide +kernel
  have hn := narrow_bulky laxEnv p [7] none 0 (bulky_narrow p)
  have hw := bulky_wide p
  generalize bulkyFile = file at hl hn hw ⊢
  rcases (C108_command laxEnv p [7] none 0 hl).1 hw with h | h
  · exact absurd h hn
  · exact ⟨hw, h.1⟩

/-- The hypotheses are met: a signed file that both accept. -/
example : ∃ file : Bytes, file.length + 65557 < 2 ^ 32 ∧ (cliVerify toyEnv .dev [7] none 0 file).isOk = true ∧
    (Narrow.cliVerify toyEnv .dev [7] none 0 file).isOk = true :=
  ⟨match (Module.new plainArchive.unsigned).digest toyEnv .dev plainArchive.unsigned .p256 with
  | .ok d =>
    match SigningBlock.newWithPadding .dev [Value.newV2 (SignersV2.new [toySigner d])] with
    | .ok b => plainArchive.signed b.toU8
    | _ => []
  | _ => [], by decide +kernel, by decide +kernel, by decide +kernel⟩

end Ksusig.Props
