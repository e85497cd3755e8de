import Verif.SpecSecret
import Verif.Props.Out

/-! C128: what signing shows of the credentials, the files and the clock. -/

namespace Ksusig.Props

open Ksusig Spec

theorem v2Sign_as {E : Env} {c c' : SignerConfig} {ds : Digests} (h : V2As E ((v2SignedData c ds).toU8.drop 4) c c') :
    v2Sign E c' ds = v2Sign E c ds := by
  obtain ⟨h1, h2, h3, h4, h5⟩ := h
  obtain ⟨k, cert, algo, chain⟩ := c
  obtain ⟨k', cert', algo', chain'⟩ := c'
  dsimp only at h1 h2 h3 h4 h5
  subst h1 h2 h3
  unfold v2Sign
  dsimp only
  have hs : sliceFrom? (SignedDataV2.new ds (Certs.new ([Cert.new cert'] ++ chain'.map Cert.new)) (Attrs.new [])).toU8 4 =
      some ((v2SignedData ⟨k, cert', algo', chain'⟩ ds).toU8.drop 4) := sliceFrom?_4_signed _
  rw [hs, Res.ofOption_some, Res.ok_bind, Res.ok_bind, h5, h4]

/-- The message a stamp signs. -/
def stampMessage (c : SignerConfig) (ts : Bool) (clock : Option UInt64) (ds : Digests) : Bytes :=
  match stampAttrs ts clock with
  | .ok attrs => (stampSignedData c attrs ds).toU8.drop 4
  | _ => []

theorem stampSign_as {E : Env} {c c' : SignerConfig} {ts : Bool} {clock : Option UInt64} {ds : Digests}
    (h : StampAs E (stampMessage c ts clock ds) c c') : stampSign E c' ts clock ds = stampSign E c ts clock ds := by
  obtain ⟨h1, h2, h4, h5⟩ := h
  obtain ⟨k, cert, algo, chain⟩ := c
  obtain ⟨k', cert', algo', chain'⟩ := c'
  dsimp only at h1 h2 h4 h5
  subst h1 h2
  unfold stampMessage at h5
  unfold stampSign
  dsimp only
  cases ha : stampAttrs ts clock with
  | err e => rfl
  | panic => rfl
  | ok attrs =>
    rw [ha] at h5
    dsimp only at h5
    rw [Res.ok_bind, Res.ok_bind]
    have hs : sliceFrom? (SignedDataStamp.new ds (Certs.new [Cert.new cert']) attrs).toU8 4 =
        some ((stampSignedData ⟨k, cert', algo', chain⟩ attrs ds).toU8.drop 4) := sliceFrom?_4_stamp _
    rw [hs, Res.ofOption_some, Res.ok_bind, Res.ok_bind, h5, h4]

/-- The V2 message and the stamp message of a signer. -/
def v2Message (m : ModuleSigner) (ds : Digests) : Bytes :=
  match m.v2 with
  | some c => (v2SignedData c ds).toU8.drop 4
  | none => []

def stMessage (m : ModuleSigner) (clock : Option UInt64) (ds : Digests) : Bytes :=
  match m.stamp with
  | some c => stampMessage c m.timestamp clock ds
  | none => []

theorem sign_as {E : Env} {p : Profile} {clock : Option UInt64} {m m' : ModuleSigner} {ds : Digests}
    (h : SignerAs E (v2Message m ds) (stMessage m clock ds) m m') : m'.sign E p clock ds = m.sign E p clock ds := by
  obtain ⟨h1, h2, h3, h4⟩ := h
  obtain ⟨v, st, ts, pad⟩ := m
  obtain ⟨v', st', ts', pad'⟩ := m'
  dsimp only at h1 h2 h3 h4
  subst h3 h4
  have e1 : ModuleSigner.signV2Part E ⟨v', st', ts', pad'⟩ ds = ModuleSigner.signV2Part E ⟨v, st, ts', pad'⟩ ds := by
    unfold ModuleSigner.signV2Part
    cases h1 with
    | none => rfl
    | some h => exact congrArg (fun x : Res SchemeV2 => x.bind fun b => Res.ok [Value.v2 b]) (v2Sign_as h)
  have e2 : ModuleSigner.signStampPart E clock ⟨v', st', ts', pad'⟩ ds =
      ModuleSigner.signStampPart E clock ⟨v, st, ts', pad'⟩ ds := by
    unfold ModuleSigner.signStampPart
    cases h2 with
    | none => rfl
    | some h => exact congrArg (fun x : Res SourceStamp => x.bind fun b => Res.ok [Value.stamp b]) (stampSign_as h)
  unfold ModuleSigner.sign
  rw [e1, e2]
  rfl

theorem required_as {E : Env} {d e : Bytes} {m m' : ModuleSigner} (h : SignerAs E d e m m') :
    m'.requiredAlgorithms = m.requiredAlgorithms := by
  obtain ⟨h1, h2, h3, h4⟩ := h
  obtain ⟨v, st, ts, pad⟩ := m
  obtain ⟨v', st', ts', pad'⟩ := m'
  dsimp only at h1 h2 h3 h4
  unfold ModuleSigner.requiredAlgorithms
  dsimp only
  cases h1 with
  | none =>
    cases h2 with
    | none => rfl
    | some h => dsimp only; rw [h.algo]
  | some g =>
    cases h2 with
    | none => dsimp only; rw [g.algo]
    | some h =>
      simp only [h.algo, g.algo]

/-- C128: each private key is used for its public key and for the signature of one message; two signers whose keys show the same there
give the same block, or fail in the same way. The messages are functions of the rest of the signer. -/
theorem C128_sign (E : Env) (p : Profile) (clock : Option UInt64) (ds : Digests) :
    ∃ d e : ModuleSigner → Bytes, ∀ m m', SignerAs E (d (noKeys m)) (e (noKeys m)) m m' → m'.sign E p clock ds = m.sign E p clock ds := by
  refine ⟨fun m => v2Message m ds, fun m => stMessage m clock ds, fun m m' h => sign_as ?_⟩
  obtain ⟨v, st, ts, pad⟩ := m
  cases v <;> cases st <;> exact h

/-- C128: and if the block is made, the messages are the signed data in it. -/
theorem C128_block (E : Env) (p : Profile) (clock : Option UInt64) (m m' : ModuleSigner) (ds : Digests) (b : SigningBlock) (d e : Bytes)
    (h : m.sign E p clock ds = .ok b)
    (hd : ∀ s, .v2 s ∈ b.content → ∀ g ∈ s.signers.data, d = g.signedData.toU8.drop 4)
    (he : ∀ s, .stamp s ∈ b.content → e = s.block.signedData.toU8.drop 4)
    (ha : SignerAs E d e m m') : m'.sign E p clock ds = .ok b := by
  rw [← h]
  obtain ⟨b1, b2, h1, h2, _, hf⟩ := sign_ok h
  obtain ⟨pad, hc, _⟩ := finish_ok hf
  apply sign_as
  refine ⟨?_, ?_, ha.timestamp, ha.padding⟩
  · rcases signV2Part_ok h1 with ⟨hn, _⟩ | ⟨c, s, hv, hs, hb⟩
    · have := ha.v2
      rw [hn] at this ⊢
      generalize m'.v2 = o at this ⊢
      cases this
      exact .none
    · have hm : d = v2Message m ds := by
        obtain ⟨sig, pk, _, _, rfl⟩ := v2Sign_ok.mp hs
        rw [hd _ (by rw [hc, hb]; exact List.mem_append_left _ (List.mem_append_left _ List.mem_cons_self)) _ List.mem_cons_self]
        unfold v2Message
        rw [hv]
        rfl
      rw [← hm]
      exact ha.v2
  · rcases signStampPart_ok h2 with ⟨hn, _⟩ | ⟨c, s, hv, hs, hb⟩
    · have := ha.stamp
      rw [hn] at this ⊢
      generalize m'.stamp = o at this ⊢
      cases this
      exact .none
    · have hm : e = stMessage m clock ds := by
        obtain ⟨attrs, sig, pk, h0, _, _, rfl⟩ := stampSign_ok.mp hs
        rw [he _ (by rw [hc, hb]; exact List.mem_append_left _ (List.mem_append_right _ List.mem_cons_self))]
        unfold stMessage stampMessage
        rw [hv]
        dsimp only
        rw [h0]
        rfl
      rw [← hm]
      exact ha.stamp

/-- C128: the stamp added to an existing block likewise. -/
theorem C128_added (E : Env) (p : Profile) (clock : Option UInt64) (m : ModuleSigner) (old : SigningBlock) (ds : Digests) :
    ∃ e, ∀ m' : ModuleSigner, BothAs (StampAs E e) m.stamp m'.stamp → m'.timestamp = m.timestamp → m'.padding = m.padding →
      m'.addSourceStamp E p clock old ds = m.addSourceStamp E p clock old ds := by
  refine ⟨stMessage m clock ds, ?_⟩
  intro m' h2 h3 h4
  obtain ⟨v, st, ts, pad⟩ := m
  obtain ⟨v', st', ts', pad'⟩ := m'
  dsimp only at h2 h3 h4
  subst h3 h4
  unfold ModuleSigner.addSourceStamp
  cases h2 with
  | none => rfl
  | some h =>
    rw [Res.ofOption_some, Res.ofOption_some, Res.ok_bind, Res.ok_bind]
    dsimp only
    rw [stampSign_as h]
    rfl

theorem blockRun_as (E : Env) (p : Profile) (acc : Bytes → Bool) (clock : Option UInt64) (m : ModuleSigner) (s : SignableFile) :
    ∃ d e, ∀ m', SignerAs E d e m m' → blockRun E p acc clock m' s = blockRun E p acc clock m s := by
  cases hx : (hashLines E p acc s m.requiredAlgorithms).2 with
  | err e =>
    refine ⟨[], [], fun m' h => ?_⟩
    unfold blockRun
    rw [required_as h]
    dsimp only
    rw [hx]
  | panic =>
    refine ⟨[], [], fun m' h => ?_⟩
    unfold blockRun
    rw [required_as h]
    dsimp only
    rw [hx]
  | ok pairs =>
    refine ⟨v2Message m (Digests.new (pairs.map fun x => Digest.new x.1 x.2)),
      stMessage m clock (Digests.new (pairs.map fun x => Digest.new x.1 x.2)), fun m' h => ?_⟩
    unfold blockRun
    rw [required_as h]
    dsimp only
    rw [hx]
    dsimp only
    rw [sign_as h]

theorem create_same (M : Machine) {output output' : Path} (hc : M.creatable output' = M.creatable output) (x : Option Bytes × Res Unit) :
    (Outcome.create M output' x).written.map (·.2) = (Outcome.create M output x).written.map (·.2) ∧
      (Outcome.create M output' x).result = (Outcome.create M output x).result := by
  obtain ⟨o, r⟩ := x
  cases o with
  | none => exact ⟨rfl, rfl⟩
  | some d =>
    unfold Outcome.create
    dsimp only
    rw [hc]
    by_cases h : M.creatable output = true
    · rw [if_pos h, if_pos h]; exact ⟨rfl, rfl⟩
    · rw [if_neg h, if_neg h]; exact ⟨rfl, rfl⟩

theorem targetRun_as (M : Machine) (clock : Option UInt64) (output : Path) (inPlace : Bool) (sections : List (List Char)) (m : ModuleSigner) (file : Bytes) :
    ∃ d e, ∀ m' output', SignerAs M.env d e m m' → M.creatable output' = M.creatable output →
      SameRun (targetRun M clock output inPlace sections m file) (targetRun M clock output' inPlace sections m' file) := by
  unfold targetRun
  cases cliOpen M.acc sections file with
  | err e => exact ⟨[], [], fun m' _ _ _ => ⟨rfl, rfl, rfl⟩⟩
  | panic => exact ⟨[], [], fun m' _ _ _ => ⟨rfl, rfl, rfl⟩⟩
  | ok s =>
    obtain ⟨d, e, h⟩ := blockRun_as M.env M.profile M.acc clock m s
    refine ⟨d, e, fun m' output' hm hc => ?_⟩
    dsimp only
    rw [h m' hm]
    cases (blockRun M.env M.profile M.acc clock m s).2 with
    | err e => exact ⟨rfl, rfl, rfl⟩
    | panic => exact ⟨rfl, rfl, rfl⟩
    | ok b =>
      have hw := create_same M hc (some ((s.created inPlace).writeWithSignature M.profile M.acc b).1,
        ((s.created inPlace).writeWithSignature M.profile M.acc b).2)
      refine ⟨?_, hw.1, hw.2⟩
      dsimp only [writeRun]
      rw [hw.2]

/-- C128: the whole sign command. Everything it prints but the names of the files, the bytes it writes and how it ends depend on the
credentials only through the certificates, the algorithms, the public keys and one signature of each key, and on the files only through the
contents of the input, whether the output is the input, and whether the output can be created. Not on the names of files, the format of
the credentials, the password, the chain of the stamp's certificate, or the other contents of the credential files. -/
theorem C128_command (M : Machine) (clock : Option UInt64) (fs : Fs) (input output : Path) (v2 stamp : CredPaths)
    (sections : List (List Char)) :
    ∃ d e, ∀ (fs' : Fs) (input' output' : Path) (v2' stamp' : CredPaths),
      fs' input' = fs input → (output' = input' ↔ output = input) → M.creatable output' = M.creatable output →
      LoadAs (V2As M.env d) (v2.load M.keys fs) (v2'.load M.keys fs') →
      LoadAs (StampAs M.env e) (stamp.load M.keys fs) (stamp'.load M.keys fs') →
      SameRun (signRun M clock fs input output v2 stamp sections) (signRun M clock fs' input' output' v2' stamp' sections) := by
  unfold signRun
  generalize v2.load M.keys fs = l
  generalize stamp.load M.keys fs = k
  cases l with
  | error x =>
    refine ⟨[], [], fun fs' input' output' v2' stamp' hi ho hc h1 h2 => ?_⟩
    generalize v2'.load M.keys fs' = l' at h1 ⊢
    cases h1
    exact ⟨rfl, rfl, rfl⟩
  | ok o =>
    cases o with
    | none =>
      refine ⟨[], [], fun fs' input' output' v2' stamp' hi ho hc h1 h2 => ?_⟩
      generalize v2'.load M.keys fs' = l' at h1 ⊢
      cases h1
      exact ⟨rfl, rfl, rfl⟩
    | some c =>
      cases k with
      | error x =>
        refine ⟨[], [], fun fs' input' output' v2' stamp' hi ho hc h1 h2 => ?_⟩
        generalize v2'.load M.keys fs' = l' at h1 ⊢
        generalize stamp'.load M.keys fs' = k' at h2 ⊢
        cases h1
        cases h2
        exact ⟨rfl, rfl, rfl⟩
      | ok st =>
        cases hf : fs input with
        | none =>
          refine ⟨[], [], fun fs' input' output' v2' stamp' hi ho hc h1 h2 => ?_⟩
          generalize v2'.load M.keys fs' = l' at h1 ⊢
          generalize stamp'.load M.keys fs' = k' at h2 ⊢
          cases h1
          cases h2 <;> (dsimp only; rw [hi]; exact ⟨rfl, rfl, rfl⟩)
        | some file =>
          obtain ⟨d, e, h⟩ := targetRun_as M clock output (decide (output = input)) sections (signerOf c st) file
          refine ⟨d, e, fun fs' input' output' v2' stamp' hi ho hc h1 h2 => ?_⟩
          generalize v2'.load M.keys fs' = l' at h1 ⊢
          generalize stamp'.load M.keys fs' = k' at h2 ⊢
          have hd : decide (output' = input') = decide (output = input) := by simp only [ho]
          have fin : ∀ {c' : Credentials} {st' : Option Credentials}, SignerAs M.env d e (signerOf c st) (signerOf c' st') →
              SameRun (targetRun M clock output (decide (output = input)) sections (signerOf c st) file)
                (targetRun M clock output' (decide (output' = input')) sections (signerOf c' st') file) := by
            intro c' st' hs
            rw [hd]
            exact h _ _ hs hc
          cases h1 with
          | some h1 =>
            cases h2 with
            | none =>
              have g := fin (st' := none) ⟨.some h1, .none, rfl, rfl⟩
              dsimp only
              rw [hi]
              exact ⟨congrArg (_ ++ ·) g.lines, g.written, g.result⟩
            | some h2 =>
              have g := fin (st' := some _) ⟨.some h1, .some h2, rfl, rfl⟩
              dsimp only
              rw [hi]
              exact ⟨congrArg (_ ++ ·) g.lines, g.written, g.result⟩

/-- C128: credentials that load to the same key and certificates, from another file, in another format or with another password, leave the
same output. -/
theorem C128_source (M : Machine) (clock : Option UInt64) (fs fs' : Fs) (input output input' output' : Path) (v2 stamp v2' stamp' : CredPaths)
    (sections : List (List Char)) (hi : fs' input' = fs input) (ho : output' = input' ↔ output = input)
    (hc : M.creatable output' = M.creatable output) (h1 : v2'.load M.keys fs' = v2.load M.keys fs)
    (h2 : stamp'.load M.keys fs' = stamp.load M.keys fs) :
    SameRun (signRun M clock fs input output v2 stamp sections) (signRun M clock fs' input' output' v2' stamp' sections) := by
  obtain ⟨d, e, h⟩ := C128_command M clock fs input output v2 stamp sections
  refine h fs' input' output' v2' stamp' hi ho hc ?_ ?_
  · rw [h1]
    cases v2.load M.keys fs with
    | error x => exact .error
    | ok o =>
      cases o with
      | none => exact .none
      | some c => exact .some ⟨rfl, rfl, rfl, rfl, rfl⟩
  · rw [h2]
    cases stamp.load M.keys fs with
    | error x => exact .error
    | ok o =>
      cases o with
      | none => exact .none
      | some c => exact .some ⟨rfl, rfl, rfl, rfl⟩

/-- C128: without a stamp nothing depends on the time. -/
theorem C128_clock (M : Machine) (clock clock' : Option UInt64) (fs : Fs) (input output : Path) (v2 stamp : CredPaths)
    (sections : List (List Char)) (h : stamp.load M.keys fs = .ok none) :
    signRun M clock' fs input output v2 stamp sections = signRun M clock fs input output v2 stamp sections := by
  unfold signRun
  rw [h]
  rfl

/-- C128: nor with one, for a signer with the time stamp switched off. -/
theorem C128_untimed (E : Env) (p : Profile) (clock clock' : Option UInt64) (m : ModuleSigner) (ds : Digests)
    (h : m.stamp = none ∨ m.timestamp = false) : m.sign E p clock' ds = m.sign E p clock ds := by
  obtain ⟨v, st, ts, pad⟩ := m
  unfold ModuleSigner.sign ModuleSigner.signStampPart
  rcases h with h | h <;> dsimp only at h <;> subst h
  · rfl
  · cases st <;> rfl

/-! ### Examples -/

/-- A machine whose public keys and signatures leave out all but the first byte of the key. -/
def blindEnv : Env := { toyEnv with p256Sign := fun k m => k.take 1 ++ m, p256Pub := fun k => some (k.take 1) }

def blindMachine : Machine := { toyMachine with env := blindEnv }

/-- The files of the examples, under other names and with another key. -/
def otherFs : Fs := fun q =>
  if q = "other".toList then some plainArchive.unsigned
  else if q = "k2".toList then some [1, 7, 9]
  else if q = "k3".toList then some [3, 5, 7]
  else if q = "c".toList then some [7, 1, 8, 9]
  else none

/-- Another key, and another name of the input. -/
example (clock : Option UInt64) (sections : List (List Char)) :
    SameRun (signRun blindMachine clock toyFs "in".toList "out".toList toyPaths noPaths sections)
      (signRun blindMachine clock otherFs "other".toList "x".toList ⟨some "k2".toList, some "c".toList, none, none⟩ noPaths sections) := by
  obtain ⟨d, e, h⟩ := C128_command blindMachine clock toyFs "in".toList "out".toList toyPaths noPaths sections
  refine h otherFs "other".toList "x".toList ⟨some "k2".toList, some "c".toList, none, none⟩ noPaths rfl (by decide +kernel) rfl ?_ ?_
  · rw [show toyPaths.load blindMachine.keys toyFs = .ok (some ⟨.p256 [7], [7], .p256, [[8], [9]]⟩) by decide +kernel,
      show CredPaths.load blindMachine.keys otherFs ⟨some "k2".toList, some "c".toList, none, none⟩ =
        .ok (some ⟨.p256 [7, 9], [7], .p256, [[8], [9]]⟩) by decide +kernel]
    exact .some ⟨rfl, rfl, rfl, rfl, rfl⟩
  · exact .none

/-- A block made with either of two keys. -/
example : ((ModuleSigner.v2Only toyConfig).sign blindEnv .dev none (Digests.new [Digest.new .p256 [1, 2]])).isOk = true ∧
    (ModuleSigner.v2Only { toyConfig with key := .p256 [7, 9] }).sign blindEnv .dev (some 3) (Digests.new [Digest.new .p256 [1, 2]]) =
      (ModuleSigner.v2Only toyConfig).sign blindEnv .dev none (Digests.new [Digest.new .p256 [1, 2]]) :=
  ⟨by decide +kernel, (C128_untimed _ _ none _ _ _ (.inl rfl)).trans (sign_as ⟨.some ⟨rfl, rfl, rfl, rfl, rfl⟩, .none, rfl, rfl⟩)⟩

/-- The same key behind a password. -/
example : CredPaths.load toyKeys otherFs ⟨some "k3".toList, some "c".toList, none, some [5]⟩ = toyPaths.load toyKeys toyFs := by
  decide +kernel

end Ksusig.Props
