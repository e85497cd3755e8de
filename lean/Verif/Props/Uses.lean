import Verif.SpecUses
import Verif.Props.Confusion
import Verif.Props.Anatomy
import Verif.Props.Handle
import Verif.Props.Out

/-! # What acceptance proves, in every build, about keys used by the sign command on any files: C77 -/

namespace Ksusig.Props

open Ksusig Spec

/-- The messages in a block the sign command made are about the digests of what it hashed. -/
theorem signedOnce_honest {E : Env} {acc : Bytes → Bool} {s : SignableFile} {b : SigningBlock} (h : SignedOnce E acc s b)
    {pk msg : Bytes} (hm : SignedBy b pk msg) : ∃ parts, HashedParts acc s parts ∧ KeyUse.Honest E ⟨pk, msg, parts⟩ := by
  obtain ⟨M, clock, fs, input, v2, stamp, sections, m, rfl, rfl, hlen, ⟨hsf, file, hfile, ho⟩, hmk⟩ := h
  have hk := signerFrom_known hsf
  obtain ⟨pairs, b0, ⟨hp1, hp2⟩, hsign, hrec⟩ := hmk
  have halgo : ∀ x ∈ pairs, AlgoOk x.1 := by
    intro x hx
    have hal : x.1 ∈ m.requiredAlgorithms := by rw [← hp1]; exact List.mem_map_of_mem hx
    rcases ((C37_required_algorithms m).2 _).mp hal with ⟨c, hc, h⟩ | ⟨c, hc, h⟩
    · rw [← h]; rcases hk c (.inl hc) with h | h <;> simp [AlgoOk, h]
    · rw [← h]; rcases hk c (.inr hc) with h | h <;> simp [AlgoOk, h]
  have hsign' : m.sign M.env M.profile clock (pairDigests pairs) = .ok b0 := hsign
  have hfits := built_fits (sign_built halgo hsign')
  have hparts : ∃ parts, HashedParts M.acc s parts ∧ (∀ x ∈ pairs, x.2 = treeDigest (x.1.hash M.env) parts) ∧
      v2Signers b = v2Signers b0 ∧ stamps b = stamps b0 := by
    rcases cliOpen_cases ho with ⟨rfl, _, _⟩ | ⟨f, rfl, _, _, _⟩
    · cases hrec
      have hl := hlen file hfile
      have hne : pairs ≠ [] := by
        rintro rfl
        have hv := signerFrom_v2 hsf
        cases hc : m.v2 with
        | none => exact hv hc
        | some c =>
          have : c.algo ∈ m.requiredAlgorithms := ((C37_required_algorithms m).2 _).mpr (.inl ⟨c, hc, rfl⟩)
          rw [← hp1] at this
          cases this
      obtain ⟨x0, hx0⟩ := List.exists_mem_of_ne_nil _ hne
      obtain ⟨pos, t, off, i, j, hr, hloc, _, _⟩ := (C89_digest M.env M.profile file hl _ _).mp (hp2 x0 hx0)
      refine ⟨_, .module file pos t off i j hr hloc, fun x hx => ?_, rfl, rfl⟩
      obtain ⟨pos1, t1, off1, i1, j1, hr1, hloc1, _, h1⟩ := (C89_digest M.env M.profile file hl _ _).mp (hp2 x hx)
      obtain ⟨rfl, rfl, rfl⟩ := hr.unique hr1
      obtain ⟨rfl, rfl⟩ := (C89_unique file).2 _ _ _ _ _ hloc hloc1
      exact h1
    · obtain ⟨l, hl, hb⟩ := Res.bind_eq_ok.mp hrec
      cases hb
      refine ⟨_, .elf f l hl, fun x hx => ?_, ?_, ?_⟩
      · have := hp2 x hx
        have hd : f.digest M.env M.acc x.1 = .ok x.2 := this
        unfold ElfFile.digest at hd
        rw [hl, Res.ok_bind] at hd
        exact (Res.ok.inj hd).symm.trans (digestElfSections_eq M.env f.data l x.1)
      · unfold v2Signers SigningBlock.recalculateSize; simp
      · unfold stamps SigningBlock.recalculateSize; simp
  obtain ⟨parts, hh, hd, e1, e2⟩ := hparts
  obtain ⟨hv2, hst⟩ := signers_of_shape hsign'
  refine ⟨parts, hh, ?_⟩
  have hpairs : ∀ x ∈ pairs, AlgoOk x.1 ∧ x.2 = treeDigest (x.1.hash M.env) parts := fun x hx => ⟨halgo x hx, hd x hx⟩
  rcases hm with ⟨g, hg, _, hmsg⟩ | ⟨g, hg, _, hmsg⟩
  · rw [e1] at hg
    obtain ⟨rest, hrest⟩ := signedV2_drop g.signedData
    have hf := v2Signers_fits hfits hg
    rcases hv2 with ⟨_, h0⟩ | ⟨_, g', _, hg', hmade⟩
    · rw [h0] at hg; cases hg
    · rw [hg'] at hg
      have : g = g' := by simpa using hg
      subst this
      rw [hmade.digests] at hrest hf
      exact pairDigests_honest hpairs hf (hrest.trans hmsg.symm)
  · rw [e2] at hg
    obtain ⟨rest, hrest⟩ := signedStamp_drop g.signedData
    have hf := stamps_fits hfits hg
    rcases hst with ⟨_, h0⟩ | ⟨_, g', _, hg', hmade⟩
    · rw [h0] at hg; cases hg
    · rw [hg'] at hg
      have : g = g' := by simpa using hg
      subst this
      rw [hmade.digests] at hrest hf
      exact pairDigests_honest hpairs hf (hrest.trans hmsg.symm)

theorem pieces_flat {ps qs : List Bytes} (h : ps.flatMap pieces = qs.flatMap pieces) : ps.flatten = qs.flatten := by
  have key : ∀ l : List Bytes, (l.flatMap pieces).flatten = l.flatten := by
    intro l
    induction l with
    | nil => rfl
    | cons x l ih =>
      rw [List.flatMap_cons, List.flatten_append, ih, pieces_flatten _ x (Nat.le_refl _)]
      rfl
  rw [← key ps, ← key qs, h]

theorem located_bounds {file : Bytes} {pos : Nat} {t : Tail} {off s e : Nat} (hr : EndRecord file pos t off) (hl : Located file off s e) :
    s < 2 ^ 32 ∧ s ≤ e := by
  have := hr.offset
  cases hl with
  | unsigned h => exact ⟨this, Nat.le_refl _⟩
  | signed pre pairs vs h =>
    have := h.inside
    exact ⟨by omega, by omega⟩

/-- Equal pieces mean equal regions. -/
theorem regions_unique {file file' : Bytes} {pos pos' : Nat} {t t' : Tail} {off off' s s' e e' : Nat} (hr : EndRecord file pos t off)
    (hl : Located file off s e) (hr' : EndRecord file' pos' t' off') (hl' : Located file' off' s' e')
    (h : (regions file s e pos).flatMap pieces = (regions file' s' e' pos').flatMap pieces) :
    regions file s e pos = regions file' s' e' pos' := by
  obtain ⟨b1, b2⟩ := located_bounds hr hl
  obtain ⟨b1', b2'⟩ := located_bounds hr' hl'
  have t1 : 22 ≤ (file.drop pos).length := by have := endRecord_room hr; simp; omega
  have t1' : 22 ≤ (file'.drop pos').length := by have := endRecord_room hr'; simp; omega
  have t2 : (file.drop pos).length ≤ 2 ^ 20 := by have := hr.reach; simp; omega
  have t2' : (file'.drop pos').length ≤ 2 ^ 20 := by have := hr'.reach; simp; omega
  have q1 := patchOffset_length (a := s) t1
  have q1' := patchOffset_length (a := s') t1'
  unfold regions at h ⊢
  have hb : e ≥ file.length → (if e ≤ pos then (file.drop e).take (pos - e) else file.drop e) = [] := by
    intro h
    have : file.drop e = [] := List.drop_eq_nil_of_le h
    rw [this]
    simp
  have hb' : e' ≥ file'.length → (if e' ≤ pos' then (file'.drop e').take (pos' - e') else file'.drop e') = [] := by
    intro h
    have : file'.drop e' = [] := List.drop_eq_nil_of_le h
    rw [this]
    simp
  generalize (if e ≤ pos then (file.drop e).take (pos - e) else file.drop e) = cd at *
  generalize (if e' ≤ pos' then (file'.drop e').take (pos' - e') else file'.drop e') = cd' at *
  have n1 : patchOffset (file.drop pos) s ≠ [] := fun h => by
    rw [h, List.length_nil] at q1
    omega
  have n1' : patchOffset (file'.drop pos') s' ≠ [] := fun h => by
    rw [h, List.length_nil] at q1'
    omega
  simp only [List.flatMap_cons, List.flatMap_nil, List.append_nil, pieces_small n1 (by omega), pieces_small n1' (by omega)] at h
  rw [← List.append_assoc, ← List.append_assoc] at h
  obtain ⟨h1, h2⟩ := List.append_inj' h rfl
  have hcc : patchOffset (file.drop pos) s = patchOffset (file'.drop pos') s' := by simpa using h2
  have hss := patchOffset_inj_off b1 b1' t1 t1' hcc
  have h3 := congrArg List.flatten h1
  rw [List.flatten_append, List.flatten_append, pieces_flatten _ _ (Nat.le_refl _), pieces_flatten _ cd (Nat.le_refl _),
    pieces_flatten _ _ (Nat.le_refl _), pieces_flatten _ cd' (Nat.le_refl _)] at h3
  have h4 := congrArg List.length h3
  simp only [List.length_append, List.length_take] at h4
  have hlen : (file.take s).length = (file'.take s').length := by
    simp only [List.length_take]
    by_cases c1 : s ≤ file.length
    · by_cases c2 : s' ≤ file'.length
      · omega
      · rw [hb' (by omega)] at h4
        simp only [List.length_nil] at h4
        omega
    · rw [hb (by omega)] at h4
      by_cases c2 : s' ≤ file'.length
      · simp only [List.length_nil] at h4
        omega
      · rw [hb' (by omega)] at h4
        simp only [List.length_nil] at h4
        omega
  obtain ⟨h5, h6⟩ := List.append_inj h3 hlen
  rw [h5, h6, hcc]

/-- C77, in every build, for keys that are used by the sign command only, on any files of either format, with any credentials: whatever
file the verify command accepts, each of its V2 signers (and its first stamp) has a key the command was run with on a module whose three
hashed regions (entries, directory, end record up to its directory offset) are those of this file, or on an ELF file whose chosen sections,
one after the other, are these regions; or it shows a forged signature; or it shows two inputs with the same hash value. -/
theorem C77_accepted_was_signed {E : Env} {p : Profile} {acc : Bytes → Bool} {builtin : Bytes} {root : Option Bytes} {now : Nat}
    {file : Bytes} {runs : SignableFile → SigningBlock → Prop} (hruns : ∀ s b, runs s b → SignedOnce E acc s b)
    (h2 : FixedLength E.sha256) (h5 : FixedLength E.sha512) (hlen : file.length < 2 ^ 64)
    (h : cliVerify E p builtin root now file = .ok ()) :
    ∃ pos t off pre pairs vs, EndRecord file pos t off ∧ BlockBefore file (min file.length off) pre pairs vs ∧ signersIn vs ≠ [] ∧
      ∀ pk msg sigs, ((∃ s ∈ signersIn vs, pk = s.pubKey.data ∧ msg = s.signedData.toU8.drop 4 ∧ sigs = s.sigs.data) ∨
          (∃ s rest, stampsIn vs = s :: rest ∧ pk = s.pubKey.data ∧ msg = s.signedData.toU8.drop 4 ∧ sigs = s.sigs.data)) →
        (∃ s0 b0 msg0 parts, runs s0 b0 ∧ SignedBy b0 pk msg0 ∧ HashedParts acc s0 parts ∧
          (s0.format = .module → parts = regions file pre.length (pre.length + pairs.length + 32) pos) ∧
          parts.flatten = (regions file pre.length (pre.length + pairs.length + 32) pos).flatten) ∨
        (∃ g ∈ sigs, CryptoOk E g.algo pk msg g.signature ∧ ∀ s0 b0, runs s0 b0 → ¬ SignedBy b0 pk msg) ∨
        (∃ s0 b0 msg0 parts, runs s0 b0 ∧ SignedBy b0 pk msg0 ∧ HashedParts acc s0 parts ∧ ∃ al, Known al ∧
          Collision (al.hash E) parts (regions file pre.length (pre.length + pairs.length + 32) pos)) := by
  let uses : KeyUse → Prop := fun u => ∃ s b, runs s b ∧ SignedBy b u.pk u.msg ∧ HashedParts acc s u.parts ∧ u.Honest E
  have hu : ∀ u, uses u → u.Honest E := fun u ⟨_, _, _, _, _, h⟩ => h
  have h' := h
  rw [C90_verify_command E p builtin root now file hlen] at h'
  obtain ⟨pos, t, off, pre, pairs, vs, _, hr, hbb, hp1, _, hne, _⟩ := h'
  have hloc := Located.signed pre pairs vs hbb
  have hb := (C89_block p file (⟨pre.length, pre.length + pairs.length + 32, pairs.length + 24,
        pairs.length, vs, pairs.length + 24, Ksusig.magic⟩ : SigningBlock)).mpr ⟨pos, t, off, pre, pairs, hr, hbb, rfl⟩
  obtain ⟨b, cert, hb', _, _, hv, hst⟩ := accepted_accounted hu h2 h5
    (fun al => (C89_digest E p file hlen al _).mpr ⟨pos, t, off, _, _, hr, hloc, hp1, rfl⟩) h
  cases hb.symm.trans hb'
  refine ⟨pos, t, off, pre, pairs, vs, hr, hbb, hne, fun pk msg sigs hpm => ?_⟩
  have hacc : Accounted E uses (regions file pre.length (pre.length + pairs.length + 32) pos) pk msg sigs := by
    rcases hpm with ⟨s, hs, rfl, rfl, rfl⟩ | ⟨s, rest, hs, rfl, rfl, rfl⟩
    · exact (hv s hs).2
    · exact (hst s rest hs).2
  rcases hacc with ⟨⟨pk', msg', parts⟩, ⟨s0, b0, hrun, hsb, hh, _⟩, rfl, heq⟩ | ⟨g, hg, hc, hno⟩ |
    ⟨⟨pk', msg', parts⟩, ⟨s0, b0, hrun, hsb, hh, _⟩, rfl, al, hal, hcol⟩
  · refine .inl ⟨s0, b0, msg', parts, hrun, hsb, hh, fun hf => ?_, pieces_flat heq⟩
    cases hh with
    | module file0 pos0 t0 off0 i j hr0 hl0 => exact regions_unique hr0 hl0 hr hloc heq
    | elf f l hl => cases hf
  · refine .inr (.inl ⟨g, hg, hc, fun s0 b0 hrun hsb => ?_⟩)
    obtain ⟨parts, hh, hon⟩ := signedOnce_honest (hruns s0 b0 hrun) hsb
    exact hno ⟨pk, msg, parts⟩ ⟨s0, b0, hrun, hsb, hh, hon⟩ ⟨rfl, rfl⟩
  · exact .inr (.inr ⟨s0, b0, msg', parts, hrun, hsb, hh, al, hal, hcol⟩)

/-! ### A file whose end record lies in its block -/

/-- An archive whose comment looks like the end of a block followed by the directory. -/
def innerArchive : Archive := ⟨plainArchive.body, [1, 2, 3], ⟨0, 0, 1, 1, 3, leBytes 8 155 ++ Ksusig.magic ++ [1, 2, 3]⟩⟩

/-- The block the sign command makes for it. -/
def innerBlock : SigningBlock :=
  match (ModuleSigner.v2Only toyConfig).sign toyEnv .dev (some 5)
    (Digests.new [Digest.new .p256 (contentDigest toyEnv innerArchive .p256)]) with
  | .ok b => b
  | _ => emptyBlock

/-- Its signature and, in a pair with an unknown id, its end record with another offset. -/
def innerPairs : Bytes :=
  (innerBlock.content.take 1).flatMap Value.toU8 ++ (Value.raw ⟨26, 5, (wireEocd innerArchive.tail 193).take 22⟩).toU8

/-- The entries, a block of these pairs, and the directory. Nothing follows. -/
def innerFile : Bytes := innerArchive.body ++ wireFrame innerPairs ++ innerArchive.cd

set_option maxRecDepth 100000 in
/-- C77: in release builds the accepted file need not be divided into entries, block, directory and end record, although the hashed regions
are those that were signed: the end record can lie in the block. A development build does not accept such a file. -/
theorem C77_record_in_block : cliVerify toyEnv .release [7] none 0 innerFile = .ok () ∧
    cliVerify toyEnv .release [7] none 0 (innerArchive.signed innerBlock.toU8) = .ok () ∧
    cliVerify toyEnv .dev [7] none 0 innerFile ≠ .ok () ∧
    (∃ e, findEocd innerFile innerFile.length = .ok e ∧ innerArchive.body.length < e.fileOffset ∧
      e.fileOffset < innerArchive.body.length + (wireFrame innerPairs).length) ∧
    regions innerFile innerArchive.body.length (innerArchive.body.length + (wireFrame innerPairs).length) 147 =
      [innerArchive.body, innerArchive.cd, wireEocd innerArchive.tail innerArchive.body.length] := by
  refine ⟨by decide +kernel, by decide +kernel, by decide +kernel, ?_, by decide +kernel⟩
  have h : ∃ e, findEocd innerFile innerFile.length = .ok e := Res.exists_of_isOk (by decide +kernel)
  obtain ⟨e, he⟩ := h
  have h1 : (findEocd innerFile innerFile.length >>= fun e => Res.ok e.fileOffset) = .ok 147 := by decide +kernel
  rw [he] at h1
  have h2 : e.fileOffset = 147 := Res.ok.inj h1
  exact ⟨e, he, by rw [h2]; decide +kernel, by rw [h2]; decide +kernel⟩

set_option maxRecDepth 100000 in
/-- A run of the sign command, whose output is accepted. -/
example : (∃ s b, SignedOnce toyEnv toyMachine.acc s b) ∧ FixedLength toyEnv.sha256 ∧ FixedLength toyEnv.sha512 ∧
    ∃ out, out.length < 2 ^ 64 ∧ cliVerify toyEnv .dev [7] none 0 out = .ok () := by
  refine ⟨?_, toyHash_fixed (by omega), toyHash_fixed (by omega), ?_⟩
  · have h : ((Command.sign "in".toList "out".toList toyPaths noPaths []).exec toyMachine 0 (some 5) toyFs).result = .ok () := by
      decide +kernel
    have h1 : (signRun toyMachine (some 5) toyFs "in".toList "out".toList toyPaths noPaths []).1.any
        (fun x => match x with | .complete _ => true | _ => false) = true := by decide +kernel
    obtain ⟨x, hx, h2⟩ := List.any_eq_true.mp h1
    cases x with
    | complete n =>
      obtain ⟨out, signer, s, b, _, hrd, hmk, _⟩ := (C109_size h).mp hx
      refine ⟨s, b, toyMachine, some 5, toyFs, _, _, _, _, signer, rfl, rfl, fun file hf => ?_, hrd, hmk⟩
      have : (toyFs "in".toList).all (fun file => decide (file.length < 2 ^ 64)) = true := by decide +kernel
      rw [hf] at this
      simpa using this
    | _ => cases h2
  · exact ⟨innerArchive.signed innerBlock.toU8, by decide +kernel, by decide +kernel⟩

end Ksusig.Props
