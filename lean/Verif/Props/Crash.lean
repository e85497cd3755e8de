import Verif.Props.Exit

/-!
# Interrupted signing
-/

namespace Ksusig.Props

open Ksusig Spec

theorem frame_prefix {x y r s : Bytes} (hx : x.length + 24 < 2 ^ 64) (hy : y.length + 24 < 2 ^ 64)
    (h : wireFrame x ++ r <+: wireFrame y ++ s) : x = y := by
  obtain ⟨t, ht⟩ := h
  simp only [wireFrame, List.append_assoc] at ht
  obtain ⟨h1, h2⟩ := List.append_inj ht (by simp)
  have hl : x.length = y.length := by
    have := congrArg leNat h1
    rw [leNat_leBytes_of_lt (by omega), leNat_leBytes_of_lt (by omega)] at this
    omega
  exact (List.append_inj h2 hl).1

/-- Where a block is found, the part of the file that is left out of the digest is a complete frame. -/
theorem split_frame {p : Profile} {file body block cd tail : Bytes} {b : SigningBlock} (h : Split p file body block cd tail)
    (hb : (Module.new file).getSigningBlock p file = .ok b) : ∃ pairs, block = wireFrame pairs ∧ pairs.length + 24 ≤ 16384 := by
  obtain ⟨e, he, hfo, ⟨b', hb', hs, hen⟩ | ⟨err, herr, _⟩⟩ := h.parts
  · cases hb.symm.trans hb'
    rw [getSigningBlock_new] at hb
    obtain ⟨e', he', hr⟩ := Res.bind_eq_ok.mp hb
    obtain ⟨pre, pairs, post, h1, h2, _, h3, h4, _⟩ := C07_from_reader _ _ _ _ _ hr
    refine ⟨pairs, ?_, h2⟩
    have h5 := h.file_eq.symm.trans h1
    rw [List.append_assoc, List.append_assoc, List.append_assoc] at h5
    obtain ⟨_, h6⟩ := List.append_inj h5 (by omega)
    exact (List.append_inj h6 (by omega)).1
  · rw [hb] at herr; cases herr

theorem tail_not_cut {t t2 : Tail} {o : Nat} {tail : Bytes} (hc : t.comment.length ≤ 65535) (hc2 : t2.comment.length ≤ 65535)
    (h22 : 22 ≤ tail.length) (hpre : tail <+: wireEocd t o) (h : patchOffset tail 0 = wireEocd t2 0) :
    tail.length = (wireEocd t o).length := by
  have hl : ∀ (t : Tail) o, (wireEocd t o).length = 22 + t.comment.length := by
    intro t o; simp [wireEocd]; omega
  have hd : ∀ (t : Tail) o, ((wireEocd t o).drop 20).take 2 = leBytes 2 t.comment.length := by
    intro t o
    have : wireEocd t o = ([0x50, 0x4b, 0x05, 0x06] ++ leBytes 2 t.disk.toNat ++ leBytes 2 t.diskCd.toNat ++ leBytes 2 t.entries.toNat ++
      leBytes 2 t.total.toNat ++ leBytes 4 t.cdSize.toNat ++ leBytes 4 o) ++ (leBytes 2 t.comment.length ++ t.comment) := by
      simp [wireEocd]
    rw [this, List.drop_left' (by simp), List.take_left' (by simp)]
  have h1 := congrArg List.length h
  rw [patchOffset_length h22, hl] at h1
  have h2 : (patchOffset tail 0).drop 20 = tail.drop 20 := by
    unfold patchOffset
    rw [List.drop_left' (by simp; omega)]
  have h3 : (tail.drop 20).take 2 = leBytes 2 t2.comment.length := by rw [← h2, h, hd]
  obtain ⟨z, hz⟩ := hpre
  have h4 : (tail.drop 20).take 2 = leBytes 2 t.comment.length := by
    rw [← hd t o, ← hz, List.drop_append_of_le_length (by omega), List.take_append_of_le_length (by simp; omega)]
  have h5 := congrArg leNat (h3.symm.trans h4)
  rw [leNat_leBytes_of_lt (by omega), leNat_leBytes_of_lt (by omega)] at h5
  rw [hl]
  omega

/-- A file that is cut off is not divided into the same entries and the same directory. -/
theorem cut_differs {p p' : Profile} {a a2 : Archive} {out block body blk cd tail : Bytes} {n : Nat} {b b' : SigningBlock}
    (hout : Split p' out a.body block a.cd (wireEocd a.tail (a.body.length + block.length)))
    (hb' : (Module.new out).getSigningBlock p' out = .ok b') (hok : a.Ok) (hok2 : a2.Ok) (hn : n < out.length)
    (hsp : Split p (out.take n) body blk cd tail) (hb : (Module.new (out.take n)).getSigningBlock p (out.take n) = .ok b)
    (h : ∀ off, patchOffset tail off = wireEocd a2.tail off) : ¬ (body = a.body ∧ cd = a.cd) := by
  rintro ⟨rfl, rfl⟩
  obtain ⟨x, hx, hxl⟩ := split_frame hsp hb
  obtain ⟨y, hy, hyl⟩ := split_frame hout hb'
  have hpre : out.take n <+: out := List.take_prefix _ _
  rw [hsp.file_eq] at hpre
  conv at hpre => rhs; rw [hout.file_eq]
  simp only [List.append_assoc] at hpre
  rw [List.prefix_append_right_inj] at hpre
  have hxy : x = y := by
    rw [hx, hy] at hpre
    exact frame_prefix (by omega) (by omega) hpre
  have hblk : blk = block := by rw [hx, hy, hxy]
  subst hblk
  rw [List.prefix_append_right_inj, List.prefix_append_right_inj] at hpre
  have hlen := tail_not_cut hok hok2 hsp.tail_bounds.1 hpre (h 0)
  have h1 := congrArg List.length hsp.file_eq
  have h2 := congrArg List.length hout.file_eq
  simp only [List.length_append, List.length_take] at h1 h2
  omega

/-- C81, for files that are divided into regions without wrapping (missing: release builds on files whose offsets wrap): if the
first `n` bytes of a signed module are accepted, although the file is not complete, then for every signer one of these holds: the
key signed a different module, with exactly the contents of the part; or one of the signatures is a forgery; or there is a hash
collision. `runs` are all uses of the sign command. -/
theorem C81_cut_off_module_partial {E : Env} {p p' : Profile} {builtin : Bytes} {root : Option Bytes} {now : Nat} {a : Archive} {out : Bytes}
    {n : Nat} {runs : Archive → Bytes → Prop} (hruns : ∀ a out, runs a out → SignRun E p' a out) (hr : runs a out)
    (h2 : FixedLength E.sha256) (h5 : FixedLength E.sha512) (hn : n < out.length)
    {body block cd tail : Bytes} (hsp : Split p (out.take n) body block cd tail)
    (h : cliVerify E p builtin root now (out.take n) = .ok ()) :
    ∃ b, (Module.new (out.take n)).getSigningBlock p (out.take n) = .ok b ∧ v2Signers b ≠ [] ∧
      ∀ s ∈ v2Signers b,
        (∃ a' out' msg', runs a' out' ∧ SignedIn p' out' s.pubKey.data msg' ∧ a'.body = body ∧ a'.cd = cd ∧
          (∀ off, patchOffset tail off = wireEocd a'.tail off) ∧ ¬ (a'.body = a.body ∧ a'.cd = a.cd)) ∨
        (∃ g ∈ s.sigs.data, CryptoOk E g.algo s.pubKey.data (s.signedData.toU8.drop 4) g.signature ∧
          ∀ a out, runs a out → ¬ SignedIn p' out s.pubKey.data (s.signedData.toU8.drop 4)) ∨
        (∃ a' out' msg', runs a' out' ∧ SignedIn p' out' s.pubKey.data msg' ∧ ∃ al, Known al ∧
          Collision (al.hash E) [a'.body, a'.cd, wireEocd a'.tail a'.body.length] [body, cd, patchOffset tail body.length]) := by
  obtain ⟨b, hb, hne, hs⟩ := C77_accepted_was_signed_partial hruns h2 h5 hsp h
  refine ⟨b, hb, hne, fun s hsm => ?_⟩
  rcases hs _ _ _ (.inl ⟨s, hsm, rfl, rfl, rfl⟩) with ⟨a', out', msg', hr', hsig, hbody, hcd, htail⟩ | hf | hc
  · left
    refine ⟨a', out', msg', hr', hsig, hbody, hcd, htail, ?_⟩
    obtain ⟨b1, b', _, _, hb', hout, _⟩ := signRun_block (hruns a out hr)
    have hok : ∀ a out, runs a out → a.Ok := by
      intro a out hr
      obtain ⟨_, _, _, _, hs, _⟩ := hruns a out hr
      exact (hs 0 (by omega)).comment
    rw [hbody, hcd]
    exact cut_differs hout hb' (hok a out hr) (hok a' out' hr') hn hsp hb htail
  · exact .inr (.inl hf)
  · exact .inr (.inr hc)

theorem slice_take {d : Bytes} {n i j : Nat} {x : Bytes} (h : slice? (d.take n) i j = some x) : slice? d i j = some x ∧ j ≤ n := by
  obtain ⟨h1, h2, h3⟩ := slice?_iff.mp h
  rw [List.length_take] at h2
  refine ⟨slice?_iff.mpr ⟨h1, by omega, ?_⟩, by omega⟩
  rw [h3]
  rw [List.drop_take, List.take_take, Nat.min_eq_left (by omega)]

/-- C81 without any assumption about the cryptography, in every build: if the end record is the only place of the complete output
with the signature of an end record, no proper part of the output is accepted. -/
theorem C81_cut_off_refused_partial {E : Env} {p : Profile} {builtin : Bytes} {root : Option Bytes} {now n : Nat} {a : Archive} {block : Bytes}
    (hok : a.Ok) (honly : ∀ k, slice? (a.signed block) k (k + 4) = some [0x50, 0x4b, 0x05, 0x06] →
      k = a.body.length + block.length + a.cd.length) (hn : n < (a.signed block).length) :
    cliVerify E p builtin root now ((a.signed block).take n) ≠ .ok () := by
  refine C64_without_record fun k => ?_
  rintro ⟨h1, h2, h3⟩
  obtain ⟨h4, _⟩ := slice_take h1
  have hk := honly k h4
  have hl : (a.signed block).length = a.body.length + block.length + a.cd.length + (22 + a.tail.comment.length) := by
    simp only [Archive.signed, List.length_append, wireEocd_length]
  rw [List.length_take] at h2 h3
  have hd : ((((a.signed block).take n).drop (k + 20)).take 2) = leBytes 2 a.tail.comment.length := by
    have hsg : a.signed block = (a.body ++ block ++ a.cd ++ ([0x50, 0x4b, 0x05, 0x06] ++ leBytes 2 a.tail.disk.toNat ++
        leBytes 2 a.tail.diskCd.toNat ++ leBytes 2 a.tail.entries.toNat ++ leBytes 2 a.tail.total.toNat ++
        leBytes 4 a.tail.cdSize.toNat ++ leBytes 4 (a.body.length + block.length))) ++ (leBytes 2 a.tail.comment.length ++ a.tail.comment) := by
      simp [Archive.signed, wireEocd]
    rw [List.drop_take, List.take_take, Nat.min_eq_left (by omega), hsg, List.drop_left' (by simp; omega), List.take_left' (by simp)]
  unfold Archive.Ok at hok
  rw [hd, leNat_leBytes_of_lt (by omega)] at h3
  omega

example : plainArchive.Ok ∧ (∀ k, slice? (plainArchive.signed emptyBlock.toU8) k (k + 4) = some [0x50, 0x4b, 0x05, 0x06] →
    k = plainArchive.body.length + emptyBlock.toU8.length + plainArchive.cd.length) := by
  refine ⟨(plainArchive_signable 0 (by omega)).comment, fun k hk => ?_⟩
  obtain ⟨_, h2, _⟩ := slice?_iff.mp hk
  have hall : ∀ k < 100, slice? (plainArchive.signed emptyBlock.toU8) k (k + 4) = some [0x50, 0x4b, 0x05, 0x06] →
    k = plainArchive.body.length + emptyBlock.toU8.length + plainArchive.cd.length := by decide +kernel
  have hl : (plainArchive.signed emptyBlock.toU8).length ≤ 100 := by decide +kernel
  exact hall k (by omega) hk

/-- C81 fails where the entries start with another signed module: a part of the output is that module, and is accepted. -/
theorem C81_module_in_front {E : Env} {p : Profile} {builtin : Bytes} {root : Option Bytes} {now : Nat} {a : Archive}
    {inner rest block : Bytes} (hbody : a.body = inner ++ rest) (h : cliVerify E p builtin root now inner = .ok ()) :
    inner.length < (a.signed block).length ∧ cliVerify E p builtin root now ((a.signed block).take inner.length) = .ok () := by
  have hsg : a.signed block = inner ++ (rest ++ (block ++ (a.cd ++ wireEocd a.tail (a.body.length + block.length)))) := by
    rw [Archive.signed, hbody]; simp
  constructor
  · rw [hsg]; simp only [List.length_append, wireEocd_length]; omega
  · rw [hsg, List.take_left' rfl]; exact h

/-- A module of the examples whose entries start with a signed module. -/
def bundleFs : Fs :=
  let fs := Run.after toyMachine ⟨.sign "in".toList "mid".toList toyPaths noPaths [], 0, some 5, .finished⟩ toyFs
  fs.set "in".toList (Archive.signed { plainArchive with body := (fs "mid".toList).getD [] ++ plainArchive.body } emptyBlock.toU8)

/-- C81 is false: signing this module succeeds and writes 8304 bytes; stopped after 4152 of them, it leaves a file that the verify
command accepts. -/
theorem C81_interrupted_accepted :
    ((Command.sign "in".toList "out".toList toyPaths noPaths []).exec toyMachine 0 (some 5) bundleFs).status = 0 ∧
    ((Run.after toyMachine ⟨.sign "in".toList "out".toList toyPaths noPaths [], 0, some 5, .finished⟩ bundleFs "out".toList).getD []).length = 8304 ∧
    ((Command.verify "out".toList none).exec toyMachine 0 none
      (Run.after toyMachine ⟨.sign "in".toList "out".toList toyPaths noPaths [], 0, some 5, .writing 4152⟩ bundleFs)).status = 0 := by
  decide +kernel
/-- C81 for the program, in development builds: the sign command is stopped when it has written `n` bytes of the output, but not
all of them. If the verify command then accepts the output, every V2 signature in it contains a forgery, that is a correct
signature of a message that the complete output does not contain, or there is a hash collision between the complete output and
what is there. -/
theorem C81_stopped_signing_dev {M : Machine} (hM : M.profile = .dev) {now later : Nat} {clock clock' : Option UInt64} {fs : Fs}
    {input out : Path} {v2 stamp : CredPaths} {root : Option Path} {a : Archive} {file : Bytes} {n : Nat}
    (h2 : FixedLength M.env.sha256) (h5 : FixedLength M.env.sha512)
    (hi : fs input = some file) (hf : ModuleFile a file) (hne : out ≠ input)
    (hsign : ((Command.sign input out v2 stamp []).exec M now clock fs).status = 0) :
    ∃ full, Run.after M ⟨.sign input out v2 stamp [], now, clock, .finished⟩ fs out = some full ∧
      Run.after M ⟨.sign input out v2 stamp [], now, clock, .writing n⟩ fs out = some (full.take n) ∧
      (n < full.length →
        ((Command.verify out root).exec M later clock' (Run.after M ⟨.sign input out v2 stamp [], now, clock, .writing n⟩ fs)).status = 0 →
        ∃ body block cd tail b, Split .dev (full.take n) body block cd tail ∧
          (Module.new (full.take n)).getSigningBlock .dev (full.take n) = .ok b ∧ v2Signers b ≠ [] ∧
          ∀ s ∈ v2Signers b,
            (∃ g ∈ s.sigs.data, CryptoOk M.env g.algo s.pubKey.data (s.signedData.toU8.drop 4) g.signature ∧
              ¬ SignedIn .dev full s.pubKey.data (s.signedData.toU8.drop 4)) ∨
            (∃ al, Known al ∧
              Collision (al.hash M.env) [a.body, a.cd, wireEocd a.tail a.body.length] [body, cd, patchOffset tail body.length])) := by
  obtain ⟨m, b, hm, hb, hx, hfin⟩ := sign_finished (M := M) hi hf hne hsign
  have hcut : Run.after M ⟨.sign input out v2 stamp [], now, clock, .writing n⟩ fs out = some ((a.signed b.toU8).take n) := by
    rw [after_eq]
    dsimp only
    rw [hx]
    exact set_same
  refine ⟨a.signed b.toU8, hfin, hcut, fun hn hv => ?_⟩
  obtain ⟨file', pem, b', cert, d2, d5, hf', hroot, hv⟩ := C80_verify_status.mp hv
  rw [hcut] at hf'
  cases hf'
  rw [hM] at hv
  obtain ⟨r1, r2, r3, r4, r5⟩ := hv
  have hver : cliVerify M.env .dev M.builtin (some pem) later ((a.signed b.toU8).take n) = .ok () :=
    C35_verify_command.mpr ⟨b', cert, d2, d5, r2, r1, r3, r4, r5⟩
  obtain ⟨body, block, cd, tail, hsp⟩ := split_of_digest_dev r3
  have hrun : SignRun M.env .dev a (a.signed b.toU8) := by
    refine ⟨clock, m, file, hf.input, hf.signable, signerFrom_known hm, ?_⟩
    obtain ⟨r, hr, hc⟩ := C25_sign_command (E := M.env) (p := .dev) (clock := clock) hf.input hf.signable (signerFrom_known hm)
    rw [hc]
    rw [hM] at hb
    rw [hb] at hr
    subst hr
    rfl
  obtain ⟨b2, hb2, hne2, hs⟩ := C81_cut_off_module_partial (runs := fun a' out' => a' = a ∧ out' = a.signed b.toU8) (p' := .dev)
    (by rintro _ _ ⟨rfl, rfl⟩; exact hrun) ⟨rfl, rfl⟩ h2 h5 hn hsp hver
  refine ⟨body, block, cd, tail, b2, hsp, hb2, hne2, fun s hsm => ?_⟩
  rcases hs s hsm with ⟨a', out', _, ⟨rfl, rfl⟩, _, _, _, _, hno⟩ | ⟨g, hg, hc, hno⟩ | ⟨a', out', _, ⟨rfl, rfl⟩, _, al, hal, hcol⟩
  · exact absurd ⟨rfl, rfl⟩ hno
  · exact .inl ⟨g, hg, hc, hno _ _ ⟨rfl, rfl⟩⟩
  · exact .inr ⟨al, hal, hcol⟩

/-- The hypotheses are met. -/
example : toyMachine.profile = .dev ∧ FixedLength toyMachine.env.sha256 ∧ FixedLength toyMachine.env.sha512 ∧
    toyFs "in".toList = some plainArchive.unsigned ∧ ModuleFile plainArchive plainArchive.unsigned ∧
    ((Command.sign "in".toList "out".toList toyPaths noPaths []).exec toyMachine 0 (some 5) toyFs).status = 0 :=
  ⟨rfl, toyHash_fixed (by omega), toyHash_fixed (by omega), by decide +kernel, toyFs_module, toySign_ok _ (by decide)⟩

end Ksusig.Props
