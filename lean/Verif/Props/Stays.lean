import Verif.Props.Exit
import Verif.Props.SignAgain
import Verif.Props.Handle
import Verif.Props.Robust

/-! # Signed modules stay accepted, whatever they contain: C79, C54 -/

namespace Ksusig.Props

open Ksusig Spec

/-- C54 for a file that does not change while it is verified, in both builds, for files below 2^64 bytes: a fully valid V2 verdict
means that the file has an end record and a block before the directory offset, that there is a signer in the block, and that every
signer (and the first stamp, if there is one) vouches for the digest of everything outside the block in the same file. (Missing: a
file that changes, `C54_race`.) -/
theorem C54_stable_any_build_partial {E : Env} {p : Profile} {file : Bytes} {added : List Bytes} {now : Nat} {v : VAll} {r : VResult}
    (hlen : file.length < 2 ^ 64)
    (h : (Module.new file).verifyWithRootsT E p (fun _ => file) (storeOf E added) now = .ok v) (hv : v.isValid = true)
    (hr : v.v2 = .ok r) :
    ∃ pos t off pre pairs vs, EndRecord file pos t off ∧ BlockBefore file (min file.length off) pre pairs vs ∧ signersIn vs ≠ [] ∧
      (∀ s ∈ signersIn vs, GoodV2 E added now
        (table (treeDigest E.sha256 (regions file pre.length (pre.length + pairs.length + 32) pos))
          (treeDigest E.sha512 (regions file pre.length (pre.length + pairs.length + 32) pos))) s) ∧
      ∀ s rest, stampsIn vs = s :: rest → GoodStamp E added now
        (table (treeDigest E.sha256 (regions file pre.length (pre.length + pairs.length + 32) pos))
          (treeDigest E.sha512 (regions file pre.length (pre.length + pairs.length + 32) pos))) s := by
  obtain ⟨pos, t, off, pre, pairs, vs, h1, h2, _, h3, h4, h5⟩ :=
    (C90_verify_with_roots E p added now file hlen).mp ⟨v, h, hv, r, hr⟩
  exact ⟨pos, t, off, pre, pairs, vs, h1, h2, h3, h4, h5⟩

theorem sign_module_written {M : Machine} {now : Nat} {clock : Option UInt64} {fs : Fs} {input out : Path} {v2 stamp : CredPaths}
    {file : Bytes} (hi : fs input = some file) (hfmt : detectFileFormat file = .ok .module) (hne : out ≠ input)
    (h : ((Command.sign input out v2 stamp []).exec M now clock fs).status = 0) :
    ∃ m d, signerFrom M.keys fs v2 stamp = .ok m ∧ cliSignModule M.env M.profile clock m false file = (some d, .ok ()) ∧
      Run.after M ⟨.sign input out v2 stamp [], now, clock, .finished⟩ fs out = some d := by
  obtain ⟨file', m, d, hi', hm, _, hc, hx⟩ := C80_sign_success h
  cases hi.symm.trans hi'
  refine ⟨m, d, hm, ?_, hx⟩
  have ho : SignableFile.open M.acc file = .ok (.module (Module.new file) file) := by
    unfold SignableFile.open
    rw [hfmt]
    rfl
  rw [← hc]
  unfold cliSign
  rw [ho, decide_eq_false hne]
  rfl

/-- C79: a module that was signed with exit status 0 is accepted by the verify command at every later time at which the
certificates are trusted, whatever commands have run in between, finished or not, unless one of them was told to write that file or
the root certificate. The module may contain anything: all that is asked of it is that nothing follows its end record, that its
block, if it has one, stands directly before its directory, that no other end record hides in the comment, and that it is not too
large. -/
theorem C79_signed_stays_accepted {M : Machine} {fs : Fs} {input out : Path} {file : Bytes} {pos : Nat} {t : Tail} {off s e : Nat}
    {v2 stamp : CredPaths} {now later : Nat} {clock clock' : Option UInt64} {rs : List Run} {m : ModuleSigner}
    {rootPath : Option Path} {rootPem : Bytes} {cert : Bytes} (hi : fs input = some file)
    (hfmt : detectFileFormat file = .ok .module) (hlen : file.length < 2 ^ 64) (hr : EndRecord file pos t off)
    (hl : Located file off s e) (hplain : Plain t) (hsize : off + 16392 < 2 ^ 32)
    (hend : pos + 22 + t.comment.length = file.length) (hdir : e = off) (hne : out ≠ input)
    (hsign : ((Command.sign input out v2 stamp []).exec M now clock fs).status = 0)
    (hm : signerFrom M.keys fs v2 stamp = .ok m) (hsound : ∀ c, m.v2 = some c ∨ m.stamp = some c → Sound M.env c)
    (hspare : Spares rs out) (hroot : ∀ q, rootPath = some q → Spares rs q ∧ q ≠ out ∧ fs q = some rootPem)
    (hnone : rootPath = none → M.builtin = rootPem) (hcert : M.env.pemParse rootPem = some ("CERTIFICATE", cert))
    (ht : ∀ c, m.v2 = some c → Trusted M.env [cert] later c.cert c.chain)
    (ht' : ∀ c, m.stamp = some c → Trusted M.env [cert] later c.cert []) :
    ((Command.verify out rootPath).exec M later clock'
      (history M (⟨.sign input out v2 stamp [], now, clock, .finished⟩ :: rs) fs)).status = 0 := by
  obtain ⟨m', d, hm', hc, hout⟩ := sign_module_written (M := M) hi hfmt hne hsign
  cases hm.symm.trans hm'
  have hfile : history M (⟨.sign input out v2 stamp [], now, clock, .finished⟩ :: rs) fs out = some d := by
    have : history M (⟨.sign input out v2 stamp [], now, clock, .finished⟩ :: rs) fs =
        history M rs (Run.after M ⟨.sign input out v2 stamp [], now, clock, .finished⟩ fs) := rfl
    rw [this, C79_history_frame hspare, hout]
  have hver : ∀ root, root.getD M.builtin = rootPem → cliVerify M.env M.profile M.builtin root later d = .ok () := by
    intro root hroot
    exact C93_accepted hlen hr hl hplain hsize hsound (signerFrom_v2 hm) hc hend hdir (by rw [hroot]; exact hcert) ht ht'
  unfold Command.exec Outcome.status
  dsimp only
  rw [hfile]
  dsimp only
  cases rootPath with
  | none =>
    dsimp only [Outcome.quiet]
    rw [hver none (hnone rfl)]
  | some q =>
    obtain ⟨hs, hqo, hq⟩ := hroot q rfl
    have : history M (⟨.sign input out v2 stamp [], now, clock, .finished⟩ :: rs) fs q = some rootPem := by
      rw [← hq]
      refine C79_history_frame fun r hr => ?_
      rcases List.mem_cons.mp hr with rfl | hr
      · intro h; cases h; exact hqo rfl
      · exact hs r hr
    dsimp only
    rw [this]
    dsimp only [Outcome.quiet]
    rw [hver (some rootPem) rfl]

theorem source_prefix {file raw : Bytes} {pos : Nat} {t : Tail} {off s e : Nat} (hr : EndRecord file pos t off)
    (hl : Located file off s e) (hsrc : Source file raw) : raw.take s = file.take s := by
  cases hsrc with
  | unsigned => rfl
  | signed _ hs =>
    obtain ⟨pos2, t2, off2, pre, pairs, vs, hr2, hbb, hc⟩ := hs
    obtain ⟨rfl, rfl, rfl⟩ := hr.unique hr2
    obtain ⟨rfl, rfl⟩ := (C89_unique file).2 _ _ _ _ _ hl (.signed pre pairs vs hbb)
    obtain ⟨post, hf⟩ := hbb.bytes
    rw [hf]
    simp [stripped]

theorem sign_first_bytes {E : Env} {p : Profile} {file out : Bytes} {m : ModuleSigner} {clock : Option UInt64} {pos : Nat} {t : Tail}
    {off s e : Nat} (hlen : file.length < 2 ^ 64) (hr : EndRecord file pos t off) (hl : Located file off s e) (hplain : Plain t)
    (hk : ∀ c, m.v2 = some c ∨ m.stamp = some c → Known c.algo)
    (h : cliSignModule E p clock m false file = (some out, .ok ())) : out.take s = file.take s ∧ s ≤ out.length := by
  obtain ⟨pos1, t1, off1, s1, e1, b, raw, hr1, hl1, hp1, hsign, hsrc, hins⟩ := (C92_sign_command E p clock m file out hlen hk).mp h
  obtain ⟨rfl, rfl, rfl⟩ := hr.unique hr1
  obtain ⟨pos2, hraw⟩ := source_record hr hl hplain hsrc
  obtain ⟨pos3, t3, off3, hr3, hle⟩ := hins
  obtain ⟨rfl, rfl, rfl⟩ := hraw.unique hr3
  have hfit := endRecord_slice hraw
  have hse : s ≤ off - (e - s) := by
    cases hl with
    | signed pre pairs vs hb => have := hb.inside; omega
    | unsigned hu => omega
  rw [← source_prefix hr hl hsrc]
  constructor
  · rw [List.append_assoc, List.append_assoc, List.take_append_of_le_length (by rw [List.length_take]; omega), List.take_take,
      Nat.min_eq_left hse]
  · simp only [List.length_append, List.length_take]; omega

theorem detect_written {a : Archive} {block : Bytes} (hok : a.Ok) (hclean : a.CleanAt (a.body.length + block.length))
    (hn : ¬ elfMagic <+: a.signed block) : detectFileFormat (a.signed block) = .ok .module := by
  rcases (C51_format_detection (a.signed block)).2.2 with h | h | ⟨e, h⟩
  · exact absurd ((C51_format_detection _).1.mp h) hn
  · exact h
  · exfalso
    have h4 : 4 ≤ (a.signed block).length := by
      have := a.signed_length block
      omega
    unfold detectFileFormat readExactAt at h
    rw [slice?_of_le (by omega) (by omega), findEocd_signed hok hclean] at h
    rw [show ∀ x : Bytes, Res.ofOption Err.unexpectedEof (some x) = .ok x from fun _ => rfl, Res.ok_bind] at h
    split at h
    · cases h
    · split at h <;> cases h

theorem prefix_of_take {x y z : Bytes} {n : Nat} (hx : x.length ≤ n) (h : y.take n = z.take n) (hp : x <+: y) : x <+: z := by
  have h1 : x <+: y.take n := by
    obtain ⟨r, rfl⟩ := hp
    rw [List.take_append, List.take_of_length_le hx]
    exact List.prefix_append _ _
  rw [h] at h1
  exact h1.trans (List.take_prefix _ _)

/-- What a chain of sign commands reaches: the file it began with, or one written by signing it once or more often. -/
theorem relay_signings {M : Machine} {fs fs' : Fs} {start path : Path} {file : Bytes} {pos : Nat} {t : Tail} {off s e : Nat}
    (hi : fs start = some file) (hfmt : detectFileFormat file = .ok .module) (hlen : file.length < 2 ^ 64)
    (hr : EndRecord file pos t off) (hl : Located file off s e) (hplain : Plain t) (hsize : off + 16392 < 2 ^ 32) (h4 : 4 ≤ s)
    (hrel : Relay M fs start path fs') :
    ∃ file', fs' path = some file' ∧ detectFileFormat file' = .ok .module ∧
      (file' = file ∨ Signings M.env M.profile file file') := by
  obtain ⟨a, rfl, hs, ha'⟩ := sign_archive_sized (E := M.env) (p := M.profile) hlen hr hplain hsize
  have key := signings_archive hs fun m clock out hk h => (ha' m clock out hk h).1
  have hnm := ((C51_format_detection _).2.1.mp hfmt).2.1
  -- every file in the chain begins like the first
  have hfour : ∀ out, Signings M.env M.profile file out → out.take 4 = file.take 4 := by
    intro out h
    obtain ⟨m0, c0, o0, hk0, h0⟩ : ∃ m clock o, (∀ c, m.v2 = some c ∨ m.stamp = some c → Known c.algo) ∧
        cliSignModule M.env M.profile clock m false file = (some o, .ok ()) := by
      induction h with
      | first m clock out hk h => exact ⟨m, clock, out, hk, h⟩
      | next _ _ _ _ _ _ _ ih => exact ih
    obtain ⟨⟨b0, _, rfl⟩, s', e', hl', hbl⟩ := ha' m0 c0 o0 hk0 h0
    obtain ⟨rfl, rfl⟩ := (C89_unique file).2 _ _ _ _ _ hl' hl
    obtain ⟨hst, _⟩ := sign_first_bytes hlen hr hl hplain hk0 h0
    obtain ⟨b, _, rfl⟩ := key out h
    have hbody : 4 ≤ a.body.length := by
      rw [hbl]
      cases hl with
      | signed pre pairs vs hb => have := hb.inside; omega
      | unsigned hu => omega
    have h1 : ∀ block, (a.signed block).take 4 = a.body.take 4 := by
      intro block
      unfold Archive.signed
      rw [List.append_assoc, List.append_assoc, List.take_append_of_le_length hbody]
    have h2 : (List.take s' (a.signed b0.toU8)).take 4 = (file.take s').take 4 := by rw [hst]
    rw [List.take_take, List.take_take, Nat.min_eq_left h4, h1] at h2
    rw [h1, h2]
  have hdet : ∀ out, Signings M.env M.profile file out → detectFileFormat out = .ok .module := by
    intro out h
    have h1 := hfour out h
    obtain ⟨b, hb, rfl⟩ := key out h
    have hsg := hs _ (built_length hb)
    refine detect_written hsg.comment hsg.cleanNew fun hp => hnm ?_
    exact prefix_of_take (n := 4) (by decide) h1 hp
  induction hrel with
  | start => exact ⟨file, hi, hfmt, .inl rfl⟩
  | other rs _ hs ih =>
    obtain ⟨file', h, hf'⟩ := ih
    exact ⟨file', (C79_history_frame hs).trans h, hf'⟩
  | sign out v2 stamp now clock _ hne hst ih =>
    obtain ⟨file', h, hf', hor⟩ := ih
    obtain ⟨m, d, hm, hc, hx⟩ := sign_module_written h hf' hne hst
    have hd : Signings M.env M.profile file d := by
      rcases hor with rfl | hor
      · exact .first m clock d (signerFrom_known hm) hc
      · exact .next _ m clock d hor (signerFrom_known hm) hc
    exact ⟨d, hx, hdet d hd, .inr hd⟩

/-- C79: in a chain of sign commands, with anything else in between that spares the files, only the last signing counts. There are
fixed entries and a fixed directory such that signing what the chain has reached, unless that is still the very first file, writes
these with a new block between them, and the outcome depends on the credentials and the clock alone: not on the signings before, and
not on what was in the first file besides. The first file may contain anything: all that is asked of it is that no other end record
hides in its comment, that at least four bytes stand before its block or directory, and that it is not too large. -/
theorem C79_last_signing_decides {M : Machine} {fs : Fs} {start : Path} {file : Bytes} {pos : Nat} {t : Tail} {off s e : Nat}
    (hi : fs start = some file) (hfmt : detectFileFormat file = .ok .module) (hlen : file.length < 2 ^ 64)
    (hr : EndRecord file pos t off) (hl : Located file off s e) (hplain : Plain t) (hsize : off + 16392 < 2 ^ 32) (h4 : 4 ≤ s) :
    ∃ body cd, ∀ path fs', Relay M fs start path fs' → fs' path = some file ∨
      ∀ out v2 stamp now clock, out ≠ path → (Command.sign path out v2 stamp []).exec M now clock fs' =
        match signerFrom M.keys fs' v2 stamp with
        | .error _ => .quiet (.err .keystore)
        | .ok m => match m.sign M.env M.profile clock (Digests.new (m.requiredAlgorithms.map fun al => Digest.new al
            (treeDigest (al.hash M.env) [body, cd, wireEocd t body.length]))) with
          | .ok b => if M.creatable out then
              ⟨some (out, body ++ b.toU8 ++ cd ++ wireEocd t (body.length + b.toU8.length)), [], .ok ()⟩
            else .quiet (.err .io)
          | .err e => .quiet (.err e)
          | .panic => .quiet .panic := by
  obtain ⟨body, cd, hall⟩ := C94_signing_again (E := M.env) (p := M.profile) hlen hr hplain hsize
  refine ⟨body, cd, fun path fs' hrel => ?_⟩
  obtain ⟨file', hf, hdet, rfl | hsg⟩ := relay_signings hi hfmt hlen hr hl hplain hsize h4 hrel
  · exact .inl hf
  · refine .inr fun out v2 stamp now clock hne => ?_
    have ho : SignableFile.open M.acc file' = .ok (.module (Module.new file') file') := by
      unfold SignableFile.open
      rw [hdet]
      rfl
    unfold Command.exec
    dsimp only
    cases hm : signerFrom M.keys fs' v2 stamp with
    | error f => rfl
    | ok m =>
      dsimp only
      rw [hf]
      dsimp only
      have hcs : cliSign M.env M.profile M.acc clock m [] (decide (out = path)) file' =
          cliSignModule M.env M.profile clock m false file' := by
        unfold cliSign
        rw [ho, decide_eq_false hne]
        rfl
      rw [hcs, hall file' hsg m clock (signerFrom_known hm)]
      cases m.sign M.env M.profile clock (Digests.new (m.requiredAlgorithms.map fun al => Digest.new al
        (treeDigest (al.hash M.env) [body, cd, wireEocd t body.length]))) <;> rfl

/-- C79: after two or more signings in a chain the verify command accepts the file with the root certificate of the last signer, at
every time at which its certificates are trusted, whatever was in the first file. -/
theorem C79_signed_again_accepted {M : Machine} {fs fs' : Fs} {start path out : Path} {file : Bytes} {pos : Nat} {t : Tail}
    {off s e : Nat} {v2 stamp : CredPaths} {now later : Nat} {clock clock' : Option UInt64} {m : ModuleSigner} {cert : Bytes}
    (hi : fs start = some file) (hfmt : detectFileFormat file = .ok .module) (hlen : file.length < 2 ^ 64)
    (hr : EndRecord file pos t off) (hl : Located file off s e) (hplain : Plain t) (hsize : off + 16392 < 2 ^ 32) (h4 : 4 ≤ s)
    (hrel : Relay M fs start path fs') (hnew : fs' path ≠ some file) (hne : out ≠ path)
    (hsign : ((Command.sign path out v2 stamp []).exec M now clock fs').status = 0)
    (hm : signerFrom M.keys fs' v2 stamp = .ok m) (hsound : ∀ c, m.v2 = some c ∨ m.stamp = some c → Sound M.env c)
    (hcert : M.env.pemParse M.builtin = some ("CERTIFICATE", cert))
    (ht : ∀ c, m.v2 = some c → Trusted M.env [cert] later c.cert c.chain)
    (ht' : ∀ c, m.stamp = some c → Trusted M.env [cert] later c.cert []) :
    ((Command.verify out none).exec M later clock' (Run.after M ⟨.sign path out v2 stamp [], now, clock, .finished⟩ fs')).status = 0 := by
  obtain ⟨file', hf, hdet, rfl | hsg⟩ := relay_signings hi hfmt hlen hr hl hplain hsize h4 hrel
  · exact absurd hf hnew
  · obtain ⟨m', d, hm', hc, hx⟩ := sign_module_written hf hdet hne hsign
    cases hm.symm.trans hm'
    have := (C94_signed_again_accepted hlen hr hplain hsize hsg hsound hc).2 M.builtin none cert later hcert (signerFrom_v2 hm) ht ht'
    unfold Command.exec Outcome.status
    dsimp only
    rw [hx]
    dsimp only [Outcome.quiet]
    rw [this]

/-- The hypotheses of `C79_signed_stays_accepted`: a module is signed, another command is stopped while it writes elsewhere, and the
result is accepted. -/
example : ((Command.verify "b".toList none).exec toyMachine 0 none (history toyMachine
    [⟨.sign "in".toList "b".toList toyPaths noPaths [], 0, some 5, .finished⟩,
      ⟨.sign "in".toList "x".toList toyPaths noPaths [], 0, some 5, .writing 9⟩] toyFs)).status = 0 :=
  C79_signed_stays_accepted (file := plainArchive.unsigned) (m := .v2Only toyConfig) (rootPem := [7]) (cert := [7])
    (by decide +kernel) (by decide +kernel) (by decide +kernel) plainArchive_unsigned_record.1 plainArchive_unsigned_record.2
    (plain_no_comment rfl) (by omega) (by decide +kernel) rfl (by decide) (toySign_ok _ (by decide)) (by decide +kernel)
    (by rintro c (h | h) <;> cases h; exact toyConfig_sound)
    (by intro r hr; simp only [List.mem_singleton] at hr; subst hr; decide)
    (by intro q h; cases h) (fun _ => rfl) rfl
    (by intro c h; cases h; exact ⟨by simp, .inl (by simp [toyConfig])⟩) (by intro c h; cases h)

set_option maxRecDepth 100000 in
/-- The hypotheses of `C79_last_signing_decides` and of `C79_signed_again_accepted`: a module is signed, the result is signed again
and accepted. -/
example : ∃ fs', Relay toyMachine toyFs "in".toList "b".toList fs' ∧ fs' "b".toList ≠ some plainArchive.unsigned ∧
      ((Command.verify "d".toList none).exec toyMachine 0 none
        (Run.after toyMachine ⟨.sign "b".toList "d".toList toyPaths noPaths [], 0, some 5, .finished⟩ fs')).status = 0 := by
  have hrel := Relay.sign (M := toyMachine) (fs := toyFs) "b".toList toyPaths noPaths 0 (some 5) .start (by decide)
    (toySign_ok _ (by decide))
  have hnew : Run.after toyMachine ⟨.sign "in".toList "b".toList toyPaths noPaths [], 0, some 5, .finished⟩ toyFs "b".toList ≠
      some plainArchive.unsigned := by decide +kernel
  exact ⟨_, hrel, hnew, C79_signed_again_accepted (file := plainArchive.unsigned) (m := .v2Only toyConfig) (cert := [7])
    (by decide +kernel) (by decide +kernel) (by decide +kernel) plainArchive_unsigned_record.1 plainArchive_unsigned_record.2
    (plain_no_comment rfl) (by omega) (by omega) hrel hnew (by decide) (by decide +kernel) (by decide +kernel)
    (by rintro c (h | h) <;> cases h; exact toyConfig_sound) rfl
    (by intro c h; cases h; exact ⟨by simp, .inl (by simp [toyConfig])⟩) (by intro c h; cases h)⟩

/-- The hypotheses of `C54_stable_any_build_partial`: a signed module in a release build. -/
example : ∃ out v r, cliSignModule toyEnv .release none ⟨some toyConfig, none, false, false⟩ false plainArchive.unsigned =
      (some out, .ok ()) ∧ (Module.new out).verifyWithRootsT toyEnv .release (fun _ => out) (storeOf toyEnv [[7]]) 0 = .ok v ∧
      v.isValid = true ∧ v.v2 = .ok r := by
  have h : (match cliSignModule toyEnv .release none ⟨some toyConfig, none, false, false⟩ false plainArchive.unsigned with
    | (some out, .ok ()) => (match (Module.new out).verifyWithRootsT toyEnv .release (fun _ => out) (storeOf toyEnv [[7]]) 0 with
      | .ok v => v.isValid && (match v.v2 with | .ok _ => true | _ => false)
      | _ => false)
    | _ => false) = true := by decide +kernel
  split at h
  · rename_i out h1
    split at h
    · rename_i v h2
      rw [Bool.and_eq_true] at h
      obtain ⟨hv, h⟩ := h
      split at h
      · rename_i r hr
        exact ⟨out, v, r, h1, h2, hv, hr⟩
      · cases h
    · cases h
  · cases h

end Ksusig.Props
