import Verif.Props.ElfKept
import Verif.Props.SignAgain

/-! # C131: how long signed files are, and what signing leaves of earlier signatures -/

namespace Ksusig.Props

open Ksusig Spec

/-- The bytes `x` stand in `d` at `pos`. -/
def StandsAt (d : Bytes) (pos : Nat) (x : Bytes) : Prop := pos + x.length ≤ d.length ∧ (d.drop pos).take x.length = x

/-- `out` is the result of a number of sign commands for an ELF file, each applied to the output of the one before, the first to
`file`. Signers, times and section names may differ; no file is as long as 2^63 bytes. -/
inductive ElfSignings (E : Env) (p : Profile) (acc : Bytes → Bool) (file : Bytes) : Nat → Bytes → Prop where
  | start : ElfSignings E p acc file 0 file
  | next {n : Nat} {mid out : Bytes} {f : ElfFile} (m : ModuleSigner) (clock : Option UInt64) (names : List (List Char))
      (inPlace : Bool) : ElfSignings E p acc file n mid → (∀ c, m.v2 = some c ∨ m.stamp = some c → Known c.algo) →
      SignableFile.open acc mid = .ok (.elf f) → mid.length < 2 ^ 63 →
      cliSign E p acc clock m names inPlace mid = (some out, .ok ()) → ElfSignings E p acc file (n + 1) out

/-- The block is appended. -/
theorem written_at {acc : Bytes → Bool} {f : ElfFile} {b : SigningBlock} {out : Bytes} (hlen : f.data.length < 2 ^ 63)
    (h : f.writeWithSignature acc b = .ok out) :
    (if is64File f.data then 64 else 52) ≤ f.data.length ∧
      ∃ pos, f.data.length ≤ pos ∧ StandsAt out pos b.toU8 := by
  obtain ⟨_, e, n, body, table, hv, hp, _, _, rfl, _⟩ := (C98_written acc f b out hlen).mp h
  obtain ⟨rest, hd⟩ := decodeElf_some (decodeElf_iff.mpr hv)
  have hroom := hv.room
  have ha := blockAlign_pos e.is64
  have key : ∀ z, body = padTo (blockAlign e.is64) f.data ++ (b.toU8 ++ z) →
      ∃ pos, f.data.length ≤ pos ∧ StandsAt (withTable e body table) pos b.toU8 := by
    intro z hb
    have hl := padTo_length ha f.data
    refine ⟨(padTo (blockAlign e.is64) f.data).length, by rw [hl]; exact roundUp_ge ha, ?_, withTable_piece hd hb rfl table⟩
    have hbl : body.length = (padTo (blockAlign e.is64) f.data).length + (b.toU8.length + z.length) := by
      rw [hb, List.length_append, List.length_append]
    have hw := withTable_length hv (body := body)
      (y := List.replicate (roundUp f.data.length (blockAlign e.is64) - f.data.length) 0 ++ (b.toU8 ++ z))
      (by rw [hb]; unfold padTo; rw [List.append_assoc]) table
    have hr := roundUp_ge (n := body.length) (entryLength_pos e.is64)
    rw [hw]
    omega
  refine ⟨by rw [is64_of hd]; exact hroom, ?_⟩
  cases hp with
  | again h1 h2 => exact key [] (by rw [List.append_nil])
  | first h1 h2 =>
    rename_i sh _ _ _
    refine key (List.replicate (roundUp (padTo (blockAlign e.is64) f.data ++ b.toU8).length (max 1 sh.addralign) -
      (padTo (blockAlign e.is64) f.data ++ b.toU8).length) 0 ++ (sectionBytes f.data sh ++ ksuBytes ++ [0])) ?_
    rw [← List.append_assoc _ b.toU8, ← List.append_assoc (_ ++ b.toU8)]
    rfl

/-- C131: one signing of an ELF file. The output is longer than the input by at least the length of the block, and everything that
stood in the input behind the ELF header is still there, in particular an earlier block. -/
theorem C131_elf_once {acc : Bytes → Bool} {f : ElfFile} {b : SigningBlock} {out : Bytes} (hlen : f.data.length < 2 ^ 63)
    (h : f.writeWithSignature acc b = .ok out) :
    f.data.length + b.toU8.length ≤ out.length ∧
    ∀ pos x, (if is64File f.data then 64 else 52) ≤ pos → StandsAt f.data pos x → StandsAt out pos x := by
  obtain ⟨_, pos, h1, h2, _⟩ := written_at hlen h
  refine ⟨by omega, fun pos x hp ⟨ha, hb⟩ => ⟨by have := (C46_bytes_kept h).1; omega, ?_⟩⟩
  rw [← hb]
  have hx : ((f.data.drop pos).take x.length).length = x.length := by rw [hb]
  rw [hx]
  refine take_drop_kept fun i hi hi' => C46_outside_header h (by omega) (by omega)

theorem class_kept {acc : Bytes → Bool} {f : ElfFile} {b : SigningBlock} {out : Bytes} (hlen : f.data.length < 2 ^ 63)
    (h : f.writeWithSignature acc b = .ok out) : is64File out = is64File f.data := by
  obtain ⟨hroom, _⟩ := written_at hlen h
  unfold is64File
  rw [(C46_bytes_kept h).2 4 (by split at hroom <;> omega) (by cases is64File f.data <;> decide)]

theorem history_aux {E : Env} {p : Profile} {acc : Bytes → Bool} {file out : Bytes} {n : Nat}
    (h : ElfSignings E p acc file n out) :
    (out = file ∨ (if is64File file then 64 else 52) ≤ file.length ∧ is64File out = is64File file) ∧
    ∃ blocks : List (Nat × Bytes), blocks.length = n ∧
      (∀ x ∈ blocks, file.length ≤ x.1 ∧ StandsAt out x.1 x.2 ∧ 32 ≤ x.2.length ∧ magic <:+ x.2) ∧
      blocks.Pairwise (fun x y => x.1 + x.2.length ≤ y.1) ∧
      file.length + (blocks.map fun x => x.2.length).sum ≤ out.length := by
  induction h with
  | start => exact ⟨.inl rfl, [], rfl, by simp, .nil, by simp⟩
  | @next n mid out f0 m clock names ip hm hk ho hl hs ih =>
    obtain ⟨hc, blocks, h1, h2, h3, h4⟩ := ih
    obtain ⟨hf0, hnew, _⟩ := open_elf_inv ho
    obtain ⟨f, b, hsel, hblk, hw⟩ := (cliSign_elf ho).mp hs
    have hdata : f.data = mid := by
      rw [(cliElfSelect_ok (.opened hnew) hsel).2.1, hf0]
    have hlf : f.data.length < 2 ^ 63 := by rw [hdata]; exact hl
    obtain ⟨l, b0, _, _, _, _, hmagic, _, _⟩ := made_block hk hblk
    obtain ⟨hg, hkeep⟩ := C131_elf_once hlf hw
    obtain ⟨hroom, pos, hpos, hst⟩ := written_at hlf hw
    have hcl := class_kept hlf hw
    have hml : magic.length = 16 := by decide
    have hb32 : 32 ≤ b.toU8.length := by
      unfold SigningBlock.toU8
      rw [hmagic]
      simp only [List.length_append, leBytes_length, hml]
      omega
    have hfl : file.length ≤ mid.length := by omega
    rw [hdata] at hg hkeep hpos hroom hcl
    -- the header lies in the original file
    have hhead : (if is64File file then 64 else 52) ≤ file.length ∧ is64File mid = is64File file := by
      rcases hc with rfl | hc
      · exact ⟨hroom, rfl⟩
      · exact hc
    refine ⟨.inr ⟨hhead.1, hcl.trans hhead.2⟩, blocks ++ [(pos, b.toU8)], by rw [List.length_append, h1]; rfl, ?_, ?_, ?_⟩
    · intro x hx
      rcases List.mem_append.mp hx with hx | hx
      · obtain ⟨a1, a2, a3, a4⟩ := h2 x hx
        exact ⟨a1, hkeep _ _ (by rw [hhead.2]; exact Nat.le_trans hhead.1 a1) a2, a3, a4⟩
      · obtain rfl := List.mem_singleton.mp hx
        refine ⟨Nat.le_trans hfl hpos, hst, hb32, ?_⟩
        unfold SigningBlock.toU8
        rw [hmagic]
        exact List.suffix_append _ _
    · rw [List.pairwise_append]
      refine ⟨h3, List.pairwise_singleton _ _, fun x hx y hy => ?_⟩
      obtain rfl := List.mem_singleton.mp hy
      exact Nat.le_trans (h2 x hx).2.1.1 hpos
    · rw [List.map_append, List.sum_append]
      simp only [List.map_cons, List.map_nil, List.sum_cons, List.sum_nil]
      omega

/-- C131: after any number of sign commands for an ELF file every block ever written is still in the file, behind the original file,
one after the other; each has at least 32 bytes and ends with the magic. So the file grows with every signing. -/
theorem C131_elf_history {E : Env} {p : Profile} {acc : Bytes → Bool} {file out : Bytes} {n : Nat}
    (h : ElfSignings E p acc file n out) :
    ∃ blocks : List (Nat × Bytes), blocks.length = n ∧
      (∀ x ∈ blocks, file.length ≤ x.1 ∧ StandsAt out x.1 x.2 ∧ 32 ≤ x.2.length ∧ magic <:+ x.2) ∧
      blocks.Pairwise (fun x y => x.1 + x.2.length ≤ y.1) ∧
      file.length + (blocks.map fun x => x.2.length).sum ≤ out.length :=
  (history_aux h).2

theorem sum_ge {l : List (Nat × Bytes)} (h : ∀ x ∈ l, 32 ≤ x.2.length) : 32 * l.length ≤ (l.map fun x => x.2.length).sum := by
  induction l with
  | nil => simp
  | cons a l ih =>
    have h1 := h a (List.mem_cons_self ..)
    have h2 := ih fun x hx => h x (List.mem_cons_of_mem _ hx)
    simp only [List.length_cons, List.map_cons, List.sum_cons]
    omega

/-- C131: each signing of an ELF file adds at least 32 bytes. -/
theorem C131_elf_growth {E : Env} {p : Profile} {acc : Bytes → Bool} {file out : Bytes} {n : Nat}
    (h : ElfSignings E p acc file n out) : file.length + 32 * n ≤ out.length := by
  obtain ⟨blocks, h1, h2, _, h3⟩ := C131_elf_history h
  have := sum_ge fun x hx => (h2 x hx).2.2.1
  omega

set_option maxRecDepth 100000 in
/-- The sample file can be signed twice: both blocks are in the result. -/
example : ∃ out, ElfSignings toyEnv .dev anyElf elf64 2 out := by
  have h : (match cliSign toyEnv .dev anyElf (some 5) (.withSourceStamp toyConfig toyStampConfig) [] false elf64 with
    | (some mid, .ok ()) =>
      (match SignableFile.open anyElf mid with
        | .ok (.elf _) => decide (mid.length < 2 ^ 63) &&
          (match cliSign toyEnv .dev anyElf (some 6) (.v2Only toyConfig) [] true mid with
            | (some _, .ok ()) => true
            | _ => false)
        | _ => false)
    | _ => false) = true := by decide +kernel
  obtain ⟨⟨e, he, _⟩, _⟩ := samples_ok
  split at h
  · rename_i mid h1
    split at h
    · rename_i f h2
      rw [Bool.and_eq_true, decide_eq_true_eq] at h
      obtain ⟨h3, h4⟩ := h
      split at h4
      · rename_i out h5
        refine ⟨out, .next _ _ _ _ (.next _ _ _ _ .start ?_ (open_elf he rfl) (by decide +kernel) h1) ?_ h2 h3 h5⟩
        · rintro c (hc | hc) <;> cases hc <;> first | exact .inl rfl | exact .inr rfl
        · rintro c (hc | hc) <;> cases hc <;> first | exact .inl rfl | exact .inr rfl
      · cases h4
    · cases h
  · cases h

/-- C131: a signed module. It is as long as the archive up to the end of its end record (of a signed file: the archive without the
block), plus a block of 32 to 16392 bytes; with padding the block has 4096, 8192, 12288 or 16384 bytes. -/
theorem C131_module_once {E : Env} {p : Profile} {clock : Option UInt64} {m : ModuleSigner} {file out : Bytes}
    (hlen : file.length < 2 ^ 64) (hk : ∀ c, m.v2 = some c ∨ m.stamp = some c → Known c.algo)
    (h : cliSignModule E p clock m false file = (some out, .ok ())) :
    ∃ raw pos t off n, Source file raw ∧ EndRecord raw pos t off ∧ out.length = pos + (22 + t.comment.length) + n ∧
      32 ≤ n ∧ n ≤ 16392 ∧ (m.padding = true → n = 4096 ∨ n = 8192 ∨ n = 12288 ∨ n = 16384) := by
  obtain ⟨_, _, _, _, _, b, raw, _, _, _, hb, hsrc, hi⟩ := (C92_sign_command E p clock m file out hlen hk).mp h
  obtain ⟨pos, t, off, hr, hle⟩ := hi
  have hbuilt := sign_built_required hk hb
  have hbl := built_length hbuilt
  have hb32 : 32 ≤ b.toU8.length := by
    rw [hbuilt.wf.toU8_length, hbuilt.wf.sizeStart]
    omega
  have hpos : pos ≤ raw.length := by
    obtain ⟨x, y, rfl, hx⟩ := hr.bytes
    simp only [List.length_append]
    omega
  refine ⟨raw, pos, t, off, b.toU8.length, hsrc, hr, ?_, hb32, hbl, fun hp => ?_⟩
  · simp only [List.length_append, wireEocd_length, List.length_take, List.length_drop]
    omega
  · obtain ⟨b1, b2, _, _, _, hfin⟩ := sign_ok hb
    unfold ModuleSigner.finish at hfin
    rw [if_pos hp] at hfin
    obtain ⟨_, pad, _, hmod, _, rfl⟩ := SigningBlock.newWithPadding_ok hfin
    have h2 := hbuilt.wf.toU8_length
    simp only at h2
    omega

set_option maxRecDepth 100000 in
/-- The sample module, signed with padding, gets a block of such a length. -/
example : ∃ out n, cliSignModule toyEnv .dev (some 1700000000) (.v2Only toyConfig) false plainArchive.unsigned = (some out, .ok ()) ∧
    out.length = plainArchive.unsigned.length + n ∧ (n = 4096 ∨ n = 8192 ∨ n = 12288 ∨ n = 16384) := by
  have hok : ∃ b, (ModuleSigner.v2Only toyConfig).sign toyEnv .dev (some 1700000000)
    (Digests.new ((ModuleSigner.v2Only toyConfig).requiredAlgorithms.map fun al =>
      Digest.new al (contentDigest toyEnv plainArchive al))) = .ok b := Res.exists_of_isOk (by decide +kernel)
  have hk : ∀ c, (ModuleSigner.v2Only toyConfig).v2 = some c ∨ (ModuleSigner.v2Only toyConfig).stamp = some c → Known c.algo := by
    rintro c (h | h) <;> cases h; exact .inl rfl
  obtain ⟨b, hb⟩ := hok
  obtain ⟨r, hr, hc⟩ := C25_sign_command (E := toyEnv) (p := .dev) (clock := some 1700000000)
    (m := .v2Only toyConfig) plainArchive_input plainArchive_signable hk
  rw [hb] at hr
  subst hr
  have hbuilt := sign_built_required (D := contentDigest toyEnv plainArchive) hk hb
  obtain ⟨b1, b2, _, _, _, hfin⟩ := sign_ok hb
  have hfin : SigningBlock.newWithPadding .dev (b1 ++ b2) = .ok b := hfin
  obtain ⟨_, pad, _, hmod, _, rfl⟩ := SigningBlock.newWithPadding_ok hfin
  have h1 := built_length hbuilt
  have h2 := hbuilt.wf.toU8_length
  simp only at h2
  refine ⟨_, contentSum (b1 ++ b2 ++ pad) + 32, hc, ?_, ?_⟩
  · simp only [Archive.signed, Archive.unsigned, List.length_append, wireEocd_length]
    omega
  · omega

/-- C131: however often an ordinary module is signed, and by whomever, the result is at least 32 and at most 16392 bytes longer than
the archive: only one block is in it. -/
theorem C131_module_history {E : Env} {p : Profile} {file : Bytes} {pos : Nat} {t : Tail} {off : Nat} (hlen : file.length < 2 ^ 64)
    (hr : EndRecord file pos t off) (hplain : Plain t) (hsize : off + 16392 < 2 ^ 32) :
    ∃ base, ∀ out, Signings E p file out → base + 32 ≤ out.length ∧ out.length ≤ base + 16392 ∧
      ∀ p', ∃ raw, (Module.new out).getRawModule p' out = .ok raw ∧ raw.length = base := by
  obtain ⟨a, rfl, hs, ha⟩ := sign_archive (E := E) (p := p) hlen hr hplain hsize
  refine ⟨a.unsigned.length, fun out h => ?_⟩
  obtain ⟨b, hb, rfl⟩ := signings_archive hs ha out h
  have h1 := built_length hb
  have h2 := hb.wf.toU8_length
  have h3 := hb.wf.sizeStart
  have h4 : (a.signed b.toU8).length = a.unsigned.length + b.toU8.length := by
    simp only [Archive.signed, Archive.unsigned, List.length_append, wireEocd_length]
    omega
  exact ⟨by omega, by omega, fun p' => ⟨_, C22_strip_signed hb (hs _ h1), rfl⟩⟩

end Ksusig.Props
