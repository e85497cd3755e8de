import Verif.Props.Zip

/-! Property theorems C21–C24: signing, reading back, stripping and re-signing modules. -/

namespace Ksusig.Props

open Ksusig Ksusig.Spec

/-- What is asked of an archive for signing it with a block of `n` bytes: the comment fits, the end record stays
the last complete record with the old and the new directory offset, offsets stay below 4 GiB. -/
structure Signable (a : Archive) (n : Nat) : Prop where
  comment : a.Ok
  cleanOld : a.CleanAt a.body.length
  cleanNew : a.CleanAt (a.body.length + n)
  size : a.body.length + n < 2 ^ 32

theorem Signable.sizeOld {a : Archive} {n : Nat} (h : Signable a n) : a.body.length < 2 ^ 32 :=
  Nat.lt_of_le_of_lt (Nat.le_add_right _ _) h.size

theorem Signable.sizeBlock {a : Archive} {n : Nat} (h : Signable a n) : n < 2 ^ 32 :=
  Nat.lt_of_le_of_lt (Nat.le_add_left _ _) h.size

/-- Archives without a comment are signable whenever the offsets stay below 4 GiB. -/
theorem signable_no_comment {a : Archive} {n : Nat} (h : a.tail.comment = []) (hs : a.body.length + n < 2 ^ 32) :
    Signable a n :=
  ⟨by rw [Archive.Ok, h]; decide, cleanAt_no_comment h, cleanAt_no_comment h, hs⟩

theorem sampleArchive_signable : Signable sampleArchive sampleBlock.toU8.length :=
  ⟨by decide +kernel, cleanAt_of_bounded (by decide +kernel), cleanAt_of_bounded (by decide +kernel), by decide +kernel⟩

/-! ### C24 -/

/-- C24, for entries without the magic: signing an unsigned module writes exactly entries, block, directory, and the end record with only the
directory offset changed. -/
theorem C24_sign_unsigned_partial {p : Profile} {a : Archive} {b : SigningBlock} (hs : Signable a b.toU8.length)
    (hno : a.NoMagic) :
    (Module.new a.unsigned).signableWrite p a.unsigned b =
      (a.body ++ b.toU8 ++ a.cd ++ wireEocd a.tail (a.body.length + b.toU8.length), .ok ()) :=
  signableWrite_unsigned p hs.comment hs.cleanOld hs.sizeOld hs.sizeBlock hno

/-- C24: signing a module already signed with `b'` also writes the original entries, directory and end record; here
the entries may contain anything. -/
theorem C24_sign_signed {p p' : Profile} {a : Archive} {b b' : SigningBlock} (hb' : Built p' b')
    (hs' : Signable a b'.toU8.length) (hs : Signable a b.toU8.length) :
    (Module.new (a.signed b'.toU8)).signableWrite p (a.signed b'.toU8) b =
      (a.body ++ b.toU8 ++ a.cd ++ wireEocd a.tail (a.body.length + b.toU8.length), .ok ()) :=
  signableWrite_signed p hb'.wf hs.comment hs.cleanOld hs'.cleanNew hs'.size hs.size

example : ((Module.new sampleArchive.unsigned).signableWrite .dev sampleArchive.unsigned sampleBlock).2 = .ok () := by
  rw [C24_sign_unsigned_partial sampleArchive_signable sampleArchive_noMagic]

example : ((Module.new (sampleArchive.signed sampleBlock.toU8)).signableWrite .dev (sampleArchive.signed sampleBlock.toU8)
    sampleBlock).2 = .ok () := by
  rw [C24_sign_signed (sampleBlock_built .dev) sampleArchive_signable sampleArchive_signable]

/-- C24 fails when an entry contains a signing block (for example a stored, itself signed module): signing the
unsigned archive succeeds, but the written file has lost the block from its entries, which are now shorter. -/
theorem C24_nested_block_removed {p p' : Profile} {b0 b : SigningBlock} (hb0 : Built p' b0) (pre mid : Bytes)
    (a : Archive) (hbody : a.body = pre ++ b0.toU8 ++ mid) (hok : a.Ok) (hclean : a.CleanAt a.body.length)
    (hclean' : a.CleanAt (pre.length + mid.length)) (hsz : a.body.length < 2 ^ 32)
    (hsz' : pre.length + mid.length + b.toU8.length < 2 ^ 32)
    (hwin : b0.toU8.length + mid.length ≤ 2 ^ 24)
    (hlast : ∀ u, pre.length + b0.toU8.length - 16 < u → ¬ MagicAtPos a.body u) :
    (Module.new a.unsigned).signableWrite p a.unsigned b =
      (pre ++ mid ++ b.toU8 ++ a.cd ++ wireEocd a.tail (pre.length + mid.length + b.toU8.length), .ok ()) := by
  have hbl : a.body.length = pre.length + b0.toU8.length + mid.length := by rw [hbody]; simp only [List.length_append]
  have h := getSigningBlock_nested (p := p) hb0.wf pre mid a hbody hok hclean hsz hwin hlast
  have h2 : (Module.new a.unsigned).findEocd a.unsigned = _ := findEocd_unsigned hok hclean
  have hraw : (Module.new a.unsigned).getRawModule p a.unsigned =
      .ok { a with body := pre ++ mid }.unsigned := by
    have hl := a.unsigned_length
    have hoff : checkedSub32 (UInt32.ofNat a.body.length) b0.toU8.length =
        some (UInt32.ofNat (pre.length + mid.length)) := by
      unfold checkedSub32
      rw [u32_ofNat_toNat hsz, Nat.mod_eq_of_lt (by omega), if_pos (by omega)]
      congr 2; omega
    have hser : (a.tail.eocd (pre.length + mid.length) (a.body.length + a.cd.length)).toU8 =
        wireEocd a.tail (pre.length + mid.length) := Spec.Tail.eocd_toU8 _ (by omega) hok
    have hwl := wireEocd_length a.tail (pre.length + mid.length)
    have hu : a.unsigned = pre ++ b0.toU8 ++ mid ++ a.cd ++ wireEocd a.tail a.body.length := by
      simp only [Archive.unsigned, hbody]
    unfold Module.getRawModule
    rw [if_neg (by simp [Module.new])]
    simp only [h, Res.ok_bind, h2]
    rw [usub_of_le (by omega)]
    simp only [Res.ok_bind]
    rw [slice?_mid (d := a.unsigned) (a := 0) (b := pre.length) (pre := []) (mid := pre)
      (post := b0.toU8 ++ mid ++ a.cd ++ wireEocd a.tail a.body.length) (by rw [hu]; simp) rfl (by simp)]
    simp only [Res.ofOption_some, Res.ok_bind]
    rw [show pre.length + b0.toU8.length - pre.length = b0.toU8.length by omega]
    have hoff' : checkedSub32 (a.tail.eocd a.body.length (a.body.length + a.cd.length)).cdOffset b0.toU8.length =
      some (UInt32.ofNat (pre.length + mid.length)) := hoff
    rw [hoff']
    simp only [Res.ofOption_some, Res.ok_bind]
    have hmv : { a.tail.eocd a.body.length (a.body.length + a.cd.length) with
        cdOffset := UInt32.ofNat (pre.length + mid.length) } =
        a.tail.eocd (pre.length + mid.length) (a.body.length + a.cd.length) := rfl
    rw [hmv, hser, usub_of_le (by omega)]
    simp only [Res.ok_bind]
    rw [slice?_mid (d := a.unsigned) (pre := pre ++ b0.toU8) (mid := mid ++ a.cd)
      (post := wireEocd a.tail a.body.length) (by rw [hu]; simp) (by simp)
      (by simp only [List.length_append]; omega)]
    simp [Archive.unsigned]
  have hsrc : (Module.new a.unsigned).signSource p a.unsigned =
      .ok ({ a with body := pre ++ mid }.unsigned,
        a.tail.eocd (pre ++ mid).length ((pre ++ mid).length + a.cd.length)) := by
    unfold Module.signSource
    rw [h]
    simp only [hraw, Res.ok_bind]
    rw [findEocd_unsigned (a := { a with body := pre ++ mid }) hok
      (by rw [List.length_append]; exact hclean')]
    rfl
  have := signableWrite_of_source p (m := Module.new a.unsigned) (file := a.unsigned)
    (a := { a with body := pre ++ mid }) (b := b) hok (by simp only [List.length_append]; omega) (by omega) hsrc
  rw [this]
  simp [Archive.signed]

set_option maxRecDepth 100000 in
example : ((Module.new nestedArchive.unsigned).signableWrite .release nestedArchive.unsigned sampleBlock).2 = .ok () := by
  rw [C24_nested_block_removed (sampleBlock_built .dev) [1, 2, 3] [4, 5, 6] nestedArchive rfl (by decide +kernel)
    (cleanAt_of_bounded (by decide +kernel)) (cleanAt_of_bounded (by decide +kernel)) (by decide +kernel)
    (by decide +kernel) (by decide +kernel) nestedArchive_last]

/-- C24 fails near 4 GiB: when the directory moves beyond 4 GiB, signing still reports success, but the directory
offset it stores is too small by 4 GiB. -/
theorem C24_offset_truncated {p : Profile} {a : Archive} {b : SigningBlock} (hok : a.Ok)
    (hclean : a.CleanAt a.body.length) (hclean' : a.CleanAt (a.body.length + b.toU8.length))
    (hsz : a.body.length < 2 ^ 32) (hb : b.toU8.length < 2 ^ 32) (hno : a.NoMagic)
    (hbig : 2 ^ 32 ≤ a.body.length + b.toU8.length) :
    ∃ out e, (Module.new a.unsigned).signableWrite p a.unsigned b = (out, .ok ()) ∧
      findEocd out out.length = .ok e ∧ e.cdOffset.toNat + 2 ^ 32 = a.body.length + b.toU8.length ∧
      ∃ pre post, out = pre ++ a.cd ++ post ∧ pre.length = a.body.length + b.toU8.length := by
  refine ⟨_, _, signableWrite_unsigned p hok hclean hsz hb hno, findEocd_signed hok hclean', ?_,
    a.body ++ b.toU8, wireEocd a.tail (a.body.length + b.toU8.length), rfl, by simp⟩
  simp only [Spec.Tail.eocd, UInt32.toNat_ofNat']
  omega

/-- `n` zero bytes contain no magic. -/
theorem replicate_noMagic (n u : Nat) : ¬ MagicAtPos (List.replicate n 0) u := by
  intro h
  have h' : slice? (List.replicate n 0) u (u + 16) = some _ := h
  obtain ⟨_, _, h1, _⟩ := slice?_eq_some h'
  rw [List.drop_replicate, List.take_replicate] at h1
  have hm : (0x4B : UInt8) ∈ List.replicate (min (u + 16 - u) (n - u)) 0 := by rw [← h1]; decide
  exact absurd (List.eq_of_mem_replicate hm) (by decide)

example : ∃ a : Archive, a.Ok ∧ a.CleanAt a.body.length ∧ a.CleanAt (a.body.length + sampleBlock.toU8.length) ∧
    a.body.length < 2 ^ 32 ∧ a.NoMagic ∧ 2 ^ 32 ≤ a.body.length + sampleBlock.toU8.length := by
  have hl : 1 ≤ sampleBlock.toU8.length := by decide +kernel
  refine ⟨⟨List.replicate (2 ^ 32 - 1) 0, [], ⟨0, 0, 1, 1, 4, []⟩⟩, by decide, cleanAt_no_comment rfl,
    cleanAt_no_comment rfl, ?_, ⟨?_, fun u => replicate_noMagic _ u⟩, ?_⟩
  · rw [List.length_replicate]; omega
  · rw [List.length_replicate]; omega
  · rw [List.length_replicate]; omega

/-! ### C21 -/

/-- The empty block. -/
def emptyBlock : SigningBlock := ⟨0, 32, 24, 0, [], 24, Ksusig.magic⟩

theorem emptyBlock_built (p : Profile) : Built p emptyBlock :=
  ⟨[], by simp, .inl rfl⟩

/-- An archive whose end record, with its directory offset moved by 32, contains a second end record. -/
def trickyArchive : Archive :=
  ⟨List.replicate 230 7, [], ⟨0, 0, 0, 0, 0x054b5000, List.replicate 13 0⟩⟩

/-- The exception in `C21_any_module` is real: moving the directory offset can complete a spurious end record inside
the fields of the real one, and then the written signature cannot be read back. -/
theorem C21_spurious_record :
    (Module.new trickyArchive.unsigned).signableWrite .release trickyArchive.unsigned emptyBlock =
      (trickyArchive.signed emptyBlock.toU8, .ok ()) ∧
    (Module.new (trickyArchive.signed emptyBlock.toU8)).getSigningBlock .release (trickyArchive.signed emptyBlock.toU8) =
      .err .fileTooSmall := by
  refine ⟨signableWrite_unsigned .release (by decide) (cleanAt_of_bounded (by decide +kernel)) (by decide +kernel)
    (by decide +kernel) (noMagic_of_bounded (by decide +kernel) (by decide +kernel)), by decide +kernel⟩

/-- C21: the file written for an unsigned module reads back exactly the block, right before the directory. -/
theorem C21_signed_reads_back {p p' : Profile} {a : Archive} {b : SigningBlock} (hb : Built p' b)
    (hs : Signable a b.toU8.length) (hno : a.NoMagic) :
    ∃ out b', (Module.new a.unsigned).signableWrite p a.unsigned b = (out, .ok ()) ∧
      (Module.new out).getSigningBlock p out = .ok b' ∧ SameBlock b' b ∧
      b'.fileStart = a.body.length ∧ b'.fileEnd = a.body.length + b.toU8.length ∧
      ∃ e, findEocd out out.length = .ok e ∧ e.cdOffset.toNat = b'.fileEnd := by
  refine ⟨_, _, signableWrite_unsigned p hs.comment hs.cleanOld hs.sizeOld hs.sizeBlock hno,
    getSigningBlock_signed p hb.wf hs.comment hs.cleanNew hs.size, ⟨rfl, rfl, rfl, rfl, rfl⟩, rfl, rfl,
    _, findEocd_signed hs.comment hs.cleanNew, u32_ofNat_toNat hs.size⟩

/-- C21: the same when the module was signed before. -/
theorem C21_resigned_reads_back {p p' p'' : Profile} {a : Archive} {b b0 : SigningBlock} (hb : Built p' b)
    (hb0 : Built p'' b0) (hs : Signable a b.toU8.length) (hs0 : Signable a b0.toU8.length) :
    ∃ out b', (Module.new (a.signed b0.toU8)).signableWrite p (a.signed b0.toU8) b = (out, .ok ()) ∧
      (Module.new out).getSigningBlock p out = .ok b' ∧ SameBlock b' b ∧
      b'.fileStart = a.body.length ∧ b'.fileEnd = a.body.length + b.toU8.length ∧
      ∃ e, findEocd out out.length = .ok e ∧ e.cdOffset.toNat = b'.fileEnd := by
  refine ⟨_, _, signableWrite_signed p hb0.wf hs.comment hs.cleanOld hs0.cleanNew hs0.size hs.size,
    getSigningBlock_signed p hb.wf hs.comment hs.cleanNew hs.size, ⟨rfl, rfl, rfl, rfl, rfl⟩, rfl, rfl,
    _, findEocd_signed hs.comment hs.cleanNew, u32_ofNat_toNat hs.size⟩

example : ∃ out b', (Module.new sampleArchive.unsigned).signableWrite .dev sampleArchive.unsigned sampleBlock =
    (out, .ok ()) ∧ (Module.new out).getSigningBlock .dev out = .ok b' :=
  let ⟨out, b', h1, h2, _⟩ :=
    C21_signed_reads_back (p := .dev) (sampleBlock_built .dev) sampleArchive_signable sampleArchive_noMagic
  ⟨out, b', h1, h2⟩

/-! ### C22 -/

/-- C22, for entries without the magic (missing: entries with a nested signing block, see
`C24_nested_block_removed`): stripping the signature from what was written gives the original module byte for byte. -/
theorem C22_strip_after_sign_partial {p p' : Profile} {a : Archive} {b : SigningBlock} (hb : Built p' b)
    (hs : Signable a b.toU8.length) (hno : a.NoMagic) :
    ∃ out, (Module.new a.unsigned).signableWrite p a.unsigned b = (out, .ok ()) ∧
      (Module.new out).getRawModule p out = .ok a.unsigned :=
  ⟨_, signableWrite_unsigned p hs.comment hs.cleanOld hs.sizeOld hs.sizeBlock hno,
    getRawModule_signed p hb.wf hs.comment hs.cleanNew hs.size⟩

/-- C22 for any signed archive, whatever its entries contain. -/
theorem C22_strip_signed {p p' : Profile} {a : Archive} {b : SigningBlock} (hb : Built p' b)
    (hs : Signable a b.toU8.length) :
    (Module.new (a.signed b.toU8)).getRawModule p (a.signed b.toU8) = .ok a.unsigned :=
  getRawModule_signed p hb.wf hs.comment hs.cleanNew hs.size

example : (Module.new (sampleArchive.signed sampleBlock.toU8)).getRawModule .dev (sampleArchive.signed sampleBlock.toU8) =
    .ok sampleArchive.unsigned := C22_strip_signed (sampleBlock_built .dev) sampleArchive_signable

/-! ### C23 -/

/-- A history of signings with the `Signable` interface, each on the file the previous one wrote. -/
inductive SignedWith (p : Profile) (file : Bytes) : List SigningBlock → Bytes → Prop where
  | none : SignedWith p file [] file
  | step (mid out : Bytes) (bs : List SigningBlock) (b : SigningBlock) :
      SignedWith p file bs mid → (Module.new mid).signableWrite p mid b = (out, .ok ()) →
      SignedWith p file (bs ++ [b]) out

/-- C23, for entries without the magic (missing: as for C22): after any history of signings ending with `b`, the file is the original archive signed once, with `b`. -/
theorem C23_resign_replaces_partial {p p' : Profile} {a : Archive} (hno : a.NoMagic) {out : Bytes} {bs : List SigningBlock}
    (h : SignedWith p a.unsigned bs out) (hbs : ∀ b ∈ bs, Built p' b ∧ Signable a b.toU8.length) :
    (bs = [] ∧ out = a.unsigned) ∨ ∃ b, bs.getLast? = some b ∧ out = a.signed b.toU8 := by
  induction h with
  | none => exact .inl ⟨rfl, rfl⟩
  | step mid out bs b h1 h2 ih =>
    have hb := hbs b (by simp)
    right
    refine ⟨b, by simp, ?_⟩
    rcases ih (fun b' hb' => hbs b' (by simp [hb'])) with ⟨_, rfl⟩ | ⟨b', hl, rfl⟩
    · rw [signableWrite_unsigned p hb.2.comment hb.2.cleanOld hb.2.sizeOld hb.2.sizeBlock hno] at h2
      exact (congrArg Prod.fst h2).symm
    · have hm := List.mem_of_getLast? hl
      have hb' := hbs b' (by simp [hm])
      rw [signableWrite_signed p hb'.1.wf hb.2.comment hb.2.cleanOld hb'.2.cleanNew hb'.2.size hb.2.size] at h2
      exact (congrArg Prod.fst h2).symm

/-- C23: every history of signings of a signable archive can be carried out. -/
theorem C23_history_exists {p p' : Profile} {a : Archive} (hno : a.NoMagic) (bs : List SigningBlock)
    (hbs : ∀ b ∈ bs, Built p' b ∧ Signable a b.toU8.length) : ∃ out, SignedWith p a.unsigned bs out := by
  have key : ∀ n, n ≤ bs.length → ∃ out, SignedWith p a.unsigned (bs.take n) out := by
    intro n
    induction n with
    | zero => intro _; exact ⟨_, by simpa using SignedWith.none⟩
    | succ n ih =>
      intro hn
      obtain ⟨mid, hmid⟩ := ih (by omega)
      have hget : bs.take (n + 1) = bs.take n ++ [bs[n]] := by
        rw [List.take_succ_eq_append_getElem]
      have hb := hbs bs[n] (List.getElem_mem _)
      rw [hget]
      rcases C23_resign_replaces_partial hno hmid (fun b hb => hbs b (List.mem_of_mem_take hb)) with ⟨_, rfl⟩ | ⟨b', hl, rfl⟩
      · exact ⟨_, .step _ _ _ _ hmid (signableWrite_unsigned p hb.2.comment hb.2.cleanOld hb.2.sizeOld hb.2.sizeBlock hno)⟩
      · have hb' := hbs b' (List.mem_of_mem_take (List.mem_of_getLast? hl))
        exact ⟨_, .step _ _ _ _ hmid
          (signableWrite_signed p hb'.1.wf hb.2.comment hb.2.cleanOld hb'.2.cleanNew hb'.2.size hb.2.size)⟩
  simpa using key bs.length (Nat.le_refl _)

example : ∃ out, SignedWith .dev sampleArchive.unsigned [sampleBlock, sampleBlock, sampleBlock] out :=
  C23_history_exists sampleArchive_noMagic _ (by
    intro b hb
    simp only [List.mem_cons, List.not_mem_nil, or_false, or_self] at hb
    subst hb
    exact ⟨sampleBlock_built .dev, sampleArchive_signable⟩)

end Ksusig.Props
