import Verif.Proofs.Layout

/-! The module functions on signed and unsigned archives. -/

namespace Ksusig

open Spec

theorem u32_ofNat_toNat {n : Nat} (h : n < 2 ^ 32) : (UInt32.ofNat n).toNat = n := by
  simp only [UInt32.toNat_ofNat']; omega

theorem Spec.Archive.signed_length (a : Archive) (block : Bytes) :
    (a.signed block).length = a.body.length + block.length + a.cd.length + (22 + a.tail.comment.length) := by
  simp only [Archive.signed, List.length_append, wireEocd_length]

theorem Spec.Archive.unsigned_length (a : Archive) :
    a.unsigned.length = a.body.length + a.cd.length + (22 + a.tail.comment.length) := by
  simp only [Archive.unsigned, List.length_append, wireEocd_length]

theorem Spec.Archive.unsigned_eq_signed (a : Archive) : a.unsigned = a.signed [] := by
  simp [Archive.unsigned, Archive.signed]

theorem findEocd_signed {a : Archive} {block : Bytes} (hok : a.Ok) (hclean : a.CleanAt (a.body.length + block.length)) :
    findEocd (a.signed block) (a.signed block).length =
      .ok (a.tail.eocd (a.body.length + block.length) (a.body.length + block.length + a.cd.length)) := by
  have hok' : a.tail.comment.length ≤ 65535 := hok
  have := findEocd_wire (a.body ++ block ++ a.cd) [] a.tail (a.body.length + block.length) hok
    (by simp only [List.length_nil]; omega) (by rw [List.append_nil]; exact hclean)
  rw [List.append_nil] at this
  rw [Archive.signed, this]
  simp only [List.length_append]

theorem findEocd_unsigned {a : Archive} (hok : a.Ok) (hclean : a.CleanAt a.body.length) :
    findEocd a.unsigned a.unsigned.length =
      .ok (a.tail.eocd a.body.length (a.body.length + a.cd.length)) := by
  rw [a.unsigned_eq_signed]
  simpa using findEocd_signed (block := []) hok (by simpa using hclean)

theorem getSigningBlock_signed (p : Profile) {a : Archive} {b : SigningBlock} (hb : b.WF) (hok : a.Ok)
    (hclean : a.CleanAt (a.body.length + b.toU8.length)) (hsz : a.body.length + b.toU8.length < 2 ^ 32) :
    (Module.new (a.signed b.toU8)).getSigningBlock p (a.signed b.toU8) =
      .ok { b with fileStart := a.body.length, fileEnd := a.body.length + b.toU8.length } := by
  simp only [Module.getSigningBlock, Module.getSigningBlockT, Module.new, Module.findEocd,
    findEocd_signed hok hclean, Res.ok_bind]
  rw [if_neg (by simp)]
  have hl := a.signed_length b.toU8
  simp only [Spec.Tail.eocd, u32_ofNat_toNat hsz]
  rw [show a.signed b.toU8 = a.body ++ b.toU8 ++ (a.cd ++ wireEocd a.tail (a.body.length + b.toU8.length)) by
    simp [Archive.signed]] at hl ⊢
  exact fromReader_block p a.body _ hb (by omega)

theorem getSigningBlock_unsigned (p : Profile) {a : Archive} (hok : a.Ok)
    (hclean : a.CleanAt a.body.length) (hsz : a.body.length < 2 ^ 32) (hno : a.NoMagic) :
    (Module.new a.unsigned).getSigningBlock p a.unsigned = .err .magicNotFound := by
  simp only [Module.getSigningBlock, Module.getSigningBlockT, Module.new, Module.findEocd,
    findEocd_unsigned hok hclean, Res.ok_bind]
  rw [if_neg (by simp)]
  have hl := a.unsigned_length
  simp only [Spec.Tail.eocd, u32_ofNat_toNat hsz]
  refine fromReader_none p _ (by have := hno.1; omega) (by omega) ?_
  intro u hu hm
  refine hno.2 u ?_
  unfold MagicAt at hm
  unfold MagicAtPos
  obtain ⟨_, _, h, _⟩ := slice?_eq_some hm
  rw [slice?_of_le (by omega) (by omega)]
  rw [show a.unsigned = a.body ++ (a.cd ++ wireEocd a.tail a.body.length) by simp [Archive.unsigned]] at h
  rw [List.drop_append_of_le_length (by omega), List.take_append_of_le_length (by rw [List.length_drop]; omega)] at h
  rw [← h]; rfl

theorem getOffsets_signed (p : Profile) {a : Archive} {b : SigningBlock} (hb : b.WF) (hok : a.Ok)
    (hclean : a.CleanAt (a.body.length + b.toU8.length)) (hsz : a.body.length + b.toU8.length < 2 ^ 32) :
    (Module.new (a.signed b.toU8)).getOffsets p (a.signed b.toU8) =
      .ok (FileOffsets.new a.body.length (a.body.length + b.toU8.length)
        (a.body.length + b.toU8.length + a.cd.length) (a.signed b.toU8).length) := by
  have h := getSigningBlock_signed p hb hok hclean hsz
  have h2 : (Module.new (a.signed b.toU8)).findEocd (a.signed b.toU8) = _ := findEocd_signed hok hclean
  unfold Module.getSigningBlock at h
  simp only [Module.getOffsets, Module.getOffsetsT, h, h2, Res.ok_bind]
  simp [Module.new, Spec.Tail.eocd]

theorem getOffsets_unsigned (p : Profile) {a : Archive} (hok : a.Ok)
    (hclean : a.CleanAt a.body.length) (hsz : a.body.length < 2 ^ 32) (hno : a.NoMagic) :
    (Module.new a.unsigned).getOffsets p a.unsigned =
      .ok (FileOffsets.new a.body.length a.body.length (a.body.length + a.cd.length) a.unsigned.length) := by
  have h := getSigningBlock_unsigned p hok hclean hsz hno
  have h2 : (Module.new a.unsigned).findEocd a.unsigned = _ := findEocd_unsigned hok hclean
  unfold Module.getSigningBlock at h
  simp only [Module.getOffsets, Module.getOffsetsT, h, h2, Res.ok_bind]
  simp [Module.new, Spec.Tail.eocd, Err.isMissing, FileOffsets.withoutSignature, u32_ofNat_toNat hsz]

/-- Changing the directory offset of a record. -/
theorem Spec.Tail.eocd_move (t : Tail) (off fo off' fo' : Nat) :
    { t.eocd off fo with fileOffset := fo', cdOffset := UInt32.ofNat off' } = t.eocd off' fo' := rfl

theorem slice?_mid {d pre mid post : Bytes} {a b : Nat} (h : d = pre ++ mid ++ post) (ha : pre.length = a)
    (hb : pre.length + mid.length = b) : slice? d a b = some mid := by
  subst h ha hb; exact slice?_append pre mid post

theorem getRawModule_signed (p : Profile) {a : Archive} {b : SigningBlock} (hb : b.WF) (hok : a.Ok)
    (hclean : a.CleanAt (a.body.length + b.toU8.length)) (hsz : a.body.length + b.toU8.length < 2 ^ 32) :
    (Module.new (a.signed b.toU8)).getRawModule p (a.signed b.toU8) = .ok a.unsigned := by
  have h := getSigningBlock_signed p hb hok hclean hsz
  have h2 : (Module.new (a.signed b.toU8)).findEocd (a.signed b.toU8) = _ := findEocd_signed hok hclean
  have hl := a.signed_length b.toU8
  have hoff : checkedSub32 (UInt32.ofNat (a.body.length + b.toU8.length)) b.toU8.length =
      some (UInt32.ofNat a.body.length) := by
    unfold checkedSub32
    rw [u32_ofNat_toNat hsz, Nat.mod_eq_of_lt (by omega), if_pos (by omega), Nat.add_sub_cancel]
  have hser : (a.tail.eocd a.body.length (a.body.length + b.toU8.length + a.cd.length)).toU8 =
      wireEocd a.tail a.body.length := Spec.Tail.eocd_toU8 _ (by omega) hok
  have hwl := wireEocd_length a.tail a.body.length
  have hwl2 := wireEocd_length a.tail (a.body.length + b.toU8.length)
  unfold Module.getRawModule
  rw [if_neg (by simp [Module.new])]
  simp only [h, Res.ok_bind, h2]
  rw [usub_of_le (by omega)]
  simp only [Res.ok_bind]
  rw [slice?_mid (d := a.signed b.toU8) (a := 0) (b := a.body.length) (pre := []) (mid := a.body)
    (post := b.toU8 ++ a.cd ++ wireEocd a.tail (a.body.length + b.toU8.length)) (by simp [Archive.signed]) rfl (by simp)]
  simp only [Res.ofOption_some, Res.ok_bind]
  rw [show a.body.length + b.toU8.length - a.body.length = b.toU8.length by omega]
  have hoff' : checkedSub32 (a.tail.eocd (a.body.length + b.toU8.length)
      (a.body.length + b.toU8.length + a.cd.length)).cdOffset b.toU8.length = some (UInt32.ofNat a.body.length) := hoff
  rw [hoff']
  simp only [Res.ofOption_some, Res.ok_bind]
  have hmv : { a.tail.eocd (a.body.length + b.toU8.length) (a.body.length + b.toU8.length + a.cd.length) with
      cdOffset := UInt32.ofNat a.body.length } =
      a.tail.eocd a.body.length (a.body.length + b.toU8.length + a.cd.length) := rfl
  rw [hmv, hser, usub_of_le (by omega)]
  simp only [Res.ok_bind]
  rw [slice?_mid (d := a.signed b.toU8) (pre := a.body ++ b.toU8) (mid := a.cd)
    (post := wireEocd a.tail (a.body.length + b.toU8.length)) rfl (by simp)
    (by simp only [List.length_append]; omega)]
  rfl

/-- Writing a signature over the given unsigned source, which may be followed by other bytes. -/
theorem signableWrite_of_source_junk (p : Profile) {m : Module} {file junk : Bytes} {a : Archive} {b : SigningBlock}
    (hok : a.Ok) (hsz : a.body.length < 2 ^ 32) (hsz' : b.toU8.length < 2 ^ 32)
    (hsrc : m.signSource p file =
      .ok (a.unsigned ++ junk, a.tail.eocd a.body.length (a.body.length + a.cd.length))) :
    m.signableWrite p file b = (a.signed b.toU8, .ok ()) := by
  have hl := a.unsigned_length
  have hlj : (a.unsigned ++ junk).length = a.unsigned.length + junk.length := List.length_append
  unfold Module.signableWrite
  simp only [hsrc, Spec.Tail.eocd, u32_ofNat_toNat (n := a.body.length) hsz]
  rw [if_neg (by omega), usub_of_le (by omega)]
  simp only
  rw [slice?_mid (d := a.unsigned ++ junk) (a := 0) (b := a.body.length) (pre := []) (mid := a.body)
    (post := a.cd ++ wireEocd a.tail a.body.length ++ junk) (by simp [Archive.unsigned]) rfl (by simp)]
  simp only
  rw [slice?_mid (d := a.unsigned ++ junk) (pre := a.body) (mid := a.cd)
    (post := wireEocd a.tail a.body.length ++ junk) (by simp [Archive.unsigned]) rfl rfl]
  simp only
  rw [if_neg (by omega)]
  rw [show (a.body.length + a.cd.length - a.body.length + ((a.unsigned ++ junk).length - (a.body.length + a.cd.length)) +
    a.body.length == (a.unsigned ++ junk).length) = true by rw [beq_iff_eq]; omega]
  have hser := Spec.Tail.eocd_toU8' a.tail (off := a.body.length + b.toU8.length)
    (fo := a.body.length + a.cd.length + b.toU8.length) hok
  simp only [Spec.Tail.eocd] at hser
  cases p <;> simp only [debugAssert, hser, Archive.signed]

/-- Writing a signature over the given unsigned source. -/
theorem signableWrite_of_source (p : Profile) {m : Module} {file : Bytes} {a : Archive} {b : SigningBlock}
    (hok : a.Ok) (hsz : a.body.length < 2 ^ 32) (hsz' : b.toU8.length < 2 ^ 32)
    (hsrc : m.signSource p file = .ok (a.unsigned, a.tail.eocd a.body.length (a.body.length + a.cd.length))) :
    m.signableWrite p file b = (a.signed b.toU8, .ok ()) :=
  signableWrite_of_source_junk p (junk := []) hok hsz hsz' (by rw [List.append_nil]; exact hsrc)

theorem magicAt_append {x y : Bytes} {u : Nat} (h : u + 16 ≤ x.length) : MagicAtPos (x ++ y) u ↔ MagicAtPos x u := by
  unfold MagicAtPos
  rw [slice?_of_le (by omega) h, slice?_of_le (by omega) (by rw [List.length_append]; omega),
    List.drop_append_of_le_length (by omega),
    List.take_append_of_le_length (by simp only [List.length_drop]; omega)]

theorem signableWrite_unsigned (p : Profile) {a : Archive} {b : SigningBlock} (hok : a.Ok)
    (hclean : a.CleanAt a.body.length) (hsz : a.body.length < 2 ^ 32) (hsz' : b.toU8.length < 2 ^ 32) (hno : a.NoMagic) :
    (Module.new a.unsigned).signableWrite p a.unsigned b = (a.signed b.toU8, .ok ()) := by
  apply signableWrite_of_source p hok hsz hsz'
  unfold Module.signSource
  rw [getSigningBlock_unsigned p hok hclean hsz hno]
  simp [Err.isMissing, findEocd_unsigned hok hclean]

theorem signableWrite_signed (p : Profile) {a : Archive} {b b' : SigningBlock} (hb : b.WF) (hok : a.Ok)
    (hclean0 : a.CleanAt a.body.length) (hclean : a.CleanAt (a.body.length + b.toU8.length))
    (hsz : a.body.length + b.toU8.length < 2 ^ 32) (hsz' : a.body.length + b'.toU8.length < 2 ^ 32) :
    (Module.new (a.signed b.toU8)).signableWrite p (a.signed b.toU8) b' = (a.signed b'.toU8, .ok ()) := by
  apply signableWrite_of_source p hok (by omega) (by omega)
  unfold Module.signSource
  rw [getSigningBlock_signed p hb hok hclean hsz]
  simp [getRawModule_signed p hb hok hclean hsz, findEocd_unsigned hok hclean0]

end Ksusig
