import Verif.Proofs.Archive
import Verif.Props.Block

/-! Property theorems C12–C15: the end record and the signing block in front of the directory. -/

namespace Ksusig

open Spec

theorem Spec.Built.wf {p : Profile} {b : SigningBlock} (h : Built p b) : b.WF := by
  obtain ⟨cs, hok, h | h⟩ := h
  · obtain ⟨hlim, rfl⟩ := SigningBlock.new_eq_ok.mp h
    exact built_wf hok _ _ hlim
  · obtain ⟨cs', hok', _, h'⟩ := padded_spec hok h
    obtain ⟨hlim, rfl⟩ := SigningBlock.new_eq_ok.mp h'
    exact built_wf hok' _ _ hlim

theorem getSigningBlock_new (p : Profile) (file : Bytes) :
    (Module.new file).getSigningBlock p file =
      (findEocd file file.length >>= fun e =>
        SigningBlock.fromReader p file file.length (file.length - e.cdOffset.toNat)) := rfl

theorem getSigningBlock_nested {p : Profile} {b : SigningBlock} (hb : b.WF) (pre mid : Bytes) (a : Archive)
    (hbody : a.body = pre ++ b.toU8 ++ mid) (hok : a.Ok) (hclean : a.CleanAt a.body.length)
    (hsz : a.body.length < 2 ^ 32) (hwin : b.toU8.length + mid.length ≤ 2 ^ 24)
    (hlast : ∀ u, pre.length + b.toU8.length - 16 < u → ¬ MagicAtPos a.body u) :
    (Module.new a.unsigned).getSigningBlock p a.unsigned =
      .ok { b with fileStart := pre.length, fileEnd := pre.length + b.toU8.length } := by
  have hbl : a.body.length = pre.length + b.toU8.length + mid.length := by rw [hbody]; simp only [List.length_append]
  rw [getSigningBlock_new, findEocd_unsigned hok hclean]
  have hl := a.unsigned_length
  simp only [Res.ok_bind, Spec.Tail.eocd, u32_ofNat_toNat hsz]
  have hu : a.unsigned = pre ++ b.toU8 ++ mid ++ (a.cd ++ wireEocd a.tail a.body.length) := by
    simp [Archive.unsigned, hbody]
  rw [hu] at hl ⊢
  refine fromReader_block_mid p pre mid _ hb (by omega) (by simp only [maxWindow]; omega) ?_
  intro u h1 h2 hm
  refine hlast u h1 ?_
  unfold MagicAt at hm
  obtain ⟨_, _, h, _⟩ := slice?_eq_some hm
  unfold MagicAtPos
  rw [slice?_of_le (by omega) (by omega)]
  rw [← hbody, List.drop_append_of_le_length (by omega), List.take_append_of_le_length
    (by rw [List.length_drop]; omega)] at h
  rw [← h]; rfl

theorem cleanAt_of_bounded {a : Archive} {off : Nat}
    (h : ∀ k, k < a.tail.comment.length + 1 → 1 ≤ k → ¬ RecordAt (wireEocd a.tail off) k) : a.CleanAt off := by
  intro k hk hr
  have h1 := hr.2.1
  rw [wireEocd_length] at h1
  exact h k (by omega) hk hr

theorem cleanAt_no_comment {a : Archive} {off : Nat} (h : a.tail.comment = []) : a.CleanAt off := by
  intro k hk hr
  have h1 := hr.2.1
  rw [wireEocd_length, h] at h1
  simp only [List.length_nil] at h1
  omega

theorem noMagic_of_bounded {a : Archive} (h24 : 24 ≤ a.body.length)
    (h : ∀ u, u < a.body.length → ¬ MagicAtPos a.body u) : a.NoMagic := by
  refine ⟨h24, fun u hu => ?_⟩
  have hu' : slice? a.body u (u + 16) = some _ := hu
  obtain ⟨_, h1, _⟩ := slice?_eq_some hu'
  exact h u (by omega) hu

end Ksusig

namespace Ksusig.Props

open Ksusig Ksusig.Spec

/-- A small archive: 30 entry bytes, a 4-byte directory, a 2-byte comment. -/
def sampleArchive : Archive :=
  ⟨(List.range 30).map UInt8.ofNat, [0x50, 0x4b, 1, 2], ⟨0, 0, 1, 1, 4, [0x76, 0x31]⟩⟩

/-- The block of C01's sample content. -/
def sampleBlock : SigningBlock :=
  match SigningBlock.new (sampleContent.map ContentSpec.build) with
  | .ok b => b
  | _ => ⟨0, 0, 0, 0, [], 0, []⟩

theorem sampleBlock_new : SigningBlock.new (sampleContent.map ContentSpec.build) = .ok sampleBlock := by
  decide +kernel

theorem sampleBlock_built (p : Profile) : Built p sampleBlock :=
  ⟨sampleContent, sampleContent_ok, .inl sampleBlock_new⟩

theorem sampleArchive_clean (off : Nat) (h : off < 2 ^ 8) : sampleArchive.CleanAt off := by
  apply cleanAt_of_bounded
  have : ∀ x, x < 2 ^ 8 → ∀ k, k < sampleArchive.tail.comment.length + 1 → 1 ≤ k →
      ¬ RecordAt (wireEocd sampleArchive.tail x) k := by decide +kernel
  exact this off h

theorem sampleArchive_noMagic : sampleArchive.NoMagic :=
  noMagic_of_bounded (by decide) (by decide +kernel)

/-! ### C12 -/

/-- C12: a returned record is in the file at the returned offset, byte for byte with its whole comment, lies in
the last 65557 bytes, and no complete record starts later. -/
theorem C12_record_is_real {file : Bytes} {fl : Nat} {e : Eocd} (h : findEocd file fl = .ok e) :
    fl ≤ file.length ∧
    slice? file e.fileOffset (e.fileOffset + e.toU8.length) = some e.toU8 ∧
    e.fileOffset + e.toU8.length ≤ fl ∧ fl ≤ e.fileOffset + 65557 ∧
    e.signature = [0x50, 0x4b, 0x05, 0x06] ∧ e.comment.length = e.commentLen.toNat ∧
    ∀ j, e.fileOffset < j → ¬ RecordAt (file.take fl) j := by
  by_cases h22 : fl < 22
  · rw [findEocd_small h22] at h; cases h
  by_cases hl : file.length < fl
  · rw [findEocd_eof hl (by omega)] at h; cases h
  rcases findEocd_spec (file := file) (fl := fl) (by omega) (by omega) with ⟨h', _⟩ | ⟨k, h1, h2, h3, h4⟩
  · rw [h'] at h; cases h
  rw [h4] at h
  cases h
  obtain ⟨r1, r2, r3⟩ := h2
  have hlen : (file.take fl).length = fl := by rw [List.length_take]; omega
  rw [hlen] at r2 r3
  have hd : ((file.take fl).drop k).length = fl - k := by rw [List.length_drop, hlen]
  have hcl : (((file.take fl).drop k).drop 20).take 2 = ((file.take fl).drop (k + 20)).take 2 := by
    rw [List.drop_drop]
  have hu := eocdOf_toU8 (d := (file.take fl).drop k) k (by rw [hcl, hd]; omega)
  have hul : (eocdOf ((file.take fl).drop k) k).toU8.length = 22 + leNat (((file.take fl).drop (k + 20)).take 2) := by
    rw [hu, hcl, List.length_take, hd]; omega
  have hfo : (eocdOf ((file.take fl).drop k) k).fileOffset = k := rfl
  rw [hul, hfo]
  refine ⟨by omega, ?_, by omega, by omega, ?_, ?_, h3⟩
  · rw [hu, hcl]
    generalize leNat (((file.take fl).drop (k + 20)).take 2) = n at *
    rw [slice?_of_le (by omega) (by omega), List.drop_take, List.take_take]
    congr 2; omega
  · obtain ⟨_, _, h5, _⟩ := slice?_eq_some r1
    rw [show k + 4 - k = 4 by omega] at h5
    exact h5.symm
  · simp only [eocdOf, u16_toNat_leNat, List.length_take, List.length_drop, List.drop_drop, hlen]
    omega

/-- C12: when no record is reported, no complete record starts in the last 65557 bytes. -/
theorem C12_no_record_missed {file : Bytes} {e : Err} (h : findEocd file file.length = .err e) :
    ∀ k, file.length ≤ k + 65557 → ¬ RecordAt file k := by
  intro k hk hr
  have h22 : k + 22 ≤ file.length := hr.2.1
  rcases findEocd_spec (file := file) (fl := file.length) (Nat.le_refl _) (by omega) with ⟨_, h'⟩ | ⟨k, _, _, _, h4⟩
  · rw [List.take_length] at h'; exact h' k hk hr
  · rw [h4] at h; cases h

example : (findEocd sampleArchive.unsigned sampleArchive.unsigned.length).isOk = true := by decide +kernel
example : findEocd (List.replicate 40 7) 40 = .err .eocdNotFound := by decide +kernel

/-! ### C13 -/

/-- C13: the end record of a well-formed archive (and trailing bytes that fit the search window) is found. -/
theorem C13_record_found (body rest : Bytes) (t : Tail) (off : Nat) (hoff : off < 2 ^ 32)
    (hc : t.comment.length ≤ 65535) (hreach : 22 + t.comment.length + rest.length ≤ 65557)
    (hclean : ∀ k, body.length < k → ¬ RecordAt (body ++ wireEocd t off ++ rest) k) :
    ∃ e, findEocd (body ++ wireEocd t off ++ rest) (body ++ wireEocd t off ++ rest).length = .ok e ∧
      e.fileOffset = body.length ∧ e.toU8 = wireEocd t off ∧ e.cdOffset.toNat = off ∧ e.comment = t.comment ∧
      e.diskNumber = t.disk ∧ e.diskWithCd = t.diskCd ∧ e.numEntries = t.entries ∧ e.totalEntries = t.total ∧
      e.cdSize = t.cdSize := by
  refine ⟨t.eocd off body.length, ?_, rfl, Spec.Tail.eocd_toU8 t hoff hc, u32_ofNat_toNat hoff, rfl, rfl, rfl, rfl,
    rfl, rfl⟩
  rw [List.append_assoc] at hclean ⊢
  apply findEocd_wire body rest t off hc hreach
  intro k hk hr
  refine hclean (body.length + k) (by omega) ?_
  refine (RecordAt.shift (by simp)).mp ?_
  rwa [List.drop_left]

example : ∃ e, findEocd ([1, 2, 3] ++ wireEocd sampleArchive.tail 2 ++ [9])
    ([1, 2, 3] ++ wireEocd sampleArchive.tail 2 ++ [9]).length = .ok e := by
  obtain ⟨e, h, _⟩ := C13_record_found [1, 2, 3] [9] sampleArchive.tail 2 (by decide) (by decide) (by decide)
    (by
      intro k hk hr
      have h1 := hr.2.1
      have : ([1, 2, 3] ++ wireEocd sampleArchive.tail 2 ++ [9]).length = 28 := by decide +kernel
      have hb : ∀ k, k < 7 → [1, 2, 3].length < k → ¬ RecordAt ([1, 2, 3] ++ wireEocd sampleArchive.tail 2 ++ [9]) k := by
        decide +kernel
      exact hb k (by omega) hk hr)
  exact ⟨e, h⟩

/-! ### C14 -/

/-- C14: a constructor-built block that ends where the end record says the directory starts is returned with its
exact position, whatever the other bytes of the file are. -/
theorem C14_block_found {p p' : Profile} {b : SigningBlock} (hb : Built p' b) (body rest : Bytes) {e : Eocd}
    (he : findEocd (body ++ b.toU8 ++ rest) (body ++ b.toU8 ++ rest).length = .ok e)
    (hcd : e.cdOffset.toNat = body.length + b.toU8.length) :
    ∃ b', (Module.new (body ++ b.toU8 ++ rest)).getSigningBlock p (body ++ b.toU8 ++ rest) = .ok b' ∧
      SameBlock b' b ∧ b'.fileStart = body.length ∧ b'.fileEnd = body.length + b.toU8.length := by
  refine ⟨{ b with fileStart := body.length, fileEnd := body.length + b.toU8.length }, ?_, ⟨rfl, rfl, rfl, rfl, rfl⟩,
    rfl, rfl⟩
  simp only [Module.getSigningBlock, Module.getSigningBlockT, Module.new, Module.findEocd, he, Res.ok_bind]
  rw [if_neg (by simp), hcd]
  exact fromReader_block p body rest hb.wf (by simp only [List.length_append]; omega)

example : ∃ e, findEocd (sampleArchive.signed sampleBlock.toU8) (sampleArchive.signed sampleBlock.toU8).length = .ok e ∧
    e.cdOffset.toNat = sampleArchive.body.length + sampleBlock.toU8.length := by
  have h : ((findEocd (sampleArchive.signed sampleBlock.toU8) (sampleArchive.signed sampleBlock.toU8).length) >>= fun e =>
    if e.cdOffset.toNat = sampleArchive.body.length + sampleBlock.toU8.length then .ok e else .err .fuel).isOk = true := by
    decide +kernel
  obtain ⟨e, he⟩ := Res.exists_of_isOk h
  obtain ⟨e', h1, h2⟩ := Res.bind_eq_ok.mp he
  refine ⟨e', h1, ?_⟩
  split at h2
  · assumption
  · cases h2

/-! ### C15 -/

/-- C15 fails: for every constructor-built block `b` anywhere in the entries of an otherwise unsigned archive
(for example inside a stored, itself signed module), followed by up to 16 MiB without the magic, the archive's
signing block is reported to be `b`. -/
theorem C15_nested_block_returned {p p' : Profile} {b : SigningBlock} (hb : Built p' b) (pre mid : Bytes) (a : Archive)
    (hbody : a.body = pre ++ b.toU8 ++ mid) (hok : a.Ok) (hclean : a.CleanAt a.body.length)
    (hsz : a.body.length < 2 ^ 32) (hwin : b.toU8.length + mid.length ≤ 2 ^ 24)
    (hlast : ∀ u, pre.length + b.toU8.length - 16 < u → ¬ MagicAtPos a.body u) :
    ∃ b', (Module.new a.unsigned).getSigningBlock p a.unsigned = .ok b' ∧
      SameBlock b' b ∧ b'.fileStart = pre.length ∧ b'.fileEnd = pre.length + b.toU8.length :=
  ⟨_, getSigningBlock_nested hb.wf pre mid a hbody hok hclean hsz hwin hlast, ⟨rfl, rfl, rfl, rfl, rfl⟩, rfl, rfl⟩

/-- An archive with a signed archive among its entries. -/
def nestedArchive : Archive := { sampleArchive with body := [1, 2, 3] ++ sampleBlock.toU8 ++ [4, 5, 6] }

set_option maxRecDepth 100000 in
theorem nestedArchive_last : ∀ u, ([1, 2, 3] : Bytes).length + sampleBlock.toU8.length - 16 < u →
    ¬ MagicAtPos nestedArchive.body u := by
  intro u hu hm
  have hm' : slice? nestedArchive.body u (u + 16) = some _ := hm
  obtain ⟨_, h1, _⟩ := slice?_eq_some hm'
  have hb : ∀ x, x < nestedArchive.body.length → ([1, 2, 3] : Bytes).length + sampleBlock.toU8.length - 16 < x →
    ¬ MagicAtPos nestedArchive.body x := by decide +kernel
  exact hb u (by omega) hu hm

example : ∃ b', (Module.new nestedArchive.unsigned).getSigningBlock .dev nestedArchive.unsigned = .ok b' ∧
    b'.fileStart = 3 := by
  obtain ⟨b', h, _, h2, _⟩ := C15_nested_block_returned (p := .dev) (sampleBlock_built .dev) [1, 2, 3] [4, 5, 6]
    nestedArchive rfl (by decide +kernel) (cleanAt_of_bounded (by decide +kernel)) (by decide +kernel) (by decide +kernel)
    nestedArchive_last
  exact ⟨b', h, h2⟩

/-- C15, what holds: without the magic among the entries an unsigned archive is reported as unsigned. -/
theorem C15_unsigned_partial {p : Profile} {a : Archive} (hok : a.Ok) (hclean : a.CleanAt a.body.length)
    (hsz : a.body.length < 2 ^ 32) (hno : a.NoMagic) :
    (∃ e, (Module.new a.unsigned).getSigningBlock p a.unsigned = .err e ∧ e.isMissing = true) ∧
      (Module.new a.unsigned).isSigned p a.unsigned = .ok false ∧
      (Module.new a.unsigned).signingBlock? p a.unsigned = .ok none := by
  have h := getSigningBlock_unsigned p hok hclean hsz hno
  refine ⟨⟨_, h, rfl⟩, ?_, ?_⟩
  · simp [Module.isSigned, Module.signingBlock?, h, Err.isMissing]
  · simp [Module.signingBlock?, h, Err.isMissing]

example : (∃ e, (Module.new sampleArchive.unsigned).getSigningBlock .dev sampleArchive.unsigned = .err e ∧
    e.isMissing = true) :=
  (C15_unsigned_partial (by decide +kernel) (sampleArchive_clean _ (by decide +kernel)) (by decide +kernel)
    sampleArchive_noMagic).1

/-- C15, what holds for every file: a returned block is a framed region that lies before the directory and
carries the last magic before the directory. -/
theorem C15_last_magic_partial {p : Profile} {file : Bytes} {b : SigningBlock}
    (h : (Module.new file).getSigningBlock p file = .ok b) :
    ∃ e pre pairs post, findEocd file file.length = .ok e ∧ file = pre ++ wireFrame pairs ++ post ∧
      b.fileStart = pre.length ∧ b.fileEnd = pre.length + (wireFrame pairs).length ∧
      b.fileEnd ≤ e.cdOffset.toNat ∧
      ∀ u, u + 16 ≤ min file.length e.cdOffset.toNat → MagicAtPos file u → u + 16 ≤ b.fileEnd := by
  rw [getSigningBlock_new] at h
  obtain ⟨e, h1, h2⟩ := Res.bind_eq_ok.mp h
  obtain ⟨pre, pairs, post, hf, _, _, h3, h4, hb⟩ := fromReader_ok h2
  have hw := wireFrame_length' pairs
  refine ⟨e, pre, pairs, post, h1, hf, by rw [hb], by rw [hb]; simp only; omega, by rw [hb]; simp only; omega, ?_⟩
  intro u hu hm
  have := h4 u (by omega) hm
  rw [hb]; simp only; omega

example : ((Module.new (sampleArchive.signed sampleBlock.toU8)).getSigningBlock .dev
    (sampleArchive.signed sampleBlock.toU8)).isOk = true := by decide +kernel

end Ksusig.Props
