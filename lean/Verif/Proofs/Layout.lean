import Verif.Model.Signable
import Verif.Proofs.Zip
import Verif.Proofs.ReadBlock
import Verif.Proofs.Block

/-! Archive layouts: the end record of a concatenation, the block before the directory. -/

namespace Ksusig

open Spec

theorem take_mid {d pre mid post : Bytes} {a n : Nat} (h : d = pre ++ mid ++ post) (ha : pre.length = a)
    (hn : mid.length = n) : (d.drop a).take n = mid := by
  subst h ha hn
  rw [List.append_assoc, List.drop_left, List.take_left]

theorem take_append_left {a b : Bytes} {n : Nat} (h : a.length = n) : (a ++ b).take n = a := by
  subst h; exact List.take_left

theorem drop_append_left {a b : Bytes} {n : Nat} (h : a.length = n) : (a ++ b).drop n = b := by
  subst h; exact List.drop_left

/-- The record with the given fields at a file position. -/
def Spec.Tail.eocd (t : Tail) (off fo : Nat) : Eocd :=
  ⟨fo, eocdSig, t.disk, t.diskCd, t.entries, t.total, t.cdSize, UInt32.ofNat off, UInt16.ofNat t.comment.length,
    t.comment⟩

theorem wireEocd_length (t : Tail) (off : Nat) : (wireEocd t off).length = 22 + t.comment.length := by
  simp [wireEocd]; omega

theorem leBytes_mod (n x : Nat) : leBytes n (x % 256 ^ n) = leBytes n x := by
  have h := leBytes_leNat (leBytes n x)
  rwa [leBytes_length, leNat_leBytes] at h

/-- Also for an offset of 4 GiB or more, whose low 32 bits are then stored. -/
theorem Spec.Tail.eocd_toU8' (t : Tail) {off fo : Nat} (hc : t.comment.length ≤ 65535) :
    (t.eocd off fo).toU8 = wireEocd t off := by
  have h1 : leBytes 4 (UInt32.ofNat off).toNat = leBytes 4 off := by
    simp only [UInt32.toNat_ofNat']; exact leBytes_mod 4 off
  have h2 : (UInt16.ofNat t.comment.length).toNat = t.comment.length := by
    simp only [UInt16.toNat_ofNat']; omega
  simp only [Eocd.toU8, Spec.Tail.eocd, h1, h2, wireEocd, eocdSig]

theorem Spec.Tail.eocd_toU8 (t : Tail) {off fo : Nat} (_ : off < 2 ^ 32) (hc : t.comment.length ≤ 65535) :
    (t.eocd off fo).toU8 = wireEocd t off := t.eocd_toU8' hc

theorem u16_le (x : UInt16) : UInt16.ofNat (leNat (leBytes 2 x.toNat)) = x := by
  rw [leNat_leBytes_of_lt (n := 2) (by have := x.toNat_lt; omega)]
  exact UInt16.ofNat_toNat

theorem u32_le (x : UInt32) : UInt32.ofNat (leNat (leBytes 4 x.toNat)) = x := by
  rw [leNat_leBytes_of_lt (n := 4) (by have := x.toNat_lt; omega)]
  exact UInt32.ofNat_toNat

theorem wire_commentLen (t : Tail) (off : Nat) (rest : Bytes) :
    ((wireEocd t off ++ rest).drop 20).take 2 = leBytes 2 t.comment.length :=
  take_mid (pre := [0x50, 0x4b, 0x05, 0x06] ++ leBytes 2 t.disk.toNat ++ leBytes 2 t.diskCd.toNat ++
    leBytes 2 t.entries.toNat ++ leBytes 2 t.total.toNat ++ leBytes 4 t.cdSize.toNat ++ leBytes 4 off)
    (post := t.comment ++ rest) (by simp [wireEocd]) (by simp) (by simp)

theorem eocdOf_wire (t : Tail) (off fo : Nat) (rest : Bytes) (hc : t.comment.length ≤ 65535) :
    eocdOf (wireEocd t off ++ rest) fo = t.eocd off fo := by
  have e0 : (wireEocd t off ++ rest).take 4 = eocdSig :=
    take_mid (pre := []) (post := leBytes 2 t.disk.toNat ++ leBytes 2 t.diskCd.toNat ++
      leBytes 2 t.entries.toNat ++ leBytes 2 t.total.toNat ++ leBytes 4 t.cdSize.toNat ++ leBytes 4 off ++
      leBytes 2 t.comment.length ++ t.comment ++ rest) (by simp [wireEocd, eocdSig]) rfl rfl
  have e1 : ((wireEocd t off ++ rest).drop 4).take 2 = leBytes 2 t.disk.toNat :=
    take_mid (pre := [0x50, 0x4b, 0x05, 0x06]) (post := leBytes 2 t.diskCd.toNat ++
      leBytes 2 t.entries.toNat ++ leBytes 2 t.total.toNat ++ leBytes 4 t.cdSize.toNat ++ leBytes 4 off ++
      leBytes 2 t.comment.length ++ t.comment ++ rest) (by simp [wireEocd]) (by simp) (by simp)
  have e2 : ((wireEocd t off ++ rest).drop 6).take 2 = leBytes 2 t.diskCd.toNat :=
    take_mid (pre := [0x50, 0x4b, 0x05, 0x06] ++ leBytes 2 t.disk.toNat) (post :=
      leBytes 2 t.entries.toNat ++ leBytes 2 t.total.toNat ++ leBytes 4 t.cdSize.toNat ++ leBytes 4 off ++
      leBytes 2 t.comment.length ++ t.comment ++ rest) (by simp [wireEocd]) (by simp) (by simp)
  have e3 : ((wireEocd t off ++ rest).drop 8).take 2 = leBytes 2 t.entries.toNat :=
    take_mid (pre := [0x50, 0x4b, 0x05, 0x06] ++ leBytes 2 t.disk.toNat ++ leBytes 2 t.diskCd.toNat) (post :=
      leBytes 2 t.total.toNat ++ leBytes 4 t.cdSize.toNat ++ leBytes 4 off ++
      leBytes 2 t.comment.length ++ t.comment ++ rest) (by simp [wireEocd]) (by simp) (by simp)
  have e4 : ((wireEocd t off ++ rest).drop 10).take 2 = leBytes 2 t.total.toNat :=
    take_mid (pre := [0x50, 0x4b, 0x05, 0x06] ++ leBytes 2 t.disk.toNat ++ leBytes 2 t.diskCd.toNat ++
      leBytes 2 t.entries.toNat) (post := leBytes 4 t.cdSize.toNat ++ leBytes 4 off ++
      leBytes 2 t.comment.length ++ t.comment ++ rest) (by simp [wireEocd]) (by simp) (by simp)
  have e5 : ((wireEocd t off ++ rest).drop 12).take 4 = leBytes 4 t.cdSize.toNat :=
    take_mid (pre := [0x50, 0x4b, 0x05, 0x06] ++ leBytes 2 t.disk.toNat ++ leBytes 2 t.diskCd.toNat ++
      leBytes 2 t.entries.toNat ++ leBytes 2 t.total.toNat) (post := leBytes 4 off ++
      leBytes 2 t.comment.length ++ t.comment ++ rest) (by simp [wireEocd]) (by simp) (by simp)
  have e6 : ((wireEocd t off ++ rest).drop 16).take 4 = leBytes 4 off :=
    take_mid (pre := [0x50, 0x4b, 0x05, 0x06] ++ leBytes 2 t.disk.toNat ++ leBytes 2 t.diskCd.toNat ++
      leBytes 2 t.entries.toNat ++ leBytes 2 t.total.toNat ++ leBytes 4 t.cdSize.toNat) (post :=
      leBytes 2 t.comment.length ++ t.comment ++ rest) (by simp [wireEocd]) (by simp) (by simp)
  have e7 := wire_commentLen t off rest
  have e8 : leNat (leBytes 2 t.comment.length) = t.comment.length :=
    leNat_leBytes_of_lt (by omega)
  have e9 : ((wireEocd t off ++ rest).drop 22).take t.comment.length = t.comment :=
    take_mid (pre := [0x50, 0x4b, 0x05, 0x06] ++ leBytes 2 t.disk.toNat ++ leBytes 2 t.diskCd.toNat ++
      leBytes 2 t.entries.toNat ++ leBytes 2 t.total.toNat ++ leBytes 4 t.cdSize.toNat ++ leBytes 4 off ++
      leBytes 2 t.comment.length) (post := rest) (by simp [wireEocd]) (by simp) rfl
  have e10 : UInt32.ofNat (leNat (leBytes 4 off)) = UInt32.ofNat off := by
    rw [leNat_leBytes]
    apply UInt32.toNat_inj.mp
    simp only [UInt32.toNat_ofNat']
    omega
  simp only [eocdOf, e0, e1, e2, e3, e4, e5, e6, e7, e8, e9, e10, u16_le, u32_le, Spec.Tail.eocd]

theorem recordAt_wire (t : Tail) (off : Nat) (rest : Bytes) (hc : t.comment.length ≤ 65535) :
    RecordAt (wireEocd t off ++ rest) 0 := by
  have hl := wireEocd_length t off
  have e8 : leNat (leBytes 2 t.comment.length) = t.comment.length :=
    leNat_leBytes_of_lt (by omega)
  refine ⟨?_, by simp only [List.length_append]; omega, ?_⟩
  · exact slice?_append [] [0x50, 0x4b, 0x05, 0x06] (leBytes 2 t.disk.toNat ++ leBytes 2 t.diskCd.toNat ++
      leBytes 2 t.entries.toNat ++ leBytes 2 t.total.toNat ++ leBytes 4 t.cdSize.toNat ++ leBytes 4 off ++
      leBytes 2 t.comment.length ++ t.comment ++ rest) |>.symm ▸ (by simp)
  · rw [show 0 + 20 = 20 from rfl, wire_commentLen, e8]
    simp only [List.length_append]
    omega

/-- The end record of `pre ++ record ++ rest`, if no complete record starts later and it is in reach. -/
theorem findEocd_wire (pre rest : Bytes) (t : Tail) (off : Nat) (hc : t.comment.length ≤ 65535)
    (hreach : 22 + t.comment.length + rest.length ≤ 65557)
    (hclean : ∀ k, 1 ≤ k → ¬ RecordAt (wireEocd t off ++ rest) k) :
    findEocd (pre ++ (wireEocd t off ++ rest)) (pre ++ (wireEocd t off ++ rest)).length =
      .ok (t.eocd off pre.length) := by
  have hl := wireEocd_length t off
  have hlen : (pre ++ (wireEocd t off ++ rest)).length = pre.length + (22 + t.comment.length) + rest.length := by
    simp only [List.length_append]; omega
  have hdrop : (pre ++ (wireEocd t off ++ rest)).drop pre.length = wireEocd t off ++ rest := List.drop_left
  have hrec : RecordAt (pre ++ (wireEocd t off ++ rest)) pre.length := by
    have := (RecordAt.shift (d := pre ++ (wireEocd t off ++ rest)) (a := pre.length) (i := 0) (by omega)).mp
      (by rw [hdrop]; exact recordAt_wire t off rest hc)
    simpa using this
  have hno : ∀ k, pre.length < k → ¬ RecordAt (pre ++ (wireEocd t off ++ rest)) k := by
    intro k hk hr
    have := (RecordAt.shift (d := pre ++ (wireEocd t off ++ rest)) (a := pre.length) (i := k - pre.length)
      (by omega)).mpr (by rwa [show pre.length + (k - pre.length) = k by omega])
    rw [hdrop] at this
    exact hclean _ (by omega) this
  rcases findEocd_spec (file := pre ++ (wireEocd t off ++ rest)) (fl := (pre ++ (wireEocd t off ++ rest)).length)
    (Nat.le_refl _) (by omega) with ⟨_, h⟩ | ⟨k, h1, h2, h3, h4⟩
  · rw [List.take_length] at h
    exact absurd hrec (h pre.length (by omega))
  · rw [List.take_length] at h2 h3 h4
    have hk : k = pre.length := by
      rcases Nat.lt_trichotomy k pre.length with hlt | heq | hgt
      · exact absurd hrec (h3 _ hlt)
      · exact heq
      · exact absurd h2 (hno _ hgt)
    subst hk
    rw [h4, hdrop, eocdOf_wire t off _ rest hc]

theorem wf_toU8 {b : SigningBlock} (h : b.WF) : b.toU8 = wireFrame b.contentToU8 := by
  have hcl := content_length h.content
  have h1 := h.sizeStart
  have h2 := h.sizeEnd
  have : b.contentToU8.length + 24 = b.sizeStart := by
    unfold SigningBlock.contentToU8; omega
  rw [wireFrame, this, SigningBlock.toU8, h2, h.magic]
  rfl

/-- Reading a frame that is in the window and carries the last magic before the search end. -/
theorem fromReader_frame_mid (p : Profile) (pre pairs mid rest : Bytes) {fl eo : Nat}
    (hlim : pairs.length + 24 ≤ maxBlockSize) (hse : fl - eo = pre.length + (pairs.length + 32) + mid.length)
    (hwin : pairs.length + 32 + mid.length ≤ maxWindow)
    (hlast : ∀ u, pre.length + pairs.length + 16 < u → u + 16 ≤ pre.length + (pairs.length + 32) + mid.length →
      ¬ MagicAt (pre ++ wireFrame pairs ++ mid ++ rest) u) :
    SigningBlock.fromReader p (pre ++ wireFrame pairs ++ mid ++ rest) fl eo =
      (parseFullBlock p (wireFrame pairs) >>= fun sig =>
        .ok { sig with fileStart := pre.length, fileEnd := pre.length + (pairs.length + 32) }) := by
  have hmb : maxBlockSize = 16384 := rfl
  have hwl := wireFrame_length' pairs
  generalize hfile : pre ++ wireFrame pairs ++ mid ++ rest = file at *
  have hflen : pre.length + (pairs.length + 32) + mid.length ≤ file.length := by
    rw [← hfile]; simp only [List.length_append]; omega
  unfold SigningBlock.fromReader
  simp only [hse]
  generalize hse' : pre.length + (pairs.length + 32) + mid.length = se at *
  generalize hws : min se maxWindow = ws
  have hmw : maxWindow = 16777216 := rfl
  rw [if_neg (by omega)]
  have hsl : slice? file (se - ws) (se - ws + ws) = some ((file.drop (se - ws)).take ws) := by
    rw [slice?_of_le (by omega) (by omega)]; simp
  have hread : readExactAt file (se - ws) ws = .ok ((file.drop (se - ws)).take ws) := by
    unfold readExactAt; rw [hsl]; rfl
  generalize (file.drop (se - ws)).take ws = w at hread hsl
  generalize hst : se - ws = st at *
  rw [hread]
  simp only [Res.ok_bind]
  have f1 : slice? file (pre.length + pairs.length + 16) (pre.length + pairs.length + 32) = some Ksusig.magic := by
    have := slice?_append (pre ++ (leBytes 8 (pairs.length + 24) ++ pairs ++ leBytes 8 (pairs.length + 24)))
      Ksusig.magic (mid ++ rest)
    rw [show pre ++ (leBytes 8 (pairs.length + 24) ++ pairs ++ leBytes 8 (pairs.length + 24)) ++ Ksusig.magic ++
      (mid ++ rest) = file by rw [← hfile]; simp [wireFrame, Ksusig.magic]] at this
    rw [← this]
    congr 1 <;> simp [Ksusig.magic] <;> omega
  have f2 : slice? file (pre.length + pairs.length + 8) (pre.length + pairs.length + 16) =
      some (leBytes 8 (pairs.length + 24)) := by
    have := slice?_append (pre ++ (leBytes 8 (pairs.length + 24) ++ pairs)) (leBytes 8 (pairs.length + 24))
      (Ksusig.magic ++ (mid ++ rest))
    rw [show pre ++ (leBytes 8 (pairs.length + 24) ++ pairs) ++ leBytes 8 (pairs.length + 24) ++
      (Ksusig.magic ++ (mid ++ rest)) = file by rw [← hfile]; simp [wireFrame, Ksusig.magic]] at this
    rw [← this]
    congr 1 <;> simp <;> omega
  have f3 : slice? file pre.length (pre.length + (pairs.length + 32)) = some (wireFrame pairs) := by
    rw [← hwl, ← hfile, List.append_assoc]; exact slice?_append pre _ (mid ++ rest)
  have w1 : MagicAt w (pre.length + pairs.length + 16 - st) := by
    unfold MagicAt
    rw [window_slice hsl (by omega) (by omega), ← f1]; congr 1 <;> omega
  have w2 : slice? w (pre.length + pairs.length + 16 - st - 8) (pre.length + pairs.length + 16 - st) =
      some (leBytes 8 (pairs.length + 24)) := by
    rw [window_slice hsl (by omega) (by omega), ← f2]; congr 1 <;> omega
  have w3 : slice? w (pre.length - st) (pre.length + (pairs.length + 32) - st) = some (wireFrame pairs) := by
    rw [window_slice hsl (by omega) (by omega), ← f3]; congr 1 <;> omega
  rcases fromReaderScan_cases p file fl st w (ws - 16 + 1) with ⟨_, h⟩ | ⟨t, s, h1, h2, h3, h4, h5, h6⟩
  · exact absurd w1 (h _ (by omega) (by omega))
  · have ht : t = pre.length + pairs.length + 16 - st := by
      rcases Nat.lt_trichotomy t (pre.length + pairs.length + 16 - st) with hlt | heq | hgt
      · exact absurd w1 (h5 _ hlt (by omega))
      · exact heq
      · exfalso
        refine hlast (st + t) (by omega) (by omega) ?_
        unfold MagicAt at h3 ⊢
        rw [window_slice hsl (by omega) (by omega)] at h3
        exact h3
    subst ht
    rw [w2] at h4
    cases h4
    rw [h6]
    unfold fromReaderAt
    have hsz : leNat (leBytes 8 (pairs.length + 24)) = pairs.length + 24 :=
      leNat_leBytes_of_lt (by have : (256 : Nat) ^ 8 = 2 ^ 64 := by decide
                              omega)
    simp only [hsz]
    rw [if_neg (by omega), if_neg (by omega), if_neg (by omega)]
    rw [show pre.length + pairs.length + 16 - st + 16 - (pairs.length + 24 + 8) = pre.length - st by omega,
      show pre.length + pairs.length + 16 - st + 16 = pre.length + (pairs.length + 32) - st by omega, w3]
    simp only [Res.ofOption_some, Res.ok_bind]
    rw [show st + (pre.length - st) = pre.length by omega,
      show st + (pre.length + (pairs.length + 32) - st) = pre.length + (pairs.length + 32) by omega]

/-- Reading a frame that ends exactly where the search ends. -/
theorem fromReader_frame (p : Profile) (pre pairs rest : Bytes) {fl eo : Nat}
    (hlim : pairs.length + 24 ≤ maxBlockSize) (hse : fl - eo = pre.length + (pairs.length + 32)) :
    SigningBlock.fromReader p (pre ++ wireFrame pairs ++ rest) fl eo =
      (parseFullBlock p (wireFrame pairs) >>= fun sig =>
        .ok { sig with fileStart := pre.length, fileEnd := pre.length + (pairs.length + 32) }) := by
  have h := fromReader_frame_mid p pre pairs [] rest (fl := fl) (eo := eo) hlim (by simpa using hse)
    (by simp only [List.length_nil, Nat.add_zero, maxBlockSize, maxWindow] at *; omega)
    (by intro u h1 h2; simp only [List.length_nil, Nat.add_zero] at h2; omega)
  simpa only [List.append_nil] using h

theorem fromReader_block (p : Profile) (pre rest : Bytes) {b : SigningBlock} (hb : b.WF) {fl eo : Nat}
    (hse : fl - eo = pre.length + b.toU8.length) :
    SigningBlock.fromReader p (pre ++ b.toU8 ++ rest) fl eo =
      .ok { b with fileStart := pre.length, fileEnd := pre.length + b.toU8.length } := by
  have hcl := content_length hb.content
  have hlim := hb.limit
  have h1 := hb.sizeStart
  have hx := wf_toU8 hb
  have hl : b.toU8.length = b.contentToU8.length + 32 := by rw [hx, wireFrame_length']
  have h3 : b.contentToU8.length + 24 ≤ maxBlockSize := by unfold SigningBlock.contentToU8; omega
  rw [hl] at hse ⊢
  rw [hx, fromReader_frame p pre _ rest h3 hse, ← hx, parseFullBlock_toU8 p hb]
  simp only [Res.ok_bind, hb.sizeEnd]

theorem fromReader_block_mid (p : Profile) (pre mid rest : Bytes) {b : SigningBlock} (hb : b.WF) {fl eo : Nat}
    (hse : fl - eo = pre.length + b.toU8.length + mid.length) (hwin : b.toU8.length + mid.length ≤ maxWindow)
    (hlast : ∀ u, pre.length + b.toU8.length - 16 < u → u + 16 ≤ pre.length + b.toU8.length + mid.length →
      ¬ MagicAt (pre ++ b.toU8 ++ mid ++ rest) u) :
    SigningBlock.fromReader p (pre ++ b.toU8 ++ mid ++ rest) fl eo =
      .ok { b with fileStart := pre.length, fileEnd := pre.length + b.toU8.length } := by
  have hcl := content_length hb.content
  have hlim := hb.limit
  have h1 := hb.sizeStart
  have hx := wf_toU8 hb
  have hl : b.toU8.length = b.contentToU8.length + 32 := by rw [hx, wireFrame_length']
  have h3 : b.contentToU8.length + 24 ≤ maxBlockSize := by unfold SigningBlock.contentToU8; omega
  rw [hl] at hse hwin ⊢
  rw [hx, fromReader_frame_mid p pre _ mid rest h3 hse hwin
    (fun u h1 h2 => by rw [← hx]; exact hlast u (by omega) (by omega)), ← hx, parseFullBlock_toU8 p hb]
  simp only [Res.ok_bind, hb.sizeEnd]

theorem magicAt_iff {d : Bytes} {u : Nat} : MagicAt d u ↔ MagicAtPos d u := Iff.rfl

/-- No magic in the searched region: reported as missing. -/
theorem fromReader_none (p : Profile) (file : Bytes) {fl eo : Nat} (h24 : 24 ≤ fl - eo) (hle : fl - eo ≤ file.length)
    (hno : ∀ u, u + 16 ≤ fl - eo → ¬ MagicAt file u) :
    SigningBlock.fromReader p file fl eo = .err .magicNotFound := by
  unfold SigningBlock.fromReader
  simp only
  generalize fl - eo = se at *
  generalize hws : min se maxWindow = ws
  have hmw : maxWindow = 16777216 := rfl
  rw [if_neg (by omega)]
  have hsl : slice? file (se - ws) (se - ws + ws) = some ((file.drop (se - ws)).take ws) := by
    rw [slice?_of_le (by omega) (by omega)]; simp
  have hread : readExactAt file (se - ws) ws = .ok ((file.drop (se - ws)).take ws) := by
    unfold readExactAt; rw [hsl]; rfl
  rw [hread]
  simp only [Res.ok_bind]
  generalize (file.drop (se - ws)).take ws = w at *
  rcases fromReaderScan_cases p file fl (se - ws) w (ws - 16 + 1) with ⟨h1, _⟩ | ⟨t, s, h1, h2, h3, _⟩
  · exact h1
  · exfalso
    unfold MagicAt at h3
    rw [window_slice hsl (by omega) (by omega)] at h3
    exact hno (se - ws + t) (by omega) (by unfold MagicAt; rw [← h3]; congr 1)

end Ksusig
