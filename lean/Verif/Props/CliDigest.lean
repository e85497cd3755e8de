import Verif.Props.Keystore
import Verif.Props.Robust
import Verif.Model.CliDigest

/-! # The digest command: C49, C50, C70–C72 -/

namespace Ksusig.Props

open Ksusig Spec

/-! ### C50, base64 -/

/-- The lowest `k` bits of a number, highest first. -/
def bitsOf : Nat → Nat → List Nat
  | 0, _ => []
  | k + 1, n => n / 2 ^ k % 2 :: bitsOf k n

/-- The value of a base64 digit. -/
def base64Value (c : Char) : Option Nat :=
  "ABCDEFGHIJKLMNOPQRSTUVWXYZabcdefghijklmnopqrstuvwxyz0123456789+/".toList.findIdx? (· == c)

theorem base64Value_digit : ∀ n, n < 64 → base64Value (base64Digit n) = some n := by decide +kernel

/-- `text` is base64 for `d`: digits with values `vs`, then padding to a multiple of four characters; the bits of the values are
the bits of the bytes, filled up with zeros to full digits. -/
structure Base64Text (d : Bytes) (text : List Char) : Prop where
  spelled : ∃ (digits : List Char) (vs : List Nat) (fill pad : Nat), text = digits ++ List.replicate pad '=' ∧ digits.map base64Value = vs.map some ∧
    (∀ v ∈ vs, v < 64) ∧
    vs.flatMap (bitsOf 6) = d.flatMap (fun b => bitsOf 8 b.toNat) ++ List.replicate fill 0 ∧ fill < 6 ∧ pad < 3 ∧
    text.length % 4 = 0

theorem bits3 (a b c : Nat) (hb : b < 256) (hc : c < 256) :
    bitsOf 6 (a / 4) ++ (bitsOf 6 (a % 4 * 16 + b / 16) ++ (bitsOf 6 (b % 16 * 4 + c / 64) ++ bitsOf 6 (c % 64))) =
      bitsOf 8 a ++ (bitsOf 8 b ++ bitsOf 8 c) := by
  simp only [bitsOf, List.cons_append, List.nil_append, List.cons.injEq, and_true]
  refine ⟨?_, ?_, ?_, ?_, ?_, ?_, ?_, ?_, ?_, ?_, ?_, ?_, ?_, ?_, ?_, ?_, ?_, ?_, ?_, ?_, ?_, ?_, ?_, ?_⟩ <;> omega

theorem bits2 (a b : Nat) (hb : b < 256) :
    bitsOf 6 (a / 4) ++ (bitsOf 6 (a % 4 * 16 + b / 16) ++ bitsOf 6 (b % 16 * 4)) =
      bitsOf 8 a ++ (bitsOf 8 b ++ [0, 0]) := by
  simp only [bitsOf, List.cons_append, List.nil_append, List.cons.injEq, and_true]
  refine ⟨?_, ?_, ?_, ?_, ?_, ?_, ?_, ?_, ?_, ?_, ?_, ?_, ?_, ?_, ?_, ?_, ?_, ?_⟩ <;> omega

theorem bits1 (a : Nat) : bitsOf 6 (a / 4) ++ bitsOf 6 (a % 4 * 16) = bitsOf 8 a ++ [0, 0, 0, 0] := by
  simp only [bitsOf, List.cons_append, List.nil_append, List.cons.injEq, and_true]
  refine ⟨?_, ?_, ?_, ?_, ?_, ?_, ?_, ?_, ?_, ?_, ?_, ?_⟩ <;> omega

/-- C50: the base64 form of the output spells exactly the bits of the digest. -/
theorem C50_base64 : ∀ d : Bytes, Base64Text d (base64Encode d)
  | [] => ⟨[], [], 0, 0, rfl, rfl, by simp, rfl, by omega, by omega, rfl⟩
  | [a] => by
    have ha := a.toNat_lt
    refine ⟨[base64Digit (a.toNat / 4), base64Digit (a.toNat % 4 * 16)], [a.toNat / 4, a.toNat % 4 * 16], 4, 2, rfl, ?_, ?_, ?_,
      by omega, by omega, by simp [base64Encode]⟩
    · simp [base64Value_digit _ (show a.toNat / 4 < 64 by omega), base64Value_digit _ (show a.toNat % 4 * 16 < 64 by omega)]
    · simp; omega
    · simp only [List.flatMap_cons, List.flatMap_nil, List.append_nil]
      exact bits1 _
  | [a, b] => by
    have ha := a.toNat_lt
    have hb := b.toNat_lt
    refine ⟨[base64Digit (a.toNat / 4), base64Digit (a.toNat % 4 * 16 + b.toNat / 16), base64Digit (b.toNat % 16 * 4)],
      [a.toNat / 4, a.toNat % 4 * 16 + b.toNat / 16, b.toNat % 16 * 4], 2, 1, rfl, ?_, ?_, ?_, by omega, by omega,
      by simp [base64Encode]⟩
    · simp [base64Value_digit _ (show a.toNat / 4 < 64 by omega),
        base64Value_digit _ (show a.toNat % 4 * 16 + b.toNat / 16 < 64 by omega),
        base64Value_digit _ (show b.toNat % 16 * 4 < 64 by omega)]
    · simp; omega
    · simp only [List.flatMap_cons, List.flatMap_nil, List.append_nil, List.append_assoc]
      exact bits2 _ _ hb
  | a :: b :: c :: rest => by
    obtain ⟨digits, vs, fill, pad, h1, h2, h3, h4, h5, h6, h7⟩ := (C50_base64 rest).spelled
    have ha := a.toNat_lt
    have hb := b.toNat_lt
    have hc := c.toNat_lt
    refine ⟨[base64Digit (a.toNat / 4), base64Digit (a.toNat % 4 * 16 + b.toNat / 16),
      base64Digit (b.toNat % 16 * 4 + c.toNat / 64), base64Digit (c.toNat % 64)] ++ digits,
      [a.toNat / 4, a.toNat % 4 * 16 + b.toNat / 16, b.toNat % 16 * 4 + c.toNat / 64, c.toNat % 64] ++ vs, fill, pad,
      ?_, ?_, ?_, ?_, h5, h6, ?_⟩
    · unfold base64Encode; rw [h1, List.append_assoc]
    · rw [List.map_append, List.map_append, h2]
      congr 1
      simp [base64Value_digit _ (show a.toNat / 4 < 64 by omega),
        base64Value_digit _ (show a.toNat % 4 * 16 + b.toNat / 16 < 64 by omega),
        base64Value_digit _ (show b.toNat % 16 * 4 + c.toNat / 64 < 64 by omega),
        base64Value_digit _ (show c.toNat % 64 < 64 by omega)]
    · intro v hv
      rcases List.mem_append.mp hv with hv | hv
      · simp at hv; omega
      · exact h3 v hv
    · rw [List.flatMap_append, h4]
      simp only [List.flatMap_cons, List.flatMap_nil, List.append_nil]
      rw [bits3 _ _ _ hb hc]
      simp only [List.append_assoc]
    · unfold base64Encode
      rw [List.length_append]
      simp only [List.length_cons, List.length_nil]
      omega

theorem bitsOf_eight {a b : UInt8} {x y : List Nat} (h : bitsOf 8 a.toNat ++ x = bitsOf 8 b.toNat ++ y) : a = b ∧ x = y := by
  have ha := a.toNat_lt
  have hb := b.toNat_lt
  simp only [bitsOf, List.cons_append, List.nil_append, List.cons.injEq] at h
  obtain ⟨h7, h6, h5, h4, h3, h2, h1, h0, h⟩ := h
  exact ⟨UInt8.toNat_inj.mp (by omega), h⟩

/-- C50: different byte strings print differently in base64, too: the text determines the bits, and with them the bytes. -/
theorem C50_base64_injective : ∀ {d d' : Bytes}, base64Encode d = base64Encode d' → d = d'
  | d, d', h => by
    obtain ⟨digits, vs, fill, pad, h1, h2, h3, h4, h5, h6, h7⟩ := (C50_base64 d).spelled
    obtain ⟨digits', vs', fill', pad', h1', h2', h3', h4', h5', h6', h7'⟩ := (C50_base64 d').spelled
    have heq : base64Value '=' = none := by decide
    have hall : ∀ {ds : List Char} {ws : List Nat}, ds.map base64Value = ws.map some → ∀ c ∈ ds, base64Value c ≠ none := by
      intro ds ws h c hc h0
      have : base64Value c ∈ ws.map some := by rw [← h]; exact List.mem_map.mpr ⟨c, hc, rfl⟩
      rw [h0] at this
      simp at this
    have hfil : ∀ {ds : List Char} {ws : List Nat} (k : Nat), ds.map base64Value = ws.map some →
        (ds ++ List.replicate k '=').filterMap base64Value = ws := by
      intro ds ws k h
      rw [List.filterMap_append]
      have e1 : (List.replicate k '=').filterMap base64Value = [] := by
        rw [List.filterMap_eq_nil_iff]
        intro c hc
        rw [List.eq_of_mem_replicate hc]; exact heq
      have e2 : ds.filterMap base64Value = ws := by
        rw [show ds.filterMap base64Value = (ds.map base64Value).filterMap id by rw [List.filterMap_map]; rfl, h,
          List.filterMap_map]
        exact (List.filterMap_some)
      rw [e1, e2, List.append_nil]
    have hv : vs = vs' := by
      rw [← hfil pad h2, ← hfil pad' h2', ← h1, ← h1', h]
    subst hv
    rw [h4] at h4'
    clear h h1 h1' h2 h2' h3 h3' h4 h7 h7' hall hfil heq
    induction d generalizing d' with
    | nil =>
      cases d' with
      | nil => rfl
      | cons b bs =>
        have := congrArg List.length h4'
        simp only [List.flatMap_nil, List.nil_append, List.length_replicate, List.flatMap_cons, List.length_append, bitsOf,
          List.length_cons, List.length_nil] at this
        omega
    | cons a as ih =>
      cases d' with
      | nil =>
        have := congrArg List.length h4'
        simp only [List.flatMap_nil, List.nil_append, List.length_replicate, List.flatMap_cons, List.length_append, bitsOf,
          List.length_cons, List.length_nil] at this
        omega
      | cons b bs =>
        rw [List.flatMap_cons, List.flatMap_cons, List.append_assoc, List.append_assoc] at h4'
        obtain ⟨rfl, h⟩ := bitsOf_eight h4'
        rw [ih bs h]

example : base64Encode [0x4b, 0x53, 0x55, 0xff] = "S1NV/w==".toList := by decide +kernel

/-! ### Opening, and the total of the sizes -/

theorem total_fold (p : Profile) (rs : List DigestRegion) : ∀ t, t + (rs.map DigestRegion.size).sum < 2 ^ 64 →
    rs.foldlM (fun t r => uadd p t r.size) t = .ok (t + (rs.map DigestRegion.size).sum) := by
  induction rs with
  | nil => intro t _; rfl
  | cons r rs ih =>
    intro t h
    rw [List.map_cons, List.sum_cons] at h ⊢
    rw [List.foldlM_cons]
    unfold uadd
    rw [if_pos (by omega), Res.ok_bind]
    exact (ih _ (by omega)).trans (by rw [Nat.add_assoc])

theorem total_release (rs : List DigestRegion) : ∀ t, ∃ n, rs.foldlM (fun t r => uadd .release t r.size) t = .ok n := by
  induction rs with
  | nil => intro t; exact ⟨t, rfl⟩
  | cons r rs ih =>
    intro t
    rw [List.foldlM_cons]
    have : ∃ n, uadd .release t r.size = .ok n := by
      unfold uadd; split <;> exact ⟨_, rfl⟩
    obtain ⟨n, hn⟩ := this
    rw [hn, Res.ok_bind]
    exact ih n

theorem total_dev (rs : List DigestRegion) : ∀ t, t < 2 ^ 64 → 2 ^ 64 ≤ t + (rs.map DigestRegion.size).sum →
    rs.foldlM (fun t r => uadd .dev t r.size) t = .panic := by
  induction rs with
  | nil => intro t h1 h2; simp at h2; omega
  | cons r rs ih =>
    intro t h1 h2
    rw [List.map_cons, List.sum_cons] at h2
    rw [List.foldlM_cons]
    by_cases h : t + r.size < 2 ^ 64
    · have : uadd .dev t r.size = .ok (t + r.size) := if_pos h
      rw [this, Res.ok_bind]
      exact ih _ h (by omega)
    · have : uadd .dev t r.size = .panic := if_neg h
      rw [this]
      rfl

/-- When the region list is shown. -/
theorem cliRegions_ok {p : Profile} {acc : Bytes → Bool} {s : SignableFile} {rs : List DigestRegion} :
    cliRegions p acc s = .ok rs ↔ s.digestRegions p acc = .ok rs ∧ (p = .dev → (rs.map DigestRegion.size).sum < 2 ^ 64) := by
  unfold cliRegions
  cases h : s.digestRegions p acc with
  | err e => simp
  | panic => simp
  | ok rs' =>
    rw [Res.ok_bind]
    by_cases ht : (rs'.map DigestRegion.size).sum < 2 ^ 64
    · rw [total_fold p rs' 0 (by omega), Res.ok_bind]
      constructor
      · intro h; cases h; exact ⟨rfl, fun _ => ht⟩
      · rintro ⟨h, _⟩; cases h; rfl
    · cases p with
      | dev =>
        rw [total_dev rs' 0 (by omega) (by omega)]
        constructor
        · intro h; cases h
        · rintro ⟨h, h2⟩; cases h; exact absurd (h2 rfl) ht
      | release =>
        obtain ⟨n, hn⟩ := total_release rs' 0
        rw [hn, Res.ok_bind]
        constructor
        · intro h; cases h; exact ⟨rfl, fun h => (by cases h)⟩
        · rintro ⟨h, _⟩; cases h; rfl

/-- When showing the region list ends in a panic. -/
theorem cliRegions_panic {p : Profile} {acc : Bytes → Bool} {s : SignableFile} :
    cliRegions p acc s = .panic ↔ s.digestRegions p acc = .panic ∨
      ∃ rs, s.digestRegions p acc = .ok rs ∧ p = .dev ∧ 2 ^ 64 ≤ (rs.map DigestRegion.size).sum := by
  unfold cliRegions
  cases h : s.digestRegions p acc with
  | err e => simp
  | panic => simp
  | ok rs' =>
    rw [Res.ok_bind]
    by_cases ht : (rs'.map DigestRegion.size).sum < 2 ^ 64
    · rw [total_fold p rs' 0 (by omega), Res.ok_bind]
      constructor
      · intro h; cases h
      · rintro (h | ⟨rs, h, _, h2⟩)
        · cases h
        · cases h; omega
    · cases p with
      | dev =>
        rw [total_dev rs' 0 (by omega) (by omega)]
        exact ⟨fun _ => .inr ⟨rs', rfl, rfl, by omega⟩, fun _ => rfl⟩
      | release =>
        obtain ⟨n, hn⟩ := total_release rs' 0
        rw [hn, Res.ok_bind]
        constructor
        · intro h; cases h
        · rintro (h | ⟨rs, _, h, _⟩) <;> cases h

theorem cliOpen_elf {acc : Bytes → Bool} {sections : List (List Char)} {file : Bytes} {f0 : ElfFile}
    (ho : SignableFile.open acc file = .ok (.elf f0)) {s : SignableFile} :
    cliOpen acc sections file = .ok s ↔ ∃ f, cliElfSelect f0 sections = .ok f ∧ s = .elf f := by
  unfold cliOpen cliElfSelect
  rw [ho, Res.ok_bind]
  by_cases hs : sections.isEmpty = true
  · rw [if_pos hs, if_pos hs]
    constructor
    · intro h; cases h; exact ⟨f0, rfl, rfl⟩
    · rintro ⟨f, h, rfl⟩; cases h; rfl
  · rw [if_neg hs, if_neg hs]
    unfold SignableFile.setElfSections
    dsimp only
    cases f0.setSignedSections sections with
    | mk f r => cases r <;> simp [eq_comm]

theorem cliOpen_module {acc : Bytes → Bool} {sections : List (List Char)} {file : Bytes} {m : Module} {g : Bytes}
    (ho : SignableFile.open acc file = .ok (.module m g)) {s : SignableFile} :
    cliOpen acc sections file = .ok s ↔ sections = [] ∧ s = .module (Module.new file) file := by
  have hm : m = Module.new file ∧ g = file := by
    unfold SignableFile.open at ho
    obtain ⟨fmt, _, ho⟩ := Res.bind_eq_ok.mp ho
    cases fmt with
    | module => cases ho; exact ⟨rfl, rfl⟩
    | elf => obtain ⟨_, _, ho⟩ := Res.bind_eq_ok.mp ho; cases ho
  obtain ⟨rfl, rfl⟩ := hm
  unfold cliOpen
  rw [ho, Res.ok_bind]
  cases sections with
  | nil => simp [eq_comm]
  | cons x xs => simp [SignableFile.setElfSections]

/-- What the commands can have opened. -/
theorem cliOpen_cases {acc : Bytes → Bool} {sections : List (List Char)} {file : Bytes} {s : SignableFile}
    (h : cliOpen acc sections file = .ok s) :
    (s = .module (Module.new file) file ∧ sections = [] ∧ detectFileFormat file = .ok .module) ∨
    ∃ f, s = .elf f ∧ OpenElf acc f ∧ f.data = file ∧ detectFileFormat file = .ok .elf := by
  cases ho : SignableFile.open acc file with
  | err e => unfold cliOpen at h; rw [ho] at h; cases h
  | panic => unfold cliOpen at h; rw [ho] at h; cases h
  | ok s0 =>
    have hfmt := ho
    unfold SignableFile.open at hfmt
    obtain ⟨fmt, hfmt, h2⟩ := Res.bind_eq_ok.mp hfmt
    cases s0 with
    | module m g =>
      obtain ⟨h3, h4⟩ := (cliOpen_module ho).mp h
      cases fmt with
      | module => exact .inl ⟨h4, h3, hfmt⟩
      | elf => obtain ⟨_, _, h2⟩ := Res.bind_eq_ok.mp h2; cases h2
    | elf f0 =>
      obtain ⟨f, hf, rfl⟩ := (cliOpen_elf ho).mp h
      obtain ⟨rfl, hnew, _⟩ := open_elf_inv ho
      obtain ⟨k1, k2, _⟩ := cliElfSelect_ok (.opened hnew) hf
      cases fmt with
      | module => cases h2
      | elf => exact .inr ⟨f, rfl, k1, k2, hfmt⟩

/-! ### C49 -/

theorem cliDump_ok {p : Profile} {acc : Bytes → Bool} {sections : List (List Char)} {ip : Bool} {file : Bytes}
    {o : Option Bytes} {r : Res Unit} (h : cliDump p acc sections ip file = (o, r)) :
    (o = none ∧ r ≠ .ok ()) ∨ ∃ s rs, cliOpen acc sections file = .ok s ∧ cliRegions p acc s = .ok rs ∧
      o = some (dumpRegions (if ip then [] else file) rs).1 ∧
      r = if (dumpRegions (if ip then [] else file) rs).2 then .ok () else .err .unexpectedEof := by
  unfold cliDump at h
  dsimp only at h
  split at h
  · cases h; exact .inl ⟨rfl, fun h => (by cases h)⟩
  · cases h; exact .inl ⟨rfl, fun h => (by cases h)⟩
  · rename_i rs hrs
    obtain ⟨s, h1, h2⟩ := Res.bind_eq_ok.mp hrs
    injection h with h3 h4
    exact .inr ⟨s, rs, h1, h2, h3.symm, h4.symm⟩

/-- C49 for the whole command: the dump succeeds exactly if the file can be opened, the regions can be determined (and, in
development builds, their total length fits 64 bits), and every region lies in the file; the output is then the bytes of the
regions one after the other. -/
theorem C49_dump_command {p : Profile} {acc : Bytes → Bool} {sections : List (List Char)} {file out : Bytes} :
    cliDump p acc sections false file = (some out, .ok ()) ↔ ∃ s rs, cliOpen acc sections file = .ok s ∧
      s.digestRegions p acc = .ok rs ∧ (p = .dev → (rs.map DigestRegion.size).sum < 2 ^ 64) ∧
      (∀ r ∈ rs, r.size = 0 ∨ r.offset + r.size ≤ file.length) ∧
      out = rs.flatMap fun r => (file.drop r.offset).take r.size := by
  constructor
  · intro h
    rcases cliDump_ok h with ⟨h1, _⟩ | ⟨s, rs, h1, h2, h3, h4⟩
    · cases h1
    · obtain ⟨h5, h6⟩ := cliRegions_ok.mp h2
      have hd := C49_dump_is_the_regions file rs
      simp only [Bool.false_eq_true, if_false] at h3 h4
      injection h3 with h3
      have hok : (dumpRegions file rs).2 = true := by
        cases hx : (dumpRegions file rs).2
        · rw [hx] at h4; cases h4
        · rfl
      exact ⟨s, rs, h1, h5, h6, hd.1.mp hok, h3.trans (hd.2 hok)⟩
  · rintro ⟨s, rs, h1, h2, h3, h4, rfl⟩
    have hd := C49_dump_is_the_regions file rs
    unfold cliDump
    rw [h1, Res.ok_bind, cliRegions_ok.mpr ⟨h2, h3⟩]
    dsimp only
    rw [if_neg (by simp), hd.2 (hd.1.mpr h4), if_pos (hd.1.mpr h4)]

/-- C49 for the command on a module: whenever it succeeds, the output is the entries, the directory, and the end record
with what follows it, as they are in the file; nothing else is left out than the signing block. -/
theorem C49_dump_module {p : Profile} {acc : Bytes → Bool} {sections : List (List Char)} {file out : Bytes}
    (hlen : file.length < 2 ^ 63) (hf : detectFileFormat file = .ok .module)
    (h : cliDump p acc sections false file = (some out, .ok ())) :
    ∃ body block cd tail, Split p file body block cd tail ∧ out = body ++ cd ++ tail := by
  obtain ⟨s, rs, h1, h2, _, h4, rfl⟩ := C49_dump_command.mp h
  have hmod : s = .module (Module.new file) file := by
    rcases cliOpen_cases h1 with ⟨rfl, _, _⟩ | ⟨_, _, _, _, hf'⟩
    · rfl
    · rw [hf] at hf'; cases hf'
  subst hmod
  have h2 : (Module.new file).digestRegions p file = .ok rs := h2
  have h0 := h2
  unfold Module.digestRegions at h0
  obtain ⟨o, ho, h5⟩ := Res.bind_eq_ok.mp h0
  obtain ⟨n1, _, h6⟩ := Res.bind_eq_ok.mp h5
  obtain ⟨n2, h7, h8⟩ := Res.bind_eq_ok.mp h6
  obtain ⟨n3, _, h9⟩ := Res.bind_eq_ok.mp h8
  have hle : o.startCd ≤ o.stopCd := by
    cases p with
    | dev => exact usub_dev_le h7
    | release =>
      refine Classical.byContradiction fun hlt => ?_
      have hn2 : n2 = 2 ^ 64 + o.stopCd - o.startCd := by
        unfold usub at h7
        rw [if_neg (by omega)] at h7
        cases h7; rfl
      have hst : o.startCd < 2 ^ 63 := by
        rcases getOffsets_cases .release file with ⟨e, sc, n, _, hdir, hoo⟩ | ⟨_, hoo, _⟩ | ⟨hoo, _⟩
        · rw [hoo] at ho
          cases ho
          show n < 2 ^ 63
          cases hdir with
          | signed b hb =>
            rw [getSigningBlock_new] at hb
            obtain ⟨_, _, hb⟩ := Res.bind_eq_ok.mp hb
            obtain ⟨pre, pairs, post, hfe, _, _, _, _, hb⟩ := fromReader_ok hb
            have := congrArg List.length hfe
            have hw := wireFrame_length' pairs
            simp only [List.length_append] at this
            rw [hb]
            dsimp only
            omega
          | unsigned err _ _ =>
            have := e.cdOffset.toNat_lt
            omega
        · rw [hoo] at ho; cases ho
        · rw [hoo] at ho; cases ho
      cases h9
      have := h4 ⟨"central_directory", o.startCd, n2⟩ (by simp)
      dsimp only at this
      omega
  obtain ⟨body, block, cd, tail, hs, hrs, _⟩ := C18_regions_partition ho hle h2
  refine ⟨body, block, cd, tail, hs, ?_⟩
  rw [hrs, hs.file_eq]
  simp only [List.flatMap_cons, List.flatMap_nil, List.append_nil, List.drop_zero, List.append_assoc]
  rw [List.take_left]
  congr 1
  rw [show body ++ (block ++ (cd ++ tail)) = (body ++ block) ++ (cd ++ tail) by simp, ← List.length_append,
    List.drop_left, List.take_left, show (body ++ block) ++ (cd ++ tail) = (body ++ block ++ cd) ++ tail by simp,
    ← List.length_append, List.drop_left, List.take_length]

set_option maxRecDepth 100000 in
example : cliDump .dev anyElf [] false (sampleArchive.signed emptyBlock.toU8) =
    (some (sampleArchive.body ++ sampleArchive.cd ++ wireEocd sampleArchive.tail 62), .ok ()) ∧
    detectFileFormat (sampleArchive.signed emptyBlock.toU8) = .ok .module := by decide +kernel

theorem flatMap_regions (data : Bytes) (l : List Resolved) :
    (l.map fun x => (⟨String.ofList x.1, x.2.1, x.2.2⟩ : DigestRegion)).flatMap (fun r => (data.drop r.offset).take r.size) =
      (sectionContents data l).flatten := by
  induction l with
  | nil => rfl
  | cons x l ih =>
    rw [List.map_cons, List.flatMap_cons, ih]; rfl

/-- C49 for the command on an ELF file: it succeeds exactly if the selection is accepted and every selected section is found,
has bytes and ends within the file (and, in development builds, the total length fits 64 bits); the output is then the contents
of these sections, in the order of their places in the file. -/
theorem C49_dump_elf {p : Profile} {acc : Bytes → Bool} {sections : List (List Char)} {file out : Bytes} {f0 : ElfFile}
    (ho : SignableFile.open acc file = .ok (.elf f0)) :
    cliDump p acc sections false file = (some out, .ok ()) ↔ ∃ f l, cliElfSelect f0 sections = .ok f ∧
      f.resolvedSections acc = .ok l ∧ (p = .dev → (l.map fun x => x.2.2).sum < 2 ^ 64) ∧
      (∀ x ∈ l, x.2.1 + x.2.2 ≤ file.length) ∧ out = (sectionContents file l).flatten := by
  have key : ∀ {f : ElfFile} {l : List Resolved}, f.resolvedSections acc = .ok l →
      (∀ r ∈ (l.map fun x => (⟨String.ofList x.1, x.2.1, x.2.2⟩ : DigestRegion)), r.size = 0 ∨ r.offset + r.size ≤ file.length) →
      ∀ x ∈ l, x.2.1 + x.2.2 ≤ file.length := by
    intro f l hl h x hx
    obtain ⟨e, _, _, _, hall⟩ := C45_resolved hl
    obtain ⟨s, _, ⟨_, hne⟩, _, hsz⟩ := hall x hx
    rcases h _ (List.mem_map.mpr ⟨x, hx, rfl⟩) with h | h
    · exact absurd (hsz ▸ h) hne
    · exact h
  rw [C49_dump_command]
  constructor
  · rintro ⟨s, rs, h1, h2, h3, h4, rfl⟩
    obtain ⟨f, hf, rfl⟩ := (cliOpen_elf ho).mp h1
    have h2 : f.digestRegions acc = .ok rs := h2
    unfold ElfFile.digestRegions at h2
    obtain ⟨l, hl, h2⟩ := Res.bind_eq_ok.mp h2
    cases h2
    refine ⟨f, l, hf, hl, fun hp => ?_, key hl h4, flatMap_regions file l⟩
    have := h3 hp
    rwa [List.map_map] at this
  · rintro ⟨f, l, hf, hl, h3, h4, rfl⟩
    refine ⟨.elf f, _, (cliOpen_elf ho).mpr ⟨f, hf, rfl⟩, ?_, ?_, ?_, (flatMap_regions file l).symm⟩
    · show f.digestRegions acc = _
      unfold ElfFile.digestRegions
      rw [hl, Res.ok_bind]
    · intro hp
      rw [List.map_map]
      exact h3 hp
    · intro r hr
      obtain ⟨x, hx, rfl⟩ := List.mem_map.mp hr
      exact .inr (h4 x hx)

set_option maxRecDepth 100000 in
example : cliDump .dev anyElf [".rodata".toList, " .text".toList] false elf64 =
    (some [1, 2, 3, 4, 5, 6, 7, 8, 0x2a, 0x2b, 0x2c, 0x2d], .ok ()) ∧
    (∃ f0, SignableFile.open anyElf elf64 = .ok (.elf f0)) :=
  ⟨by decide +kernel, _, open_elf samples_ok.1.choose_spec.1 rfl⟩

/-! ### C71 -/

theorem dumpRegions_nil (rs : List DigestRegion) : (dumpRegions [] rs).1 = [] := by
  induction rs with
  | nil => rfl
  | cons r rs ih =>
    have : (dumpLoop r.size (([] : Bytes).drop r.offset) r.size).1 = [] := by
      rw [List.drop_nil]
      cases hn : r.size with
      | zero => rfl
      | succ n =>
        unfold dumpLoop
        rw [if_neg (by omega)]
        dsimp only
        rw [if_pos (by simp; omega)]
    unfold dumpRegions
    dsimp only
    split
    · rw [this, ih]; rfl
    · exact this

/-- Some region of every file the commands can open has bytes. -/
theorem regions_nonempty {p : Profile} {acc : Bytes → Bool} {sections : List (List Char)} {file : Bytes} {s : SignableFile}
    {rs : List DigestRegion} (h1 : cliOpen acc sections file = .ok s) (h2 : s.digestRegions p acc = .ok rs) :
    ∃ r ∈ rs, r.size ≠ 0 := by
  rcases cliOpen_cases h1 with ⟨rfl, _, _⟩ | ⟨f, rfl, hopen, _, _⟩
  · have h2 : (Module.new file).digestRegions p file = .ok rs := h2
    unfold Module.digestRegions at h2
    obtain ⟨o, ho, h5⟩ := Res.bind_eq_ok.mp h2
    obtain ⟨n1, _, h6⟩ := Res.bind_eq_ok.mp h5
    obtain ⟨n2, _, h8⟩ := Res.bind_eq_ok.mp h6
    obtain ⟨n3, h7, h9⟩ := Res.bind_eq_ok.mp h8
    rcases getOffsets_cases p file with ⟨e, sc, n, he, _, hoo⟩ | ⟨_, hoo, _⟩ | ⟨hoo, _⟩
    · rw [hoo] at ho
      cases ho
      obtain ⟨_, _, hend, _, hsig, _⟩ := C12_record_is_real he
      have hl : 22 ≤ e.toU8.length := by
        unfold Eocd.toU8; rw [hsig]; simp only [List.length_append, leBytes_length, List.length_cons, List.length_nil]; omega
      have h7 : usub p file.length e.fileOffset = .ok n3 := h7
      rw [usub_of_le (by omega)] at h7
      cases h7
      cases h9
      exact ⟨⟨"eocd", e.fileOffset, file.length - e.fileOffset⟩, by simp [FileOffsets.new], show file.length - e.fileOffset ≠ 0 by omega⟩
    · rw [hoo] at ho; cases ho
    · rw [hoo] at ho; cases ho
  · have h2 : f.digestRegions acc = .ok rs := h2
    unfold ElfFile.digestRegions at h2
    obtain ⟨l, hl, h2⟩ := Res.bind_eq_ok.mp h2
    cases h2
    obtain ⟨e, _, hperm, _, hall⟩ := C45_resolved hl
    cases l with
    | nil =>
      have := hperm.symm.eq_nil
      exact absurd this (C45_selection hopen).1
    | cons x l =>
      obtain ⟨s, _, ⟨_, hne⟩, _, hsz⟩ := hall x (by simp)
      exact ⟨⟨String.ofList x.1, x.2.1, x.2.2⟩, by simp, show x.2.2 ≠ 0 by rw [hsz]; exact hne⟩

/-- C71 fails when the output path is the input path: whenever the command gets as far as the dump, it fails and the file is
empty afterwards. -/
theorem C71_in_place_destroys {p : Profile} {acc : Bytes → Bool} {sections : List (List Char)} {file out : Bytes} {r : Res Unit}
    (h : cliDump p acc sections true file = (some out, r)) : out = [] ∧ ∃ e, r = .err e := by
  rcases cliDump_ok h with ⟨h1, _⟩ | ⟨s, rs, h1, h2, h3, h4⟩
  · cases h1
  · rw [if_pos rfl] at h3 h4
    rw [dumpRegions_nil] at h3
    injection h3 with h3
    refine ⟨h3, .unexpectedEof, ?_⟩
    obtain ⟨q, hq, hne⟩ := regions_nonempty h1 (cliRegions_ok.mp h2).1
    rw [h4, if_neg]
    intro hc
    have := (C49_dump_is_the_regions [] rs).1.mp hc q hq
    simp only [List.length_nil] at this
    omega

/-- C71: and that happens to every file whose dump to another path succeeds. -/
theorem C71_in_place_never_works {p : Profile} {acc : Bytes → Bool} {sections : List (List Char)} {file out : Bytes}
    (h : cliDump p acc sections false file = (some out, .ok ())) : ∃ e, cliDump p acc sections true file = (some [], .err e) := by
  have : ∃ o r, cliDump p acc sections true file = (some o, r) := by
    unfold cliDump at h ⊢
    dsimp only at h ⊢
    split at h
    · cases h
    · cases h
    · exact ⟨_, _, rfl⟩
  obtain ⟨o, r, ho⟩ := this
  obtain ⟨rfl, e, rfl⟩ := C71_in_place_destroys ho
  exact ⟨e, ho⟩

/-- C71, what holds: a dump to another path that fails although every region lies in the file has not touched the output
(missing: regions beyond the end of the file, which are noticed only while writing; and the input path as output). -/
theorem C71_output_untouched_partial {p : Profile} {acc : Bytes → Bool} {sections : List (List Char)} {file : Bytes}
    {o : Option Bytes} {r : Res Unit} (h : cliDump p acc sections false file = (o, r)) (hr : r ≠ .ok ())
    (hin : ∀ s rs, cliOpen acc sections file = .ok s → s.digestRegions p acc = .ok rs →
      ∀ q ∈ rs, q.size = 0 ∨ q.offset + q.size ≤ file.length) : o = none := by
  rcases cliDump_ok h with ⟨h1, _⟩ | ⟨s, rs, h1, h2, h3, h4⟩
  · exact h1
  · simp only [Bool.false_eq_true, if_false] at h4
    rw [if_pos ((C49_dump_is_the_regions file rs).1.mpr (hin s rs h1 (cliRegions_ok.mp h2).1))] at h4
    exact absurd h4 hr

set_option maxRecDepth 100000 in
/-- C71: a section that reaches beyond the end of the file is noticed too late, the output has been overwritten by then. -/
theorem C71_past_end : ∃ out e, cliDump .dev anyElf [] false elfPastEnd = (some out, .err e) := by
  have : ((cliDump .dev anyElf [] false elfPastEnd).1.isSome = true) ∧ (cliDump .dev anyElf [] false elfPastEnd).2 = .err .unexpectedEof := by
    decide +kernel
  obtain ⟨o, ho⟩ := Option.isSome_iff_exists.mp this.1
  exact ⟨o, .unexpectedEof, Prod.ext ho this.2⟩

/-! ### C70 -/

/-- These digests hold `d` for the algorithm `a`, and nothing else for it. -/
def HoldsDigest (ds : Digests) (a : Algo) (d : Bytes) : Prop :=
  (∃ x ∈ ds.data, x.algo = a) ∧ ∀ x ∈ ds.data, x.algo = a → x.digest = d

/-- Every signature in the block is over the digest `d` for the algorithm `a`. -/
def SignsDigest (b : SigningBlock) (a : Algo) (d : Bytes) : Prop :=
  (∀ s ∈ v2Signers b, HoldsDigest s.signedData.digests a d) ∧ ∀ s ∈ stamps b, HoldsDigest s.signedData.digests a d

theorem pairDigests_holds {as : List Algo} {D : Algo → Bytes} {a : Algo} (ha : a ∈ as) :
    HoldsDigest (pairDigests (as.map fun a => (a, D a))) a (D a) := by
  refine ⟨⟨Digest.new a (D a), ?_, rfl⟩, ?_⟩
  · show _ ∈ List.map _ (List.map _ as)
    rw [List.map_map]
    exact List.mem_map.mpr ⟨a, ha, rfl⟩
  · intro x hx hxa
    replace hx : x ∈ List.map (fun y : Algo × Bytes => Digest.new y.1 y.2) (as.map fun a => (a, D a)) := hx
    rw [List.map_map] at hx
    obtain ⟨c, _, rfl⟩ := List.mem_map.mp hx
    replace hxa : c = a := hxa
    subst hxa
    rfl

theorem sign_signsDigest {E : Env} {p : Profile} {clock : Option UInt64} {m : ModuleSigner} {as : List Algo} {D : Algo → Bytes}
    {a : Algo} {b : SigningBlock} (ha : a ∈ as) (h : m.sign E p clock (pairDigests (as.map fun a => (a, D a))) = .ok b) :
    SignsDigest b a (D a) ∧ (m.v2 ≠ none → v2Signers b ≠ []) ∧ (m.stamp ≠ none → stamps b ≠ []) := by
  obtain ⟨h1, h2⟩ := signers_of_shape h
  refine ⟨⟨fun s hs => ?_, fun s hs => ?_⟩, fun hne => ?_, fun hne => ?_⟩
  · rcases h1 with ⟨_, h0⟩ | ⟨c, g, _, hg, hmade⟩
    · rw [h0] at hs; cases hs
    · rw [hg, List.mem_singleton] at hs
      subst hs
      rw [hmade.digests]; exact pairDigests_holds ha
  · rcases h2 with ⟨_, h0⟩ | ⟨c, g, _, hg, hmade⟩
    · rw [h0] at hs; cases hs
    · rw [hg, List.mem_singleton] at hs
      subst hs
      rw [hmade.digests]; exact pairDigests_holds ha
  · rcases h1 with ⟨h0, _⟩ | ⟨c, g, _, hg, _⟩
    · exact absurd h0 hne
    · rw [hg]; simp
  · rcases h2 with ⟨h0, _⟩ | ⟨c, g, _, hg, _⟩
    · exact absurd h0 hne
    · rw [hg]; simp

theorem signableWrite_infix {p : Profile} {m : Module} {file out : Bytes} {b : SigningBlock}
    (h : m.signableWrite p file b = (out, .ok ())) : b.toU8 <:+: out := by
  unfold Module.signableWrite at h
  dsimp only at h
  split at h
  · cases h
  · cases h
  split at h
  · cases h
  split at h
  · cases h
  · cases h
  split at h
  · cases h
  split at h
  · cases h
  split at h
  · cases h
  split at h
  · cases h
  · injection h with h _
    rw [← h]
    simp only [List.append_assoc]
    exact ⟨_, _, by simp only [List.append_assoc]; rfl⟩

theorem elfWrite_infix {acc : Bytes → Bool} {f : ElfFile} {b : SigningBlock} {out : Bytes}
    (h : f.writeWithSignature acc b = .ok out) : b.toU8 <:+: out := by
  obtain ⟨e', rest, hd', _, hdec, ⟨sh, hsh⟩, table, pad1, mid, pad3, ksu, hw⟩ := write_parts h
  rw [hw.file]
  simp only [List.append_assoc]
  exact ⟨_ ++ (rest ++ pad1), _, by simp only [List.append_assoc]; rfl⟩

/-- C70: when the sign command has succeeded, every signature in the block it wrote is over the digest the digest command
prints for the same file, selection and algorithm, in either output format; the only way the digest command can fail on such a
file is the overflow of the total it prints, for an ELF file in a development build. -/
theorem C70_printed_is_signed_partial {E : Env} {p : Profile} {acc : Bytes → Bool} {clock : Option UInt64} {m : ModuleSigner}
    {sections : List (List Char)} {ip : Bool} {file out : Bytes} (hlen : file.length < 2 ^ 64)
    (h : cliSign E p acc clock m sections ip file = (some out, .ok ())) (sha512 : Bool) (fmt : OutputFormat)
    (ha : (if sha512 then Algo.p384 else Algo.p256) ∈ m.requiredAlgorithms) :
    ∃ b d, b.toU8 <:+: out ∧ SignsDigest b (if sha512 then .p384 else .p256) d ∧ (m.v2 ≠ none → v2Signers b ≠ []) ∧
      (m.stamp ≠ none → stamps b ≠ []) ∧
      (cliDigest E p acc sha512 fmt sections file = .ok (fmt.render d) ∨
        p = .dev ∧ detectFileFormat file = .ok .elf ∧ cliDigest E p acc sha512 fmt sections file = .panic) := by
  generalize hal : (if sha512 then Algo.p384 else Algo.p256) = a at ha ⊢
  cases ho : SignableFile.open acc file with
  | err e => unfold cliSign at h; rw [ho] at h; cases h
  | panic => unfold cliSign at h; rw [ho] at h; cases h
  | ok s0 =>
    cases s0 with
    | module mm g =>
      have hc : cliSignModule E p clock m ip file = (some out, .ok ()) ∧ sections = [] := by
        unfold cliSign at h
        rw [ho] at h
        dsimp only at h
        cases sections with
        | nil => exact ⟨h, rfl⟩
        | cons x xs => cases h
      obtain ⟨hc, rfl⟩ := hc
      have hip : ip = false := by
        cases ip with
        | false => rfl
        | true => obtain ⟨_, e, he⟩ := C59_in_place_destroys hc; cases he
      subst hip
      have hop := (cliOpen_module ho).mpr ⟨rfl, rfl⟩
      unfold cliSignModule at hc
      dsimp only at hc
      split at hc
      · cases hc
      · cases hc
      rename_i b hb
      obtain ⟨rs, hrs, hb⟩ := Res.bind_eq_ok.mp hb
      obtain ⟨pairs, hpairs, hb⟩ := Res.bind_eq_ok.mp hb
      simp only [Bool.false_eq_true, if_false] at hc
      have hD : ∃ ps, ∀ E a, (Module.new file).digest E p file a = .ok (treeDigest (a.hash E) ps) := by
        rcases digest_form p (Module.new file) file with ⟨ps, hd⟩ | ⟨e, hd⟩ | ⟨hd⟩
        · exact ⟨ps, hd⟩
        all_goals
          exfalso
          cases has : m.requiredAlgorithms with
          | nil => rw [has] at ha; cases ha
          | cons a0 as =>
            rw [has] at hpairs
            unfold cliDigests at hpairs
            rw [hd] at hpairs
            cases hpairs
      obtain ⟨ps, hD⟩ := hD
      rw [cliDigests_eq (D := fun a => treeDigest (a.hash E) ps) (fun a => hD E a)] at hpairs
      cases hpairs
      obtain ⟨h1, h2, h3⟩ := sign_signsDigest (D := fun a => treeDigest (a.hash E) ps) ha hb
      have hw : (Module.new file).signableWrite p file b = (out, .ok ()) := by
        injection hc with e1 e2
        injection e1 with e1
        exact Prod.ext e1 e2
      refine ⟨b, _, signableWrite_infix hw, h1, h2, h3, .inl ?_⟩
      have hreg : cliRegions p acc (.module (Module.new file) file) = .ok rs := by
        refine cliRegions_ok.mpr ⟨hrs, fun hp => ?_⟩
        subst hp
        obtain ⟨body, block, cd, tail, hs, hrs', _⟩ := C18_regions_partition_dev hrs
        have := congrArg List.length hs.file_eq
        rw [hrs']
        simp only [List.length_append] at this
        simp only [List.map_cons, List.map_nil, List.sum_cons, List.sum_nil]
        omega
      unfold cliDigest
      rw [hop, Res.ok_bind, hreg, Res.ok_bind, hal]
      show ((Module.new file).digest E p file a >>= fun d => Res.ok (fmt.render d)) = _
      rw [hD, Res.ok_bind]
    | elf f0 =>
      obtain ⟨f, b, hf, hb, hw⟩ := (cliSign_elf ho).mp h
      obtain ⟨l, b0, hl, hb0, rfl⟩ := cliElfBlock_ok.mp hb
      obtain ⟨h1, h2, h3⟩ := sign_signsDigest (D := fun a => digestElfSections E f.data l a) ha hb0
      have hv : v2Signers (SigningBlock.recalculateSize { b0 with content := b0.content ++ [.elf (signedInfo l)] }) = v2Signers b0 := by
        simp [v2Signers, SigningBlock.recalculateSize]
      have hs : stamps (SigningBlock.recalculateSize { b0 with content := b0.content ++ [.elf (signedInfo l)] }) = stamps b0 := by
        simp [stamps, SigningBlock.recalculateSize]
      refine ⟨_, digestElfSections E f.data l a, elfWrite_infix hw, ?_, ?_, ?_, ?_⟩
      · unfold SignsDigest; rw [hv, hs]; exact h1
      · rw [hv]; exact h2
      · rw [hs]; exact h3
      · have hop := (cliOpen_elf ho).mpr ⟨f, hf, rfl⟩
        have hreg : ∃ rs, (SignableFile.elf f).digestRegions p acc = .ok rs := by
          show ∃ rs, f.digestRegions acc = .ok rs
          unfold ElfFile.digestRegions
          rw [hl]
          exact ⟨_, rfl⟩
        obtain ⟨rs, hrs⟩ := hreg
        unfold cliDigest
        rw [hop, Res.ok_bind, hal]
        by_cases ht : p = .dev ∧ 2 ^ 64 ≤ (rs.map DigestRegion.size).sum
        · refine .inr ⟨ht.1, ?_, ?_⟩
          · rcases cliOpen_cases hop with ⟨h, _⟩ | ⟨_, _, _, _, h⟩
            · cases h
            · exact h
          · rw [cliRegions_panic.mpr (.inr ⟨rs, hrs, ht⟩)]; rfl
        · refine .inl ?_
          rw [cliRegions_ok.mpr ⟨hrs, fun hp => Classical.byContradiction fun hc => ht ⟨hp, by omega⟩⟩, Res.ok_bind]
          show (f.digest E acc a >>= fun d => Res.ok (fmt.render d)) = _
          unfold ElfFile.digest
          rw [hl]; rfl

set_option maxRecDepth 100000 in
example : (∃ out, cliSign toyEnv .dev anyElf (some 5) (.v2Only toyConfig) [] false elf64 = (some out, .ok ())) ∧
    Algo.p256 ∈ (ModuleSigner.v2Only toyConfig).requiredAlgorithms := by
  have : ((cliSign toyEnv .dev anyElf (some 5) (.v2Only toyConfig) [] false elf64).1.isSome = true) ∧
      (cliSign toyEnv .dev anyElf (some 5) (.v2Only toyConfig) [] false elf64).2 = .ok () := by
    decide +kernel
  obtain ⟨o, ho⟩ := Option.isSome_iff_exists.mp this.1
  exact ⟨⟨o, Prod.ext ho this.2⟩, by decide⟩

set_option maxRecDepth 100000 in
/-- C70: the overflow happens: a development build signs this file, but its digest command panics on it. -/
theorem C70_total_overflow : (∃ out, cliSign toyEnv .dev anyElf (some 5) (.v2Only toyConfig) [] false elfHuge = (some out, .ok ())) ∧
    ∀ fmt, cliDigest toyEnv .dev anyElf false fmt [] elfHuge = .panic := by
  have : ((cliSign toyEnv .dev anyElf (some 5) (.v2Only toyConfig) [] false elfHuge).1.isSome = true) ∧
      (cliSign toyEnv .dev anyElf (some 5) (.v2Only toyConfig) [] false elfHuge).2 = .ok () := by
    decide +kernel
  obtain ⟨o, ho⟩ := Option.isSome_iff_exists.mp this.1
  refine ⟨⟨o, Prod.ext ho this.2⟩, fun fmt => ?_⟩
  cases fmt <;> decide +kernel

/-! ### C72 -/

/-- The division of a module whose dump succeeded. -/
theorem dump_split {p : Profile} {acc : Bytes → Bool} {sections : List (List Char)} {file out : Bytes}
    (hlen : file.length < 2 ^ 63) (hf : detectFileFormat file = .ok .module)
    (h : cliDump p acc sections false file = (some out, .ok ())) :
    ∃ body block cd tail rs, Split p file body block cd tail ∧ out = body ++ cd ++ tail ∧
      cliOpen acc sections file = .ok (.module (Module.new file) file) ∧
      cliRegions p acc (.module (Module.new file) file) = .ok rs ∧
      rs.map DigestRegion.size = [body.length, cd.length, tail.length] := by
  obtain ⟨body, block, cd, tail, hs, ho⟩ := C49_dump_module hlen hf h
  rcases cliDump_ok h with ⟨h1, _⟩ | ⟨s, rs, h1, h2, _, _⟩
  · cases h1
  have hmod : s = .module (Module.new file) file := by
    rcases cliOpen_cases h1 with ⟨rfl, _, _⟩ | ⟨_, _, _, _, hf'⟩
    · rfl
    · rw [hf] at hf'; cases hf'
  subst hmod
  refine ⟨body, block, cd, tail, rs, hs, ho, h1, h2, ?_⟩
  have h3 : (Module.new file).digestRegions p file = .ok rs := (cliRegions_ok.mp h2).1
  have hl := congrArg List.length hs.file_eq
  simp only [List.length_append] at hl
  unfold Module.digestRegions at h3
  simp only [hs.offsets, Res.ok_bind, FileOffsets.new] at h3
  rw [usub_of_le (by omega), usub_of_le (by omega), usub_of_le (by omega)] at h3
  simp only [Res.ok_bind] at h3
  cases h3
  simp only [List.map_cons, List.map_nil, List.cons.injEq, and_true]
  omega

/-- C72: the dump and the sizes of the regions determine the digest: two files of the same format whose dumps are equal and
whose regions have the same sizes get the same digest, for every algorithm and output format, whatever else is in the files. -/
theorem C72_dump_determines_digest {E : Env} {p : Profile} {acc : Bytes → Bool} {sections sections' : List (List Char)}
    {file file' out : Bytes} (hlen : file.length < 2 ^ 63) (hlen' : file'.length < 2 ^ 63)
    (hf : detectFileFormat file = detectFileFormat file')
    (h : cliDump p acc sections false file = (some out, .ok ())) (h' : cliDump p acc sections' false file' = (some out, .ok ()))
    (hsz : ∀ s s' rs rs', cliOpen acc sections file = .ok s → cliOpen acc sections' file' = .ok s' →
      s.digestRegions p acc = .ok rs → s'.digestRegions p acc = .ok rs' →
      rs.map DigestRegion.size = rs'.map DigestRegion.size) (sha512 : Bool) (fmt : OutputFormat) :
    ∃ text, cliDigest E p acc sha512 fmt sections file = .ok text ∧ cliDigest E p acc sha512 fmt sections' file' = .ok text := by
  generalize hal : (if sha512 then Algo.p384 else Algo.p256) = a
  obtain ⟨s, rs, h1, h2, h3, h4, h5⟩ := C49_dump_command.mp h
  obtain ⟨s', rs', h1', h2', h3', h4', h5'⟩ := C49_dump_command.mp h'
  have hsize := hsz s s' rs rs' h1 h1' h2 h2'
  rcases cliOpen_cases h1 with ⟨rfl, _, hm⟩ | ⟨f, rfl, _, hd, hm⟩
  · rcases cliOpen_cases h1' with ⟨rfl, _, hm'⟩ | ⟨f', rfl, _, _, hm'⟩
    · obtain ⟨body, block, cd, tail, q, hs, ho, k1, k2, k3⟩ := dump_split hlen hm h
      obtain ⟨body', block', cd', tail', q', hs', ho', k1', k2', k3'⟩ := dump_split hlen' hm' h'
      have e1 := (cliRegions_ok.mp k2).1
      have e2 := (cliRegions_ok.mp k2').1
      rw [h2] at e1
      rw [h2'] at e2
      cases e1
      cases e2
      rw [hsize, k3'] at k3
      simp only [List.cons.injEq, and_true] at k3
      rw [ho] at ho'
      obtain ⟨e3, e4⟩ := List.append_inj ho' (by simp only [List.length_append]; omega)
      obtain ⟨e5, e6⟩ := List.append_inj e3 (by omega)
      subst e4 e5 e6
      refine ⟨fmt.render (treeDigest (a.hash E) [body, cd, patchOffset tail body.length]), ?_, ?_⟩
      · unfold cliDigest
        rw [k1, Res.ok_bind, k2, Res.ok_bind, hal]
        show ((Module.new file).digest E p file a >>= fun d => Res.ok (fmt.render d)) = _
        rw [hs.digest E a]; rfl
      · unfold cliDigest
        rw [k1', Res.ok_bind, k2', Res.ok_bind, hal]
        show ((Module.new file').digest E p file' a >>= fun d => Res.ok (fmt.render d)) = _
        rw [hs'.digest E a]; rfl
    · rw [hm, hm'] at hf; cases hf
  · rcases cliOpen_cases h1' with ⟨rfl, _, hm'⟩ | ⟨f', rfl, _, hd', hm'⟩
    · rw [hm, hm'] at hf; cases hf
    · have k2 := cliRegions_ok.mpr ⟨h2, h3⟩
      have k2' := cliRegions_ok.mpr ⟨h2', h3'⟩
      have h2 : f.digestRegions acc = .ok rs := h2
      have h2' : f'.digestRegions acc = .ok rs' := h2'
      unfold ElfFile.digestRegions at h2 h2'
      obtain ⟨l, hl, h2⟩ := Res.bind_eq_ok.mp h2
      obtain ⟨l', hl', h2'⟩ := Res.bind_eq_ok.mp h2'
      injection h2 with h2
      injection h2' with h2'
      rw [← h2, flatMap_regions] at h5
      rw [← h2', flatMap_regions] at h5'
      have hlens : ∀ {g : Bytes} {l : List Resolved} {rs : List DigestRegion},
          (l.map fun x => (⟨String.ofList x.1, x.2.1, x.2.2⟩ : DigestRegion)) = rs →
          (∀ r ∈ rs, r.size = 0 ∨ r.offset + r.size ≤ g.length) →
          (sectionContents g l).map List.length = rs.map DigestRegion.size := by
        intro g l rs he hin
        subst he
        unfold sectionContents
        rw [List.map_map, List.map_map]
        refine List.map_congr_left fun x hx => ?_
        have := hin _ (List.mem_map.mpr ⟨x, hx, rfl⟩)
        simp only [Function.comp, List.length_take, List.length_drop]
        dsimp only at this
        omega
      have hcont : sectionContents file l = sectionContents file' l' := by
        refine flatten_inj_lengths ?_ (h5.symm.trans h5')
        rw [hlens h2 h4, hlens h2' h4', hsize]
      refine ⟨fmt.render (treeDigest (a.hash E) (sectionContents file l)), ?_, ?_⟩
      · unfold cliDigest
        rw [h1, Res.ok_bind, k2, Res.ok_bind, hal]
        show (f.digest E acc a >>= fun d => Res.ok (fmt.render d)) = _
        rw [C62_digest_of_contents hl, hd]; rfl
      · unfold cliDigest
        rw [h1', Res.ok_bind, k2', Res.ok_bind, hal]
        show (f'.digest E acc a >>= fun d => Res.ok (fmt.render d)) = _
        rw [C62_digest_of_contents hl', hd', hcont]; rfl

set_option maxRecDepth 100000 in
example : cliDump .dev anyElf [] false elf64 = cliDump .dev anyElf [] false (signTiny elf64) ∧
    (cliDump .dev anyElf [] false elf64).2 = .ok () ∧ elf64 ≠ signTiny elf64 ∧
    detectFileFormat elf64 = detectFileFormat (signTiny elf64) ∧
    cliDigest toyEnv .dev anyElf true .base64 [] elf64 = cliDigest toyEnv .dev anyElf true .base64 [] (signTiny elf64) := by
  decide +kernel

/-! ### C50 for the command -/

/-- C50 for the digest command: what it prints is the digest of the file, computed with the algorithm asked for, in the format asked
for: with `hex` two lower-case digits per byte, with `base64` RFC 4648 base64. -/
theorem C50_command_format {E : Env} {p : Profile} {acc : Bytes → Bool} {sha512 : Bool} {fmt : OutputFormat}
    {sections : List (List Char)} {file : Bytes} {text : List Char} (h : cliDigest E p acc sha512 fmt sections file = .ok text) :
    ∃ s d, cliOpen acc sections file = .ok s ∧ s.digest E p acc (if sha512 then .p384 else .p256) = .ok d ∧
      (fmt = .hex → text.length = 2 * d.length ∧ text.map hexValue = d.flatMap fun b => [some (b.toNat / 16), some (b.toNat % 16)]) ∧
      (fmt = .base64 → Base64Text d text) := by
  obtain ⟨s, hs, h⟩ := Res.bind_eq_ok.mp h
  obtain ⟨_, _, h⟩ := Res.bind_eq_ok.mp h
  obtain ⟨d, hd, h⟩ := Res.bind_eq_ok.mp h
  refine ⟨s, d, hs, hd, ?_, ?_⟩
  · rintro rfl
    injection h with h
    rw [← h]
    exact C50_hex_digits d
  · rintro rfl
    injection h with h
    rw [← h]
    exact C50_base64 d

set_option maxRecDepth 100000 in
example : (match cliDigest toyEnv .dev anyElf true .base64 [] elf64, cliDigest toyEnv .dev anyElf true .hex [] elf64 with
    | .ok t, .ok t' => t != t'
    | _, _ => false) = true := by decide +kernel

end Ksusig.Props
