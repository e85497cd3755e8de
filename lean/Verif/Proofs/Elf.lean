import Verif.Proofs.Robust
import Verif.Model.Elf

/-! # Lemmas about ELF files -/

namespace Ksusig

/-! ## Integer fields -/

@[simp] theorem intBytes_length (le : Bool) (w v : Nat) : (intBytes le w v).length = w := by
  unfold intBytes; split <;> simp

theorem intVal_intBytes {le : Bool} {w v : Nat} (h : v < 256 ^ w) : intVal le (intBytes le w v) = v := by
  unfold intVal intBytes
  cases le <;> simp [leNat_leBytes, Nat.mod_eq_of_lt h]

theorem intBytes_intVal {le : Bool} {w : Nat} {bs : Bytes} (h : bs.length = w) : intBytes le w (intVal le bs) = bs := by
  unfold intVal intBytes
  subst h
  cases le
  · have := leBytes_leNat bs.reverse
    rw [List.length_reverse] at this
    simp [this]
  · simp [leBytes_leNat]

theorem intVal_lt (le : Bool) (bs : Bytes) : intVal le bs < 256 ^ bs.length := by
  unfold intVal
  cases le
  · have := leNat_lt bs.reverse
    rw [List.length_reverse] at this
    simpa using this
  · simpa using leNat_lt bs

/-- Every value fits its field. -/
def Fits : List Nat → List Nat → Prop
  | [], [] => True
  | w :: ws, v :: vs => v < 256 ^ w ∧ Fits ws vs
  | _, _ => False

theorem Fits.length : ∀ {ws vs : List Nat}, Fits ws vs → vs.length = ws.length
  | [], [], _ => rfl
  | _ :: _, _ :: _, h => by simp [Fits.length h.2]

theorem writeFields_length : ∀ {le : Bool} {ws vs : List Nat}, vs.length = ws.length → (writeFields le ws vs).length = ws.sum
  | _, [], [], _ => rfl
  | le, w :: ws, v :: vs, h => by
    simp only [writeFields, List.length_append, intBytes_length, List.sum_cons]
    rw [writeFields_length (by simpa using h)]
  | _, [], _ :: _, h => by simp at h
  | _, _ :: _, [], h => by simp at h

theorem readFields_ok : ∀ {le : Bool} {ws : List Nat} {d : Bytes} {vs : List Nat} {r : Bytes},
    readFields le ws d = some (vs, r) → d = writeFields le ws vs ++ r ∧ Fits ws vs
  | le, [], d, vs, r, h => by
    simp only [readFields, Option.some.injEq, Prod.mk.injEq] at h
    obtain ⟨rfl, rfl⟩ := h
    exact ⟨rfl, trivial⟩
  | le, w :: ws, d, vs, r, h => by
    unfold readFields at h
    by_cases hl : d.length < w
    · rw [if_pos hl] at h; cases h
    · rw [if_neg hl] at h
      cases hr : readFields le ws (d.drop w) with
      | none => rw [hr] at h; cases h
      | some x =>
        obtain ⟨vs', r'⟩ := x
        rw [hr] at h
        simp only [Option.some.injEq, Prod.mk.injEq] at h
        obtain ⟨rfl, rfl⟩ := h
        obtain ⟨h1, h2⟩ := readFields_ok hr
        have hlen : (d.take w).length = w := by rw [List.length_take]; omega
        refine ⟨?_, ?_, h2⟩
        · simp only [writeFields, intBytes_intVal hlen, List.append_assoc]
          rw [← h1, List.take_append_drop]
        · have := intVal_lt le (d.take w)
          rwa [hlen] at this

theorem readFields_write : ∀ {le : Bool} {ws vs : List Nat} {r : Bytes}, Fits ws vs →
    readFields le ws (writeFields le ws vs ++ r) = some (vs, r)
  | _, [], [], r, _ => rfl
  | le, w :: ws, v :: vs, r, h => by
    unfold readFields writeFields
    have hl : (intBytes le w v).length = w := intBytes_length le w v
    rw [if_neg (by simp only [List.length_append, hl]; omega)]
    have h1 : (intBytes le w v ++ writeFields le ws vs ++ r).drop w = writeFields le ws vs ++ r := by
      rw [List.append_assoc]; exact List.drop_left' hl
    have h2 : (intBytes le w v ++ writeFields le ws vs ++ r).take w = intBytes le w v := by
      rw [List.append_assoc]; exact List.take_left' hl
    rw [h1, h2, readFields_write h.2, intVal_intBytes h.1]

/-! ## Headers -/

theorem Shdr.ofFields_fields (s : Shdr) : Shdr.ofFields s.fields = some s := rfl

theorem Shdr.ofFields_some {vs : List Nat} {s : Shdr} (h : Shdr.ofFields vs = some s) : vs = s.fields := by
  unfold Shdr.ofFields at h
  split at h
  · injection h with h; subst h; rfl
  · cases h

theorem Ehdr.ofFields_fields (s : Ehdr) : Ehdr.ofFields s.fields = some s := rfl

theorem Ehdr.ofFields_some {vs : List Nat} {s : Ehdr} (h : Ehdr.ofFields vs = some s) : vs = s.fields := by
  unfold Ehdr.ofFields at h
  split at h
  · injection h with h; subst h; rfl
  · cases h

/-- The section header as bytes. -/
def Shdr.bytes (is64 le : Bool) (s : Shdr) : Bytes := writeFields le (shdrWidths is64) s.fields

theorem Shdr.bytes_length (is64 le : Bool) (s : Shdr) : (s.bytes is64 le).length = shdrSize is64 := by
  unfold Shdr.bytes
  rw [writeFields_length (by cases is64 <;> rfl)]
  cases is64 <;> rfl

/-- The section header fits its class. -/
def Shdr.Fit (is64 : Bool) (s : Shdr) : Prop := Fits (shdrWidths is64) s.fields

theorem readShdr_ok {is64 le : Bool} {d r : Bytes} {s : Shdr} (h : readShdr is64 le d = some (s, r)) :
    d = s.bytes is64 le ++ r ∧ s.Fit is64 := by
  unfold readShdr at h
  cases hr : readFields le (shdrWidths is64) d with
  | none => rw [hr] at h; cases h
  | some x =>
    obtain ⟨vs, r'⟩ := x
    rw [hr] at h
    cases hs : Shdr.ofFields vs with
    | none => simp [hs] at h
    | some s' =>
      simp [hs] at h
      obtain ⟨rfl, rfl⟩ := h
      have := Shdr.ofFields_some hs
      subst this
      exact readFields_ok hr

theorem readShdr_bytes {is64 le : Bool} {s : Shdr} {r : Bytes} (h : s.Fit is64) :
    readShdr is64 le (s.bytes is64 le ++ r) = some (s, r) := by
  unfold readShdr Shdr.bytes
  rw [readFields_write h]
  simp [Shdr.ofFields_fields]

theorem readShdrs_ok : ∀ {is64 le : Bool} {n : Nat} {d : Bytes} {l : List Shdr}, readShdrs is64 le n d = some l →
    l.length = n ∧ ∀ s ∈ l, s.Fit is64
  | _, _, 0, _, _, h => by
    simp only [readShdrs, Option.some.injEq] at h; subst h; simp
  | is64, le, n + 1, d, l, h => by
    unfold readShdrs at h
    cases hr : readShdr is64 le d with
    | none => simp [hr] at h
    | some x =>
      obtain ⟨s, r⟩ := x
      cases hs : readShdrs is64 le n r with
      | none => simp [hr, hs] at h
      | some l' =>
        simp [hr, hs] at h
        subst h
        obtain ⟨h1, h2⟩ := readShdrs_ok hs
        refine ⟨by simp [h1], ?_⟩
        intro x hx
        rcases List.mem_cons.mp hx with rfl | hx
        · exact (readShdr_ok hr).2
        · exact h2 x hx

theorem readShdrs_bytes : ∀ {is64 le : Bool} {l : List Shdr} {r : Bytes}, (∀ s ∈ l, s.Fit is64) →
    readShdrs is64 le l.length (l.flatMap (Shdr.bytes is64 le) ++ r) = some l
  | _, _, [], _, _ => rfl
  | is64, le, s :: l, r, h => by
    simp only [List.length_cons, readShdrs, List.flatMap_cons, List.append_assoc]
    rw [readShdr_bytes (h s (by simp))]
    have ih : readShdrs is64 le l.length (l.flatMap (Shdr.bytes is64 le) ++ r) = some l :=
      readShdrs_bytes (fun x hx => h x (List.mem_cons_of_mem _ hx))
    simp [ih]

theorem parseShdrs_ok {is64 le : Bool} {data : Bytes} {off count : Nat} {l : List Shdr}
    (h : parseShdrs is64 le data off count = some l) : ∀ s ∈ l, s.Fit is64 := by
  unfold parseShdrs at h
  by_cases h0 : off = 0
  · rw [if_pos h0] at h; injection h with h; subst h; simp
  · rw [if_neg h0] at h
    cases hr : readShdr is64 le (data.drop off) with
    | none => simp [hr] at h
    | some x =>
      obtain ⟨s, r⟩ := x
      simp only [hr, Option.bind_eq_bind, Option.bind_some] at h
      generalize (if count = 0 then s.size else count) = n at h
      split at h
      · cases h
      · cases hs : readShdrs is64 le (n - 1) r with
        | none => simp [hs] at h
        | some l' =>
          simp [hs] at h
          subst h
          intro x hx
          rcases List.mem_cons.mp hx with rfl | hx
          · exact (readShdr_ok hr).2
          · exact (readShdrs_ok hs).2 x hx

theorem flatMap_bytes_length (is64 le : Bool) : ∀ l : List Shdr,
    (l.flatMap (Shdr.bytes is64 le)).length = shdrSize is64 * l.length
  | [] => by simp
  | s :: l => by
    simp only [List.flatMap_cons, List.length_append, Shdr.bytes_length, flatMap_bytes_length is64 le l, List.length_cons]
    rw [Nat.mul_add]; omega

theorem parseShdrs_table {is64 le : Bool} {pre post : Bytes} {l : List Shdr} (hpre : pre.length ≠ 0) (hl : l ≠ [])
    (hfit : ∀ s ∈ l, s.Fit is64) :
    parseShdrs is64 le (pre ++ l.flatMap (Shdr.bytes is64 le) ++ post) pre.length l.length = some l := by
  unfold parseShdrs
  rw [if_neg hpre]
  cases l with
  | nil => exact absurd rfl hl
  | cons s l =>
    have hd : (pre ++ (s :: l).flatMap (Shdr.bytes is64 le) ++ post).drop pre.length =
        s.bytes is64 le ++ (l.flatMap (Shdr.bytes is64 le) ++ post) := by
      simp [List.append_assoc]
    rw [hd, readShdr_bytes (hfit s (by simp))]
    simp only [Option.bind_eq_bind, Option.bind_some, List.length_cons, Nat.add_one_ne_zero, if_false, Nat.add_sub_cancel]
    have hlen : (pre ++ (s :: l).flatMap (Shdr.bytes is64 le) ++ post).length =
        pre.length + shdrSize is64 * (l.length + 1) + post.length := by
      simp only [List.length_append, flatMap_bytes_length, List.length_cons]
    have hpos : 0 < shdrSize is64 := by cases is64 <;> decide
    rw [if_neg, readShdrs_bytes (fun x hx => hfit x (by simp [hx]))]
    · rfl
    · rw [hlen]
      intro hgt
      have : (l.length + 1) ≤ (pre.length + shdrSize is64 * (l.length + 1) + post.length) / shdrSize is64 := by
        rw [Nat.le_div_iff_mul_le hpos, Nat.mul_comm]; omega
      omega

/-! ## The header -/

/-- The ELF header as bytes. -/
def Elf.hdrBytes (e : Elf) : Bytes := e.ident ++ writeFields e.le (ehdrWidths e.is64) e.hdr.fields

/-- What decoding says about a file. -/
structure Decoded (data : Bytes) (e : Elf) (rest : Bytes) : Prop where
  file : data = e.hdrBytes ++ rest
  ident : e.ident.length = 16
  magic : e.ident.take 4 = [0x7f, 0x45, 0x4c, 0x46]
  cls : e.ident.getD 4 0 = if e.is64 then 2 else 1
  enc : e.ident.getD 5 0 = if e.le then 1 else 2
  fits : Fits (ehdrWidths e.is64) e.hdr.fields
  shdrs : parseShdrs e.is64 e.le data e.hdr.shoff e.hdr.shnum = some e.shdrs
  strtab : parseStrtab data e.shdrs e.hdr.shstrndx = some e.strtab

theorem getD_take {d : Bytes} {n k : Nat} (h : k < n) : (d.take n).getD k 0 = d.getD k 0 := by
  simp [List.getD, List.getElem?_take, h]

theorem getD_append {d r : Bytes} {k : Nat} (h : k < d.length) : (d ++ r).getD k 0 = d.getD k 0 := by
  simp [List.getD, List.getElem?_append_left h]

theorem decodeElf_some {data : Bytes} {e : Elf} (h : decodeElf data = some e) : ∃ rest, Decoded data e rest := by
  unfold decodeElf at h
  by_cases h1 : data.length < 16
  · rw [if_pos h1] at h; cases h
  rw [if_neg h1] at h
  by_cases h2 : data.take 4 ≠ [0x7f, 0x45, 0x4c, 0x46]
  · rw [if_pos h2] at h; cases h
  rw [if_neg h2] at h
  dsimp only at h
  by_cases h3 : data.getD 4 0 ≠ 1 ∧ data.getD 4 0 ≠ 2
  · rw [if_pos h3] at h; cases h
  rw [if_neg h3] at h
  by_cases h4 : data.getD 5 0 ≠ 1 ∧ data.getD 5 0 ≠ 2
  · rw [if_pos h4] at h; cases h
  rw [if_neg h4] at h
  split at h
  · cases h
  · rename_i vs r hr
    split at h
    · cases h
    · rename_i hd hhd
      split at h
      · cases h
      · rename_i l hl
        split at h
        · cases h
        · rename_i t ht
          injection h with h
          subst h
          have := Ehdr.ofFields_some hhd
          subst this
          obtain ⟨e1, e2⟩ := readFields_ok hr
          refine ⟨r, ⟨?_, ?_, ?_, ?_, ?_, e2, hl, ht⟩⟩
          · rw [Elf.hdrBytes, List.append_assoc, ← e1, List.take_append_drop]
          · show (data.take 16).length = 16
            rw [List.length_take]; omega
          · show (data.take 16).take 4 = _
            rw [List.take_take]; simpa using h2
          · show (data.take 16).getD 4 0 = _
            rw [getD_take (by omega)]
            generalize data.getD 4 0 = c at *
            by_cases hc : c = 2
            · simp [hc]
            · have : c = 1 := by
                false_or_by_contra; rename_i h; exact h3 ⟨h, hc⟩
              subst this; rfl
          · show (data.take 16).getD 5 0 = _
            rw [getD_take (by omega)]
            generalize data.getD 5 0 = c at *
            by_cases hc : c = 1
            · simp [hc]
            · have : c = 2 := by
                false_or_by_contra; rename_i h; exact h4 ⟨hc, h⟩
              subst this; rfl

theorem Decoded.decode {data : Bytes} {e : Elf} {rest : Bytes} (h : Decoded data e rest) : decodeElf data = some e := by
  have hlen : 16 ≤ data.length := by rw [h.file, Elf.hdrBytes]; simp only [List.length_append, h.ident]; omega
  have hid : data.take 16 = e.ident := by
    rw [h.file, Elf.hdrBytes, List.append_assoc]; exact List.take_left' h.ident
  have hdr : data.drop 16 = writeFields e.le (ehdrWidths e.is64) e.hdr.fields ++ rest := by
    rw [h.file, Elf.hdrBytes, List.append_assoc]; exact List.drop_left' h.ident
  have h4 : data.getD 4 0 = if e.is64 then 2 else 1 := by rw [← h.cls, ← hid, getD_take (by omega)]
  have h5 : data.getD 5 0 = if e.le then 1 else 2 := by rw [← h.enc, ← hid, getD_take (by omega)]
  have hm : data.take 4 = [0x7f, 0x45, 0x4c, 0x46] := by rw [← h.magic, ← hid, List.take_take]; rfl
  unfold decodeElf
  rw [if_neg (by omega), if_neg (by simp [hm])]
  dsimp only
  rw [h4, h5, hdr, hid]
  have c1 : ((if e.is64 then (2 : UInt8) else 1) == 2) = e.is64 := by cases e.is64 <;> rfl
  have c2 : ((if e.le then (1 : UInt8) else 2) == 1) = e.le := by cases e.le <;> rfl
  rw [if_neg (by cases e.is64 <;> decide), if_neg (by cases e.le <;> decide), c1, c2, readFields_write h.fits]
  simp only [Ehdr.ofFields_fields, h.shdrs, h.strtab]

theorem Elf.hdrBytes_length {e : Elf} (h : e.ident.length = 16) : e.hdrBytes.length = ehdrSize e.is64 := by
  unfold Elf.hdrBytes
  rw [List.length_append, h, writeFields_length (by cases e.is64 <;> rfl)]
  cases e.is64 <;> rfl

/-! ## UTF-8 and the name table -/

theorem validUtf8_append : ∀ {a b : Bytes}, validUtf8 a = true → validUtf8 (a ++ b) = validUtf8 b
  | [], b, _ => rfl
  | b0 :: rest, b, h => by
    rw [List.cons_append]
    generalize hv : validUtf8 b = v
    unfold validUtf8 at h ⊢
    by_cases c1 : b0 < 0x80
    · rw [if_pos c1] at h ⊢; exact (validUtf8_append h).trans hv
    rw [if_neg c1] at h ⊢
    by_cases c2 : inRange 0xC2 0xDF b0
    · rw [if_pos c2] at h ⊢
      cases rest with
      | nil => cases h
      | cons b1 rest =>
        simp only [Bool.and_eq_true] at h
        simp only [List.cons_append, h.1, Bool.true_and, validUtf8_append h.2, hv]
    rw [if_neg c2] at h ⊢
    by_cases c3 : inRange 0xE0 0xEF b0
    · rw [if_pos c3] at h ⊢
      match rest, h with
      | [], h => cases h
      | [_], h => cases h
      | b1 :: b2 :: rest, h =>
        simp only [Bool.and_eq_true] at h
        simp only [List.cons_append, h.1, Bool.true_and, validUtf8_append h.2, hv]
    rw [if_neg c3] at h ⊢
    by_cases c4 : inRange 0xF0 0xF4 b0
    · rw [if_pos c4] at h ⊢
      match rest, h with
      | [], h => cases h
      | [_], h => cases h
      | [_, _], h => cases h
      | b1 :: b2 :: b3 :: rest, h =>
        simp only [Bool.and_eq_true] at h
        simp only [List.cons_append, h.1, Bool.true_and, validUtf8_append h.2, hv]
    · rw [if_neg c4] at h; cases h

theorem takeWhile_append_of_mem {α : Type} {q : α → Bool} : ∀ {a b : List α}, (∃ x ∈ a, q x = false) →
    (a ++ b).takeWhile q = a.takeWhile q
  | [], _, h => by obtain ⟨x, hx, _⟩ := h; cases hx
  | x :: a, b, h => by
    rw [List.cons_append, List.takeWhile_cons, List.takeWhile_cons]
    by_cases hx : q x = true
    · rw [if_pos hx, if_pos hx, takeWhile_append_of_mem]
      obtain ⟨y, hy, hq⟩ := h
      rcases List.mem_cons.mp hy with rfl | hy
      · rw [hx] at hq; cases hq
      · exact ⟨y, hy, hq⟩
    · rw [if_neg hx, if_neg hx]

/-- Names that lie in a terminated table do not change when the table grows. -/
theorem strtabGet_append {t u : Bytes} {off : Nat} (hoff : off < t.length) (hterm : t.getLast? = some 0) :
    strtabGet (t ++ u) off = strtabGet t off := by
  unfold strtabGet
  rw [List.getElem?_append_left hoff, List.getElem?_eq_getElem hoff]
  dsimp only
  split
  · rfl
  · rw [List.drop_append_of_le_length (by omega), takeWhile_append_of_mem]
    refine ⟨0, ?_, rfl⟩
    have h1 : (t.drop off).getLast? = some 0 := by
      rw [List.getLast?_drop, if_neg (by omega), hterm]
    exact List.mem_of_getLast? h1

theorem strtabGet_at {t n u : Bytes} (hn : ∀ x ∈ n, x ≠ 0) (h0 : ∀ x, n.head? = some x → inRange 0x80 0xBF x = false)
    (hne : n ≠ []) : strtabGet (t ++ n ++ 0 :: u) t.length = some n := by
  unfold strtabGet
  cases n with
  | nil => exact absurd rfl hne
  | cons x n =>
    have hx := h0 x rfl
    rw [List.append_assoc, List.getElem?_append_right (by omega)]
    simp only [Nat.sub_self, List.cons_append, List.getElem?_cons_zero, hx, List.drop_left]
    rw [if_neg (by simp)]
    congr 1
    rw [← List.cons_append, List.takeWhile_append_of_pos]
    · simp
    · intro y hy; simpa using hn y hy

/-! ## Writing -/

theorem alignTo_ge (v a : Nat) : v ≤ alignTo v a := by
  unfold alignTo
  split
  · exact Nat.le_refl _
  · dsimp only; split <;> omega

theorem appendAligned_ok {t d o : Bytes} {a n : Nat} (h : appendAligned t d a = .ok (o, n)) :
    ∃ pad, o = t ++ pad ++ d ∧ n = (t ++ pad).length ∧ n = alignTo t.length (max a 1) ∧ pad = List.replicate pad.length 0 ∧
      o.length < 2 ^ 63 := by
  unfold appendAligned at h
  dsimp only at h
  split at h
  · cases h
  · rename_i hlt
    injection h with h
    injection h with h1 h2
    have := alignTo_ge t.length (max a 1)
    refine ⟨_, h1.symm, ?_, h2.symm, ?_, ?_⟩
    · rw [← h2]; simp only [List.length_append, List.length_replicate]; omega
    · rw [List.length_replicate]
    · rw [← h1]; simp only [List.length_append, List.length_replicate]; omega

theorem findIdx_of_find {l : List Shdr} {q : Shdr → Bool} : 
    (l.find? q = none ∧ l.findIdx? q = none) ∨
    (∃ i s, l.find? q = some s ∧ l.findIdx? q = some i ∧ l[i]? = some s ∧ q s = true ∧ ∀ j s', j < i → l[j]? = some s' → q s' = false) := by
  induction l with
  | nil => exact .inl ⟨rfl, rfl⟩
  | cons x l ih =>
    by_cases hx : q x = true
    · right
      refine ⟨0, x, by simp [hx], by simp [List.findIdx?_cons, hx], rfl, hx, fun j s' hj => by omega⟩
    · rcases ih with ⟨h1, h2⟩ | ⟨i, s, h1, h2, h3, h4, h5⟩
      · left
        simp [List.findIdx?_cons, hx, h1, h2]
      · right
        refine ⟨i + 1, s, by simp [hx, h1], by simp [List.findIdx?_cons, hx, h2], by simpa using h3, h4, ?_⟩
        intro j s' hj hs
        cases j with
        | zero => simp at hs; subst hs; simpa using hx
        | succ j => exact h5 j s' (by omega) (by simpa using hs)

/-- The bytes of the name of the signature section. -/
def ksuName : Bytes := [0x2e, 0x6b, 0x73, 0x75, 0x5f, 0x73, 0x69, 0x67, 0x6e]

theorem utf8_ksu : utf8 ksuSection = ksuName := by decide +kernel

/-- What `write_with_signature` has done. -/
structure Written (data : Bytes) (e : Elf) (rest : Bytes) (b : SigningBlock) (out : Bytes) (table : List Shdr) (pad1 mid pad3 : Bytes)
    (ksu : Shdr) : Prop where
  file : out = { e with hdr := { e.hdr with
      shoff := (data ++ pad1 ++ b.toU8 ++ mid ++ pad3).length
      shnum := table.length
      shentsize := shdrSize e.is64 } }.hdrBytes ++
    (rest ++ pad1 ++ b.toU8 ++ mid ++ pad3 ++ table.flatMap (Shdr.bytes e.is64 e.le))
  count : table.length ≤ 65535
  size : out.length < 2 ^ 63
  align : (data ++ pad1).length = alignTo data.length (alignForContainer e.is64)
  header : ksu = ksuHeader ksu.name (data ++ pad1).length b.toU8.length (alignForContainer e.is64)
  name : ksu.name < 2 ^ 32
  cases : (∃ i s, e.findIndex ksuName = some i ∧ e.shdrs[i]? = some s ∧ e.named ksuName s = true ∧
      (∀ j s', j < i → e.shdrs[j]? = some s' → e.named ksuName s' = false) ∧ ksu.name = s.name ∧ mid = [] ∧
      table = e.shdrs.set i ksu) ∨
    (e.shdrs.find? (e.named ksuName) = none ∧ e.findIndex ksuName = none ∧ ∃ sh t pad2, e.shdrs[e.hdr.shstrndx]? = some sh ∧ slice? data sh.offset (sh.offset + sh.size) = some t ∧
      ksu.name = t.length ∧ mid = pad2 ++ (t ++ ksuName ++ [0]) ∧ pad2 = List.replicate pad2.length 0 ∧
      table = e.shdrs.set e.hdr.shstrndx { sh with
        offset := (data ++ pad1 ++ b.toU8 ++ pad2).length, size := t.length + 10 } ++ [ksu])

theorem slice?_length {d : Bytes} {a n : Nat} {t : Bytes} (h : slice? d a (a + n) = some t) : t.length = n := by
  obtain ⟨_, h2, rfl⟩ := slice?_iff.mp h
  simp only [List.length_take, List.length_drop]; omega

theorem write_ok {acc : Bytes → Bool} {f : ElfFile} {e : Elf} {rest : Bytes} {b : SigningBlock} {out : Bytes}
    (hd : Decoded f.data e rest) (h : f.writeWithSignature acc b = .ok out) :
    acc f.data = true ∧ (∃ sh, e.shdrs[e.hdr.shstrndx]? = some sh ∧ sh.offset + sh.size < 2 ^ 64 ∧
      ∃ t, slice? f.data sh.offset (sh.offset + sh.size) = some t) ∧
    ∃ table pad1 mid pad3 ksu, Written f.data e rest b out table pad1 mid pad3 ksu := by
  unfold ElfFile.writeWithSignature parseElf at h
  rw [hd.decode] at h
  dsimp only at h
  by_cases ha : ¬ acc f.data = true
  · rw [if_neg ha] at h; cases h
  rw [Decidable.not_not] at ha
  rw [if_pos ha, Res.ok_bind] at h
  obtain ⟨t, ht, h⟩ := Res.bind_eq_ok.mp h
  unfold loadShstrtab at ht
  cases hsh : e.shdrs[e.hdr.shstrndx]? with
  | none => rw [hsh] at ht; cases ht
  | some sh =>
    rw [hsh] at ht
    dsimp only at ht
    split at ht
    · cases ht
    rename_i hlt
    have hsl : slice? f.data sh.offset (sh.offset + sh.size) = some t := by
      cases hx : slice? f.data sh.offset (sh.offset + sh.size) with
      | none => rw [hx] at ht; cases ht
      | some y => rw [hx] at ht; cases ht; rfl
    have htl := slice?_length hsl
    refine ⟨ha, ⟨sh, rfl, by omega, t, hsl⟩, ?_⟩
    obtain ⟨⟨out1, so⟩, h1, h⟩ := Res.bind_eq_ok.mp h
    dsimp only at h
    obtain ⟨pad1, rfl, hso, halign, _, hlt1⟩ := appendAligned_ok h1
    have halign' : (f.data ++ pad1).length = alignTo f.data.length (alignForContainer e.is64) := by
      rw [← hso, halign]
      congr 1
      cases e.is64 <;> rfl
    rw [utf8_ksu] at h
    rw [hsh, Res.ofOption_some, Res.ok_bind] at h
    have hfinish : ∀ (mid : Bytes) (out2 : Bytes) (table : List Shdr) (nameOff : Nat), out2 = f.data ++ pad1 ++ b.toU8 ++ mid →
        nameOff < 2 ^ 32 →
        ∀ ksu, ksu = ksuHeader nameOff so b.toU8.length (alignForContainer e.is64) →
        (if alignTo out2.length (max (shdrSize e.is64) 8) + shdrSize e.is64 * table.length ≥ 2 ^ 63 then Res.panic
          else if table.length > 65535 then .err .elf
          else .ok (e.ident ++ writeFields e.le (ehdrWidths e.is64) { e.hdr with
              shoff := alignTo out2.length (max (shdrSize e.is64) 8), shnum := table.length, shentsize := shdrSize e.is64 }.fields ++
            (out2 ++ List.replicate (alignTo out2.length (max (shdrSize e.is64) 8) - out2.length) 0 ++
              table.flatMap fun s : Shdr => writeFields e.le (shdrWidths e.is64) s.fields).drop (ehdrSize e.is64))) = .ok out →
        ((∃ i s, e.findIndex ksuName = some i ∧ e.shdrs[i]? = some s ∧ e.named ksuName s = true ∧
          (∀ j s', j < i → e.shdrs[j]? = some s' → e.named ksuName s' = false) ∧ ksu.name = s.name ∧ mid = [] ∧
          table = e.shdrs.set i ksu) ∨
        (e.shdrs.find? (e.named ksuName) = none ∧ e.findIndex ksuName = none ∧ ∃ sh t pad2, e.shdrs[e.hdr.shstrndx]? = some sh ∧ slice? f.data sh.offset (sh.offset + sh.size) = some t ∧
          ksu.name = t.length ∧ mid = pad2 ++ (t ++ ksuName ++ [0]) ∧ pad2 = List.replicate pad2.length 0 ∧
          table = e.shdrs.set e.hdr.shstrndx { sh with
            offset := (f.data ++ pad1 ++ b.toU8 ++ pad2).length, size := t.length + 10 } ++ [ksu])) →
        ∃ table pad1 mid pad3 ksu, Written f.data e rest b out table pad1 mid pad3 ksu := by
      intro mid out2 table nameOff ho2 hnm ksu hksu hout hcases
      split at hout
      · cases hout
      rename_i hsz
      split at hout
      · cases hout
      rename_i hcnt
      have hge := alignTo_ge out2.length (max (shdrSize e.is64) 8)
      let pad3 : Bytes := List.replicate (alignTo out2.length (max (shdrSize e.is64) 8) - out2.length) 0
      have hp3 : (out2 ++ pad3).length = alignTo out2.length (max (shdrSize e.is64) 8) := by
        simp only [pad3, List.length_append, List.length_replicate]; omega
      have hhl : e.hdrBytes.length = ehdrSize e.is64 := Elf.hdrBytes_length hd.ident
      have hfile : out = { e with hdr := { e.hdr with
            shoff := (f.data ++ pad1 ++ b.toU8 ++ mid ++ pad3).length
            shnum := table.length
            shentsize := shdrSize e.is64 } }.hdrBytes ++
          (rest ++ pad1 ++ b.toU8 ++ mid ++ pad3 ++ table.flatMap (Shdr.bytes e.is64 e.le)) := by
        injection hout with hout
        rw [← hout, ← ho2, hp3]
        show e.ident ++ _ ++ _ = e.ident ++ _ ++ _
        congr 1
        show List.drop _ (out2 ++ pad3 ++ table.flatMap (Shdr.bytes e.is64 e.le)) = _
        rw [ho2]
        conv => lhs; rw [hd.file]
        simp only [List.append_assoc]
        exact List.drop_left' hhl
      refine ⟨table, pad1, mid, pad3, ksu, hfile, by omega, ?_, halign', ?_, ?_, hcases⟩
      · have hl : out.length = alignTo out2.length (max (shdrSize e.is64) 8) + shdrSize e.is64 * table.length := by
          have h1 : ({ e with hdr := { e.hdr with
            shoff := (f.data ++ pad1 ++ b.toU8 ++ mid ++ pad3).length
            shnum := table.length
            shentsize := shdrSize e.is64 } } : Elf).hdrBytes.length = ehdrSize e.is64 := Elf.hdrBytes_length hd.ident
          have h2 : f.data.length = ehdrSize e.is64 + rest.length := by
            conv => lhs; rw [hd.file]
            rw [List.length_append, hhl]
          rw [hfile]
          rw [List.length_append, h1, ← hp3, ho2]
          simp only [List.length_append, flatMap_bytes_length]
          omega
        omega
      · rw [hksu, hso]; rfl
      · rw [hksu]; exact hnm
    rcases findIdx_of_find (l := e.shdrs) (q := e.named ksuName) with ⟨f1, f2⟩ | ⟨i, s, f1, f2, f3, f4, f5⟩
    · have hno : e.nameOffset ksuName = none := by unfold Elf.nameOffset; rw [f1]; rfl
      have hfi : e.findIndex ksuName = none := f2
      rw [hno, hfi] at h
      simp only [Option.isNone_none, if_true, Option.getD_none] at h
      have hl : (t ++ ksuName ++ [0]).length ≠ sh.size := by
        simp only [List.length_append, List.length_cons, List.length_nil]; omega
      rw [if_pos hl] at h
      obtain ⟨⟨out2, shdrs2⟩, h2, h⟩ := Res.bind_eq_ok.mp h
      obtain ⟨pad2, rfl, hno, _, hz, _⟩ := appendAligned_ok h2
      rw [Res.ok_bind] at h
      dsimp only at h
      split at h
      · cases h
      rename_i hnm
      refine hfinish (pad2 ++ (t ++ ksuName ++ [0])) _ _ t.length ?_ (by omega) _ rfl h (.inr ?_)
      · simp only [List.append_assoc]
      · refine ⟨f1, hfi, sh, t, pad2, hsh, hsl, rfl, rfl, hz, ?_⟩
        rw [hno, show List.length (t ++ ksuName ++ [0] : Bytes) = t.length + 10 by simp [ksuName]]
    · have hno : e.nameOffset ksuName = some s.name := by unfold Elf.nameOffset; rw [f1]; rfl
      have hfi : e.findIndex ksuName = some i := f2
      rw [hno, hfi] at h
      simp only [Option.isNone_some, Option.getD_some, Bool.false_eq_true, if_false] at h
      rw [if_neg (show ¬ t.length ≠ sh.size by omega)] at h
      rw [Res.ok_bind] at h
      dsimp only at h
      split at h
      · cases h
      rename_i hnm
      exact hfinish [] _ _ s.name (by rw [List.append_nil]) (by omega) _ rfl h (.inl ⟨i, s, hfi, f3, f4, f5, rfl, rfl, rfl⟩)

end Ksusig
