import Verif.Proofs.ElfAnatomy
import Verif.Proofs.ElfWrite

/-!
# What writing a signed ELF file writes, exactly
-/

namespace Ksusig

open Spec

theorem alignTo_eq {n a : Nat} (ha : 0 < a) : alignTo n a = roundUp n a := by
  unfold alignTo roundUp
  rw [if_neg (by omega)]
  dsimp only
  have hdm := Nat.div_add_mod n a
  have hlt := Nat.mod_lt n ha
  split
  · rename_i h
    have : (n + a - 1) / a = n / a := by
      rw [Nat.div_eq_iff ha]
      rw [Nat.mul_comm] at hdm
      constructor <;> omega
    rw [this, Nat.mul_comm]
    omega
  · rename_i h
    have : (n + a - 1) / a = n / a + 1 := by
      rw [Nat.div_eq_iff ha, Nat.add_mul]
      rw [Nat.mul_comm] at hdm
      constructor <;> omega
    rw [this, Nat.add_mul, Nat.mul_comm]
    omega

theorem roundUp_ge {n a : Nat} (ha : 0 < a) : n ≤ roundUp n a := by
  rw [← alignTo_eq ha]
  unfold alignTo
  split
  · exact Nat.le_refl _
  · dsimp only
    split <;> omega

theorem padTo_length {a : Nat} (ha : 0 < a) (d : Bytes) : (padTo a d).length = roundUp d.length a := by
  have := roundUp_ge (n := d.length) ha
  unfold padTo
  rw [List.length_append, List.length_replicate]
  omega

theorem appendAligned_eq {d x : Bytes} {a : Nat} (ha : 0 < a) : appendAligned d x a =
    if 2 ^ 63 ≤ (padTo a d ++ x).length then .panic else .ok (padTo a d ++ x, roundUp d.length a) := by
  unfold appendAligned
  rw [Nat.max_eq_left (by omega : 1 ≤ a), alignTo_eq ha, List.length_append, padTo_length ha]
  dsimp only
  rfl

theorem entryBytes_eq (is64 le : Bool) (s : Shdr) : writeFields le (shdrWidths is64) s.fields = entryBytes is64 le s := by
  unfold entryBytes shdrWidths Shdr.fields numBytes
  cases is64 <;> simp [writeFields, intBytes, List.append_assoc]

theorem numBytes_length (le : Bool) (w v : Nat) : (numBytes le w v).length = w := by
  unfold numBytes
  cases le <;> simp

theorem patch_append {a x c : Bytes} {n : Nat} {x' : Bytes} (hn : a.length = n) (hx : x'.length = x.length) :
    patch (a ++ (x ++ c)) n x' = a ++ (x' ++ c) := by
  subst hn
  unfold patch
  rw [List.take_left, hx, ← List.append_assoc a x c, ← List.length_append, List.drop_left, List.append_assoc]

theorem header_patch {d rest : Bytes} {e : Elf} (hd : Decoded d e rest) (x : Bytes) (pos n : Nat) :
    e.ident ++ writeFields e.le (ehdrWidths e.is64) { e.hdr with shoff := pos, shnum := n, shentsize := shdrSize e.is64 }.fields ++
      (d ++ x).drop (ehdrSize e.is64) =
    if e.is64 then patch (patch (d ++ x) 40 (numBytes e.le 8 pos)) 58 (numBytes e.le 2 64 ++ numBytes e.le 2 n)
    else patch (patch (d ++ x) 32 (numBytes e.le 4 pos)) 46 (numBytes e.le 2 40 ++ numBytes e.le 2 n) := by
  have hi := hd.ident
  have hdrop : (d ++ x).drop (ehdrSize e.is64) = rest ++ x := by
    conv => lhs; rw [hd.file]
    rw [List.append_assoc]
    exact List.drop_left' (Elf.hdrBytes_length hd.ident)
  have hint : ∀ w v, intBytes e.le w v = numBytes e.le w v := fun w v => rfl
  rw [hdrop]
  conv => rhs; rw [hd.file]
  unfold Elf.hdrBytes
  simp only [Ehdr.fields, ehdrWidths, writeFields, shdrSize, hint]
  cases e.is64 with
  | true =>
    simp only [if_true, writeFields, List.append_nil, hint]
    let n' := numBytes e.le
    have h1 := patch_append (n := 40) (x' := n' 8 pos) (x := n' 8 e.hdr.shoff)
      (a := e.ident ++ (n' 2 e.hdr.type ++ (n' 2 e.hdr.machine ++ (n' 4 e.hdr.version ++ (n' 8 e.hdr.entry ++ n' 8 e.hdr.phoff)))))
      (c := n' 4 e.hdr.flags ++ (n' 2 e.hdr.ehsize ++ (n' 2 e.hdr.phentsize ++ (n' 2 e.hdr.phnum ++
        (n' 2 e.hdr.shentsize ++ (n' 2 e.hdr.shnum ++ (n' 2 e.hdr.shstrndx ++ (rest ++ x))))))))
      (by simp only [List.length_append, hi, n', numBytes_length]) (by simp only [n', numBytes_length])
    have h2 := patch_append (n := 58) (x' := n' 2 64 ++ n' 2 n) (x := n' 2 e.hdr.shentsize ++ n' 2 e.hdr.shnum)
      (a := e.ident ++ (n' 2 e.hdr.type ++ (n' 2 e.hdr.machine ++ (n' 4 e.hdr.version ++ (n' 8 e.hdr.entry ++ (n' 8 e.hdr.phoff ++
        (n' 8 pos ++ (n' 4 e.hdr.flags ++ (n' 2 e.hdr.ehsize ++ (n' 2 e.hdr.phentsize ++ n' 2 e.hdr.phnum))))))))))
      (c := n' 2 e.hdr.shstrndx ++ (rest ++ x))
      (by simp only [List.length_append, hi, n', numBytes_length]) (by simp only [List.length_append, n', numBytes_length])
    simp only [List.append_assoc, n'] at h1 h2 ⊢
    rw [h1, h2]
  | false =>
    simp only [Bool.false_eq_true, if_false, writeFields, List.append_nil, hint]
    let n' := numBytes e.le
    have h1 := patch_append (n := 32) (x' := n' 4 pos) (x := n' 4 e.hdr.shoff)
      (a := e.ident ++ (n' 2 e.hdr.type ++ (n' 2 e.hdr.machine ++ (n' 4 e.hdr.version ++ (n' 4 e.hdr.entry ++ n' 4 e.hdr.phoff)))))
      (c := n' 4 e.hdr.flags ++ (n' 2 e.hdr.ehsize ++ (n' 2 e.hdr.phentsize ++ (n' 2 e.hdr.phnum ++
        (n' 2 e.hdr.shentsize ++ (n' 2 e.hdr.shnum ++ (n' 2 e.hdr.shstrndx ++ (rest ++ x))))))))
      (by simp only [List.length_append, hi, n', numBytes_length]) (by simp only [n', numBytes_length])
    have h2 := patch_append (n := 46) (x' := n' 2 40 ++ n' 2 n) (x := n' 2 e.hdr.shentsize ++ n' 2 e.hdr.shnum)
      (a := e.ident ++ (n' 2 e.hdr.type ++ (n' 2 e.hdr.machine ++ (n' 4 e.hdr.version ++ (n' 4 e.hdr.entry ++ (n' 4 e.hdr.phoff ++
        (n' 4 pos ++ (n' 4 e.hdr.flags ++ (n' 2 e.hdr.ehsize ++ (n' 2 e.hdr.phentsize ++ n' 2 e.hdr.phnum))))))))))
      (c := n' 2 e.hdr.shstrndx ++ (rest ++ x))
      (by simp only [List.length_append, hi, n', numBytes_length]) (by simp only [List.length_append, n', numBytes_length])
    simp only [List.append_assoc, n'] at h1 h2 ⊢
    rw [h1, h2]

/-- `withTable` as the code computes it. -/
theorem withTable_eq {d rest : Bytes} {e : Elf} (hd : Decoded d e rest) {body y : Bytes} (hb : body = d ++ y) (table : List Shdr) :
    e.ident ++ writeFields e.le (ehdrWidths e.is64) { e.hdr with
        shoff := alignTo body.length (max (shdrSize e.is64) 8), shnum := table.length, shentsize := shdrSize e.is64 }.fields ++
      (body ++ List.replicate (alignTo body.length (max (shdrSize e.is64) 8) - body.length) 0 ++
        table.flatMap fun s : Shdr => writeFields e.le (shdrWidths e.is64) s.fields).drop (ehdrSize e.is64) =
    withTable e body table := by
  have hm : max (shdrSize e.is64) 8 = entryLength e.is64 := by unfold shdrSize entryLength; cases e.is64 <;> rfl
  have hp : 0 < entryLength e.is64 := by unfold entryLength; cases e.is64 <;> decide
  rw [hm, alignTo_eq hp]
  simp only [entryBytes_eq]
  subst hb
  have := header_patch hd (y ++ List.replicate (roundUp (d ++ y).length (entryLength e.is64) - (d ++ y).length) 0 ++
    table.flatMap (entryBytes e.is64 e.le)) (roundUp (d ++ y).length (entryLength e.is64)) table.length
  unfold withTable padTo
  simp only [List.append_assoc] at this ⊢
  exact this

theorem patch_length {d x : Bytes} {pos : Nat} (h : pos + x.length ≤ d.length) : (patch d pos x).length = d.length := by
  unfold patch
  simp only [List.length_append, List.length_take, List.length_drop]
  omega

theorem flatMap_entry_length (is64 le : Bool) (table : List Shdr) :
    (table.flatMap (entryBytes is64 le)).length = entryLength is64 * table.length := by
  induction table with
  | nil => rfl
  | cons s l ih =>
    rw [List.flatMap_cons, List.length_append, ih, List.length_cons, ← entryBytes_eq]
    have : (writeFields le (shdrWidths is64) s.fields).length = entryLength is64 := Shdr.bytes_length is64 le s
    rw [this, Nat.mul_add]
    omega

theorem withTable_length {d y : Bytes} {e : Elf} (hv : ElfView d e) {body : Bytes} (hb : body = d ++ y) (table : List Shdr) :
    (withTable e body table).length = roundUp body.length (entryLength e.is64) + entryLength e.is64 * table.length := by
  have hp : 0 < entryLength e.is64 := by unfold entryLength; cases e.is64 <;> decide
  have hroom := hv.room
  have hge := roundUp_ge (n := body.length) hp
  have hbl : d.length ≤ body.length := by rw [hb, List.length_append]; omega
  unfold withTable
  dsimp only
  revert hroom hge hp
  cases e.is64 with
  | true =>
    intro hp hroom hge
    simp only [headerLength, if_true] at hroom
    rw [if_pos rfl, patch_length, patch_length]
    · rw [List.length_append, padTo_length hp, flatMap_entry_length]
    · rw [List.length_append, padTo_length hp, numBytes_length]; omega
    · rw [patch_length, List.length_append, List.length_append, padTo_length hp, numBytes_length, numBytes_length]
      · omega
      · rw [List.length_append, padTo_length hp, numBytes_length]; omega
  | false =>
    intro hp hroom hge
    simp only [headerLength, Bool.false_eq_true, if_false] at hroom
    rw [if_neg (by decide), patch_length, patch_length]
    · rw [List.length_append, padTo_length hp, flatMap_entry_length]
    · rw [List.length_append, padTo_length hp, numBytes_length]; omega
    · rw [patch_length, List.length_append, List.length_append, padTo_length hp, numBytes_length, numBytes_length]
      · omega
      · rw [List.length_append, padTo_length hp, numBytes_length]; omega

theorem nameTable_load {e : Elf} {d : Bytes} (hlen : d.length < 2 ^ 64) (t : Bytes) : loadShstrtab e d = .ok t ↔
    ∃ sh, NameTable e d sh ∧ t = sectionBytes d sh := by
  unfold loadShstrtab NameTable sectionBytes
  cases hsh : e.shdrs[e.hdr.shstrndx]? with
  | none => simp
  | some sh =>
    dsimp only
    constructor
    · intro h
      split at h
      · cases h
      · cases hs : slice? d sh.offset (sh.offset + sh.size) with
        | none => rw [hs] at h; cases h
        | some t' =>
          rw [hs] at h
          cases h
          obtain ⟨h1, h2⟩ := slice?_some.mp hs
          exact ⟨sh, ⟨rfl, h1⟩, h2⟩
    · rintro ⟨sh', ⟨h1, h2⟩, rfl⟩
      obtain rfl := Option.some.inj h1
      rw [if_neg (by omega), slice?_some.mpr ⟨h2, rfl⟩]
      rfl

theorem findIndex_iff {e : Elf} {i : Nat} : e.findIndex ksuBytes = some i ↔ ∃ s, FirstAt e ksuBytes i s := by
  unfold Elf.findIndex
  rw [List.findIdx?_eq_some_iff_getElem]
  constructor
  · rintro ⟨h, h1, h2⟩
    refine ⟨e.shdrs[i], List.getElem?_eq_getElem h, by simpa [Elf.named, nameOf] using h1, ?_⟩
    intro j hj x hx
    have hjl : j < e.shdrs.length := by omega
    rw [List.getElem?_eq_getElem hjl] at hx
    obtain rfl := Option.some.inj hx
    simpa [Elf.named, nameOf] using h2 j hj
  · rintro ⟨s, hs⟩
    have hl : i < e.shdrs.length := by
      apply Decidable.byContradiction
      intro hc
      have := hs.here
      rw [List.getElem?_eq_none (by omega)] at this
      cases this
    refine ⟨hl, ?_, ?_⟩
    · have := hs.here
      rw [List.getElem?_eq_getElem hl] at this
      rw [Option.some.inj this]
      simpa [Elf.named, nameOf] using hs.name
    · intro j hj
      have := hs.first j hj _ (List.getElem?_eq_getElem (by omega))
      simpa [Elf.named, nameOf] using this

theorem firstAt_unique {e : Elf} {n : Bytes} {i j : Nat} {s t : Shdr} (h : FirstAt e n i s) (h' : FirstAt e n j t) : i = j ∧ s = t := by
  have hij : i = j := by
    apply Decidable.byContradiction
    intro hc
    by_cases hlt : i < j
    · exact h'.first i hlt s h.here h.name
    · exact h.first j (by omega) t h'.here h'.name
  subst hij
  have := h.here
  rw [h'.here] at this
  exact ⟨rfl, (Option.some.inj this).symm⟩

theorem Spec.Plan.unique {e : Elf} {d blk : Bytes} {n n' : Nat} {b b' : Bytes} {t t' : List Shdr} (h : Plan e d blk n b t)
    (h' : Plan e d blk n' b' t') : n = n' ∧ b = b' ∧ t = t' := by
  cases h with
  | again h1 h2 =>
    cases h' with
    | again h3 h4 =>
      obtain ⟨rfl, rfl⟩ := firstAt_unique h2 h4
      exact ⟨rfl, rfl, rfl⟩
    | first h3 h4 => exact absurd ⟨_, _, h2⟩ h4
  | first h1 h2 =>
    cases h' with
    | again h3 h4 => exact absurd ⟨_, _, h4⟩ h2
    | first h3 h4 =>
      have := h1.1
      rw [h3.1] at this
      obtain rfl := Option.some.inj this
      exact ⟨rfl, rfl, rfl⟩

/-- The body of a plan begins with the file. -/
theorem Spec.Plan.body {e : Elf} {d blk : Bytes} {n : Nat} {b : Bytes} {t : List Shdr} (h : Plan e d blk n b t) : ∃ y, b = d ++ y := by
  cases h with
  | again _ _ => exact ⟨_, by unfold padTo; rw [List.append_assoc]⟩
  | first _ _ => exact ⟨_, by simp only [padTo, List.append_assoc]; rfl⟩

theorem Spec.Plan.exists_of {e : Elf} {d : Bytes} (blk : Bytes) {sh : Shdr} (h : NameTable e d sh) : ∃ n b t, Plan e d blk n b t := by
  by_cases hn : ∃ s, FirstNamed e ksuBytes s
  · obtain ⟨s, i, hi⟩ := hn
    exact ⟨_, _, _, .again h hi⟩
  · exact ⟨_, _, _, .first h hn⟩

/-- Everything that writing does, once the file is open and has a name table. -/
theorem write_plan {acc : Bytes → Bool} {f : ElfFile} {e : Elf} {b : SigningBlock} {n : Nat} {body : Bytes} {table : List Shdr}
    (ha : acc f.data = true) (hv : ElfView f.data e) (hlen : f.data.length < 2 ^ 63) (h : Plan e f.data b.toU8 n body table) :
    f.writeWithSignature acc b =
      if 2 ^ 63 ≤ body.length then .panic
      else if 2 ^ 32 ≤ n then .err .elf
      else if 2 ^ 63 ≤ (withTable e body table).length then .panic
      else if 65535 < table.length then .err .elf
      else .ok (withTable e body table) := by
  obtain ⟨rest, hd⟩ := decodeElf_some (decodeElf_iff.mpr hv)
  obtain ⟨y, hy⟩ := h.body
  have hparse : parseElf acc f.data = .ok e := parseElf_ok.mpr ⟨decodeElf_iff.mpr hv, ha⟩
  have hm : max (shdrSize e.is64) 8 = entryLength e.is64 := by unfold shdrSize entryLength; cases e.is64 <;> rfl
  have hse : shdrSize e.is64 = entryLength e.is64 := rfl
  have hp : 0 < entryLength e.is64 := by unfold entryLength; cases e.is64 <;> decide
  have hap : 0 < blockAlign e.is64 := by unfold blockAlign; cases e.is64 <;> decide
  have hac : alignForContainer e.is64 = blockAlign e.is64 := rfl
  have hks : ∀ n o s, ksuHeader n o s (blockAlign e.is64) = signatureHeader e.is64 n o s := fun _ _ _ => rfl
  have hend : ∀ out2 : Bytes, out2 = body → ∀ tb, tb = table →
      (if alignTo out2.length (max (shdrSize e.is64) 8) + shdrSize e.is64 * tb.length ≥ 2 ^ 63 then Res.panic
          else if tb.length > 65535 then .err .elf
          else .ok (e.ident ++ writeFields e.le (ehdrWidths e.is64) { e.hdr with
              shoff := alignTo out2.length (max (shdrSize e.is64) 8), shnum := tb.length, shentsize := shdrSize e.is64 }.fields ++
            (out2 ++ List.replicate (alignTo out2.length (max (shdrSize e.is64) 8) - out2.length) 0 ++
              tb.flatMap fun s : Shdr => writeFields e.le (shdrWidths e.is64) s.fields).drop (ehdrSize e.is64))) =
      if 2 ^ 63 ≤ (withTable e body table).length then .panic
      else if 65535 < table.length then .err .elf
      else .ok (withTable e body table) := by
    rintro _ rfl _ rfl
    rw [withTable_eq hd hy, withTable_length hv hy, hm, alignTo_eq hp, hse]
  unfold ElfFile.writeWithSignature
  rw [hparse, Res.ok_bind, utf8_ksu, ksuName_eq]
  cases h with
  | @again sh i s hnt hi =>
    have hload := (nameTable_load (by omega) (sectionBytes f.data sh)).mpr ⟨sh, hnt, rfl⟩
    have hfs : e.findSection ksuBytes = some s := firstNamed_iff.mpr ⟨i, hi⟩
    have hno : e.nameOffset ksuBytes = some s.name := by
      unfold Elf.nameOffset
      unfold Elf.findSection at hfs
      rw [hfs]; rfl
    have hsl : (sectionBytes f.data sh).length = sh.size := by
      unfold sectionBytes
      rw [List.length_take, List.length_drop]
      have := hnt.2
      omega
    rw [hload, Res.ok_bind, hac]
    dsimp only
    rw [appendAligned_eq hap]
    split
    · rename_i h1
      rw [Res.panic_bind]
    · rename_i h1
      rw [Res.ok_bind]
      dsimp only
      rw [hno, hnt.1, findIndex_iff.mpr ⟨s, hi⟩]
      simp only [Res.ofOption, Res.ok_bind, Option.isNone_some, Bool.false_eq_true, if_false, hsl, ne_eq, not_true, Option.getD_some]
      split
      · rfl
      · exact hend _ rfl _ (by rw [hks])
  | @first sh hnt hnn =>
    have hload := (nameTable_load (by omega) (sectionBytes f.data sh)).mpr ⟨sh, hnt, rfl⟩
    have hfs : e.findSection ksuBytes = none := by
      cases hf : e.findSection ksuBytes with
      | none => rfl
      | some s => exact absurd ⟨s, firstNamed_iff.mp hf⟩ hnn
    have hno : e.nameOffset ksuBytes = none := by
      unfold Elf.nameOffset
      unfold Elf.findSection at hfs
      rw [hfs]; rfl
    have hfi : e.findIndex ksuBytes = none := by
      cases hf : e.findIndex ksuBytes with
      | none => rfl
      | some i =>
        obtain ⟨s, hs⟩ := findIndex_iff.mp hf
        exact absurd ⟨s, i, hs⟩ hnn
    have hsl : (sectionBytes f.data sh).length = sh.size := by
      unfold sectionBytes
      rw [List.length_take, List.length_drop]
      have := hnt.2
      omega
    have hsl' : (sectionBytes f.data sh ++ ksuBytes ++ [0]).length = sh.size + 10 := by
      rw [List.length_append, List.length_append, hsl]; rfl
    have hmx : 0 < max 1 sh.addralign := by omega
    have hmx' : max sh.addralign 1 = max 1 sh.addralign := Nat.max_comm _ _
    rw [hload, Res.ok_bind, hac]
    dsimp only
    rw [appendAligned_eq hap]
    split
    · rename_i h1
      rw [Res.panic_bind, if_pos]
      rw [List.length_append, padTo_length hmx]
      have := roundUp_ge (n := (padTo (blockAlign e.is64) f.data ++ b.toU8).length) hmx
      omega
    · rename_i h1
      rw [Res.ok_bind]
      dsimp only
      rw [hno, hnt.1, hfi]
      simp only [Res.ofOption, Res.ok_bind, Option.isNone_none, if_true, hsl', hmx', ne_eq]
      rw [if_pos (by omega), appendAligned_eq hmx]
      split
      · rename_i h2
        simp only [Res.panic_bind]
      · rename_i h2
        simp only [Res.ok_bind, Option.getD_none, hsl]
        split
        · rfl
        · exact hend _ rfl _ (by rw [hks])

end Ksusig
