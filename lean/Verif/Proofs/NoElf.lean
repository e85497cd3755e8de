import Verif.Model.NoElf
import Verif.SpecNoElf
import Verif.Proofs.Grammar
import Verif.Proofs.Robust

/-! The two builds side by side. -/

namespace Ksusig

open Spec

/-- How results of the two builds are related: the build with ELF support on the left. -/
inductive Sides {α : Type} (S : α → α → Prop) (B : α → Prop) : Res α → Res α → Prop where
  | both (a a' : α) : S a a' → Sides S B (.ok a) (.ok a')
  | same (e : Err) : Sides S B (.err e) (.err e)
  | errs (e e' : Err) : e.isMissing = false → e'.isMissing = false → Sides S B (.err e) (.err e')
  | more (e : Err) (a' : α) : e.isMissing = false → B a' → Sides S B (.err e) (.ok a')
  | panic : Sides S B .panic .panic

theorem Err.real_present {e : Err} (h : e.real = true) : e.isMissing = false := by cases e <;> first | rfl | cases h

/-- Both fail with what they share. -/
theorem Sides.bind {α β : Type} {S : α → α → Prop} {B : α → Prop} {x : Res β} {f g : β → Res α} (h : ∀ y, x = .ok y → Sides S B (f y) (g y)) :
    Sides S B (x >>= f) (x >>= g) := by
  cases x with
  | ok y => exact h y rfl
  | err e => exact .same e
  | panic => exact .panic

theorem Sides.ite {α : Type} {S : α → α → Prop} {B : α → Prop} {c : Prop} [Decidable c] {x y x' y' : Res α} (h : c → Sides S B x x')
    (h' : ¬ c → Sides S B y y') : Sides S B (if c then x else y) (if c then x' else y') := by
  by_cases hc : c
  · rw [if_pos hc, if_pos hc]; exact h hc
  · rw [if_neg hc, if_neg hc]; exact h' hc

theorem elf_body {value : Bytes} {r : Reader} :
    (∃ e, Value.parseBody (4 + value.length) elfInfoBlockId ⟨value, 0⟩ r = .ok (.elf e, r) ∧ IsValue elfInfoBlockId value (.elf e)) ∨
    (∃ e, Value.parseBody (4 + value.length) elfInfoBlockId ⟨value, 0⟩ r = .err e ∧ e.real = true ∧
      ∀ i, ¬ IsValue elfInfoBlockId value (.elf i)) := by
  cases h : Value.parseBody (4 + value.length) elfInfoBlockId ⟨value, 0⟩ r with
  | ok x =>
    obtain ⟨v, r'⟩ := x
    obtain ⟨rfl, hv⟩ := Value.parseBody_iff.mp h
    cases v with
    | elf e => exact .inl ⟨e, rfl, hv⟩
    | v2 s => exact absurd hv.1 (by decide)
    | stamp s => exact absurd hv.1 (by decide)
    | raw s => exact absurd rfl hv.2.2.2
  | err e =>
    refine .inr ⟨e, rfl, ?_, fun i hi => ?_⟩
    · by_cases hr : r.pos ≤ r.data.length
      · have := Value.good_body (4 + value.length) elfInfoBlockId ⟨value, 0⟩ rfl r hr
        rw [h] at this
        exact this
      · have hb : ∀ r0 : Reader, Value.parseBody (4 + value.length) elfInfoBlockId ⟨value, 0⟩ r0 = .err e := by
          intro r0
          have e0 : ∀ r1, Value.parseBody (4 + value.length) elfInfoBlockId ⟨value, 0⟩ r1 =
              match ElfSectionInfo.parse (4 + value.length) elfInfoBlockId ⟨value, 0⟩ with
              | .ok (a, _) => .ok (.elf a, r1)
              | .err e => .err e
              | .panic => .panic := by
            intro r1
            unfold Value.parseBody
            rw [if_neg (by decide), if_neg (by decide), if_pos rfl, P.bind_def]
            unfold P.on
            cases ElfSectionInfo.parse (4 + value.length) elfInfoBlockId ⟨value, 0⟩ <;> rfl
          rw [e0] at h ⊢
          cases hp : ElfSectionInfo.parse (4 + value.length) elfInfoBlockId ⟨value, 0⟩ with
          | ok x => rw [hp] at h; cases h
          | err e' => rw [hp] at h; cases h; rfl
          | panic => rw [hp] at h; cases h
        have := Value.good_body (4 + value.length) elfInfoBlockId ⟨value, 0⟩ rfl ⟨[], 0⟩ (Nat.le_refl _)
        rw [hb] at this
        exact this
    · have := (Value.parseBody_iff (r := r) (r' := r)).mpr ⟨rfl, hi⟩
      rw [h] at this
      cases this
  | panic =>
    exfalso
    unfold Value.parseBody at h
    rw [if_neg (by decide), if_neg (by decide), if_pos rfl, P.bind_def] at h
    unfold P.on at h
    have hg := ElfSectionInfo.good (4 + value.length) elfInfoBlockId ⟨value, 0⟩ (Nat.zero_le _)
    cases hp : ElfSectionInfo.parse (4 + value.length) elfInfoBlockId ⟨value, 0⟩ with
    | ok x => rw [hp] at h; cases h
    | err e' => rw [hp] at h; cases h
    | panic => rw [hp] at hg; exact hg

/-- One pair. -/
def SameItem (x y : Value × Reader) : Prop := SamePair x.1 y.1 ∧ x.2 = y.2

theorem samePair_refl {v : Value} {id : UInt32} {value : Bytes} (h : IsValue id value v) (hid : id ≠ elfInfoBlockId) : SamePair v v := by
  cases v with
  | elf e => exact absurd h.1 hid
  | raw r =>
    obtain ⟨rfl, _, _, h⟩ := h
    exact ⟨rfl, h⟩
  | v2 s => rfl
  | stamp s => rfl

theorem body_sides {value : Bytes} {id : UInt32} {r : Reader} :
    Sides SameItem (fun y => Unreadable y.1 ∧ y.2 = r) (Value.parseBody (4 + value.length) id ⟨value, 0⟩ r)
      (NoElf.parseBody (4 + value.length) id ⟨value, 0⟩ r) := by
  by_cases he : id = elfInfoBlockId
  · subst he
    have hn : NoElf.parseBody (4 + value.length) elfInfoBlockId ⟨value, 0⟩ r = .ok (.raw ⟨4 + value.length, elfInfoBlockId, value⟩, r) := by
      unfold NoElf.parseBody
      rw [if_neg (by decide), if_neg (by decide)]
      rfl
    rw [hn]
    rcases elf_body (value := value) (r := r) with ⟨e, h, hv⟩ | ⟨e, h, hr, hv⟩
    · rw [h]
      exact .both _ _ ⟨⟨_, rfl, rfl, rfl, hv⟩, rfl⟩
    · rw [h]
      exact .more _ _ (Err.real_present hr) ⟨⟨_, rfl, rfl, hv⟩, rfl⟩
  · have hn : NoElf.parseBody (4 + value.length) id ⟨value, 0⟩ r = Value.parseBody (4 + value.length) id ⟨value, 0⟩ r := by
      unfold NoElf.parseBody Value.parseBody
      rw [if_neg he]
    rw [hn]
    cases h : Value.parseBody (4 + value.length) id ⟨value, 0⟩ r with
    | ok x =>
      obtain ⟨v, r'⟩ := x
      exact .both _ _ ⟨samePair_refl (Value.parseBody_iff.mp h).2 he, rfl⟩
    | err e => exact .same e
    | panic => exact .panic

theorem parse_sides (r : Reader) : Sides SameItem (fun y => Unreadable y.1) (Value.parse r) (NoElf.parse r) := by
  unfold Value.parse NoElf.parse
  rw [P.bind_def, P.bind_def]
  refine Sides.bind fun x hx => ?_
  obtain ⟨ps, r1⟩ := x
  dsimp only
  split
  · exact .same _
  · rw [P.bind_def, P.bind_def]
    refine Sides.bind fun y hy => ?_
    obtain ⟨id, r2⟩ := y
    dsimp only
    split
    · exact .same _
    · rename_i h4
      rw [P.bind_def, P.bind_def, P.asSlice_eq]
      cases hs : slice? r2.data r2.pos (r2.pos + (ps - 4)) with
      | none => exact .same _
      | some d =>
        have hl : ps = 4 + d.length := by
          have := slice?_eq_some hs
          omega
        simp only [Res.bind_ok]
        rw [hl]
        have := body_sides (value := d) (id := id) (r := ⟨r2.data, r2.pos + (4 + d.length - 4)⟩)
        generalize Value.parseBody (4 + d.length) id ⟨d, 0⟩ ⟨r2.data, r2.pos + (4 + d.length - 4)⟩ = x at this
        generalize NoElf.parseBody (4 + d.length) id ⟨d, 0⟩ ⟨r2.data, r2.pos + (4 + d.length - 4)⟩ = y at this
        cases this with
        | both a a' h => exact .both a a' h
        | same e => exact .same e
        | errs e e' h h' => exact .errs e e' h h'
        | more e a' h h' => exact .more e a' h h'.1
        | panic => exact .panic

theorem NoElf.good_body (ps : Nat) (id : UInt32) (s : Reader) (hs : s.pos = 0) :
    Good (12 + s.data.length) (NoElf.parseBody ps id s) Value.weight := by
  unfold NoElf.parseBody
  split
  · exact Value.good_on s hs Value.v2 (SchemeV2.good ps id) fun a => by simp only [Value.weight]; omega
  · split
    · exact Value.good_on s hs Value.stamp (SourceStamp.good ps id) fun a => by simp only [Value.weight]; omega
    · exact .pure (by simp only [Value.weight]; omega)

theorem NoElf.good : Good 0 NoElf.parse Value.weight := by
  refine .bind .readSizeU64 fun ps => ?_
  split
  · exact .fail (by decide)
  · refine .bind .readU32 fun id => ?_
    split
    · exact .fail (by decide)
    · intro r hr
      rw [P.bind_def, P.asSlice_eq]
      cases hsl : slice? r.data r.pos (r.pos + (ps - 4)) with
      | none => simp [Err.real]
      | some d =>
        obtain ⟨_, h2, _, h4⟩ := slice?_eq_some hsl
        simp only [Res.bind_ok]
        have h1 := NoElf.good_body ps id ⟨d, 0⟩ rfl ⟨r.data, r.pos + (ps - 4)⟩ h2
        cases hv : NoElf.parseBody ps id ⟨d, 0⟩ ⟨r.data, r.pos + (ps - 4)⟩ with
        | ok x =>
          obtain ⟨v, r1⟩ := x
          rw [hv] at h1
          obtain ⟨h5, h6, h7, h8⟩ := h1
          simp only at h5 h6 h7 h8
          exact ⟨h5, by omega, by omega, h8⟩
        | err e => rw [hv] at h1; exact h1
        | panic => rw [hv] at h1; exact h1

theorem Value.weight_pos (a : Value) : 1 ≤ a.weight := by cases a <;> simp only [Value.weight] <;> omega

theorem loop_sides (max : Nat) : ∀ (f : Nat) (r : Reader), r.pos ≤ r.data.length → r.data.length - r.pos < f →
    Sides (fun x y : List Value × Reader => SamePairs x.1 y.1 ∧ x.2 = y.2) (fun y => ∃ v ∈ y.1, Unreadable v)
      (P.whileLt Value.parse max f r) (P.whileLt NoElf.parse max f r)
  | 0, r, hr, hf => by omega
  | f + 1, r, hr, hf => by
    rw [P.whileLt, P.whileLt]
    by_cases hlt : r.pos < max
    · simp only [hlt, if_true]
      have h := parse_sides r
      have hg := Value.good r hr
      have hg' := NoElf.good r hr
      generalize Value.parse r = x at h hg
      generalize NoElf.parse r = y at h hg'
      cases h with
      | both a a' h =>
        obtain ⟨v, r1⟩ := a
        obtain ⟨v', r1'⟩ := a'
        obtain ⟨hv, hr1⟩ := h
        dsimp only at hv hr1
        subst hr1
        obtain ⟨hd, hm, hw, hl⟩ := hg
        have hp := Value.weight_pos v
        have ih := loop_sides max f r1 (by rw [hd]; exact hl) (by rw [hd]; omega)
        simp only [Res.bind_ok]
        generalize P.whileLt Value.parse max f r1 = x at ih
        generalize P.whileLt NoElf.parse max f r1 = y at ih
        cases ih with
        | both a a' h => exact .both _ _ ⟨.cons _ _ _ _ hv h.1, h.2⟩
        | same e => exact .same e
        | errs e e' h h' => exact .errs e e' h h'
        | more e a' h h' =>
          obtain ⟨u, hu, h'⟩ := h'
          exact .more e _ h ⟨u, List.mem_cons_of_mem _ hu, h'⟩
        | panic => exact .panic
      | same e => exact .same e
      | errs e e' h h' => exact .errs e e' h h'
      | more e a' h h' =>
        obtain ⟨v', r1⟩ := a'
        obtain ⟨hd, hm, hw, hl⟩ := hg'
        have hp := Value.weight_pos v'
        have hl2 := Good.whileLt NoElf.good Value.weight_pos max f r1 (by rw [hd]; exact hl) (by rw [hd]; omega)
        simp only [Res.bind_ok, Res.bind_err]
        generalize P.whileLt NoElf.parse max f r1 = y at hl2
        cases y with
        | ok z => exact .more e _ h ⟨v', List.mem_cons_self, h'⟩
        | err e' => exact .errs e e' h (Err.real_present hl2)
        | panic => exact absurd hl2 id
      | panic => exact .panic
    · simp only [hlt, if_false]
      exact .both _ _ ⟨.nil, rfl⟩

theorem extract_sides (d : Bytes) :
    Sides SamePairs (fun vs => ∃ v ∈ vs, Unreadable v) (extractValues d) (NoElf.extractValues d) := by
  unfold extractValues NoElf.extractValues P.loopTo
  have h := loop_sides d.length (d.length + 1) (Reader.new d) (Nat.zero_le _) (by simp [Reader.new])
  have e0 : (Reader.new d).data.length = d.length := rfl
  rw [e0]
  generalize P.whileLt Value.parse d.length (d.length + 1) (Reader.new d) = x at h
  generalize P.whileLt NoElf.parse d.length (d.length + 1) (Reader.new d) = y at h
  cases h with
  | both a a' h => exact .both _ _ h.1
  | same e => exact .same e
  | errs e e' h h' => exact .errs e e' h h'
  | more e a' h h' => exact .more e _ h h'
  | panic => exact .panic

/-- The relation on blocks. -/
abbrev BlockSides : Res SigningBlock → Res SigningBlock → Prop := Sides SameReading fun b => ∃ v ∈ b.content, Unreadable v

theorem full_sides (p : Profile) (d : Bytes) : BlockSides (parseFullBlock p d) (NoElf.parseFullBlock p d) := by
  unfold parseFullBlock NoElf.parseFullBlock
  refine Sides.ite (fun _ => .same _) fun _ => Sides.bind fun m _ => Sides.ite (fun _ => .same _) fun _ => Sides.bind fun s0 _ =>
    Sides.bind fun s1 _ => Sides.bind fun _ _ => Sides.ite (fun _ => .same _) fun _ => Sides.ite (fun _ => .same _) fun _ =>
    Sides.ite (fun _ => .same _) fun _ => Sides.bind fun inner _ => ?_
  have h := extract_sides inner
  generalize extractValues inner = x at h
  generalize NoElf.extractValues inner = y at h
  cases h with
  | both a a' h => exact .both _ _ ⟨a', rfl, h⟩
  | same e => exact .same e
  | errs e e' h h' => exact .errs e e' h h'
  | more e a' h h' => exact .more e _ h h'
  | panic => exact .panic

theorem fromU8_sides (p : Profile) (d : Bytes) : BlockSides (SigningBlock.fromU8 p d) (NoElf.fromU8 p d) := by
  unfold SigningBlock.fromU8 NoElf.fromU8
  refine Sides.ite (fun _ => .same _) fun _ => ?_
  generalize d.length - 16 = n
  induction n with
  | zero => exact .same _
  | succ n ih =>
    unfold fromU8Scan NoElf.fromU8Scan
    cases slice? d (n + 1) (n + 1 + 16) with
    | none => exact .same _
    | some m =>
      refine Sides.ite (fun _ => ?_) fun _ => ih
      unfold fromU8At NoElf.fromU8At
      refine Sides.bind fun a _ => Sides.bind fun sp _ => Sides.ite (fun _ => .same _) fun _ => Sides.bind fun x _ => Sides.bind fun y _ =>
        Sides.ite (fun _ => .same _) fun _ => Sides.bind fun full _ => full_sides p full

theorem moved_sides {p : Profile} {d : Bytes} {s t : Nat} :
    BlockSides (parseFullBlock p d >>= fun sig => .ok { sig with fileStart := s, fileEnd := t })
      (NoElf.parseFullBlock p d >>= fun sig => .ok { sig with fileStart := s, fileEnd := t }) := by
  have h := full_sides p d
  generalize parseFullBlock p d = x at h
  generalize NoElf.parseFullBlock p d = y at h
  cases h with
  | both a a' h =>
    obtain ⟨c', rfl, h⟩ := h
    exact .both _ _ ⟨c', rfl, h⟩
  | same e => exact .same e
  | errs e e' h h' => exact .errs e e' h h'
  | more e a' h h' => exact .more e _ h h'
  | panic => exact .panic

theorem fromReader_sides (p : Profile) (file : Bytes) (fl eo : Nat) :
    BlockSides (SigningBlock.fromReader p file fl eo) (NoElf.fromReader p file fl eo) := by
  unfold SigningBlock.fromReader NoElf.fromReader
  refine Sides.ite (fun _ => .same _) fun _ => Sides.bind fun window _ => ?_
  generalize min (fl - eo) maxWindow - 16 + 1 = n
  induction n with
  | zero => exact .same _
  | succ n ih =>
    unfold fromReaderScan NoElf.fromReaderScan
    cases slice? window n (n + 16) with
    | none => exact ih
    | some m =>
      refine Sides.ite (fun _ => Sides.ite (fun _ => ih) fun _ => ?_) fun _ => ih
      cases slice? window (n - 8) (n - 8 + 8) with
      | none => exact ih
      | some s =>
        dsimp only
        unfold fromReaderAt NoElf.fromReaderAt
        refine Sides.ite (fun _ => .same _) fun _ => Sides.ite (fun _ => .same _) fun _ => Sides.ite (fun _ => Sides.ite (fun _ => .same _)
          fun _ => Sides.bind fun full _ => moved_sides) fun _ => Sides.bind fun full _ => moved_sides

theorem getSigningBlock_sides (p : Profile) (file : Bytes) :
    BlockSides ((Module.new file).getSigningBlock p file) (NoElf.getSigningBlock p (Module.new file) file) := by
  unfold Module.getSigningBlock Module.getSigningBlockT NoElf.getSigningBlock
  exact Sides.bind fun eocd _ => fromReader_sides p file _ _

end Ksusig
