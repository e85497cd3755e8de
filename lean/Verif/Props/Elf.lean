import Verif.Proofs.ElfSelect
import Verif.ElfSamples

/-! # Choosing the sections of an ELF file: C44, C45 -/

namespace Ksusig.Props

open Ksusig Spec

/-- In the examples goblin finds nothing else to complain about. -/
def anyElf : Bytes → Bool := fun _ => true

theorem map_trim {T : List Char → List Char} (hT : ∀ n, Trims n (T n)) (l : List (List Char)) : l.map trim = l.map T :=
  List.map_congr_left fun n _ => trims_unique (trim_trims n) (hT n)

/-- C45, one call: it succeeds exactly when some name is not blank and none is the signature section; then the selection is
the names without white space at their ends, without blank ones, in order. Otherwise nothing changes. -/
theorem C45_set_sections (f : ElfFile) (names : List (List Char)) {T : List Char → List Char} (hT : ∀ n, Trims n (T n)) :
    ((f.setSignedSections names).2 = .ok () ↔ (∃ n ∈ names, T n ≠ []) ∧ ∀ n ∈ names, ¬ IsKsuName (T n)) ∧
      ((f.setSignedSections names).2 = .ok () →
        (f.setSignedSections names).1 = { f with sections := (names.map T).filter (· ≠ []) }) ∧
      ((f.setSignedSections names).2 ≠ .ok () → (f.setSignedSections names).1 = f) := by
  have hfil : ((names.map trim).filter fun s => !s.isEmpty) = (names.map T).filter (· ≠ []) := by
    rw [map_trim hT]
    apply List.filter_congr
    intro x _
    cases x <;> simp
  have hemp : ((names.map T).filter (· ≠ [])).isEmpty = true ↔ ¬ ∃ n ∈ names, T n ≠ [] := by
    rw [List.isEmpty_iff, List.filter_eq_nil_iff]
    simp
  have hany : (((names.map T).filter (· ≠ [])).any fun s => eqIgnoreCase s ksuSection) = true ↔
      ¬ ∀ n ∈ names, ¬ IsKsuName (T n) := by
    rw [List.any_eq_true]
    constructor
    · rintro ⟨x, hx, hk⟩ h
      obtain ⟨n, hn, rfl⟩ := List.mem_map.mp (List.mem_filter.mp hx).1
      exact h n hn (isKsuName_iff.mp hk)
    · intro h
      have : ∃ n ∈ names, IsKsuName (T n) := by
        refine Classical.byContradiction fun h' => h fun n hn hk => h' ⟨n, hn, hk⟩
      obtain ⟨n, hn, hk⟩ := this
      refine ⟨T n, List.mem_filter.mpr ⟨List.mem_map.mpr ⟨n, hn, rfl⟩, ?_⟩, isKsuName_iff.mpr hk⟩
      have : T n ≠ [] := by
        intro h0
        rw [h0] at hk
        exact absurd hk (by unfold IsKsuName; decide +kernel)
      simpa using this
  unfold ElfFile.setSignedSections
  dsimp only
  rw [hfil]
  by_cases h1 : ((names.map T).filter (· ≠ [])).isEmpty = true
  · rw [if_pos h1]
    refine ⟨⟨fun h => (by cases h), fun h => absurd h.1 (hemp.mp h1)⟩, fun h => (by cases h), fun _ => rfl⟩
  · rw [if_neg h1]
    by_cases h2 : (((names.map T).filter (· ≠ [])).any fun s => eqIgnoreCase s ksuSection) = true
    · rw [if_pos h2]
      refine ⟨⟨fun h => (by cases h), fun h => absurd h.2 (hany.mp h2)⟩, fun h => (by cases h), fun _ => rfl⟩
    · rw [if_neg h2]
      refine ⟨⟨fun _ => ⟨?_, ?_⟩, fun _ => rfl⟩, fun _ => rfl, fun h => absurd rfl h⟩
      · exact Classical.byContradiction fun h => h1 (hemp.mpr h)
      · exact Classical.byContradiction fun h => h2 (hany.mpr h)

example : ∃ T : List Char → List Char, (∀ n, Trims n (T n)) := ⟨trim, trim_trims⟩
example : (ElfFile.setSignedSections ⟨elf64, defaultSections⟩ ["  .rodata\t".toList, "  ".toList]).1.sections = [".rodata".toList] ∧
    (ElfFile.setSignedSections ⟨elf64, defaultSections⟩ [".text".toList, " .KSU_sign".toList]).1.sections = defaultSections ∧
    (ElfFile.setSignedSections ⟨elf64, defaultSections⟩ [".text".toList, " .KSU_sign".toList]).2 = .err .elf := by
  decide +kernel

/-- C45, all histories of calls: the selection is never empty, and holds no blank or untrimmed name and never the signature
section. -/
theorem C45_selection {acc : Bytes → Bool} {f : ElfFile} (h : OpenElf acc f) :
    f.sections ≠ [] ∧ ∀ n ∈ f.sections, n ≠ [] ∧ Trims n n ∧ ¬ IsKsuName n := by
  induction h with
  | opened h =>
    unfold ElfFile.new at h
    obtain ⟨e, _, h⟩ := Res.bind_eq_ok.mp h
    cases h
    dsimp only
    refine ⟨by decide, ?_⟩
    have key : ∀ n ∈ defaultSections, n ≠ [] ∧ trim n = n ∧ ¬ eqIgnoreCase n ksuSection = true := by decide +kernel
    intro n hn
    obtain ⟨h1, h2, h3⟩ := key n hn
    refine ⟨h1, ?_, fun hk => h3 (isKsuName_iff.mpr hk)⟩
    have := trim_trims n
    rwa [h2] at this
  | select names _ ih =>
    rename_i f _
    obtain ⟨h1, h2, h3⟩ := C45_set_sections f names trim_trims
    by_cases hr : (f.setSignedSections names).2 = .ok ()
    · obtain ⟨⟨n0, hn0, hne⟩, hk⟩ := h1.mp hr
      rw [h2 hr]
      dsimp only
      refine ⟨?_, ?_⟩
      · refine List.ne_nil_of_mem (a := trim n0) (List.mem_filter.mpr ⟨List.mem_map.mpr ⟨n0, hn0, rfl⟩, by simpa using hne⟩)
      · intro n hn
        obtain ⟨hm, hne⟩ := List.mem_filter.mp hn
        obtain ⟨m, hm', rfl⟩ := List.mem_map.mp hm
        have ht := trim_trims m
        exact ⟨by simpa using hne, ⟨⟨[], [], by simp, by simp, by simp⟩, ht.front, ht.back⟩, hk m hm'⟩
    · rw [h3 hr]; exact ih

/-- C45, the data of the file never changes by choosing sections. -/
theorem C45_data_kept (f : ElfFile) (names : List (List Char)) : (f.setSignedSections names).1.data = f.data := by
  obtain ⟨_, h2, h3⟩ := C45_set_sections f names trim_trims
  by_cases hr : (f.setSignedSections names).2 = .ok ()
  · rw [h2 hr]
  · rw [h3 hr]

set_option maxRecDepth 100000 in
example : OpenElf anyElf ⟨elf64, [".rodata".toList]⟩ := by
  have h : OpenElf anyElf ⟨elf64, defaultSections⟩ := .opened (data := elf64) (by decide +kernel)
  have h2 := OpenElf.select ["  .rodata\t".toList] h
  exact (show ((ElfFile.setSignedSections ⟨elf64, defaultSections⟩ ["  .rodata\t".toList]).1 = ⟨elf64, [".rodata".toList]⟩)
    by decide +kernel) ▸ h2

/-- C45, what is resolved: exactly the chosen names, each with the place of the first section of that name, which has bytes in
the file, by increasing offset. -/
theorem C45_resolved {acc : Bytes → Bool} {f : ElfFile} {l : List Resolved} (h : f.resolvedSections acc = .ok l) :
    ∃ e, decodeElf f.data = some e ∧ List.Perm (l.map fun x => x.1) f.sections ∧
      l.Pairwise (fun x y => x.2.1 ≤ y.2.1) ∧
      ∀ x ∈ l, ∃ s, FirstNamed e (utf8 x.1) s ∧ HasBytes s ∧ x.2.1 = s.offset ∧ x.2.2 = s.size := by
  obtain ⟨e, l0, hd, _, hl, rfl⟩ := resolved_ok.mp h
  refine ⟨e, hd, ?_, sortByOffset_sorted l0, ?_⟩
  · have := (sortByOffset_perm l0).map (fun x => x.1)
    rwa [map_some_names hl] at this
  · intro x hx
    have hx' := (sortByOffset_perm l0).mem_iff.mp hx
    have : some x ∈ f.sections.map e.lookup := by rw [hl]; exact List.mem_map.mpr ⟨x, hx', rfl⟩
    obtain ⟨n, _, hn⟩ := List.mem_map.mp this
    obtain ⟨s, h1, h2, rfl⟩ := lookup_some.mp hn
    exact ⟨s, h1, h2, rfl, rfl⟩

/-- C45, when resolving succeeds: exactly when every chosen name has a section with bytes in the file. -/
theorem C45_resolves_iff (acc : Bytes → Bool) (f : ElfFile) :
    (∃ l, f.resolvedSections acc = .ok l) ↔ acc f.data = true ∧ ∃ e, decodeElf f.data = some e ∧
      ∀ n ∈ f.sections, ∃ s, FirstNamed e (utf8 n) s ∧ HasBytes s := by
  constructor
  · rintro ⟨l, h⟩
    obtain ⟨e, l0, hd, ha, hl, rfl⟩ := resolved_ok.mp h
    refine ⟨ha, e, hd, ?_⟩
    intro n hn
    have : e.lookup n ∈ l0.map some := by rw [← hl]; exact List.mem_map.mpr ⟨n, hn, rfl⟩
    obtain ⟨x, _, hx⟩ := List.mem_map.mp this
    obtain ⟨s, h1, h2, _⟩ := lookup_some.mp hx.symm
    exact ⟨s, h1, h2⟩
  · rintro ⟨ha, e, hd, h⟩
    obtain ⟨l0, hl⟩ := exists_map_some (g := e.lookup) (ns := f.sections) (fun n hn => by
      obtain ⟨s, h1, h2⟩ := h n hn
      exact ⟨_, lookup_some.mpr ⟨s, h1, h2, rfl⟩⟩)
    exact ⟨sortByOffset l0, resolved_ok.mpr ⟨e, l0, hd, ha, hl, rfl⟩⟩

set_option maxRecDepth 100000 in
example : (⟨elf64, [".rodata".toList, ".text".toList]⟩ : ElfFile).resolvedSections anyElf =
    .ok [(".text".toList, 64, 8), (".rodata".toList, 72, 4)] := by decide +kernel
set_option maxRecDepth 100000 in
example : (⟨elf32, [".rodata".toList, ".text".toList]⟩ : ElfFile).resolvedSections anyElf =
    .ok [(".text".toList, 52, 3), (".rodata".toList, 55, 2)] := by decide +kernel
set_option maxRecDepth 100000 in
example : (⟨elf32, [".rodata".toList, ".data".toList]⟩ : ElfFile).resolvedSections anyElf = .err .elf := by decide +kernel

/-- C44: naming the same sections in another order gives the same resolved sections and the same digest, when their offsets are
distinct. -/
theorem C44_order_irrelevant {acc : Bytes → Bool} {data : Bytes} {s s' : List (List Char)} {l : List Resolved}
    (hp : List.Perm s s') (h : (⟨data, s⟩ : ElfFile).resolvedSections acc = .ok l) (hn : (l.map fun x => x.2.1).Nodup) :
    (⟨data, s'⟩ : ElfFile).resolvedSections acc = .ok l ∧
      ∀ (E : Env) (algo : Algo), (⟨data, s'⟩ : ElfFile).digest E acc algo = (⟨data, s⟩ : ElfFile).digest E acc algo := by
  have key : (⟨data, s'⟩ : ElfFile).resolvedSections acc = .ok l := by
    obtain ⟨e, l0, hd, ha, hl, rfl⟩ := resolved_ok.mp h
    obtain ⟨l1, hl1⟩ := exists_map_some (g := e.lookup) (ns := s') (fun n hn => by
      have : e.lookup n ∈ l0.map some := by rw [← hl]; exact List.mem_map.mpr ⟨n, hp.mem_iff.mpr hn, rfl⟩
      obtain ⟨x, _, hx⟩ := List.mem_map.mp this
      exact ⟨x, hx.symm⟩)
    have hp2 : List.Perm (l0.map some) (l1.map some) := by
      rw [← hl, ← hl1]; exact hp.map _
    have hp3 : List.Perm l0 l1 := by
      have := hp2.filterMap id
      simpa [List.filterMap_map] using this
    refine resolved_ok.mpr ⟨e, l1, hd, ha, hl1, ?_⟩
    exact sorted_unique ((sortByOffset_perm l0).trans (hp3.trans (sortByOffset_perm l1).symm)) (sortByOffset_sorted _)
      (sortByOffset_sorted _) hn
  refine ⟨key, ?_⟩
  intro E algo
  unfold ElfFile.digest
  rw [key, h]

set_option maxRecDepth 100000 in
example : List.Perm [".rodata".toList, ".text".toList] [".text".toList, ".rodata".toList] ∧
    (⟨elf64, [".rodata".toList, ".text".toList]⟩ : ElfFile).resolvedSections anyElf =
      .ok [(".text".toList, 64, 8), (".rodata".toList, 72, 4)] ∧
    (([(".text".toList, 64, 8), (".rodata".toList, 72, 4)] : List Resolved).map fun x => x.2.1).Nodup := by
  refine ⟨.swap _ _ _, by decide +kernel, by decide +kernel⟩

set_option maxRecDepth 100000 in
/-- C44: without distinct offsets the order matters. -/
theorem C44_same_offset_order : (⟨elfOverlap, [".text".toList, ".rodata".toList]⟩ : ElfFile).resolvedSections anyElf =
      .ok [(".text".toList, 64, 3), (".rodata".toList, 64, 2)] ∧
    (⟨elfOverlap, [".rodata".toList, ".text".toList]⟩ : ElfFile).resolvedSections anyElf =
      .ok [(".rodata".toList, 64, 2), (".text".toList, 64, 3)] := by
  constructor <;> decide +kernel

end Ksusig.Props
