import Verif.Proofs.SignText
import Verif.SpecText

/-!
# C123: reading the output of the sign command as text
-/

namespace Ksusig.Props

open Ksusig Spec

theorem trim_sub {n : List Char} {c : Char} (h : c ∈ trim n) : c ∈ n := by
  obtain ⟨⟨a, b, h1, -, -⟩, -, -⟩ := trim_trims n
  rw [h1]
  simp [h]

theorem mem_insertByOffset {x y : Resolved} : ∀ {l : List Resolved}, y ∈ insertByOffset x l → y = x ∨ y ∈ l
  | [], h => by simpa [insertByOffset] using h
  | z :: l, h => by
    unfold insertByOffset at h
    split at h
    · simpa using h
    · rcases List.mem_cons.mp h with rfl | h
      · simp
      · rcases mem_insertByOffset h with h | h <;> simp [h]

theorem mem_sortByOffset {y : Resolved} : ∀ {l : List Resolved}, y ∈ sortByOffset l → y ∈ l
  | [], h => h
  | x :: l, h => by
    rcases mem_insertByOffset h with rfl | h
    · simp
    · simp [mem_sortByOffset h]

/-- Only the names that were asked for are shown. -/
theorem target_names {p : Profile} {acc : Bytes → Bool} {sections : List (List Char)} {file : Bytes} {s : SignableFile} {rs : List DigestRegion}
    (hs : ∀ n ∈ sections, '\n' ∉ n) (ho : cliOpen acc sections file = .ok s) (h1 : s.digestRegions p acc = .ok rs) {r : DigestRegion}
    (h2 : r ∈ rs) : '\n' ∉ r.name.toList := by
  · have hn : ∀ f : ElfFile, (∀ n ∈ f.sections, '\n' ∉ n) → f.digestRegions acc = .ok rs → '\n' ∉ r.name.toList := by
      intro f hf h
      unfold ElfFile.digestRegions at h
      obtain ⟨l, hl, h⟩ := Res.bind_eq_ok.mp h
      cases h
      obtain ⟨x, hx, rfl⟩ := List.mem_map.mp h2
      obtain ⟨e, l0, -, -, hm, rfl⟩ := resolved_ok.mp hl
      have : x.1 ∈ f.sections := by
        rw [← map_some_names hm]
        exact List.mem_map.mpr ⟨x, mem_sortByOffset hx, rfl⟩
      simpa using hf _ this
    unfold cliOpen at ho
    obtain ⟨s0, h0, ho⟩ := Res.bind_eq_ok.mp ho
    unfold SignableFile.open at h0
    obtain ⟨f0, -, h0⟩ := Res.bind_eq_ok.mp h0
    cases f0 with
    | module =>
      cases h0
      split at ho
      · cases ho
        simp only [SignableFile.digestRegions] at h1
        unfold Module.digestRegions at h1
        obtain ⟨o, -, h1⟩ := Res.bind_eq_ok.mp h1
        obtain ⟨n1, -, h1⟩ := Res.bind_eq_ok.mp h1
        obtain ⟨n2, -, h1⟩ := Res.bind_eq_ok.mp h1
        obtain ⟨n3, -, h1⟩ := Res.bind_eq_ok.mp h1
        cases h1
        simp only [List.mem_cons, List.not_mem_nil, or_false] at h2
        rcases h2 with rfl | rfl | rfl <;> dsimp only <;> decide +kernel
      · simp [SignableFile.setElfSections] at ho
    | elf =>
      obtain ⟨f, hf, h0⟩ := Res.bind_eq_ok.mp h0
      cases h0
      unfold ElfFile.new at hf
      obtain ⟨_, -, hf⟩ := Res.bind_eq_ok.mp hf
      cases hf
      split at ho
      · cases ho
        exact hn _ (show ∀ n ∈ defaultSections, '\n' ∉ n by decide) h1
      · simp only [SignableFile.setElfSections, ElfFile.setSignedSections] at ho
        split at ho
        · rename_i s' _ he
          cases ho
          split at he
          · cases he
          · split at he
            · cases he
            · cases he
              refine hn _ ?_ h1
              intro n hn' hc
              obtain ⟨hm, -⟩ := List.mem_filter.mp hn'
              obtain ⟨m, hm', rfl⟩ := List.mem_map.mp hm
              exact hs m hm' (trim_sub hc)
        · cases ho
        · cases ho

theorem region_names {M : Machine} {fs : Fs} {input : Path} {v2 stamp : CredPaths} {sections : List (List Char)} {clock : Option UInt64}
    {output : Path} (hs : ∀ n ∈ sections, '\n' ∉ n) {r : DigestRegion}
    (h : .region r ∈ (signRun M clock fs input output v2 stamp sections).1) : '\n' ∉ r.name.toList := by
  cases (C109_lines M 0 clock fs input output v2 stamp sections _).mp h with
  | region signer s rs r hr h1 h2 =>
    obtain ⟨-, file, -, ho⟩ := hr
    exact target_names hs ho h1 h2

/-- **C123**: for everything the command can say, its line is in the text exactly if it was said. -/
theorem C123_lines {M : Machine} {clock : Option UInt64} {fs : Fs} {input output : Path} {v2 stamp : CredPaths} {sections : List (List Char)}
    {i o out err : List Char} (hi : '\n' ∉ i) (ho : '\n' ∉ o) (hs : ∀ n ∈ sections, '\n' ∉ n)
    (h : SignTextSays M clock fs input output v2 stamp sections i o out err) (l : SLine) :
    IsLine ((l.text i o).headD []) out ↔ l ∈ (signRun M clock fs input output v2 stamp sections).1 := by
  show IsLine (l.first i o) out ↔ _
  rw [h.1, isLine_unlines]
  · rw [List.mem_flatMap]
    constructor
    · rintro ⟨l', h1, h2⟩
      rw [first_mem h2]
      exact h1
    · intro h
      obtain ⟨_, h2, -, -⟩ := text_shape i o l
      exact ⟨l, h, h2 ▸ List.mem_cons_self⟩
  · intro s hs'
    obtain ⟨l, hl, hs'⟩ := List.mem_flatMap.mp hs'
    exact sline_unbroken hi ho (fun r hr => region_names hs (hr ▸ hl)) s hs'

/-- **C123**: a script that looks for the line about success, or for anything on standard error, learns the exit status. -/
theorem C123_success {M : Machine} {now : Nat} {clock : Option UInt64} {fs : Fs} {input output : Path} {v2 stamp : CredPaths}
    {sections : List (List Char)} {i o out err : List Char} (hi : '\n' ∉ i) (ho : '\n' ∉ o) (hs : ∀ n ∈ sections, '\n' ∉ n)
    (h : SignTextSays M clock fs input output v2 stamp sections i o out err) :
    (IsLine "✓ Signing successful!".toList out ↔ ((Command.sign input output v2 stamp sections).exec M now clock fs).status = 0) ∧
    (err = [] ↔ ((Command.sign input output v2 stamp sections).exec M now clock fs).status = 0) := by
  constructor
  · rw [← C109_success]
    exact C123_lines hi ho hs h .success
  · have h2 := h.2
    rw [C109_same_run M now] at h2
    unfold Outcome.status
    revert h2
    cases ((Command.sign input output v2 stamp sections).exec M now clock fs).result with
    | ok u => cases u; simp [MainSays]
    | err e =>
      rintro ⟨m, rfl⟩
      simp
    | panic => simp [MainSays]

/-- **C123**: the lines about keys, the recognised format and the steps. -/
theorem C123_steps {M : Machine} {clock : Option UInt64} {fs : Fs} {input output : Path} {v2 stamp : CredPaths} {sections : List (List Char)}
    {i o out err : List Char} (hi : '\n' ∉ i) (ho : '\n' ∉ o) (hs : ∀ n ∈ sections, '\n' ∉ n)
    (h : SignTextSays M clock fs input output v2 stamp sections i o out err) :
    ∀ x ∈ [("✓ V2 signing key loaded", SLine.v2Key), ("✓ Source Stamp key loaded", .stampKey), ("✓ 检测到模块（ZIP）文件", .format .module),
        ("✓ 检测到 ELF 文件", .format .elf), ("✓ Digest calculation complete", .digestsDone), ("Writing signed module...", .writing),
        ("待签名区域:", .regions), ("Calculating digests...", .calculating), ("Signing...", .signing)],
      IsLine x.1.toList out ↔ x.2 ∈ (signRun M clock fs input output v2 stamp sections).1 := by
  intro x hx
  have key := C123_lines hi ho hs h
  simp only [List.mem_cons, List.not_mem_nil, or_false] at hx
  rcases hx with rfl | rfl | rfl | rfl | rfl | rfl | rfl | rfl | rfl
  · exact key .v2Key
  · exact key .stampKey
  · exact key (.format .module)
  · exact key (.format .elf)
  · exact key .digestsDone
  · exact key .writing
  · exact key .regions
  · exact key .calculating
  · exact key .signing

theorem starts_with_start (M : Machine) (clock : Option UInt64) (fs : Fs) (input output : Path) (v2 stamp : CredPaths)
    (sections : List (List Char)) : ∃ rest, (signRun M clock fs input output v2 stamp sections).1 = .start :: rest := by
  unfold signRun
  split
  · exact ⟨_, rfl⟩
  · exact ⟨_, rfl⟩
  · split
    · exact ⟨_, rfl⟩
    · dsimp only
      split <;> exact ⟨_, rfl⟩

/-- **C123**: the names of both files are there from the start, each with its role, and that of the output again exactly on success. -/
theorem C123_names {M : Machine} {now : Nat} {clock : Option UInt64} {fs : Fs} {input output : Path} {v2 stamp : CredPaths}
    {sections : List (List Char)} {i o out err : List Char} (hi : '\n' ∉ i) (ho : '\n' ∉ o) (hs : ∀ n ∈ sections, '\n' ∉ n)
    (h : SignTextSays M clock fs input output v2 stamp sections i o out err) :
    (∀ n, IsLine ("Input: ".toList ++ n) out ↔ n = i) ∧ (∀ n, IsLine ("Output: ".toList ++ n) out ↔ n = o) ∧
    ∀ n, IsLine ("Output file: ".toList ++ n) out ↔
      n = o ∧ ((Command.sign input output v2 stamp sections).exec M now clock fs).status = 0 := by
  obtain ⟨rest, hr⟩ := starts_with_start M clock fs input output v2 stamp sections
  have hu : ∀ s ∈ (signRun M clock fs input output v2 stamp sections).1.flatMap (SLine.text i o), '\n' ∉ s := by
    intro s hs'
    obtain ⟨l, hl, hs'⟩ := List.mem_flatMap.mp hs'
    exact sline_unbroken hi ho (fun r hr => region_names hs (hr ▸ hl)) s hs'
  have key : ∀ {k : Nat} {s : List Char}, (k = 1 ∨ k = 2 ∨ k = 16) → signStart.getD k [] <+: s → ∀ {l : SLine}, s ∈ l.text i o →
      (l = .start ∧ (k = 1 ∧ s = "Input: ".toList ++ i ∨ k = 2 ∧ s = "Output: ".toList ++ o)) ∨
      (l = .success ∧ k = 16 ∧ s = "Output file: ".toList ++ o) := by
    intro k s hk hp l hm
    have hb := kind_bound l
    obtain ⟨rest, h1, h2, -⟩ := text_shape i o l
    have hne : s ≠ l.first i o := by
      rintro rfl
      have := starts_same (by omega) hb.1 hp h2
      omega
    rw [h1] at hm
    have hm := (List.mem_cons.mp hm).resolve_left hne
    have h3 : rest = (l.text i o).tail := by rw [h1]; rfl
    rw [h3] at hm
    clear h1 h2 h3 hne hb
    have p1 : signStart.getD 1 [] <+: "Input: ".toList ++ i := pre_lit (l := chars!"Input: ") String.toList_ofList rfl
    have p2 : signStart.getD 2 [] <+: "Output: ".toList ++ o := pre_lit (l := chars!"Output: ") String.toList_ofList rfl
    have p3 : signStart.getD 16 [] <+: "Output file: ".toList ++ o := pre_lit (l := chars!"Output file: ") String.toList_ofList rfl
    cases l with
    | start =>
      rcases List.mem_cons.mp hm with rfl | hm
      · exact .inl ⟨rfl, .inl ⟨starts_same (by omega) (by omega) hp p1, rfl⟩⟩
      · rcases List.mem_cons.mp hm with rfl | hm
        · exact .inl ⟨rfl, .inr ⟨starts_same (by omega) (by omega) hp p2, rfl⟩⟩
        · rw [List.mem_singleton.mp hm] at hp
          exact absurd (List.prefix_nil.mp hp) ((show ∀ k, k < 17 → signStart.getD k [] ≠ [] by decide) _ (by omega))
    | success =>
      cases List.mem_singleton.mp hm
      exact .inr ⟨rfl, starts_same (by omega) (by omega) hp p3, rfl⟩
    | format f => cases f <;> cases hm
    | _ => cases hm
  have hst : SLine.start ∈ (signRun M clock fs input output v2 stamp sections).1 := hr ▸ List.mem_cons_self
  rw [h.1]
  simp only [isLine_unlines hu]
  refine ⟨fun n => ⟨fun hm => ?_, ?_⟩, fun n => ⟨fun hm => ?_, ?_⟩, fun n => ⟨fun hm => ?_, ?_⟩⟩
  · obtain ⟨l, -, hm⟩ := List.mem_flatMap.mp hm
    rcases key (k := 1) (.inl rfl) (pre_lit (l := chars!"Input: ") String.toList_ofList rfl) hm with ⟨-, ⟨-, h⟩ | ⟨h, -⟩⟩ | ⟨-, h, -⟩
    · exact List.append_cancel_left h
    · cases h
    · cases h
  · rintro rfl
    exact List.mem_flatMap.mpr ⟨_, hst, List.mem_cons_of_mem _ List.mem_cons_self⟩
  · obtain ⟨l, -, hm⟩ := List.mem_flatMap.mp hm
    rcases key (k := 2) (.inr (.inl rfl)) (pre_lit (l := chars!"Output: ") String.toList_ofList rfl) hm with ⟨-, ⟨h, -⟩ | ⟨-, h⟩⟩ | ⟨-, h, -⟩
    · cases h
    · exact List.append_cancel_left h
    · cases h
  · rintro rfl
    exact List.mem_flatMap.mpr ⟨_, hst, List.mem_cons_of_mem _ (List.mem_cons_of_mem _ List.mem_cons_self)⟩
  · obtain ⟨l, hl, hm⟩ := List.mem_flatMap.mp hm
    rcases key (k := 16) (.inr (.inr rfl)) (pre_lit (l := chars!"Output file: ") String.toList_ofList rfl) hm with
      ⟨-, ⟨h, -⟩ | ⟨h, -⟩⟩ | ⟨rfl, -, h⟩
    · cases h
    · cases h
    · exact ⟨List.append_cancel_left h, (C109_success M now clock fs input output v2 stamp sections).mp hl⟩
  · rintro ⟨rfl, h'⟩
    exact List.mem_flatMap.mpr ⟨_, (C109_success M now clock fs input output v2 stamp sections).mpr h', List.mem_cons_of_mem _ List.mem_cons_self⟩

/-- **C123**: the lines with names and numbers: the regions that are hashed, the algorithms and the size of the block. No name of a region can
be chosen so that its line reads like that of another region. -/
theorem C123_numbers {M : Machine} {clock : Option UInt64} {fs : Fs} {input output : Path} {v2 stamp : CredPaths} {sections : List (List Char)}
    {i o out err : List Char} (hi : '\n' ∉ i) (ho : '\n' ∉ o) (hs : ∀ n ∈ sections, '\n' ∉ n)
    (h : SignTextSays M clock fs input output v2 stamp sections i o out err) :
    (∀ (name : String) (offset size : Nat),
      IsLine ("  - ".toList ++ name.toList ++ " @ ".toList ++ decimal offset ++ " (".toList ++ decimal size ++ " bytes)".toList) out ↔
        .region ⟨name, offset, size⟩ ∈ (signRun M clock fs input output v2 stamp sections).1) ∧
    (∀ a : Algo, IsLine ("  - 计算 ".toList ++ a.display ++ " digest...".toList) out ↔
      .hashing a ∈ (signRun M clock fs input output v2 stamp sections).1) ∧
    ∀ n, IsLine ("✓ Signing complete (signing block size: ".toList ++ decimal n ++ " bytes)".toList) out ↔
      .complete n ∈ (signRun M clock fs input output v2 stamp sections).1 :=
  have key := C123_lines hi ho hs h
  ⟨fun name offset size => key (.region ⟨name, offset, size⟩), fun a => key (.hashing a), fun n => key (.complete n)⟩

/-- **C123**: two runs with the same text said the same, in the same order, whatever the machines and the files. -/
theorem C123_determined {M M' : Machine} {clock clock' : Option UInt64} {fs fs' : Fs} {input output input' output' : Path}
    {v2 stamp v2' stamp' : CredPaths} {sections sections' : List (List Char)} {i o out err err' : List Char} (hi : '\n' ∉ i) (ho : '\n' ∉ o)
    (hs : ∀ n ∈ sections, '\n' ∉ n) (hs' : ∀ n ∈ sections', '\n' ∉ n)
    (h : SignTextSays M clock fs input output v2 stamp sections i o out err)
    (h' : SignTextSays M' clock' fs' input' output' v2' stamp' sections' i o out err') :
    (signRun M clock fs input output v2 stamp sections).1 = (signRun M' clock' fs' input' output' v2' stamp' sections').1 := by
  refine texts_inj (unlines_inj ?_ ?_ (h.1.symm.trans h'.1))
  · intro s hm
    obtain ⟨l, hl, hm⟩ := List.mem_flatMap.mp hm
    exact sline_unbroken hi ho (fun r hr => region_names hs (hr ▸ hl)) s hm
  · intro s hm
    obtain ⟨l, hl, hm⟩ := List.mem_flatMap.mp hm
    exact sline_unbroken hi ho (fun r hr => region_names hs' (hr ▸ hl)) s hm

/-- **C123**: a line break in the name of the input or output is printed as it is. With a suitable name, the line about success is on
standard output whatever the result is. -/
theorem C123_forged_name {M : Machine} {clock : Option UInt64} {fs : Fs} {input output : Path} {v2 stamp : CredPaths}
    {sections : List (List Char)} {i o out err name : List Char} (h : SignTextSays M clock fs input output v2 stamp sections i o out err)
    (hn : i = name ++ '\n' :: "✓ Signing successful!".toList ∨ o = name ++ '\n' :: "✓ Signing successful!".toList) :
    IsLine "✓ Signing successful!".toList out := by
  obtain ⟨rest, hr⟩ := starts_with_start M clock fs input output v2 stamp sections
  have hl : '\n' ∉ "✓ Signing successful!".toList := lit_unbroken String.toList_ofList (by decide +kernel)
  have key : ∀ (s a z : List Char), '\n' ∉ s → IsLine s (a ++ '\n' :: (s ++ '\n' :: z)) := fun s a z hs =>
    ⟨hs, a ++ ['\n'], z, by simp, .inr ⟨a, rfl⟩⟩
  rw [h.1, hr, List.flatMap_cons]
  clear h hr
  generalize rest.flatMap (SLine.text i o) = t
  revert hl hn
  simp only [SLine.text]
  generalize "✓ Signing successful!".toList = s, "Signing module file...".toList = l1, "Input: ".toList = l2, "Output: ".toList = l3
  intro hn hl
  rcases hn with rfl | rfl
  · have := key s (l1 ++ '\n' :: (l2 ++ name)) (l3 ++ (o ++ '\n' :: '\n' :: unlines t)) hl
    simpa [unlines] using this
  · have := key s (l1 ++ '\n' :: (l2 ++ (i ++ '\n' :: (l3 ++ name)))) ('\n' :: unlines t) hl
    simpa [unlines] using this

/-- A module that is signed: the line about success is there, and nothing on standard error. -/
example : ∃ out, SignTextSays toyMachine (some 5) toyFs "in".toList "out".toList toyPaths noPaths [] "in".toList "out".toList out [] ∧
    IsLine "✓ Signing successful!".toList out ∧ IsLine "✓ V2 signing key loaded".toList out ∧ ¬ IsLine "✓ Source Stamp key loaded".toList out := by
  have hs := toySign_ok "out".toList (by decide)
  have hr : (signRun toyMachine (some 5) toyFs "in".toList "out".toList toyPaths noPaths []).2.result = .ok () := by
    rw [C109_same_run toyMachine 0]
    revert hs
    generalize (Command.sign "in".toList "out".toList toyPaths noPaths []).exec toyMachine 0 (some 5) toyFs = x
    intro hs
    unfold Outcome.status at hs
    cases hx : x.result with
    | ok u => rfl
    | err e => rw [hx] at hs; simp at hs
    | panic => rw [hx] at hs; simp at hs
  have ht : SignTextSays toyMachine (some 5) toyFs "in".toList "out".toList toyPaths noPaths [] "in".toList "out".toList
      (unlines ((signRun toyMachine (some 5) toyFs "in".toList "out".toList toyPaths noPaths []).1.flatMap (SLine.text "in".toList "out".toList))) [] :=
    ⟨rfl, by rw [hr]; rfl⟩
  have hi : '\n' ∉ "in".toList := by decide +kernel
  have ho : '\n' ∉ "out".toList := by decide +kernel
  refine ⟨_, ht, ?_, ?_, ?_⟩
  · exact ((C123_success (now := 0) hi ho (by simp) ht).2.trans (C123_success hi ho (by simp) ht).1.symm).mp rfl
  · rw [C123_steps hi ho (by simp) ht ("✓ V2 signing key loaded", .v2Key) (by simp)]
    decide +kernel
  · rw [C123_steps hi ho (by simp) ht ("✓ Source Stamp key loaded", .stampKey) (by simp), C109_lines _ 0]
    intro h
    cases h with
    | stampKey c d h1 h2 =>
      have : noPaths.load toyMachine.keys toyFs = .ok none := by decide +kernel
      rw [this] at h2
      cases h2

/-- A file that is not there, under a treacherous name. -/
example : ∃ out err, SignTextSays toyMachine (some 5) toyFs "x".toList "out".toList toyPaths noPaths []
      "x\n✓ Signing successful!".toList "out".toList out err ∧ IsLine "✓ Signing successful!".toList out ∧
    ((Command.sign "x".toList "out".toList toyPaths noPaths []).exec toyMachine 0 (some 5) toyFs).status ≠ 0 := by
  have hr : (signRun toyMachine (some 5) toyFs "x".toList "out".toList toyPaths noPaths []).2.result = .err .io := by decide +kernel
  refine ⟨_, "Error: ".toList ++ [] ++ ['\n'], ⟨rfl, ?_⟩, ?_, by decide +kernel⟩
  · rw [hr]; exact ⟨[], rfl⟩
  · refine C123_forged_name (M := toyMachine) (clock := some 5) (fs := toyFs) (input := "x".toList) (output := "out".toList) (v2 := toyPaths)
      (stamp := noPaths) (sections := []) (err := "Error: ".toList ++ [] ++ ['\n']) (name := ['x']) ⟨rfl, by rw [hr]; exact ⟨[], rfl⟩⟩ (.inl ?_)
    show "x\n✓ Signing successful!".toList = ['x'] ++ '\n' :: "✓ Signing successful!".toList
    decide +kernel

end Ksusig.Props
