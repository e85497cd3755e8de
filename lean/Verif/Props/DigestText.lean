import Verif.Proofs.DigestText
import Verif.Props.SignText

/-!
# C124: reading the output of the digest command as text
-/

namespace Ksusig.Props

open Ksusig Spec

theorem hexDigit_alnum : ∀ {n : Nat}, n < 16 → (hexDigit n).isAlphanum = true := by decide

theorem base64Digit_chars : ∀ {n : Nat}, n < 64 → (base64Digit n).isAlphanum = true ∨ base64Digit n = '+' ∨ base64Digit n = '/' := by
  decide +kernel

theorem render_chars (f : OutputFormat) (d : Bytes) : ∀ c ∈ f.render d, c.isAlphanum = true ∨ c = '+' ∨ c = '/' ∨ c = '=' := by
  cases f with
  | hex =>
    intro c hc
    obtain ⟨b, -, hc⟩ := List.mem_flatMap.mp (show c ∈ hexEncode d from hc)
    have hb : b.toNat < 256 := b.toNat_lt
    simp only [List.mem_cons, List.not_mem_nil, or_false] at hc
    rcases hc with rfl | rfl <;> exact .inl (hexDigit_alnum (by omega))
  | base64 =>
    show ∀ c ∈ base64Encode d, _
    have key : ∀ {n : Nat} {c : Char}, n < 64 → c = base64Digit n → c.isAlphanum = true ∨ c = '+' ∨ c = '/' ∨ c = '=' := by
      rintro n c hn rfl
      rcases base64Digit_chars hn with h | h | h <;> simp [h]
    fun_induction base64Encode d with
    | case1 => nofun
    | case2 a =>
      have ha : a.toNat < 256 := a.toNat_lt
      intro c hc
      simp only [List.mem_cons, List.not_mem_nil, or_false] at hc
      rcases hc with h | h | h | h
      · exact key (by omega) h
      · exact key (by omega) h
      · simp [h]
      · simp [h]
    | case3 a b =>
      have ha : a.toNat < 256 := a.toNat_lt
      have hb : b.toNat < 256 := b.toNat_lt
      intro c hc
      simp only [List.mem_cons, List.not_mem_nil, or_false] at hc
      rcases hc with h | h | h | h
      · exact key (by omega) h
      · exact key (by omega) h
      · exact key (by omega) h
      · simp [h]
    | case4 a b e rest ih =>
      have ha : a.toNat < 256 := a.toNat_lt
      have hb : b.toNat < 256 := b.toNat_lt
      have he : e.toNat < 256 := e.toNat_lt
      intro c hc
      rcases List.mem_append.mp hc with hc | hc
      · simp only [List.mem_cons, List.not_mem_nil, or_false] at hc
        rcases hc with h | h | h | h
        · exact key (by omega) h
        · exact key (by omega) h
        · exact key (by omega) h
        · exact key (by omega) h
      · exact ih c hc

theorem regionLines_out (p : Profile) : ∀ (t : Nat) (rs : List DigestRegion), (regionLines p t rs).1.flatMap DLine.outText = []
  | _, [] => rfl
  | t, r :: rs => by
    unfold regionLines
    split
    · exact regionLines_out p _ rs
    · rfl
    · rfl

theorem listRun_out (p : Profile) (acc : Bytes → Bool) (sections : List (List Char)) (file : Bytes) :
    (listRun p acc sections file).1.flatMap DLine.outText = [] := by
  unfold listRun
  split
  · rfl
  · rfl
  · split
    · rfl
    · rfl
    · rename_i rs _
      have := regionLines_out p 0 rs
      dsimp only
      split <;> simp [List.flatMap_append, this, DLine.outText]

/-- **C124**: standard output is the digest and a line break if the command succeeds, and empty if not. The digest has no space and no line
break in it, so that a script that takes the output of the command gets the digest and nothing else. -/
theorem C124_stdout {M : Machine} {now : Nat} {clock : Option UInt64} {fs : Fs} {input : Path} {sha512 : Bool} {format : OutputFormat}
    {sections : List (List Char)} {i out err : List Char} (h : DigestTextSays M fs input sha512 format sections i out err) :
    (((Command.digest input sha512 format sections).exec M now clock fs).status = 0 →
      ∃ s d, Target M fs input sections s ∧ s.digest M.env M.profile M.acc (if sha512 then .p384 else .p256) = .ok d ∧
        out = format.render d ++ ['\n'] ∧ ∀ c ∈ format.render d, c.isAlphanum = true ∨ c = '+' ∨ c = '/' ∨ c = '=') ∧
    (((Command.digest input sha512 format sections).exec M now clock fs).status ≠ 0 → out = []) := by
  rw [← C110_same_run, h.1]
  clear h
  unfold digestRun
  split
  · exact ⟨by simp [Outcome.status, Outcome.quiet], fun _ => rfl⟩
  · rename_i file hf
    have ho := listRun_out M.profile M.acc sections file
    dsimp only
    split
    · exact ⟨by simp [Outcome.status, Outcome.quiet], fun _ => by rw [ho]; rfl⟩
    · exact ⟨by simp [Outcome.status, Outcome.quiet], fun _ => by rw [ho]; rfl⟩
    · rename_i s rs t hx
      split
      · exact ⟨by simp [Outcome.status, Outcome.quiet], fun _ => by simp [List.flatMap_append, ho, DLine.outText, unlines]⟩
      · exact ⟨by simp [Outcome.status, Outcome.quiet], fun _ => by simp [List.flatMap_append, ho, DLine.outText, unlines]⟩
      · rename_i d hd
        refine ⟨fun _ => ⟨s, d, ⟨file, hf, ?_⟩, hd, ?_, render_chars format d⟩, by simp [Outcome.status]⟩
        · revert hx
          unfold listRun
          split
          · nofun
          · nofun
          · rename_i s' hs'
            split
            · nofun
            · nofun
            · dsimp only
              split
              · nofun
              · nofun
              · intro hx
                cases hx
                exact hs'
        · simp [List.flatMap_append, ho, DLine.outText, unlines]

/-- **C124**: with `--dump` there is nothing on standard output. -/
theorem C124_dump_stdout {M : Machine} {fs : Fs} {input output : Path} {sections : List (List Char)} {i d out err : List Char}
    (h : DumpTextSays M fs input output sections i d out err) : out = [] := by
  rw [h.1]
  clear h
  unfold dumpRun
  split
  · rfl
  · have ho := listRun_out M.profile M.acc sections ‹_›
    dsimp only
    split
    · rw [ho]; rfl
    · rw [ho]; rfl
    · rw [List.flatMap_append, ho]
      generalize Res.isOk _ = b
      cases b <;> rfl

/-- Where the names in a listing come from. -/
theorem listed_names {M : Machine} {fs : Fs} {input : Path} {sections : List (List Char)} (hs : ∀ n ∈ sections, '\n' ∉ n) {r : DigestRegion}
    (h : ListSays M fs input sections (.region r)) : '\n' ∉ r.name.toList := by
  cases h with
  | region s rs before after r ht h1 h2 h3 =>
    obtain ⟨file, -, ho⟩ := ht
    exact target_names hs ho h1 (h2 ▸ by simp)

theorem textOf_err {i d : List Char} {ls : List DLine} {r : Res Unit} {out err : List Char} (hi : '\n' ∉ i) (hd : '\n' ∉ d)
    (hr : ∀ r, .region r ∈ ls → '\n' ∉ r.name.toList) (h : TextOf i d ls r out err) {l : DLine} (hl : ∀ t, l ≠ .digest t) :
    (l ∈ ls → IsLine (l.tell i d) err) ∧ (r = .ok () → IsLine (l.tell i d) err → l ∈ ls) := by
  obtain ⟨-, last, h1, rfl⟩ := h
  have hu : ∀ s ∈ ls.flatMap (DLine.errText i d), '\n' ∉ s := by
    intro s hs
    obtain ⟨l, hl, hs⟩ := List.mem_flatMap.mp hs
    exact dline_unbroken hi hd (fun r h => hr r (h ▸ hl)) s hs
  constructor
  · intro h
    have hm := List.mem_flatMap.mpr ⟨l, h, (errText_shape i d hl).1⟩
    exact isLine_front hm (hu _ hm)
  · rintro rfl h
    have : last = [] := h1
    rw [this, List.append_nil, isLine_unlines hu] at h
    obtain ⟨l', h2, h3⟩ := List.mem_flatMap.mp h
    rw [tell_mem hl h3]
    exact h2

theorem textOf_file {i d : List Char} {ls : List DLine} {out err : List Char} (hi : '\n' ∉ i) (hd : '\n' ∉ d)
    (hr : ∀ r, .region r ∈ ls → '\n' ∉ r.name.toList) (hf : ∃ f, .format f ∈ ls) (h : TextOf i d ls (.ok ()) out err) (n : List Char) :
    IsLine ("File: ".toList ++ n) err ↔ n = i := by
  obtain ⟨-, last, h1, rfl⟩ := h
  have hu : ∀ s ∈ ls.flatMap (DLine.errText i d), '\n' ∉ s := by
    intro s hs
    obtain ⟨l, hl, hs⟩ := List.mem_flatMap.mp hs
    exact dline_unbroken hi hd (fun r h => hr r (h ▸ hl)) s hs
  have : last = [] := h1
  rw [this, List.append_nil, isLine_unlines hu]
  constructor
  · intro h
    obtain ⟨l, -, h⟩ := List.mem_flatMap.mp h
    exact (file_mem h).1
  · rintro rfl
    obtain ⟨f, hf⟩ := hf
    refine List.mem_flatMap.mpr ⟨_, hf, ?_⟩
    cases f <;> exact List.mem_cons_self

/-- What is said about a file, by the line it is said with. -/
def tells : List (String × DLine) :=
  [("Format: Module (ZIP)", .format .module), ("Format: ELF", .format .elf), ("Algorithm: SHA-256", .algorithm false),
    ("Algorithm: SHA-512", .algorithm true), ("Signable regions:", .regions)]

theorem tells_tell {i d : List Char} : ∀ x ∈ tells, x.1.toList = x.2.tell i d ∧ ∀ t, x.2 ≠ .digest t := by
  intro x hx
  simp only [tells, List.mem_cons, List.not_mem_nil, or_false] at hx
  rcases hx with rfl | rfl | rfl | rfl | rfl <;> exact ⟨rfl, nofun⟩

theorem status_ok {o : Outcome} : o.status = 0 ↔ o.result = .ok () := by
  unfold Outcome.status
  cases o.result with
  | ok u => cases u; simp
  | err e => simp
  | panic => simp

/-- **C124**: standard error of a run that succeeds: the lines about the format, the hash, the regions and their total are there exactly if
they were said. No name of a section can be chosen so that its line reads like that of another. -/
theorem C124_stderr {M : Machine} {now : Nat} {clock : Option UInt64} {fs : Fs} {input : Path} {sha512 : Bool} {format : OutputFormat}
    {sections : List (List Char)} {i out err : List Char} (hi : '\n' ∉ i) (hs : ∀ n ∈ sections, '\n' ∉ n)
    (h : DigestTextSays M fs input sha512 format sections i out err)
    (hok : ((Command.digest input sha512 format sections).exec M now clock fs).status = 0) :
    (∀ n, IsLine ("File: ".toList ++ n) err ↔ n = i) ∧
    (∀ x ∈ [("Format: Module (ZIP)", DLine.format .module), ("Format: ELF", .format .elf), ("Algorithm: SHA-256", .algorithm false),
        ("Algorithm: SHA-512", .algorithm true), ("Signable regions:", .regions)], IsLine x.1.toList err ↔ DigestSays M fs input sha512 format sections x.2) ∧
    (∀ (name : String) (offset size : Nat),
      IsLine ("  - ".toList ++ name.toList ++ " @ offset ".toList ++ decimal offset ++ " (".toList ++ decimal size ++ " bytes)".toList) err ↔
        DigestSays M fs input sha512 format sections (.region ⟨name, offset, size⟩)) ∧
    ∀ n, IsLine ("Total size: ".toList ++ decimal n ++ " bytes".toList) err ↔ DigestSays M fs input sha512 format sections (.total n) := by
  rw [status_ok, ← C110_same_run] at hok
  have hr : ∀ r, .region r ∈ (digestRun M fs input sha512 format sections).1 → '\n' ∉ r.name.toList := by
    intro r h
    rw [C110_lines] at h
    cases h with
    | list _ h => exact listed_names hs h
  have key : ∀ {l : DLine}, (∀ t, l ≠ .digest t) → (IsLine (l.tell i []) err ↔ DigestSays M fs input sha512 format sections l) := by
    intro l hl
    have := textOf_err hi (by simp) hr h hl
    rw [← C110_lines]
    exact ⟨this.2 hok, this.1⟩
  have hf : ∃ f, .format f ∈ (digestRun M fs input sha512 format sections).1 := by
    obtain ⟨s, -, ht, -⟩ := (C124_stdout (now := now) (clock := clock) h).1 (by rw [status_ok, ← C110_same_run]; exact hok)
    exact ⟨_, (C110_lines ..).mpr (.list _ (.format s ht))⟩
  refine ⟨fun n => textOf_file (d := []) hi (by simp) hr hf (by rw [← hok]; exact h) n, fun x hx => ?_, fun name offset size => key (l := .region ⟨name, offset, size⟩) nofun, fun n => key (l := .total n) nofun⟩
  obtain ⟨h1, h2⟩ := tells_tell (i := i) (d := []) x hx
  rw [h1]
  exact key h2

/-- **C124**: the same with `--dump`, and the line with the number of bytes written. -/
theorem C124_dump_stderr {M : Machine} {now : Nat} {clock : Option UInt64} {fs : Fs} {input output : Path} {sections : List (List Char)}
    {i d out err : List Char} (hi : '\n' ∉ i) (hd : '\n' ∉ d) (hs : ∀ n ∈ sections, '\n' ∉ n)
    (h : DumpTextSays M fs input output sections i d out err)
    (hok : ((Command.dump input output sections).exec M now clock fs).status = 0) :
    (∀ n, IsLine ("File: ".toList ++ n) err ↔ n = i) ∧
    (∀ x ∈ [("Format: Module (ZIP)", DLine.format .module), ("Format: ELF", .format .elf), ("Signable regions:", .regions)],
      IsLine x.1.toList err ↔ ListSays M fs input sections x.2) ∧
    (∀ (name : String) (offset size : Nat),
      IsLine ("  - ".toList ++ name.toList ++ " @ offset ".toList ++ decimal offset ++ " (".toList ++ decimal size ++ " bytes)".toList) err ↔
        ListSays M fs input sections (.region ⟨name, offset, size⟩)) ∧
    (∀ n, IsLine ("Total size: ".toList ++ decimal n ++ " bytes".toList) err ↔ ListSays M fs input sections (.total n)) ∧
    (∀ n, IsLine ("Dumped ".toList ++ decimal n ++ " bytes to ".toList ++ d) err ↔
      ∃ file, ((Command.dump input output sections).exec M now clock fs).written = some (output, file) ∧ n = file.length % 2 ^ 64) := by
  rw [status_ok] at hok
  have hok' := hok
  rw [← C110_dump_same_run] at hok'
  have hr : ∀ r, .region r ∈ (dumpRun M fs input output sections).1 → '\n' ∉ r.name.toList := by
    intro r h
    rcases (C110_dump_lines M now clock fs input output sections _).mp h with h | ⟨-, _, -, h⟩
    · exact listed_names hs h
    · cases h
  have key : ∀ {l : DLine}, (∀ t, l ≠ .digest t) → (IsLine (l.tell i d) err ↔ ListSays M fs input sections l ∨
      ∃ file, ((Command.dump input output sections).exec M now clock fs).written = some (output, file) ∧ l = .dumped (file.length % 2 ^ 64)) := by
    intro l hl
    have := textOf_err hi hd hr h hl
    have h' := C110_dump_lines M now clock fs input output sections l
    simp only [hok, true_and] at h'
    rw [← h']
    exact ⟨this.2 hok', this.1⟩
  have plain : ∀ {l : DLine}, (∀ t, l ≠ .digest t) → (∀ n, l ≠ .dumped n) → (IsLine (l.tell i d) err ↔ ListSays M fs input sections l) := by
    intro l hl hn
    rw [key hl, or_iff_left]
    rintro ⟨_, -, h⟩
    exact hn _ h
  have hf : ∃ f, .format f ∈ (dumpRun M fs input output sections).1 := by
    obtain ⟨s, ht⟩ : ∃ s, Target M fs input sections s := by
      revert hok'
      unfold dumpRun
      split
      · nofun
      · rename_i file hf
        dsimp only
        unfold listRun
        cases hc : cliOpen M.acc sections file with
        | err e => nofun
        | panic => nofun
        | ok s => exact fun _ => ⟨s, file, hf, hc⟩
    exact ⟨_, (C110_dump_lines M now clock ..).mpr (.inl (.format s ht))⟩
  refine ⟨fun n => textOf_file hi hd hr hf (by rw [← hok']; exact h) n, fun x hx => ?_, fun name offset size => plain (l := .region ⟨name, offset, size⟩) nofun nofun,
    fun n => plain (l := .total n) nofun nofun, fun n => ?_⟩
  · simp only [List.mem_cons, List.not_mem_nil, or_false] at hx
    rcases hx with rfl | rfl | rfl
    · exact plain (l := .format .module) nofun nofun
    · exact plain (l := .format .elf) nofun nofun
    · exact plain (l := .regions) nofun nofun
  · refine (key (l := .dumped n) nofun).trans ?_
    constructor
    · rintro (h | ⟨f, h1, h2⟩)
      · cases h
      · cases h2
        exact ⟨f, h1, rfl⟩
    · rintro ⟨f, h1, rfl⟩
      exact .inr ⟨f, h1, rfl⟩

/-- **C124**: what is said before a failure is on standard error all the same, and then the error. -/
theorem C124_failure {M : Machine} {now : Nat} {clock : Option UInt64} {fs : Fs} {input output : Path} {sha512 : Bool}
    {format : OutputFormat} {sections : List (List Char)} {i d out err : List Char} (hi : '\n' ∉ i) (hd : '\n' ∉ d)
    (hs : ∀ n ∈ sections, '\n' ∉ n) :
    (DigestTextSays M fs input sha512 format sections i out err →
      ((Command.digest input sha512 format sections).exec M now clock fs).status = 1 →
      (∃ pre m, err = pre ++ "Error: ".toList ++ m ++ ['\n'] ∧ (pre = [] ∨ ∃ p, pre = p ++ ['\n'])) ∧
      ∀ name offset size, DigestSays M fs input sha512 format sections (.region ⟨name, offset, size⟩) →
        IsLine ("  - ".toList ++ name.toList ++ " @ offset ".toList ++ decimal offset ++ " (".toList ++ decimal size ++ " bytes)".toList) err) ∧
    (DumpTextSays M fs input output sections i d out err →
      ((Command.dump input output sections).exec M now clock fs).status = 1 →
      (∃ pre m, err = pre ++ "Error: ".toList ++ m ++ ['\n'] ∧ (pre = [] ∨ ∃ p, pre = p ++ ['\n'])) ∧
      ∀ name offset size, ListSays M fs input sections (.region ⟨name, offset, size⟩) →
        IsLine ("  - ".toList ++ name.toList ++ " @ offset ".toList ++ decimal offset ++ " (".toList ++ decimal size ++ " bytes)".toList) err) := by
  have shape : ∀ {ls : List DLine} {o : Outcome} {d : List Char}, TextOf i d ls o.result out err → o.status = 1 →
      ∃ pre m, err = pre ++ "Error: ".toList ++ m ++ ['\n'] ∧ (pre = [] ∨ ∃ p, pre = p ++ ['\n']) := by
    rintro ls o d ⟨-, last, h1, rfl⟩ h2
    unfold Outcome.status at h2
    revert h1 h2
    cases o.result with
    | ok u => simp
    | panic => simp
    | err e =>
      rintro ⟨m, rfl⟩ -
      refine ⟨unlines (ls.flatMap (DLine.errText i d)), m, by simp only [List.append_assoc], ?_⟩
      generalize ls.flatMap (DLine.errText i d) = a
      rcases List.eq_nil_or_concat a with rfl | ⟨a', y, rfl⟩
      · exact .inl rfl
      · exact .inr ⟨unlines a' ++ y, by rw [List.concat_eq_append]; simp [unlines]⟩
  constructor
  · intro h h2
    rw [← C110_same_run] at h2
    refine ⟨shape h h2, fun name offset size hl => ?_⟩
    refine (textOf_err (l := .region ⟨name, offset, size⟩) hi (by simp) ?_ h nofun).1 ((C110_lines ..).mpr hl)
    intro r h
    rw [C110_lines] at h
    cases h with
    | list _ h => exact listed_names hs h
  · intro h h2
    rw [← C110_dump_same_run] at h2
    refine ⟨shape h h2, fun name offset size hl => ?_⟩
    refine (textOf_err (l := .region ⟨name, offset, size⟩) hi hd ?_ h nofun).1 ((C110_dump_lines M now clock ..).mpr (.inl hl))
    intro r h
    rcases (C110_dump_lines M now clock fs input output sections _).mp h with h | ⟨-, _, -, h⟩
    · exact listed_names hs h
    · cases h

/-- **C124**: the line break in a name is printed as it is: a file that can be opened can be named so that any line is on standard error. -/
theorem C124_forged_name {M : Machine} {fs : Fs} {input : Path} {sha512 : Bool} {format : OutputFormat} {sections : List (List Char)}
    {i out err name s : List Char} (h : DigestTextSays M fs input sha512 format sections i out err)
    (ht : ∃ t, Target M fs input sections t) (hs : '\n' ∉ s) (hn : i = name ++ '\n' :: s) : IsLine s err := by
  obtain ⟨-, last, -, rfl⟩ := h
  obtain ⟨t, file, hf, ho⟩ := ht
  have hr : ∃ rest, (digestRun M fs input sha512 format sections).1 = .format t.format :: rest := by
    have hl : ∃ rest, (listRun M.profile M.acc sections file).1 = .format t.format :: rest := by
      unfold listRun
      rw [ho]
      dsimp only
      split
      · exact ⟨_, rfl⟩
      · exact ⟨_, rfl⟩
      · split <;> exact ⟨_, rfl⟩
    obtain ⟨rest, hl⟩ := hl
    unfold digestRun
    rw [hf]
    dsimp only
    rw [hl]
    split
    · exact ⟨_, rfl⟩
    · exact ⟨_, rfl⟩
    · split <;> exact ⟨_, rfl⟩
  obtain ⟨rest, hr⟩ := hr
  rw [hr, List.flatMap_cons]
  subst hn
  have key : ∀ (x y : List Char) (z : List (List Char)), IsLine s (unlines ((x ++ (name ++ '\n' :: s)) :: y :: z) ++ last) := by
    intro x y z
    exact ⟨hs, x ++ name ++ ['\n'], unlines (y :: z) ++ last, by simp [unlines], .inr ⟨_, rfl⟩⟩
  cases hf : t.format with
  | module => exact key _ _ _
  | elf => exact key _ _ _

/-- An ELF file: the digest is all there is on standard output. -/
example : ∃ out err, DigestTextSays toyMachine (toyFs.set "in".toList elf64) "in".toList false .hex [] "in".toList out err ∧
    IsLine "Format: ELF".toList err ∧ ¬ IsLine "Format: Module (ZIP)".toList err ∧ out ≠ [] := by
  have hr : (digestRun toyMachine (toyFs.set "in".toList elf64) "in".toList false .hex []).2.result = .ok () := by decide +kernel
  have ht : DigestTextSays toyMachine (toyFs.set "in".toList elf64) "in".toList false .hex [] "in".toList _ _ :=
    ⟨rfl, [], by rw [hr]; rfl, rfl⟩
  have hok : ((Command.digest "in".toList false .hex []).exec toyMachine 0 none (toyFs.set "in".toList elf64)).status = 0 := by
    rw [status_ok, ← C110_same_run]; exact hr
  have hi : '\n' ∉ "in".toList := by decide +kernel
  have key := (C124_stderr hi (by simp) ht hok).2.1
  refine ⟨_, _, ht, ?_, ?_, ?_⟩
  · rw [key ("Format: ELF", .format .elf) (by simp), ← C110_lines]
    decide +kernel
  · rw [key ("Format: Module (ZIP)", .format .module) (by simp), ← C110_lines]
    decide +kernel
  · obtain ⟨s, d, -, -, h, -⟩ := (C124_stdout (now := 0) (clock := none) ht).1 hok
    rw [h]
    simp

end Ksusig.Props
