import Verif.SpecOut
import Verif.Props.Exit

/-!
# The output of the sign and the digest command
-/

namespace Ksusig.Props

open Ksusig Spec

/-! ## sign -/

theorem hashLines_module (E : Env) (p : Profile) (acc : Bytes → Bool) (m : Module) (file : Bytes) (as : List Algo) :
    (hashLines E p acc (.module m file) as).2 = cliDigests E p m file as := by
  induction as with
  | nil => rfl
  | cons a as ih =>
    unfold hashLines cliDigests
    simp only [SignableFile.digest]
    cases m.digest E p file a with
    | ok d => simp only [ih]; rfl
    | err e => rfl
    | panic => rfl

theorem hashLines_elf (E : Env) (p : Profile) (acc : Bytes → Bool) (f : ElfFile) (as : List Algo) :
    (hashLines E p acc (.elf f) as).2 = cliElfDigests E acc f as := by
  induction as with
  | nil => rfl
  | cons a as ih =>
    unfold hashLines cliElfDigests
    simp only [SignableFile.digest]
    cases f.digest E acc a with
    | ok d => simp only [ih]; rfl
    | err e => rfl
    | panic => rfl

theorem blockRun_snd (E : Env) (p : Profile) (acc : Bytes → Bool) (clock : Option UInt64) (signer : ModuleSigner) (s : SignableFile) :
    (blockRun E p acc clock signer s).2 = (do
      let _ ← s.digestRegions p acc
      let pairs ← (hashLines E p acc s signer.requiredAlgorithms).2
      let b ← signer.sign E p clock (Digests.new (pairs.map fun x => Digest.new x.1 x.2))
      s.record acc b) := by
  unfold blockRun
  cases s.digestRegions p acc with
  | err e => rfl
  | panic => rfl
  | ok rs =>
    dsimp only
    rw [Res.ok_bind]
    cases (hashLines E p acc s signer.requiredAlgorithms).2 with
    | err e => rfl
    | panic => rfl
    | ok pairs =>
      dsimp only
      rw [Res.ok_bind]
      split <;> rename_i h <;> rw [h]

theorem bind_ok_right {α : Type} (x : Res α) : (x >>= fun b => Res.ok b) = x := by cases x <;> rfl

theorem blockRun_module (M : Machine) (clock : Option UInt64) (signer : ModuleSigner) (m : Module) (file : Bytes) :
    (blockRun M.env M.profile M.acc clock signer (.module m file)).2 = (do
      let _ ← m.digestRegions M.profile file
      let pairs ← cliDigests M.env M.profile m file signer.requiredAlgorithms
      signer.sign M.env M.profile clock (Digests.new (pairs.map fun x => Digest.new x.1 x.2))) := by
  rw [blockRun_snd, hashLines_module]
  simp only [SignableFile.digestRegions, SignableFile.record, bind_ok_right]

theorem blockRun_elf (M : Machine) (clock : Option UInt64) (signer : ModuleSigner) (f : ElfFile) :
    (blockRun M.env M.profile M.acc clock signer (.elf f)).2 = cliElfBlock M.env M.profile M.acc clock signer f := by
  rw [blockRun_snd, hashLines_elf]
  rfl

theorem targetRun_snd (M : Machine) (clock : Option UInt64) (output : Path) (ip : Bool) (sections : List (List Char))
    (signer : ModuleSigner) (file : Bytes) :
    (targetRun M clock output ip sections signer file).2 =
      .create M output (cliSign M.env M.profile M.acc clock signer sections ip file) := by
  unfold targetRun cliSign cliOpen
  cases ho : SignableFile.open M.acc file with
  | err e => rfl
  | panic => rfl
  | ok s =>
    rw [Res.ok_bind]
    cases s with
    | module m g =>
      have hg : m = Module.new file ∧ g = file := by
        unfold SignableFile.open at ho
        obtain ⟨fmt, _, ho⟩ := Res.bind_eq_ok.mp ho
        cases fmt with
        | module => cases ho; exact ⟨rfl, rfl⟩
        | elf => obtain ⟨_, _, ho⟩ := Res.bind_eq_ok.mp ho; cases ho
      obtain ⟨hm, hg⟩ := hg
      subst hm
      subst hg
      dsimp only
      by_cases he : sections.isEmpty = true
      · rw [if_pos he, if_pos he]
        dsimp only
        unfold cliSignModule
        dsimp only
        rw [blockRun_module]
        generalize (do
          let _ ← (Module.new g).digestRegions M.profile g
          let pairs ← cliDigests M.env M.profile (Module.new g) g signer.requiredAlgorithms
          signer.sign M.env M.profile clock (Digests.new (pairs.map fun x => Digest.new x.1 x.2)) : Res SigningBlock) = r
        cases r <;> rfl
      · rw [if_neg he, if_neg he]
        rfl
    | elf f =>
      have main : ∀ f : ElfFile, (match (blockRun M.env M.profile M.acc clock signer (.elf f)).2 with
          | .err e => ((blockRun M.env M.profile M.acc clock signer (.elf f)).1, Outcome.quiet (.err e))
          | .panic => ((blockRun M.env M.profile M.acc clock signer (.elf f)).1, .quiet .panic)
          | .ok b => ((blockRun M.env M.profile M.acc clock signer (.elf f)).1 ++ (writeRun M output ip (.elf f) b).1,
            (writeRun M output ip (.elf f) b).2)).2 =
          Outcome.create M output (match (do
            let b ← cliElfBlock M.env M.profile M.acc clock signer f
            .ok (f, b) : Res (ElfFile × SigningBlock)) with
          | .err e => (none, .err e)
          | .panic => (none, .panic)
          | .ok (f, b) =>
            match f.writeWithSignature M.acc b with
            | .ok out => (some out, .ok ())
            | .err e => (some [], .err e)
            | .panic => (some [], .panic)) := by
        intro f
        rw [blockRun_elf]
        cases cliElfBlock M.env M.profile M.acc clock signer f with
        | err e => rfl
        | panic => rfl
        | ok b =>
          rw [Res.ok_bind]
          dsimp only [writeRun, SignableFile.created, SignableFile.writeWithSignature]
          cases f.writeWithSignature M.acc b <;> rfl
      dsimp only
      unfold cliElfSelect
      by_cases he : sections.isEmpty = true
      · rw [if_pos he, if_pos he, Res.ok_bind]
        exact main f
      · rw [if_neg he, if_neg he]
        simp only [SignableFile.setElfSections]
        cases hr : f.setSignedSections sections with
        | mk f' r =>
          dsimp only
          cases r with
          | err e => rfl
          | panic => rfl
          | ok u => rw [Res.ok_bind]; exact main f'

/-- C109: the lines come with what the command does (`Command.exec`). -/
theorem C109_same_run (M : Machine) (now : Nat) (clock : Option UInt64) (fs : Fs) (input output : Path) (v2 stamp : CredPaths)
    (sections : List (List Char)) :
    (signRun M clock fs input output v2 stamp sections).2 = (Command.sign input output v2 stamp sections).exec M now clock fs := by
  unfold signRun Command.exec signerFrom
  dsimp only
  cases v2.load M.keys fs with
  | error e => rfl
  | ok o =>
    cases o with
    | none => rfl
    | some c =>
      dsimp only
      cases stamp.load M.keys fs with
      | error e => rfl
      | ok st =>
        cases hi : fs input with
        | none => cases st <;> rfl
        | some file =>
          dsimp only
          rw [targetRun_snd]
          cases st <;> rfl

theorem hashLines_ok (M : Machine) (s : SignableFile) (as : List Algo) :
    ∀ pairs, (hashLines M.env M.profile M.acc s as).2 = .ok pairs ↔ DigestsOf M s as pairs := by
  induction as with
  | nil =>
    intro pairs
    unfold hashLines DigestsOf
    constructor
    · intro h; cases h; exact ⟨rfl, by simp⟩
    · rintro ⟨h, _⟩
      rw [List.map_eq_nil_iff.mp h]
  | cons a as ih =>
    intro pairs
    unfold hashLines
    constructor
    · intro h
      cases hd : s.digest M.env M.profile M.acc a with
      | err e => rw [hd] at h; cases h
      | panic => rw [hd] at h; cases h
      | ok d =>
        rw [hd] at h
        obtain ⟨rest, h1, h2⟩ := Res.bind_eq_ok.mp h
        cases h2
        obtain ⟨k1, k2⟩ := (ih rest).mp h1
        refine ⟨by simp [k1], fun x hx => ?_⟩
        rcases List.mem_cons.mp hx with rfl | hx
        · exact hd
        · exact k2 x hx
    · rintro ⟨h1, h2⟩
      cases pairs with
      | nil => cases h1
      | cons x xs =>
        obtain ⟨a', d⟩ := x
        rw [List.map_cons, List.cons.injEq] at h1
        obtain ⟨rfl, h1⟩ := h1
        rw [h2 (a', d) List.mem_cons_self]
        dsimp only
        rw [(ih xs).mpr ⟨h1, fun x hx => h2 x (List.mem_cons_of_mem _ hx)⟩]
        rfl

theorem mem_hashLines (M : Machine) (s : SignableFile) (as : List Algo) (x : SLine) :
    x ∈ (hashLines M.env M.profile M.acc s as).1 ↔
      ∃ done a rest pairs, as = done ++ a :: rest ∧ DigestsOf M s done pairs ∧ x = .hashing a := by
  induction as with
  | nil => simp [hashLines]
  | cons a as ih =>
    have hdig : ∀ {d : Bytes} {as : List Algo} {pairs}, s.digest M.env M.profile M.acc a = .ok d → DigestsOf M s as pairs →
        DigestsOf M s (a :: as) ((a, d) :: pairs) := by
      rintro d as pairs hd ⟨k1, k2⟩
      refine ⟨by simp [k1], fun x hx => ?_⟩
      rcases List.mem_cons.mp hx with rfl | hx
      · exact hd
      · exact k2 x hx
    have hhead : ∃ done a' rest pairs, a :: as = done ++ a' :: rest ∧ DigestsOf M s done pairs ∧ SLine.hashing a = .hashing a' :=
      ⟨[], a, as, [], rfl, ⟨rfl, by simp⟩, rfl⟩
    unfold hashLines
    cases hd : s.digest M.env M.profile M.acc a with
    | ok d =>
      dsimp only
      rw [List.mem_cons, ih]
      constructor
      · rintro (rfl | ⟨done, a', rest, pairs, rfl, h, rfl⟩)
        · exact hhead
        · exact ⟨a :: done, a', rest, _, rfl, hdig hd h, rfl⟩
      · rintro ⟨done, a', rest, pairs, h1, ⟨k1, k2⟩, rfl⟩
        cases done with
        | nil => cases h1; exact .inl rfl
        | cons b done =>
          rw [List.cons_append, List.cons.injEq] at h1
          obtain ⟨rfl, rfl⟩ := h1
          cases pairs with
          | nil => cases k1
          | cons y ys =>
            rw [List.map_cons, List.cons.injEq] at k1
            exact .inr ⟨done, a', rest, ys, rfl, ⟨k1.2, fun x hx => k2 x (List.mem_cons_of_mem _ hx)⟩, rfl⟩
    | err _ | panic =>
      dsimp only
      rw [List.mem_singleton]
      constructor
      · rintro rfl; exact hhead
      · rintro ⟨done, a', rest, pairs, h1, ⟨k1, k2⟩, rfl⟩
        cases done with
        | nil => cases h1; rfl
        | cons b done =>
          rw [List.cons_append, List.cons.injEq] at h1
          obtain ⟨rfl, _⟩ := h1
          cases pairs with
          | nil => cases k1
          | cons y ys =>
            rw [List.map_cons, List.cons.injEq] at k1
            have := k2 y List.mem_cons_self
            rw [k1.1, hd] at this
            cases this

theorem blockRun_ok {M : Machine} {clock : Option UInt64} {signer : ModuleSigner} {s : SignableFile} {rs : List DigestRegion}
    (hr : s.digestRegions M.profile M.acc = .ok rs) (b : SigningBlock) :
    (blockRun M.env M.profile M.acc clock signer s).2 = .ok b ↔ Makes M clock signer s b := by
  rw [blockRun_snd, hr, Res.ok_bind, Res.bind_eq_ok]
  constructor
  · rintro ⟨pairs, h1, h2⟩
    obtain ⟨b0, h2, h3⟩ := Res.bind_eq_ok.mp h2
    exact ⟨pairs, b0, (hashLines_ok M s _ pairs).mp h1, h2, h3⟩
  · rintro ⟨pairs, b0, h1, h2, h3⟩
    exact ⟨pairs, (hashLines_ok M s _ pairs).mpr h1, Res.bind_eq_ok.mpr ⟨b0, h2, h3⟩⟩

/-- The lines about the regions and what follows them, up to the block. -/
theorem mem_blockRun {M : Machine} {clock : Option UInt64} {signer : ModuleSigner} {s : SignableFile} {x : SLine} :
    x ∈ (blockRun M.env M.profile M.acc clock signer s).1 ↔ x = .format s.format ∨
      ∃ rs, s.digestRegions M.profile M.acc = .ok rs ∧ (x = .regions ∨ (∃ r ∈ rs, x = .region r) ∨
        x = .count signer.requiredAlgorithms.length ∨ x = .calculating ∨
        (∃ done a rest pairs, signer.requiredAlgorithms = done ++ a :: rest ∧ DigestsOf M s done pairs ∧ x = .hashing a) ∨
        (∃ pairs, DigestsOf M s signer.requiredAlgorithms pairs ∧ (x = .digestsDone ∨ x = .signing)) ∨
        ∃ b, Makes M clock signer s b ∧ x = .complete b.toU8.length) := by
  have hm := fun rs hr b => blockRun_ok (M := M) (clock := clock) (signer := signer) (s := s) (rs := rs) hr b
  unfold blockRun at hm ⊢
  cases hr : s.digestRegions M.profile M.acc with
  | err e => simp
  | panic => simp
  | ok rs =>
    have hh := mem_hashLines M s signer.requiredAlgorithms x
    have ho := hashLines_ok M s signer.requiredAlgorithms
    have hm := hm rs hr
    rw [hr] at hm
    dsimp only at hm ⊢
    have hex : ∀ P : List DigestRegion → Prop, (∃ rs', Res.ok rs = .ok rs' ∧ P rs') ↔ P rs := fun P =>
      ⟨fun ⟨_, h, hp⟩ => by cases h; exact hp, fun hp => ⟨rs, rfl, hp⟩⟩
    rw [hex]
    cases hx : (hashLines M.env M.profile M.acc s signer.requiredAlgorithms).2 with
    | err _ | panic =>
      rw [hx] at ho hm
      have hno : ∀ pairs, ¬ DigestsOf M s signer.requiredAlgorithms pairs := fun pairs h => by cases (ho pairs).mpr h
      have hnb : ∀ b, ¬ Makes M clock signer s b := fun b ⟨pairs, _, h, _⟩ => hno pairs h
      simp only [List.mem_append, List.mem_cons, List.mem_map, List.not_mem_nil, or_false, hh, hno, hnb, false_and, exists_false,
        false_or, eq_comm (a := x)]
      simp only [or_assoc]
    | ok pairs =>
      rw [hx] at hm
      dsimp only at hm ⊢
      have hyes : (∃ pairs, DigestsOf M s signer.requiredAlgorithms pairs ∧ (x = .digestsDone ∨ x = .signing)) ↔
          x = .digestsDone ∨ x = .signing := ⟨fun ⟨_, _, h⟩ => h, fun h => ⟨pairs, (ho pairs).mp hx, h⟩⟩
      rw [hyes]
      split at hm
      all_goals rename_i hb
      all_goals dsimp only
      · have hnb : ∀ b, ¬ Makes M clock signer s b := fun b h => by cases (hm b).mpr h
        simp only [List.mem_append, List.mem_cons, List.mem_map, List.not_mem_nil, or_false, hh, hnb, false_and, exists_false,
          eq_comm (a := x)]
        simp only [or_assoc]
      · have hnb : ∀ b, ¬ Makes M clock signer s b := fun b h => by cases (hm b).mpr h
        simp only [List.mem_append, List.mem_cons, List.mem_map, List.not_mem_nil, or_false, hh, hnb, false_and, exists_false,
          eq_comm (a := x)]
        simp only [or_assoc]
      · rename_i b
        have hyb : (∃ b, Makes M clock signer s b ∧ x = .complete b.toU8.length) ↔ x = .complete b.toU8.length :=
          ⟨fun ⟨b', h, hx⟩ => by cases (hm b').mpr h; exact hx, fun hx => ⟨b, (hm b).mp rfl, hx⟩⟩
        rw [hyb]
        simp only [List.mem_append, List.mem_cons, List.mem_map, List.not_mem_nil, or_false, hh, eq_comm (a := x)]
        simp only [or_assoc]

theorem writeRun_lines (M : Machine) (output : Path) (ip : Bool) (s : SignableFile) (b : SigningBlock) (x : SLine) :
    x ∈ (writeRun M output ip s b).1 ↔ x = .writing ∨ (x = .success ∧ (writeRun M output ip s b).2.result = .ok ()) := by
  unfold writeRun
  dsimp only
  generalize Outcome.create M output _ = o
  obtain ⟨w, t, r⟩ := o
  cases r with
  | ok u => cases u; simp [Res.isOk]
  | err e => simp [Res.isOk]
  | panic => simp [Res.isOk]

theorem targetRun_lines (M : Machine) (clock : Option UInt64) (output : Path) (ip : Bool) (sections : List (List Char))
    (signer : ModuleSigner) (file : Bytes) (x : SLine) :
    x ∈ (targetRun M clock output ip sections signer file).1 ↔
      (x = .success ∧ (targetRun M clock output ip sections signer file).2.result = .ok ()) ∨
      ∃ s, cliOpen M.acc sections file = .ok s ∧ (x ∈ (blockRun M.env M.profile M.acc clock signer s).1 ∨
        (x = .writing ∧ ∃ rs b, s.digestRegions M.profile M.acc = .ok rs ∧ Makes M clock signer s b)) := by
  unfold targetRun
  cases ho : cliOpen M.acc sections file with
  | err e => simp [Outcome.quiet]
  | panic => simp [Outcome.quiet]
  | ok s =>
    dsimp only
    have hreg : ∀ b, (blockRun M.env M.profile M.acc clock signer s).2 = .ok b →
        ∃ rs, s.digestRegions M.profile M.acc = .ok rs := by
      intro b h
      rw [blockRun_snd] at h
      obtain ⟨rs, h, _⟩ := Res.bind_eq_ok.mp h
      exact ⟨rs, h⟩
    have hmk : ∀ {r}, (blockRun M.env M.profile M.acc clock signer s).2 = r → ((∃ rs b, s.digestRegions M.profile M.acc = .ok rs ∧
        Makes M clock signer s b) ↔ ∃ b, r = .ok b) := by
      rintro _ rfl
      constructor
      · rintro ⟨rs, b, h1, h2⟩; exact ⟨b, (blockRun_ok h1 b).mpr h2⟩
      · rintro ⟨b, h⟩
        obtain ⟨rs, hr⟩ := hreg b h
        exact ⟨rs, b, hr, (blockRun_ok hr b).mp h⟩
    have hex : ∀ P : SignableFile → Prop, (∃ s', Res.ok s = .ok s' ∧ P s') ↔ P s := fun P =>
      ⟨fun ⟨_, h, hp⟩ => by cases h; exact hp, fun hp => ⟨s, rfl, hp⟩⟩
    rw [hex]
    cases hb : (blockRun M.env M.profile M.acc clock signer s).2 with
    | err e =>
      rw [hmk hb]
      simp [Outcome.quiet]
    | panic =>
      rw [hmk hb]
      simp [Outcome.quiet]
    | ok b =>
      dsimp only
      rw [List.mem_append, writeRun_lines, hmk hb]
      have : ∃ b', Res.ok b = .ok b' := ⟨b, rfl⟩
      simp only [this, and_true]
      constructor
      · rintro (h | h | h)
        · exact .inr (.inl h)
        · exact .inr (.inr h)
        · exact .inl h
      · rintro (h | h | h)
        · exact .inr (.inr h)
        · exact .inl h
        · exact .inr (.inl h)

/-- C109: the sign command prints exactly the lines that are true. -/
theorem C109_lines (M : Machine) (now : Nat) (clock : Option UInt64) (fs : Fs) (input output : Path) (v2 stamp : CredPaths)
    (sections : List (List Char)) (x : SLine) :
    x ∈ (signRun M clock fs input output v2 stamp sections).1 ↔ SignSays M now clock fs input output v2 stamp sections x := by
  have hrun := C109_same_run M now clock fs input output v2 stamp sections
  have hsucc : SignSays M now clock fs input output v2 stamp sections .success ↔
      (signRun M clock fs input output v2 stamp sections).2.result = .ok () := by
    rw [hrun]
    exact ⟨fun h => by cases h; assumption, .success⟩
  have hnot : ∀ {l : List SLine} {r : Res Unit}, r ≠ .ok () → signRun M clock fs input output v2 stamp sections = (l, .quiet r) →
      (∀ signer s, ¬ ReadyToSign M fs input v2 stamp sections signer s) →
      (SignSays M now clock fs input output v2 stamp sections x → x = .start ∨
        (x = .v2Key ∧ ∃ c, v2.load M.keys fs = .ok (some c)) ∨
        (x = .stampKey ∧ ∃ c d, v2.load M.keys fs = .ok (some c) ∧ stamp.load M.keys fs = .ok (some d))) := by
    intro l r hr he hn h
    have hs := hsucc
    rw [he] at hs
    cases h with
    | start => exact .inl rfl
    | v2Key c h => exact .inr (.inl ⟨rfl, c, h⟩)
    | stampKey c d h h' => exact .inr (.inr ⟨rfl, c, d, h, h'⟩)
    | success h => exact absurd (hs.mp (.success h)) hr
    | _ => exact absurd ‹ReadyToSign M fs input v2 stamp sections _ _› (hn _ _)
  cases hv : v2.load M.keys fs with
  | error e =>
    have he : signRun M clock fs input output v2 stamp sections = ([.start], .quiet (.err .keystore)) := by
      unfold signRun; rw [hv]
    have hn : ∀ signer s, ¬ ReadyToSign M fs input v2 stamp sections signer s := by
      rintro signer s ⟨h, _⟩; unfold signerFrom at h; rw [hv] at h; cases h
    rw [he]
    constructor
    · intro h; cases List.mem_singleton.mp h; exact .start
    · intro h
      rcases hnot (fun h => by cases h) he hn h with rfl | ⟨_, c, h⟩ | ⟨_, c, d, h, _⟩
      · exact List.mem_singleton.mpr rfl
      · rw [hv] at h; cases h
      · rw [hv] at h; cases h
  | ok o =>
    cases o with
    | none =>
      have he : signRun M clock fs input output v2 stamp sections = ([.start], .quiet (.err .keystore)) := by
        unfold signRun; rw [hv]
      have hn : ∀ signer s, ¬ ReadyToSign M fs input v2 stamp sections signer s := by
        rintro signer s ⟨h, _⟩; unfold signerFrom at h; rw [hv] at h; cases h
      rw [he]
      constructor
      · intro h; cases List.mem_singleton.mp h; exact .start
      · intro h
        rcases hnot (fun h => by cases h) he hn h with rfl | ⟨_, c, h⟩ | ⟨_, c, d, h, _⟩
        · exact List.mem_singleton.mpr rfl
        · rw [hv] at h; cases h
        · rw [hv] at h; cases h
    | some c =>
      cases hst : stamp.load M.keys fs with
      | error e =>
        have he : signRun M clock fs input output v2 stamp sections = ([.start, .v2Key], .quiet (.err .keystore)) := by
          unfold signRun; rw [hv, hst]
        have hn : ∀ signer s, ¬ ReadyToSign M fs input v2 stamp sections signer s := by
          rintro signer s ⟨h, _⟩; unfold signerFrom at h; rw [hv, hst] at h; cases h
        rw [he]
        constructor
        · intro h
          simp only [List.mem_cons, List.not_mem_nil, or_false] at h
          rcases h with rfl | rfl
          · exact .start
          · exact .v2Key c hv
        · intro h
          rcases hnot (fun h => by cases h) he hn h with rfl | ⟨rfl, _⟩ | ⟨_, c, d, _, h⟩
          · simp
          · simp
          · rw [hst] at h; cases h
      | ok st =>
        have hsf : ∀ signer, signerFrom M.keys fs v2 stamp = .ok signer ↔ signer = signerOf c st := by
          intro signer
          unfold signerFrom
          rw [hv, hst]
          cases st with
          | none => constructor <;> intro h <;> cases h <;> rfl
          | some d => constructor <;> intro h <;> cases h <;> rfl
        have hkey : ∀ x, x ∈ ([.start, .v2Key] ++ if st.isSome then [.stampKey] else [] : List SLine) ↔
            x = .start ∨ x = .v2Key ∨ (x = .stampKey ∧ ∃ d, st = some d) := by
          intro x; cases st <;> simp
        cases hi : fs input with
        | none =>
          have he : signRun M clock fs input output v2 stamp sections =
              ([.start, .v2Key] ++ if st.isSome then [.stampKey] else [], .quiet (.err .io)) := by
            unfold signRun; rw [hv, hst, hi]
          have hn : ∀ signer s, ¬ ReadyToSign M fs input v2 stamp sections signer s := by
            rintro signer s ⟨_, file, h, _⟩; rw [hi] at h; cases h
          rw [he, hkey]
          constructor
          · rintro (rfl | rfl | ⟨rfl, d, rfl⟩)
            · exact .start
            · exact .v2Key c hv
            · exact .stampKey c d hv hst
          · intro h
            rcases hnot (fun h => by cases h) he hn h with rfl | ⟨rfl, _⟩ | ⟨rfl, c, d, _, h⟩
            · exact .inl rfl
            · exact .inr (.inl rfl)
            · rw [hst] at h; cases h; exact .inr (.inr ⟨rfl, d, rfl⟩)
        | some file =>
          have he : signRun M clock fs input output v2 stamp sections =
              (([.start, .v2Key] ++ if st.isSome then [.stampKey] else []) ++
                (targetRun M clock output (decide (output = input)) sections (signerOf c st) file).1,
                (targetRun M clock output (decide (output = input)) sections (signerOf c st) file).2) := by
            unfold signRun; rw [hv, hst, hi]
          rw [he] at hsucc ⊢
          have hready : ∀ signer s, ReadyToSign M fs input v2 stamp sections signer s ↔
              signer = signerOf c st ∧ cliOpen M.acc sections file = .ok s := by
            intro signer s
            unfold ReadyToSign Target
            rw [hsf, hi]
            constructor
            · rintro ⟨h, _, h1, h2⟩; cases h1; exact ⟨h, h2⟩
            · rintro ⟨h, h2⟩; exact ⟨h, file, rfl, h2⟩
          rw [List.mem_append, hkey, targetRun_lines]
          simp only [mem_blockRun]
          constructor
          · rintro ((rfl | rfl | ⟨rfl, d, rfl⟩) | ⟨rfl, h⟩ | ⟨s, ho, h⟩)
            · exact .start
            · exact .v2Key c hv
            · exact .stampKey c d hv hst
            · exact hsucc.mpr h
            · have hr := (hready (signerOf c st) s).mpr ⟨rfl, ho⟩
              rcases h with (rfl | ⟨rs, hrs, h⟩) | ⟨rfl, rs, b, hrs, hb⟩
              · exact .format _ s hr
              · rcases h with rfl | ⟨r, hm, rfl⟩ | rfl | rfl | ⟨done, a, rest, pairs, h1, h2, rfl⟩ | ⟨pairs, h, rfl | rfl⟩ | ⟨b, hb, rfl⟩
                · exact .regions _ s rs hr hrs
                · exact .region _ s rs r hr hrs hm
                · exact .count _ s rs hr hrs
                · exact .calculating _ s rs hr hrs
                · exact .hashing _ s rs done rest a pairs hr hrs h1 h2
                · exact .digestsDone _ s rs pairs hr hrs h
                · exact .signing _ s rs pairs hr hrs h
                · exact .complete _ s rs b hr hrs hb
              · exact .writing _ s rs b hr hrs hb
          · intro h
            cases h with
            | start => exact .inl (.inl rfl)
            | v2Key => exact .inl (.inr (.inl rfl))
            | stampKey c d h h' => rw [hst] at h'; cases h'; exact .inl (.inr (.inr ⟨rfl, d, rfl⟩))
            | success h => exact .inr (.inl ⟨rfl, hsucc.mp (.success h)⟩)
            | format signer s hr =>
              obtain ⟨rfl, ho⟩ := (hready _ _).mp hr
              exact .inr (.inr ⟨s, ho, .inl (.inl rfl)⟩)
            | regions signer s rs hr hrs =>
              obtain ⟨rfl, ho⟩ := (hready _ _).mp hr
              exact .inr (.inr ⟨s, ho, .inl (.inr ⟨rs, hrs, .inl rfl⟩)⟩)
            | region signer s rs r hr hrs hm =>
              obtain ⟨rfl, ho⟩ := (hready _ _).mp hr
              exact .inr (.inr ⟨s, ho, .inl (.inr ⟨rs, hrs, .inr (.inl ⟨r, hm, rfl⟩)⟩)⟩)
            | count signer s rs hr hrs =>
              obtain ⟨rfl, ho⟩ := (hready _ _).mp hr
              exact .inr (.inr ⟨s, ho, .inl (.inr ⟨rs, hrs, .inr (.inr (.inl rfl))⟩)⟩)
            | calculating signer s rs hr hrs =>
              obtain ⟨rfl, ho⟩ := (hready _ _).mp hr
              exact .inr (.inr ⟨s, ho, .inl (.inr ⟨rs, hrs, .inr (.inr (.inr (.inl rfl)))⟩)⟩)
            | hashing signer s rs done rest a pairs hr hrs h1 h2 =>
              obtain ⟨rfl, ho⟩ := (hready _ _).mp hr
              exact .inr (.inr ⟨s, ho, .inl (.inr ⟨rs, hrs, .inr (.inr (.inr (.inr (.inl ⟨done, a, rest, pairs, h1, h2, rfl⟩))))⟩)⟩)
            | digestsDone signer s rs pairs hr hrs h =>
              obtain ⟨rfl, ho⟩ := (hready _ _).mp hr
              exact .inr (.inr ⟨s, ho, .inl (.inr ⟨rs, hrs, .inr (.inr (.inr (.inr (.inr (.inl ⟨pairs, h, .inl rfl⟩)))))⟩)⟩)
            | signing signer s rs pairs hr hrs h =>
              obtain ⟨rfl, ho⟩ := (hready _ _).mp hr
              exact .inr (.inr ⟨s, ho, .inl (.inr ⟨rs, hrs, .inr (.inr (.inr (.inr (.inr (.inl ⟨pairs, h, .inr rfl⟩)))))⟩)⟩)
            | complete signer s rs b hr hrs hb =>
              obtain ⟨rfl, ho⟩ := (hready _ _).mp hr
              exact .inr (.inr ⟨s, ho, .inl (.inr ⟨rs, hrs, .inr (.inr (.inr (.inr (.inr (.inr ⟨b, hb, rfl⟩)))))⟩)⟩)
            | writing signer s rs b hr hrs hb =>
              obtain ⟨rfl, ho⟩ := (hready _ _).mp hr
              exact .inr (.inr ⟨s, ho, .inr ⟨rfl, rs, b, hrs, hb⟩⟩)

theorem mem_hashLines_shape (E : Env) (p : Profile) (acc : Bytes → Bool) (s : SignableFile) :
    ∀ as, (∃ bs, bs <+: as ∧ (hashLines E p acc s as).1 = bs.map .hashing)
  | [] => ⟨[], List.prefix_rfl, rfl⟩
  | a :: as => by
    unfold hashLines
    cases s.digest E p acc a with
    | err e => exact ⟨[a], ⟨as, rfl⟩, rfl⟩
    | panic => exact ⟨[a], ⟨as, rfl⟩, rfl⟩
    | ok d =>
      obtain ⟨bs, ⟨cs, h1⟩, h2⟩ := mem_hashLines_shape E p acc s as
      exact ⟨a :: bs, ⟨cs, by rw [← h1]; rfl⟩, by dsimp only; rw [h2]; rfl⟩

/-- Lines in order, with places from `lo` to `hi`. -/
def Ordered (lo hi : Nat) (l : List SLine) : Prop := l.Pairwise Before ∧ ∀ x ∈ l, lo ≤ place x ∧ place x < hi

theorem ordered_nil (lo hi : Nat) : Ordered lo hi [] := ⟨.nil, fun _ h => by cases h⟩

theorem ordered_one (x : SLine) : Ordered (place x) (place x + 1) [x] :=
  ⟨List.pairwise_singleton _ _, fun y h => by cases List.mem_singleton.mp h; omega⟩

theorem Ordered.weaken {lo hi lo' hi' : Nat} {l : List SLine} (h : Ordered lo hi l) (h1 : lo' ≤ lo) (h2 : hi ≤ hi') :
    Ordered lo' hi' l := ⟨h.1, fun x hx => by have := h.2 x hx; omega⟩

theorem Ordered.append {lo mid hi : Nat} {l l' : List SLine} (h : Ordered lo mid l) (h' : Ordered mid hi l') (h1 : lo ≤ mid)
    (h2 : mid ≤ hi) : Ordered lo hi (l ++ l') := by
  refine ⟨List.pairwise_append.mpr ⟨h.1, h'.1, fun x hx y hy => .inl ?_⟩, fun x hx => ?_⟩
  · have := h.2 x hx; have := h'.2 y hy; omega
  · rcases List.mem_append.mp hx with hx | hx
    · have := h.2 x hx; omega
    · have := h'.2 x hx; omega

theorem ordered_many {α : Type} {f : α → SLine} {n : Nat} (hf : ∀ a, place (f a) = n) (hn : n = 5 ∨ n = 8) (l : List α) :
    Ordered n (n + 1) (l.map f) := by
  constructor
  · induction l with
    | nil => exact .nil
    | cons a l ih =>
      refine .cons (fun y hy => ?_) ih
      obtain ⟨b, _, rfl⟩ := List.mem_map.mp hy
      exact .inr ⟨by rw [hf, hf], by rw [hf]; exact hn⟩
  · intro x hx
    obtain ⟨b, _, rfl⟩ := List.mem_map.mp hx
    rw [hf]; omega

theorem blockRun_ordered (E : Env) (p : Profile) (acc : Bytes → Bool) (clock : Option UInt64) (signer : ModuleSigner) (s : SignableFile) :
    Ordered 3 12 (blockRun E p acc clock signer s).1 := by
  have h3 := ordered_one (.format s.format)
  unfold blockRun
  dsimp only
  split
  · exact h3.weaken (Nat.le_of_ble_eq_true rfl) (Nat.le_of_ble_eq_true rfl)
  · exact h3.weaken (Nat.le_of_ble_eq_true rfl) (Nat.le_of_ble_eq_true rfl)
  · rename_i rs _
    obtain ⟨bs, _, hbs⟩ := mem_hashLines_shape E p acc s signer.requiredAlgorithms
    have hl2 : Ordered 3 8 ([.format s.format] ++ [.regions] ++ rs.map .region ++ [.count signer.requiredAlgorithms.length, .calculating]) :=
      ((((h3.append (ordered_one .regions) (Nat.le_of_ble_eq_true rfl) (Nat.le_of_ble_eq_true rfl)).append
        (ordered_many (f := .region) (n := 5) (fun _ => rfl) (.inl rfl) rs) (Nat.le_of_ble_eq_true rfl) (Nat.le_of_ble_eq_true rfl)).append
        ((ordered_one (.count _)).append (ordered_one .calculating) (Nat.le_of_ble_eq_true rfl) (Nat.le_of_ble_eq_true rfl)) (Nat.le_of_ble_eq_true rfl) (Nat.le_of_ble_eq_true rfl)))
    have hx : Ordered 8 9 (hashLines E p acc s signer.requiredAlgorithms).1 := by
      rw [hbs]; exact ordered_many (f := .hashing) (n := 8) (fun _ => rfl) (.inr rfl) bs
    have hl3 := hl2.append hx (Nat.le_of_ble_eq_true rfl) (Nat.le_of_ble_eq_true rfl)
    have hds : Ordered 9 11 [.digestsDone, .signing] := (ordered_one .digestsDone).append (ordered_one .signing) (Nat.le_of_ble_eq_true rfl) (Nat.le_of_ble_eq_true rfl)
    split
    · exact hl3.weaken (Nat.le_of_ble_eq_true rfl) (Nat.le_of_ble_eq_true rfl)
    · exact hl3.weaken (Nat.le_of_ble_eq_true rfl) (Nat.le_of_ble_eq_true rfl)
    · have hl4 := hl3.append hds (Nat.le_of_ble_eq_true rfl) (Nat.le_of_ble_eq_true rfl)
      split
      · exact hl4.weaken (Nat.le_of_ble_eq_true rfl) (Nat.le_of_ble_eq_true rfl)
      · exact hl4.weaken (Nat.le_of_ble_eq_true rfl) (Nat.le_of_ble_eq_true rfl)
      · exact hl4.append (ordered_one (.complete _)) (Nat.le_of_ble_eq_true rfl) (Nat.le_of_ble_eq_true rfl)

theorem targetRun_ordered (M : Machine) (clock : Option UInt64) (output : Path) (ip : Bool) (sections : List (List Char))
    (signer : ModuleSigner) (file : Bytes) : Ordered 3 14 (targetRun M clock output ip sections signer file).1 := by
  unfold targetRun
  split
  · exact ordered_nil _ _
  · exact ordered_nil _ _
  · dsimp only
    have hb := blockRun_ordered M.env M.profile M.acc clock signer ‹_›
    split
    · exact hb.weaken (Nat.le_of_ble_eq_true rfl) (Nat.le_of_ble_eq_true rfl)
    · exact hb.weaken (Nat.le_of_ble_eq_true rfl) (Nat.le_of_ble_eq_true rfl)
    · refine hb.append (mid := 12) ?_ (Nat.le_of_ble_eq_true rfl) (Nat.le_of_ble_eq_true rfl)
      unfold writeRun
      dsimp only
      split
      · exact (ordered_one .writing).append (ordered_one .success) (Nat.le_of_ble_eq_true rfl) (Nat.le_of_ble_eq_true rfl)
      · exact (ordered_one .writing).weaken (Nat.le_of_ble_eq_true rfl) (Nat.le_of_ble_eq_true rfl)

/-- C109: the lines come in one fixed order; only regions and digests can have several lines. -/
theorem C109_order (M : Machine) (clock : Option UInt64) (fs : Fs) (input output : Path) (v2 stamp : CredPaths)
    (sections : List (List Char)) : (signRun M clock fs input output v2 stamp sections).1.Pairwise Before := by
  have h0 := ordered_one .start
  have h1 := h0.append (ordered_one .v2Key) (Nat.le_of_ble_eq_true rfl) (Nat.le_of_ble_eq_true rfl)
  unfold signRun
  split
  · exact h0.1
  · exact h0.1
  · split
    · exact h1.1
    · rename_i st _
      have hk : Ordered 0 3 ([.start, .v2Key] ++ if st.isSome then [.stampKey] else []) := by
        refine h1.append (mid := 2) ?_ (Nat.le_of_ble_eq_true rfl) (Nat.le_of_ble_eq_true rfl)
        split
        · exact ordered_one .stampKey
        · exact ordered_nil _ _
      dsimp only
      split
      · exact hk.1
      · exact (hk.append (targetRun_ordered _ _ _ _ _ _ _) (Nat.le_of_ble_eq_true rfl) (Nat.le_of_ble_eq_true rfl)).1

theorem shown_append (l l' : List SLine) : regionsShown (l ++ l') = regionsShown l ++ regionsShown l' ∧
    hashesShown (l ++ l') = hashesShown l ++ hashesShown l' :=
  ⟨List.filterMap_append, List.filterMap_append⟩

theorem regionsShown_regions (rs : List DigestRegion) : regionsShown (rs.map .region) = rs ∧ hashesShown (rs.map .region) = [] := by
  induction rs with
  | nil => exact ⟨rfl, rfl⟩
  | cons r rs ih =>
    unfold regionsShown hashesShown at *
    simp [ih.1, ih.2]

theorem hashesShown_hashes (as : List Algo) : regionsShown (as.map .hashing) = [] ∧ hashesShown (as.map .hashing) = as := by
  induction as with
  | nil => exact ⟨rfl, rfl⟩
  | cons r rs ih =>
    unfold regionsShown hashesShown at *
    simp [ih.1, ih.2]

theorem blockRun_shown {E : Env} {p : Profile} {acc : Bytes → Bool} {clock : Option UInt64} {signer : ModuleSigner} {s : SignableFile}
    {rs : List DigestRegion} (h : s.digestRegions p acc = .ok rs) :
    regionsShown (blockRun E p acc clock signer s).1 = rs ∧
      hashesShown (blockRun E p acc clock signer s).1 <+: signer.requiredAlgorithms := by
  obtain ⟨bs, hp, hbs⟩ := mem_hashLines_shape E p acc s signer.requiredAlgorithms
  have h1 := regionsShown_regions rs
  have h2 := hashesShown_hashes bs
  unfold blockRun
  dsimp only
  rw [h]
  dsimp only
  rw [hbs]
  have e : ∀ l : List SLine, regionsShown l = [] → hashesShown l = [] →
      regionsShown ([.format s.format] ++ [.regions] ++ rs.map .region ++ [.count signer.requiredAlgorithms.length, .calculating] ++
        bs.map .hashing ++ l) = rs ∧ hashesShown ([.format s.format] ++ [.regions] ++ rs.map .region ++
        [.count signer.requiredAlgorithms.length, .calculating] ++ bs.map .hashing ++ l) <+: signer.requiredAlgorithms := by
    intro l e1 e2
    simp only [shown_append, h1.1, h1.2, h2.1, h2.2, e1, e2, List.append_nil]
    exact ⟨by simp [regionsShown], by simpa [hashesShown] using hp⟩
  split
  · have := e [] rfl rfl; rw [List.append_nil] at this; exact this
  · have := e [] rfl rfl; rw [List.append_nil] at this; exact this
  · split
    · exact e _ rfl rfl
    · exact e _ rfl rfl
    · rw [List.append_assoc]; exact e _ rfl rfl

/-- When everything is there, the command goes on to the file. -/
theorem signRun_ready {M : Machine} {clock : Option UInt64} {fs : Fs} {input output : Path} {v2 stamp : CredPaths}
    {sections : List (List Char)} {signer : ModuleSigner} {s : SignableFile} (h : ReadyToSign M fs input v2 stamp sections signer s) :
    ∃ keys file, fs input = some file ∧ cliOpen M.acc sections file = .ok s ∧ regionsShown keys = [] ∧ hashesShown keys = [] ∧
      signRun M clock fs input output v2 stamp sections =
        (keys ++ (targetRun M clock output (decide (output = input)) sections signer file).1,
          (targetRun M clock output (decide (output = input)) sections signer file).2) := by
  obtain ⟨h1, file, h2, h3⟩ := h
  unfold signerFrom at h1
  unfold signRun
  cases hv : v2.load M.keys fs with
  | error e => rw [hv] at h1; cases h1
  | ok o =>
    cases o with
    | none => rw [hv] at h1; cases h1
    | some c =>
      rw [hv] at h1
      dsimp only at h1 ⊢
      cases hst : stamp.load M.keys fs with
      | error e => rw [hst] at h1; cases h1
      | ok st =>
        rw [hst] at h1
        cases st with
        | none => cases h1; exact ⟨[.start, .v2Key], file, h2, h3, rfl, rfl, by rw [h2]; rfl⟩
        | some d => cases h1; exact ⟨[.start, .v2Key, .stampKey], file, h2, h3, rfl, rfl, by rw [h2]; rfl⟩

/-- C109: the regions are shown in the order in which they are hashed, each as often as it is hashed; the digests in the order of the
algorithms that are needed, up to the one that fails. -/
theorem C109_shown {M : Machine} {clock : Option UInt64} {fs : Fs} {input output : Path} {v2 stamp : CredPaths}
    {sections : List (List Char)} {signer : ModuleSigner} {s : SignableFile} {rs : List DigestRegion}
    (h : ReadyToSign M fs input v2 stamp sections signer s) (hr : s.digestRegions M.profile M.acc = .ok rs) :
    regionsShown (signRun M clock fs input output v2 stamp sections).1 = rs ∧
      hashesShown (signRun M clock fs input output v2 stamp sections).1 <+: signer.requiredAlgorithms := by
  obtain ⟨keys, file, _, h2, h3, h4, h5⟩ := signRun_ready (clock := clock) (output := output) h
  rw [h5]
  dsimp only
  rw [(shown_append _ _).1, (shown_append _ _).2, h3, h4]
  have hb := blockRun_shown (E := M.env) (clock := clock) (signer := signer) hr
  unfold targetRun
  rw [h2]
  dsimp only
  split
  · exact hb
  · exact hb
  · dsimp only
    rw [(shown_append _ _).1, (shown_append _ _).2]
    unfold writeRun
    dsimp only
    split
    · rw [show regionsShown ([SLine.writing] ++ [.success]) = [] from rfl, show hashesShown ([SLine.writing] ++ [.success]) = [] from rfl]
      simpa using hb
    · rw [show regionsShown ([SLine.writing] ++ []) = [] from rfl, show hashesShown ([SLine.writing] ++ []) = [] from rfl]
      simpa using hb

/-- C109: the format shown is the format the file was recognised as. -/
theorem C109_format {M : Machine} {clock : Option UInt64} {fs : Fs} {input output : Path} {v2 stamp : CredPaths}
    {sections : List (List Char)} {f : FileFormat} (h : .format f ∈ (signRun M clock fs input output v2 stamp sections).1) :
    ∃ file, fs input = some file ∧ detectFileFormat file = .ok f := by
  cases (C109_lines M 0 clock fs input output v2 stamp sections _).mp h with
  | format signer s hr =>
    obtain ⟨_, file, h1, h2⟩ := hr
    refine ⟨file, h1, ?_⟩
    rcases cliOpen_cases h2 with ⟨rfl, _, h⟩ | ⟨g, rfl, _, _, h⟩
    · exact h
    · exact h

/-- C109: when the command succeeds it has said how many bytes the block has that is in the output. -/
theorem C109_size {M : Machine} {now : Nat} {clock : Option UInt64} {fs : Fs} {input output : Path} {v2 stamp : CredPaths}
    {sections : List (List Char)} {n : Nat}
    (h : ((Command.sign input output v2 stamp sections).exec M now clock fs).result = .ok ()) :
    .complete n ∈ (signRun M clock fs input output v2 stamp sections).1 ↔
      ∃ out signer s b, ((Command.sign input output v2 stamp sections).exec M now clock fs).written = some (output, out) ∧
        ReadyToSign M fs input v2 stamp sections signer s ∧ Makes M clock signer s b ∧ b.toU8 <:+: out ∧ b.toU8.length = n := by
  rw [C109_lines M now]
  rw [← C109_same_run] at h ⊢
  have hreg : ∀ signer s b, ReadyToSign M fs input v2 stamp sections signer s → Makes M clock signer s b →
      (∃ rs, s.digestRegions M.profile M.acc = .ok rs) ∧
      ∃ out, (signRun M clock fs input output v2 stamp sections).2.written = some (output, out) ∧ b.toU8 <:+: out := by
    intro signer s b hr hm
    obtain ⟨keys, file, _, h2, _, _, h5⟩ := signRun_ready (clock := clock) (output := output) hr
    rw [h5] at h ⊢
    dsimp only at h ⊢
    unfold targetRun at h ⊢
    rw [h2] at h ⊢
    dsimp only at h ⊢
    cases hb : (blockRun M.env M.profile M.acc clock signer s).2 with
    | err e => rw [hb] at h; cases h
    | panic => rw [hb] at h; cases h
    | ok b' =>
      rw [hb] at h
      dsimp only at h ⊢
      have hrs : ∃ rs, s.digestRegions M.profile M.acc = .ok rs := by
        rw [blockRun_snd] at hb
        obtain ⟨rs, h, _⟩ := Res.bind_eq_ok.mp hb
        exact ⟨rs, h⟩
      refine ⟨hrs, ?_⟩
      obtain ⟨rs, hrs⟩ := hrs
      have hbb := (blockRun_ok hrs b).mpr hm
      rw [hb] at hbb; cases hbb
      unfold writeRun at h ⊢
      dsimp only at h ⊢
      cases hw : (s.created (decide (output = input))).writeWithSignature M.profile M.acc b with
      | mk out r =>
        rw [hw] at h
        unfold Outcome.create at h ⊢
        dsimp only at h ⊢
        cases hc : M.creatable output with
        | false => rw [hc] at h; cases h
        | true =>
          rw [hc] at h
          simp only [if_true] at h
          cases h
          refine ⟨out, by simp, ?_⟩
          cases s with
          | module m g => exact signableWrite_infix hw
          | elf f =>
            unfold SignableFile.created SignableFile.writeWithSignature at hw
            dsimp only at hw
            cases hf : f.writeWithSignature M.acc b with
            | ok out' => rw [hf] at hw; cases hw; exact elfWrite_infix hf
            | err e => rw [hf] at hw; cases hw
            | panic => rw [hf] at hw; cases hw
  constructor
  · intro hx
    cases hx with
    | complete signer s rs b hr hrs hm =>
      obtain ⟨_, out, h1, h2⟩ := hreg signer s b hr hm
      exact ⟨out, signer, s, b, h1, hr, hm, h2, rfl⟩
  · rintro ⟨out, signer, s, b, _, hr, hm, _, rfl⟩
    obtain ⟨⟨rs, hrs⟩, _⟩ := hreg signer s b hr hm
    exact .complete signer s rs b hr hrs hm

/-- C109: the last line is printed exactly if the exit status is 0. -/
theorem C109_success (M : Machine) (now : Nat) (clock : Option UInt64) (fs : Fs) (input output : Path) (v2 stamp : CredPaths)
    (sections : List (List Char)) : .success ∈ (signRun M clock fs input output v2 stamp sections).1 ↔
      ((Command.sign input output v2 stamp sections).exec M now clock fs).status = 0 := by
  rw [C109_lines M now]
  constructor
  · intro h
    cases h with
    | success h => unfold Outcome.status; rw [h]
  · intro h
    refine .success ?_
    unfold Outcome.status at h
    split at h
    · assumption
    · cases h
    · cases h

set_option maxRecDepth 100000 in
/-- A module is signed: all the lines. -/
example : (signRun toyMachine (some 5) toyFs "in".toList "out".toList toyPaths noPaths []).1.map place =
    [0, 1, 3, 4, 5, 5, 5, 6, 7, 8, 9, 10, 11, 12, 13] := by decide +kernel

set_option maxRecDepth 100000 in
/-- An ELF file is signed with a stamp; a file that is missing; a file without a certificate. -/
example : (signRun toyMachine (some 5) (toyFs.set "in".toList elf64) "in".toList "out".toList toyPaths toyPaths []).1.map place =
    [0, 1, 2, 3, 4, 5, 5, 6, 7, 8, 9, 10, 11, 12, 13] ∧
    (signRun toyMachine (some 5) toyFs "x".toList "out".toList toyPaths noPaths []).1 = [.start, .v2Key] ∧
    (signRun toyMachine (some 5) toyFs "in".toList "out".toList ⟨some "k".toList, some "x".toList, none, none⟩ noPaths []).1 =
      [.start] := by decide +kernel

/-! ## digest -/

theorem regionLines_snd (p : Profile) : ∀ (t : Nat) (rs : List DigestRegion),
    (regionLines p t rs).2 = rs.foldlM (fun t r => uadd p t r.size) t
  | t, [] => rfl
  | t, r :: rs => by
    rw [List.foldlM_cons]
    unfold regionLines
    cases h : uadd p t r.size with
    | err e => rfl
    | panic => rfl
    | ok t' => exact regionLines_snd p t' rs

theorem uadd_ok_iff {p : Profile} {t n m : Nat} : uadd p t n = .ok m ↔ (p = .release ∨ t + n < 2 ^ 64) ∧ m = (t + n) % 2 ^ 64 := by
  unfold uadd
  split
  · rename_i h
    rw [Nat.mod_eq_of_lt h]
    constructor
    · intro h'; cases h'; exact ⟨.inr h, rfl⟩
    · rintro ⟨_, rfl⟩; rfl
  · rename_i h
    cases p with
    | dev =>
      constructor
      · intro h'; cases h'
      · rintro ⟨h' | h', _⟩
        · cases h'
        · exact absurd h' h
    | release =>
      constructor
      · intro h'; cases h'; exact ⟨.inl rfl, rfl⟩
      · rintro ⟨_, rfl⟩; rfl

theorem sum_ok_iff (p : Profile) : ∀ (rs : List DigestRegion) (t n : Nat), t < 2 ^ 64 →
    (rs.foldlM (fun t r => uadd p t r.size) t = .ok n ↔
      (p = .release ∨ t + (rs.map (·.size)).sum < 2 ^ 64) ∧ n = (t + (rs.map (·.size)).sum) % 2 ^ 64)
  | [], t, n, ht => by
    simp only [List.foldlM_nil, List.map_nil, List.sum_nil, Nat.add_zero]
    rw [Nat.mod_eq_of_lt ht]
    constructor
    · intro h; cases h; exact ⟨.inr ht, rfl⟩
    · rintro ⟨_, rfl⟩; rfl
  | r :: rs, t, n, ht => by
    rw [List.foldlM_cons, List.map_cons, List.sum_cons]
    constructor
    · intro h
      obtain ⟨t', h1, h2⟩ := Res.bind_eq_ok.mp h
      obtain ⟨hs, rfl⟩ := uadd_ok_iff.mp h1
      obtain ⟨hs', rfl⟩ := (sum_ok_iff p rs _ _ (Nat.mod_lt _ (by decide))).mp h2
      constructor
      · rcases hs with hs | hs
        · exact .inl hs
        · rw [Nat.mod_eq_of_lt hs] at hs'
          exact hs'.imp id fun h => by omega
      · omega
    · rintro ⟨hs, rfl⟩
      refine Res.bind_eq_ok.mpr ⟨_, uadd_ok_iff.mpr ⟨hs.imp id fun h => by omega, rfl⟩, ?_⟩
      refine (sum_ok_iff p rs _ _ (Nat.mod_lt _ (by decide))).mpr ⟨?_, by omega⟩
      refine hs.imp id fun h => ?_
      rw [Nat.mod_eq_of_lt (by omega)]
      omega

theorem mem_regionLines (p : Profile) : ∀ (rs : List DigestRegion) (t : Nat) (x : DLine), t < 2 ^ 64 →
    (x ∈ (regionLines p t rs).1 ↔ ∃ before r after, rs = before ++ r :: after ∧ x = .region r ∧
      (p = .release ∨ t + (before.map (·.size)).sum < 2 ^ 64))
  | [], t, x, ht => by
    unfold regionLines
    constructor
    · intro h; cases h
    · rintro ⟨before, r, after, h, _⟩; simp at h
  | r :: rs, t, x, ht => by
    have hsplit : (∃ before q after, r :: rs = before ++ q :: after ∧ x = .region q ∧
        (p = .release ∨ t + (before.map (·.size)).sum < 2 ^ 64)) ↔ x = .region r ∨ ∃ before q after, rs = before ++ q :: after ∧
          x = .region q ∧ (p = .release ∨ t + r.size + (before.map (·.size)).sum < 2 ^ 64) := by
      constructor
      · rintro ⟨before, q, after, h, hx, hp⟩
        cases before with
        | nil => simp at h; exact .inl (by rw [hx, h.1])
        | cons b before =>
          simp only [List.cons_append, List.cons.injEq] at h
          obtain ⟨rfl, h⟩ := h
          refine .inr ⟨before, q, after, h, hx, hp.imp id fun h => ?_⟩
          simp only [List.map_cons, List.sum_cons] at h; omega
      · rintro (h | ⟨before, q, after, h, hx, hp⟩)
        · exact ⟨[], r, rs, rfl, h, .inr (by simpa using ht)⟩
        · refine ⟨r :: before, q, after, by rw [h]; rfl, hx, hp.imp id fun h => ?_⟩
          simp only [List.map_cons, List.sum_cons]; omega
    rw [hsplit]
    unfold regionLines
    cases h : uadd p t r.size with
    | ok t' =>
      obtain ⟨hs, rfl⟩ := uadd_ok_iff.mp h
      dsimp only
      rw [List.mem_cons, mem_regionLines p rs _ x (Nat.mod_lt _ (by decide))]
      refine or_congr Iff.rfl ⟨?_, ?_⟩
      · rintro ⟨before, q, after, h1, h2, h3⟩
        refine ⟨before, q, after, h1, h2, ?_⟩
        rcases hs with hs | hs
        · exact .inl hs
        · rw [Nat.mod_eq_of_lt hs] at h3; exact h3
      · rintro ⟨before, q, after, h1, h2, h3⟩
        refine ⟨before, q, after, h1, h2, h3.imp id fun h => ?_⟩
        rw [Nat.mod_eq_of_lt (by omega)]; exact h
    | err e =>
      exfalso
      unfold uadd at h
      split at h
      · cases h
      · cases p <;> cases h
    | panic =>
      have hp : p = .dev ∧ ¬ t + r.size < 2 ^ 64 := by
        unfold uadd at h
        split at h
        · cases h
        · rename_i hn
          cases p with
          | dev => exact ⟨rfl, hn⟩
          | release => cases h
      constructor
      · intro hx; exact .inl (List.mem_singleton.mp hx)
      · rintro (hx | ⟨before, q, after, h1, h2, h3⟩)
        · exact List.mem_singleton.mpr hx
        · rcases h3 with h3 | h3
          · rw [hp.1] at h3; cases h3
          · omega

theorem listRun_snd {p : Profile} {acc : Bytes → Bool} {sections : List (List Char)} {file : Bytes} {s : SignableFile}
    {rs : List DigestRegion} {t : Nat} : (listRun p acc sections file).2 = .ok (s, rs, t) ↔
      cliOpen acc sections file = .ok s ∧ s.digestRegions p acc = .ok rs ∧ Summable p rs ∧ t = totalSize rs := by
  unfold listRun
  cases ho : cliOpen acc sections file with
  | err e => simp
  | panic => simp
  | ok s0 =>
    dsimp only
    cases hr : s0.digestRegions p acc with
    | err e =>
      constructor
      · intro h; cases h
      · rintro ⟨h1, h2, _⟩; cases h1; rw [hr] at h2; cases h2
    | panic =>
      constructor
      · intro h; cases h
      · rintro ⟨h1, h2, _⟩; cases h1; rw [hr] at h2; cases h2
    | ok rs0 =>
      dsimp only
      have hs := fun n => sum_ok_iff p rs0 0 n (by decide)
      simp only [← regionLines_snd, Nat.zero_add] at hs
      unfold Summable totalSize
      split
      · rename_i e he
        constructor
        · intro h; cases h
        · rintro ⟨h1, h2, h3, h4⟩
          cases h1; rw [hr] at h2; cases h2
          rw [(hs t).mpr ⟨h3, h4⟩] at he; cases he
      · rename_i he
        constructor
        · intro h; cases h
        · rintro ⟨h1, h2, h3, h4⟩
          cases h1; rw [hr] at h2; cases h2
          rw [(hs t).mpr ⟨h3, h4⟩] at he; cases he
      · rename_i t0 he
        constructor
        · intro h; cases h; obtain ⟨h3, h4⟩ := (hs _).mp he; exact ⟨rfl, hr, h3, h4⟩
        · rintro ⟨h1, h2, h3, h4⟩
          cases h1; rw [hr] at h2; cases h2
          rw [(hs t).mpr ⟨h3, h4⟩] at he; cases he; rfl

theorem mem_listRun {p : Profile} {acc : Bytes → Bool} {sections : List (List Char)} {file : Bytes} {x : DLine} :
    x ∈ (listRun p acc sections file).1 ↔ ∃ s, cliOpen acc sections file = .ok s ∧ (x = .format s.format ∨
      ∃ rs, s.digestRegions p acc = .ok rs ∧ (x = .regions ∨
        (∃ before r after, rs = before ++ r :: after ∧ x = .region r ∧ Summable p before) ∨
        (x = .total (totalSize rs) ∧ Summable p rs))) := by
  have hex : ∀ {α : Type} (a : α) (P : α → Prop), (∃ a', Res.ok a = .ok a' ∧ P a') ↔ P a := fun a P =>
    ⟨fun ⟨_, h, hp⟩ => by cases h; exact hp, fun hp => ⟨a, rfl, hp⟩⟩
  unfold listRun
  cases ho : cliOpen acc sections file with
  | err e => simp
  | panic => simp
  | ok s0 =>
    dsimp only
    rw [hex]
    cases hr : s0.digestRegions p acc with
    | err e => simp
    | panic => simp
    | ok rs =>
      dsimp only
      rw [hex]
      have hs := fun n => sum_ok_iff p rs 0 n (by decide)
      have hm := mem_regionLines p rs 0 x (by decide)
      simp only [← regionLines_snd, Nat.zero_add] at hs hm
      rw [show ∀ a b : DLine, [a, b] ++ (regionLines p 0 rs).1 = a :: b :: (regionLines p 0 rs).1 from fun _ _ => rfl]
      have hno : (∀ n, (regionLines p 0 rs).2 ≠ .ok n) → ¬ Summable p rs := fun h hsum => h _ ((hs _).mpr ⟨hsum, rfl⟩)
      unfold totalSize
      split
      · rename_i e he
        have := hno fun n h => by rw [he] at h; cases h
        simp only [List.mem_cons, hm, this, and_false, or_false]
        rfl
      · rename_i he
        have := hno fun n h => by rw [he] at h; cases h
        simp only [List.mem_cons, hm, this, and_false, or_false]
        rfl
      · rename_i t he
        obtain ⟨h3, h4⟩ := (hs _).mp he
        have h3' : Summable p rs := h3
        simp only [List.cons_append, List.mem_cons, List.mem_append, hm, h3', and_true, h4, List.not_mem_nil, or_false]
        rfl

theorem listSays_iff {M : Machine} {fs : Fs} {input : Path} {sections : List (List Char)} {x : DLine} :
    ListSays M fs input sections x ↔ ∃ file, fs input = some file ∧ x ∈ (listRun M.profile M.acc sections file).1 := by
  constructor
  · intro h
    cases h with
    | format s h => obtain ⟨file, h1, h2⟩ := h; exact ⟨file, h1, mem_listRun.mpr ⟨s, h2, .inl rfl⟩⟩
    | regions s rs h hr => obtain ⟨file, h1, h2⟩ := h; exact ⟨file, h1, mem_listRun.mpr ⟨s, h2, .inr ⟨rs, hr, .inl rfl⟩⟩⟩
    | region s rs before after r h hr he hs =>
      obtain ⟨file, h1, h2⟩ := h
      exact ⟨file, h1, mem_listRun.mpr ⟨s, h2, .inr ⟨rs, hr, .inr (.inl ⟨before, r, after, he, rfl, hs⟩)⟩⟩⟩
    | total s rs h hr hs =>
      obtain ⟨file, h1, h2⟩ := h; exact ⟨file, h1, mem_listRun.mpr ⟨s, h2, .inr ⟨rs, hr, .inr (.inr ⟨rfl, hs⟩)⟩⟩⟩
  · rintro ⟨file, hi, h⟩
    obtain ⟨s, ho, rfl | ⟨rs, hr, rfl | ⟨before, r, after, he, rfl, hs⟩ | ⟨rfl, hs⟩⟩⟩ := mem_listRun.mp h
    · exact .format s ⟨file, hi, ho⟩
    · exact .regions s rs ⟨file, hi, ho⟩ hr
    · exact .region s rs before after r ⟨file, hi, ho⟩ hr he hs
    · exact .total s rs ⟨file, hi, ho⟩ hr hs

theorem listRun_eq (p : Profile) (acc : Bytes → Bool) (sections : List (List Char)) (file : Bytes) :
    (listRun p acc sections file).2 = (do
      let s ← cliOpen acc sections file
      let rs ← s.digestRegions p acc
      let t ← rs.foldlM (fun t r => uadd p t r.size) 0
      .ok (s, rs, t)) := by
  unfold listRun
  cases cliOpen acc sections file with
  | err e => rfl
  | panic => rfl
  | ok s =>
    rw [Res.ok_bind]
    dsimp only
    cases s.digestRegions p acc with
    | err e => rfl
    | panic => rfl
    | ok rs =>
      rw [Res.ok_bind, ← regionLines_snd]
      dsimp only
      cases (regionLines p 0 rs).2 <;> rfl

theorem cliDigest_list (E : Env) (p : Profile) (acc : Bytes → Bool) (sha512 : Bool) (format : OutputFormat) (sections : List (List Char))
    (file : Bytes) : cliDigest E p acc sha512 format sections file = (do
      let x ← (listRun p acc sections file).2
      let d ← x.1.digest E p acc (if sha512 then .p384 else .p256)
      .ok (format.render d)) := by
  rw [listRun_eq]
  unfold cliDigest cliRegions
  cases cliOpen acc sections file with
  | err e => rfl
  | panic => rfl
  | ok s =>
    rw [Res.ok_bind, Res.ok_bind]
    cases s.digestRegions p acc with
    | err e => rfl
    | panic => rfl
    | ok rs =>
      rw [Res.ok_bind, Res.ok_bind]
      cases (rs.foldlM (fun t r => uadd p t r.size) 0 : Res Nat) <;> rfl

theorem openRegions_list (p : Profile) (acc : Bytes → Bool) (sections : List (List Char)) (file : Bytes) :
    (do
      let s ← cliOpen acc sections file
      cliRegions p acc s : Res (List DigestRegion)) = (do
      let x ← (listRun p acc sections file).2
      .ok x.2.1) := by
  rw [listRun_eq]
  unfold cliRegions
  cases cliOpen acc sections file with
  | err e => rfl
  | panic => rfl
  | ok s =>
    rw [Res.ok_bind, Res.ok_bind]
    cases s.digestRegions p acc with
    | err e => rfl
    | panic => rfl
    | ok rs =>
      rw [Res.ok_bind, Res.ok_bind]
      cases (rs.foldlM (fun t r => uadd p t r.size) 0 : Res Nat) <;> rfl

/-- C110: the run with its lines is the run of the digest command modelled for the other properties. -/
theorem C110_same_run (M : Machine) (now : Nat) (clock : Option UInt64) (fs : Fs) (input : Path) (sha512 : Bool) (format : OutputFormat)
    (sections : List (List Char)) :
    (digestRun M fs input sha512 format sections).2 = (Command.digest input sha512 format sections).exec M now clock fs := by
  unfold digestRun Command.exec
  dsimp only
  cases hi : fs input with
  | none => rfl
  | some file =>
    dsimp only
    rw [cliDigest_list]
    cases hl : (listRun M.profile M.acc sections file).2 with
    | err e => rfl
    | panic => rfl
    | ok v =>
      obtain ⟨s, rs, t⟩ := v
      rw [Res.ok_bind]
      dsimp only
      cases s.digest M.env M.profile M.acc (if sha512 then .p384 else .p256) <;> rfl

/-- C110: the digest command prints exactly the lines that are true. -/
theorem C110_lines (M : Machine) (fs : Fs) (input : Path) (sha512 : Bool) (format : OutputFormat)
    (sections : List (List Char)) (x : DLine) :
    x ∈ (digestRun M fs input sha512 format sections).1 ↔ DigestSays M fs input sha512 format sections x := by
  have hds : DigestSays M fs input sha512 format sections x ↔ ListSays M fs input sections x ∨ ∃ file s rs, fs input = some file ∧
      (listRun M.profile M.acc sections file).2 = .ok (s, rs, totalSize rs) ∧ (x = .algorithm sha512 ∨ ∃ d,
        s.digest M.env M.profile M.acc (if sha512 then .p384 else .p256) = .ok d ∧ x = .digest (format.render d)) := by
    constructor
    · intro h
      cases h with
      | list l h => exact .inl h
      | algorithm s rs h hr hs =>
        obtain ⟨file, h1, h2⟩ := h; exact .inr ⟨file, s, rs, h1, listRun_snd.mpr ⟨h2, hr, hs, rfl⟩, .inl rfl⟩
      | digest s rs d h hr hs hd =>
        obtain ⟨file, h1, h2⟩ := h; exact .inr ⟨file, s, rs, h1, listRun_snd.mpr ⟨h2, hr, hs, rfl⟩, .inr ⟨d, hd, rfl⟩⟩
    · rintro (h | ⟨file, s, rs, hi, h, rfl | ⟨d, hd, rfl⟩⟩)
      · exact .list x h
      · obtain ⟨h1, h2, h3, _⟩ := listRun_snd.mp h
        exact .algorithm s rs ⟨file, hi, h1⟩ h2 h3
      · obtain ⟨h1, h2, h3, _⟩ := listRun_snd.mp h
        exact .digest s rs d ⟨file, hi, h1⟩ h2 h3 hd
  rw [hds, listSays_iff]
  unfold digestRun
  have hex : ∀ {α : Type} (a : α) (P : α → Prop), (∃ a', some a = some a' ∧ P a') ↔ P a := fun a P =>
    ⟨fun ⟨_, h, hp⟩ => by cases h; exact hp, fun hp => ⟨a, rfl, hp⟩⟩
  cases hi : fs input with
  | none => simp
  | some file =>
    dsimp only
    have hR : (∃ file' s rs, some file = some file' ∧ (listRun M.profile M.acc sections file').2 = .ok (s, rs, totalSize rs) ∧
        (x = .algorithm sha512 ∨ ∃ d, s.digest M.env M.profile M.acc (if sha512 then .p384 else .p256) = .ok d ∧
          x = .digest (format.render d))) ↔ ∃ s rs, (listRun M.profile M.acc sections file).2 = .ok (s, rs, totalSize rs) ∧
        (x = .algorithm sha512 ∨ ∃ d, s.digest M.env M.profile M.acc (if sha512 then .p384 else .p256) = .ok d ∧
          x = .digest (format.render d)) := by
      constructor
      · rintro ⟨_, s, rs, h, h'⟩; cases h; exact ⟨s, rs, h'⟩
      · rintro ⟨s, rs, h'⟩; exact ⟨_, s, rs, rfl, h'⟩
    rw [hex, hR]
    cases hl : (listRun M.profile M.acc sections file).2 with
    | err e => simp
    | panic => simp
    | ok v =>
      obtain ⟨s, rs, t⟩ := v
      obtain ⟨_, _, _, rfl⟩ := listRun_snd.mp hl
      dsimp only
      have hL : (∃ s' rs', Res.ok (s, rs, totalSize rs) = .ok (s', rs', totalSize rs') ∧ (x = .algorithm sha512 ∨ ∃ d,
          s'.digest M.env M.profile M.acc (if sha512 then .p384 else .p256) = .ok d ∧ x = .digest (format.render d))) ↔
          (x = .algorithm sha512 ∨ ∃ d,
          s.digest M.env M.profile M.acc (if sha512 then .p384 else .p256) = .ok d ∧ x = .digest (format.render d)) := by
        constructor
        · rintro ⟨s', rs', h, h'⟩; cases h; exact h'
        · intro h'; exact ⟨s, rs, rfl, h'⟩
      rw [hL]
      split
      · rename_i e he
        simp only [List.mem_append, List.mem_singleton]
        refine or_congr Iff.rfl ⟨.inl, ?_⟩
        rintro (h | ⟨d, h, _⟩)
        · exact h
        · rw [he] at h; cases h
      · rename_i he
        simp only [List.mem_append, List.mem_singleton]
        refine or_congr Iff.rfl ⟨.inl, ?_⟩
        rintro (h | ⟨d, h, _⟩)
        · exact h
        · rw [he] at h; cases h
      · rename_i d he
        simp only [List.mem_append, List.mem_singleton, or_assoc]
        refine or_congr Iff.rfl (or_congr Iff.rfl ⟨fun h => ⟨d, he, h⟩, ?_⟩)
        rintro ⟨d', h, hx⟩
        rw [he] at h; cases h; exact hx

/-- C110: the same for `--dump`. -/
theorem C110_dump_same_run (M : Machine) (now : Nat) (clock : Option UInt64) (fs : Fs) (input output : Path)
    (sections : List (List Char)) :
    (dumpRun M fs input output sections).2 = (Command.dump input output sections).exec M now clock fs := by
  unfold dumpRun Command.exec
  dsimp only
  cases hi : fs input with
  | none => rfl
  | some file =>
    dsimp only
    unfold cliDump
    rw [openRegions_list]
    cases hl : (listRun M.profile M.acc sections file).2 with
    | err e => rfl
    | panic => rfl
    | ok v =>
      obtain ⟨s, rs, t⟩ := v
      rw [Res.ok_bind]
      dsimp only
      by_cases hp : output = input
      · simp only [hp, if_true, decide_true]
      · simp only [hp, if_false, decide_false]
        rfl

theorem dumpRegions_length {file : Bytes} {rs : List DigestRegion} (h : (dumpRegions file rs).2 = true) :
    (dumpRegions file rs).1.length = (rs.map (·.size)).sum := by
  obtain ⟨h1, h2⟩ := C49_dump_is_the_regions file rs
  have hin := h1.mp h
  rw [h2 h]
  clear h h1 h2
  induction rs with
  | nil => rfl
  | cons r rs ih =>
    simp only [List.flatMap_cons, List.length_append, List.map_cons, List.sum_cons, ih fun q hq => hin q (List.mem_cons_of_mem _ hq)]
    have := hin r List.mem_cons_self
    rw [List.length_take, List.length_drop]
    omega

/-- C110: with `--dump`, the command lists the regions as it does without, and on success says how many bytes it has written. -/
theorem C110_dump_lines (M : Machine) (now : Nat) (clock : Option UInt64) (fs : Fs) (input output : Path)
    (sections : List (List Char)) (x : DLine) :
    x ∈ (dumpRun M fs input output sections).1 ↔ ListSays M fs input sections x ∨
      ((Command.dump input output sections).exec M now clock fs).result = .ok () ∧
      ∃ out, ((Command.dump input output sections).exec M now clock fs).written = some (output, out) ∧
        x = .dumped (out.length % 2 ^ 64) := by
  rw [← C110_dump_same_run, listSays_iff]
  unfold dumpRun
  cases hi : fs input with
  | none => simp [Outcome.quiet]
  | some file =>
    have hex : ∀ {α : Type} (a : α) (P : α → Prop), (∃ a', some a = some a' ∧ P a') ↔ P a := fun a P =>
      ⟨fun ⟨_, h, hp⟩ => by cases h; exact hp, fun hp => ⟨a, rfl, hp⟩⟩
    rw [hex]
    dsimp only
    cases hl : (listRun M.profile M.acc sections file).2 with
    | err e => simp [Outcome.quiet]
    | panic => simp [Outcome.quiet]
    | ok v =>
      obtain ⟨s, rs, t⟩ := v
      obtain ⟨_, _, _, rfl⟩ := listRun_snd.mp hl
      dsimp only
      rw [List.mem_append]
      refine or_congr Iff.rfl ?_
      unfold Outcome.create
      have hlen := @dumpRegions_length (if output = input then [] else file) rs
      generalize dumpRegions (if output = input then [] else file) rs = r at hlen ⊢
      obtain ⟨out, b⟩ := r
      dsimp only at hlen ⊢
      cases M.creatable output <;> cases b
      · simp [Res.isOk, Outcome.quiet]
      · simp [Res.isOk, Outcome.quiet]
      · simp [Res.isOk]
      · simp [Res.isOk, totalSize, hlen rfl]

set_option maxRecDepth 100000 in
/-- An ELF file whose sections are too large to be added up, and one that can be dumped. -/
example : (digestRun toyMachine (toyFs.set "in".toList elfHuge) "in".toList false .hex []).1.length = 4 ∧
    (digestRun { toyMachine with profile := .release } (toyFs.set "in".toList elfHuge) "in".toList false .hex []).1.length = 7 ∧
    .dumped 12 ∈ (dumpRun toyMachine (toyFs.set "in".toList elf64) "in".toList "out".toList []).1 := by decide +kernel

/-! ## The order of the lines of the digest command -/

theorem regionLines_shape (p : Profile) : ∀ (rs : List DigestRegion) (t : Nat),
    ∃ bs, bs <+: rs ∧ (regionLines p t rs).1 = bs.map .region ∧ ((regionLines p t rs).2.isOk = true → bs = rs)
  | [], _ => ⟨[], List.prefix_rfl, rfl, fun _ => rfl⟩
  | r :: rs, t => by
    unfold regionLines
    cases uadd p t r.size with
    | ok t' =>
      obtain ⟨bs, ⟨cs, h1⟩, h2, h3⟩ := regionLines_shape p rs t'
      exact ⟨r :: bs, ⟨cs, by rw [← h1]; rfl⟩, by dsimp only; rw [h2]; rfl, fun h => by rw [h3 h]⟩
    | err e => exact ⟨[r], ⟨rs, rfl⟩, rfl, nofun⟩
    | panic => exact ⟨[r], ⟨rs, rfl⟩, rfl, nofun⟩

/-- A report of the digest command: some regions between lines of other kinds. -/
def Report (l : List DLine) (bs : List DigestRegion) : Prop :=
  ∃ a c, l = a ++ bs.map .region ++ c ∧ a.Pairwise DBefore ∧ c.Pairwise DBefore ∧ (∀ x ∈ a, dplace x < 2) ∧ ∀ x ∈ c, 2 < dplace x

theorem report_ok {l : List DLine} {bs : List DigestRegion} (h : Report l bs) : l.Pairwise DBefore ∧ regionsListed l = bs := by
  obtain ⟨a, c, rfl, ha, hc, ha2, hc2⟩ := h
  constructor
  · rw [List.pairwise_append, List.pairwise_append]
    refine ⟨⟨ha, ?_, ?_⟩, hc, ?_⟩
    · rw [List.pairwise_map]
      exact List.pairwise_of_forall fun _ _ => .inr ⟨rfl, rfl⟩
    · intro x hx y hy
      obtain ⟨r, _, rfl⟩ := List.mem_map.mp hy
      exact .inl (ha2 x hx)
    · intro x hx y hy
      have := hc2 y hy
      rcases List.mem_append.mp hx with hx | hx
      · have := ha2 x hx
        exact .inl (by omega)
      · obtain ⟨r, _, rfl⟩ := List.mem_map.mp hx
        exact .inl (hc2 y hy)
  · have hn : ∀ l : List DLine, (∀ x ∈ l, dplace x ≠ 2) → regionsListed l = [] := by
      intro l hl
      refine List.filterMap_eq_nil_iff.mpr fun x hx => ?_
      have := hl x hx
      cases x <;> first | rfl | exact absurd rfl this
    have hm : regionsListed (bs.map .region) = bs := by
      unfold regionsListed
      induction bs with
      | nil => rfl
      | cons r rs ih => simp [ih]
    show regionsListed (a ++ bs.map .region ++ c) = bs
    unfold regionsListed at hn hm ⊢
    rw [List.filterMap_append, List.filterMap_append, hn a fun x hx => by have := ha2 x hx; omega,
      hn c fun x hx => by have := hc2 x hx; omega, hm]
    simp

theorem Report.add {l : List DLine} {bs : List DigestRegion} {y : DLine} {n : Nat} (h : Report l bs) (hl : ∀ x ∈ l, dplace x < n)
    (hn : n ≤ dplace y) (hy : 2 < dplace y) : Report (l ++ [y]) bs := by
  obtain ⟨a, c, rfl, ha, hc, ha2, hc2⟩ := h
  refine ⟨a, c ++ [y], by simp, ha, ?_, ha2, fun x hx => ?_⟩
  · rw [List.pairwise_append]
    refine ⟨hc, List.pairwise_singleton _ _, fun x hx z hz => ?_⟩
    rw [List.mem_singleton.mp hz]
    have := hl x (List.mem_append_right _ hx)
    exact .inl (by omega)
  · rcases List.mem_append.mp hx with hx | hx
    · exact hc2 x hx
    · rw [List.mem_singleton.mp hx]; exact hy

theorem listRun_report (p : Profile) (acc : Bytes → Bool) (sections : List (List Char)) (file : Bytes) :
    ∃ bs, Report (listRun p acc sections file).1 bs ∧ (∀ x ∈ (listRun p acc sections file).1, dplace x < 4) ∧
      (∀ s rs, cliOpen acc sections file = .ok s → s.digestRegions p acc = .ok rs → bs <+: rs) ∧
      ∀ s rs t, (listRun p acc sections file).2 = .ok (s, rs, t) → bs = rs := by
  unfold listRun
  cases cliOpen acc sections file with
  | err e => exact ⟨[], ⟨[], [], rfl, .nil, .nil, nofun, nofun⟩, nofun, nofun, nofun⟩
  | panic => exact ⟨[], ⟨[], [], rfl, .nil, .nil, nofun, nofun⟩, nofun, nofun, nofun⟩
  | ok s =>
    have h0 : Report [.format s.format] [] :=
      ⟨[.format s.format], [], rfl, List.pairwise_singleton _ _, .nil,
        fun x hx => by rw [List.mem_singleton.mp hx]; exact Nat.le_of_ble_eq_true rfl, nofun⟩
    have h0' : ∀ x ∈ [DLine.format s.format], dplace x < 4 :=
      fun x hx => by rw [List.mem_singleton.mp hx]; exact Nat.le_of_ble_eq_true rfl
    dsimp only
    cases hr : s.digestRegions p acc with
    | err e => exact ⟨[], h0, h0', fun _ _ h1 h2 => List.nil_prefix, nofun⟩
    | panic => exact ⟨[], h0, h0', fun _ _ h1 h2 => List.nil_prefix, nofun⟩
    | ok rs =>
      obtain ⟨bs, hp, hl, hb⟩ := regionLines_shape p rs 0
      dsimp only
      rw [hl]
      have ha : ∀ x ∈ [DLine.format s.format, .regions], dplace x < 2 := by
        intro x hx
        rcases List.mem_cons.mp hx with rfl | hx
        · exact Nat.le_of_ble_eq_true rfl
        · rw [List.mem_singleton.mp hx]; exact Nat.le_of_ble_eq_true rfl
      have h1 : Report ([.format s.format, .regions] ++ bs.map .region) bs :=
        ⟨[.format s.format, .regions], [], by simp,
          List.pairwise_cons.mpr ⟨fun x hx => by rw [List.mem_singleton.mp hx]; exact .inl (Nat.le_of_ble_eq_true rfl),
            List.pairwise_singleton _ _⟩, .nil, ha, nofun⟩
      have h2 : ∀ x ∈ [DLine.format s.format, .regions] ++ bs.map .region, dplace x < 3 := by
        intro x hx
        rcases List.mem_append.mp hx with hx | hx
        · have := ha x hx; omega
        · obtain ⟨r, _, rfl⟩ := List.mem_map.mp hx
          exact Nat.le_of_ble_eq_true rfl
      have h3 : ∀ s' rs', Res.ok (α := SignableFile) s = .ok s' → s'.digestRegions p acc = .ok rs' → bs <+: rs' := by
        intro s' rs' h1 h2
        cases h1
        rw [hr] at h2
        cases h2
        exact hp
      cases ht : (regionLines p 0 rs).2 with
      | err e => exact ⟨bs, h1, fun x hx => by have := h2 x hx; omega, h3, nofun⟩
      | panic => exact ⟨bs, h1, fun x hx => by have := h2 x hx; omega, h3, nofun⟩
      | ok t =>
        refine ⟨bs, h1.add h2 (Nat.le_of_ble_eq_true rfl) (Nat.le_of_ble_eq_true rfl), fun x hx => ?_, h3, fun s' rs' t' h => ?_⟩
        · rcases List.mem_append.mp hx with hx | hx
          · have := h2 x hx; omega
          · rw [List.mem_singleton.mp hx]; exact Nat.le_of_ble_eq_true rfl
        · cases h
          exact hb (by rw [ht]; rfl)

/-- C110: the lines come in this order, each at most once, except that there is a line for each region; these come in the order of the
regions, and none is left out before the last one shown. -/
theorem C110_order (M : Machine) (fs : Fs) (input output : Path) (sha512 : Bool) (format : OutputFormat) (sections : List (List Char)) :
    ((digestRun M fs input sha512 format sections).1.Pairwise DBefore ∧ (dumpRun M fs input output sections).1.Pairwise DBefore) ∧
    ∀ s rs, Target M fs input sections s → s.digestRegions M.profile M.acc = .ok rs →
      (regionsListed (digestRun M fs input sha512 format sections).1 <+: rs ∧
        regionsListed (dumpRun M fs input output sections).1 <+: rs) ∧
      (Summable M.profile rs → regionsListed (digestRun M fs input sha512 format sections).1 = rs ∧
        regionsListed (dumpRun M fs input output sections).1 = rs) := by
  cases hi : fs input with
  | none =>
    have h1 : (digestRun M fs input sha512 format sections).1 = [] := by unfold digestRun; rw [hi]
    have h2 : (dumpRun M fs input output sections).1 = [] := by unfold dumpRun; rw [hi]
    rw [h1, h2]
    refine ⟨⟨.nil, .nil⟩, fun s rs h => ?_⟩
    obtain ⟨file, h3, _⟩ := h
    rw [hi] at h3; cases h3
  | some file =>
    obtain ⟨bs, hrep, h4, hpre, hall⟩ := listRun_report M.profile M.acc sections file
    have hd : Report (digestRun M fs input sha512 format sections).1 bs := by
      unfold digestRun
      rw [hi]
      dsimp only
      cases (listRun M.profile M.acc sections file).2 with
      | err e => exact hrep
      | panic => exact hrep
      | ok x =>
        obtain ⟨s, rs, t⟩ := x
        have h5 := hrep.add (y := .algorithm sha512) h4 (Nat.le_of_ble_eq_true rfl) (Nat.le_of_ble_eq_true rfl)
        dsimp only
        cases s.digest M.env M.profile M.acc (if sha512 then .p384 else .p256) with
        | err e => exact h5
        | panic => exact h5
        | ok d =>
          refine h5.add (n := 5) (fun x hx => ?_) (Nat.le_of_ble_eq_true rfl) (Nat.le_of_ble_eq_true rfl)
          rcases List.mem_append.mp hx with hx | hx
          · have := h4 x hx; omega
          · rw [List.mem_singleton.mp hx]; exact Nat.le_of_ble_eq_true rfl
    have hu : Report (dumpRun M fs input output sections).1 bs := by
      unfold dumpRun
      rw [hi]
      dsimp only
      cases (listRun M.profile M.acc sections file).2 with
      | err e => exact hrep
      | panic => exact hrep
      | ok x =>
        obtain ⟨s, rs, t⟩ := x
        dsimp only
        generalize Res.isOk (Outcome.result _) = k
        cases k with
        | true => exact hrep.add (y := .dumped t) (n := 4) h4 (Nat.le_of_ble_eq_true rfl) (Nat.le_of_ble_eq_true rfl)
        | false => simpa using hrep
    rw [(report_ok hd).2, (report_ok hu).2]
    refine ⟨⟨(report_ok hd).1, (report_ok hu).1⟩, fun s rs h hr => ?_⟩
    obtain ⟨file', h5, h6⟩ := h
    rw [hi] at h5; cases h5
    have hp := hpre s rs h6 hr
    refine ⟨⟨hp, hp⟩, fun hs => ?_⟩
    have := hall s rs _ (listRun_snd.mpr ⟨h6, hr, hs, rfl⟩)
    exact ⟨this, this⟩

/-! ## The text of an algorithm (C11) -/

theorem hexDigit_props : ∀ n, n < 16 → hexDigit n ≠ ' ' ∧ hexValue (hexDigit n) = some n := by decide +kernel

theorem hexNat_noSpace (n : Nat) : ∀ c ∈ hexNat n, c ≠ ' ' := by
  induction n using Nat.strongRecOn with
  | ind n ih =>
    unfold hexNat
    split
    · intro c hc
      rw [List.mem_singleton.mp hc]
      exact (hexDigit_props n (by assumption)).1
    · intro c hc
      rcases List.mem_append.mp hc with hc | hc
      · exact ih (n / 16) (by omega) c hc
      · rw [List.mem_singleton.mp hc]
        exact (hexDigit_props _ (by omega)).1

/-- The number a text of hex digits stands for. -/
def hexRead (l : List Char) : Nat := l.foldl (fun v c => 16 * v + (hexValue c).getD 0) 0

theorem hexRead_hexNat (n : Nat) : hexRead (hexNat n) = n := by
  induction n using Nat.strongRecOn with
  | ind n ih =>
    unfold hexNat
    split
    · rename_i h
      simp [hexRead, (hexDigit_props n h).2]
    · have := ih (n / 16) (by omega)
      unfold hexRead at this ⊢
      rw [List.foldl_append, this]
      simp [(hexDigit_props (n % 16) (by omega)).2]
      omega

theorem split_at_space : ∀ {l l' r r' : List Char}, (∀ c ∈ l, c ≠ ' ') → (∀ c ∈ l', c ≠ ' ') → l ++ ' ' :: r = l' ++ ' ' :: r' →
    l = l' ∧ r = r'
  | [], [], r, r', _, _, h => ⟨rfl, by simpa using h⟩
  | [], c :: l', r, r', _, h2, h => by
    simp only [List.nil_append, List.cons_append, List.cons.injEq] at h
    exact absurd h.1.symm (h2 c List.mem_cons_self)
  | c :: l, [], r, r', h1, _, h => by
    simp only [List.nil_append, List.cons_append, List.cons.injEq] at h
    exact absurd h.1 (h1 c List.mem_cons_self)
  | c :: l, c' :: l', r, r', h1, h2, h => by
    simp only [List.cons_append, List.cons.injEq] at h
    obtain ⟨h3, h4⟩ := split_at_space (fun x hx => h1 x (List.mem_cons_of_mem _ hx)) (fun x hx => h2 x (List.mem_cons_of_mem _ hx)) h.2
    exact ⟨by rw [h.1, h3], h4⟩

/-- C11: the text of an algorithm begins with its identifier in hex, and different algorithms have different texts. -/
theorem C11_display (a : Algo) : (∃ rest, a.display = '0' :: 'x' :: (hexNat a.toU32.toNat ++ ' ' :: rest)) ∧
    hexRead (hexNat a.toU32.toNat) = a.toU32.toNat ∧ ∀ a', a.display = a'.display → a = a' := by
  have hd : ∀ a : Algo, ∃ rest, a.display = '0' :: 'x' :: (hexNat a.toU32.toNat ++ ' ' :: '-' :: ' ' :: rest) ∧
      (a = .p256 → rest = "ECDSA P-256 with SHA2-256 digest".toList) ∧ (a = .p384 → rest = "ECDSA P-384 with SHA2-512 digest".toList) ∧
      ∀ u, a = .unknown u → ∃ r, rest = 'U' :: r := by
    intro a
    cases a with
    | p256 => exact ⟨"ECDSA P-256 with SHA2-256 digest".toList, by simp [Algo.display], fun _ => rfl, nofun, nofun⟩
    | p384 => exact ⟨"ECDSA P-384 with SHA2-512 digest".toList, by simp [Algo.display], nofun, fun _ => rfl, nofun⟩
    | unknown u =>
      refine ⟨'U' :: ?_, ?_, nofun, nofun, fun _ _ => ⟨_, rfl⟩⟩
      rotate_left
      · simp [Algo.display]
        rfl
  refine ⟨?_, hexRead_hexNat _, fun a' h => ?_⟩
  · obtain ⟨rest, h, _⟩ := hd a
    exact ⟨_, h⟩
  · obtain ⟨rest, h1, p1, q1, u1⟩ := hd a
    obtain ⟨rest', h2, p2, q2, u2⟩ := hd a'
    rw [h1, h2] at h
    simp only [List.cons.injEq, true_and] at h
    obtain ⟨h3, h4⟩ := split_at_space (hexNat_noSpace _) (hexNat_noSpace _) h
    have h5 : a.toU32.toNat = a'.toU32.toNat := by rw [← hexRead_hexNat a.toU32.toNat, h3, hexRead_hexNat]
    simp only [List.cons.injEq, true_and] at h4
    subst h4
    cases a with
    | p256 =>
      cases a' with
      | p256 => rfl
      | p384 => exact absurd ((p1 rfl).symm.trans (q2 rfl)) (by decide)
      | unknown u => obtain ⟨r, hr⟩ := u2 u rfl; rw [p1 rfl] at hr; exact absurd hr (by simp)
    | p384 =>
      cases a' with
      | p384 => rfl
      | p256 => exact absurd ((q1 rfl).symm.trans (p2 rfl)) (by decide)
      | unknown u => obtain ⟨r, hr⟩ := u2 u rfl; rw [q1 rfl] at hr; exact absurd hr (by simp)
    | unknown u =>
      obtain ⟨r, hr⟩ := u1 u rfl
      cases a' with
      | p256 => rw [p2 rfl] at hr; exact absurd hr (by simp)
      | p384 => rw [q2 rfl] at hr; exact absurd hr (by simp)
      | unknown u' => rw [show u = u' from UInt32.toNat_inj.mp h5]

/-- C11: the text of an unknown algorithm says so and ends with its identifier in four hex digits, or as many as it takes. -/
theorem C11_unknown_text (u : UInt32) : ∃ front digits, Algo.display (.unknown u) = front ++ "Unknown algorithm: 0x".toList ++ digits ∧
    hexRead digits = u.toNat ∧ 4 ≤ digits.length ∧ (4 < digits.length → digits = hexNat u.toNat) := by
  refine ⟨"0x".toList ++ hexNat u.toNat ++ " - ".toList, hexNat4 u.toNat, ?_, ?_, ?_, ?_⟩
  · simp [Algo.display, Algo.toU32]
  · have hz : ∀ k l, hexRead (List.replicate k '0' ++ l) = hexRead l := by
      intro k l
      induction k with
      | zero => rfl
      | succ k ih => rw [← ih]; rfl
    unfold hexNat4
    rw [hz, hexRead_hexNat]
  · unfold hexNat4
    rw [List.length_append, List.length_replicate]
    omega
  · intro h
    unfold hexNat4 at h ⊢
    rw [List.length_append, List.length_replicate] at h
    rw [show 4 - (hexNat u.toNat).length = 0 by omega]
    rfl

example : Algo.display .p256 = "0x201 - ECDSA P-256 with SHA2-256 digest".toList ∧
    Algo.display (.unknown 0x201) = "0x201 - Unknown algorithm: 0x0201".toList := by decide +kernel

end Ksusig.Props
