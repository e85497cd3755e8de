import Verif.Props.Parse

/-!
# Editing the content of a signing block (C82)

`content_mut` (`signing_block/mod.rs:264-266`) gives write access to the content and nothing else, so whatever is done through it,
the result is `{ b with content := c }` for some list `c`.
-/

namespace Ksusig.Props

open Ksusig Spec

theorem sizes_of_tiled {x : Bytes} {vs : List Value} (h : Tiled x vs) : contentSum vs = x.length := by
  rw [contentSum_eq]
  induction h with
  | nil => rfl
  | cons id value v rest vs hv _ ih =>
    rw [List.map_cons, List.sum_cons, ih]
    have : v.size = (wirePair id value).length := by
      simp only [wirePair, List.length_append, leBytes_length]
      cases v with
      | raw r => have := congrArg RawData.size hv.1; simp only [Value.size, Value.innerSize] at *; omega
      | v2 r => have := hv.2.2; simp only [Value.size, Value.innerSize] at *; omega
      | stamp r => have := hv.2.2; simp only [Value.size, Value.innerSize] at *; omega
      | elf r => have := hv.2.2; simp only [Value.size, Value.innerSize] at *; omega
    simp [this]

theorem edited_wf {b : SigningBlock} {cs : List ContentSpec} (hm : b.magic = Ksusig.magic) (hok : ∀ c ∈ cs, c.Ok)
    (hlim : (cs.map fun c => c.build.size).sum + 24 ≤ 16384) :
    (SigningBlock.recalculateSize { b with content := cs.map ContentSpec.build }).WF := by
  have hs : contentSum (cs.map ContentSpec.build) + 24 ≤ maxBlockSize := by
    rw [contentSum_eq, List.map_map]; exact hlim
  have h := built_wf hok 0 0 hs
  exact ⟨h.content, rfl, rfl, rfl, hs, hm⟩

/-- C82: a block of any origin whose content was replaced and whose sizes were recalculated afterwards reads back as it is, if it
is within the size limit. -/
theorem C82_edited_reads_back (p : Profile) {b : SigningBlock} {cs : List ContentSpec} (hm : b.magic = Ksusig.magic)
    (hok : ∀ c ∈ cs, c.Ok) (hlim : (cs.map fun c => c.build.size).sum + 24 ≤ 16384) :
    let b' := SigningBlock.recalculateSize { b with content := cs.map ContentSpec.build }
    b'.content = cs.map ContentSpec.build ∧
      SigningBlock.fromU8 p b'.toU8 = .ok { b' with fileStart := 0, fileEnd := b'.toU8.length } ∧
      b'.fileEnd = b'.fileStart + b'.toU8.length := by
  intro b'
  have hw := edited_wf hm hok hlim
  refine ⟨rfl, fromU8_toU8 p hw, ?_⟩
  rw [hw.toU8_length]
  simp only [b', SigningBlock.recalculateSize]
  omega

example : (⟨7, 0, 0, 0, [], 0, Ksusig.magic⟩ : SigningBlock).magic = Ksusig.magic ∧ (∀ c ∈ sampleContent, c.Ok) ∧
    (sampleContent.map fun c => c.build.size).sum + 24 ≤ 16384 := ⟨rfl, sampleContent_ok, by decide +kernel⟩

/-- C82: editing is as good as building anew, and only the last edit counts: a block built with some content, edited any number
of times, recalculated or not in between, and recalculated at the end, is the block built with the last content. -/
theorem C82_edit_is_rebuild {c c' : List Value} {b b' : SigningBlock} (edits : List (List Value × Bool))
    (h : SigningBlock.new c = .ok b) (h' : SigningBlock.new c' = .ok b') :
    SigningBlock.recalculateSize { edits.foldl (fun x e =>
      if e.2 then SigningBlock.recalculateSize { x with content := e.1 } else { x with content := e.1 }) b with content := c' } = b' := by
  obtain ⟨_, rfl⟩ := SigningBlock.new_eq_ok.mp h'
  have key : ∀ (l : List (List Value × Bool)) (x : SigningBlock), x.fileStart = 0 → x.magic = Ksusig.magic →
      let y := l.foldl (fun x e => if e.2 then SigningBlock.recalculateSize { x with content := e.1 } else { x with content := e.1 }) x
      y.fileStart = 0 ∧ y.magic = Ksusig.magic := by
    intro l
    induction l with
    | nil => intro x h1 h2; exact ⟨h1, h2⟩
    | cons e l ih =>
      intro x h1 h2
      rw [List.foldl_cons]
      apply ih <;> split <;> assumption
  obtain ⟨_, rfl⟩ := SigningBlock.new_eq_ok.mp h
  obtain ⟨h1, h2⟩ := key edits ⟨0, contentSum c + 32, contentSum c + 24, contentSum c, c, contentSum c + 24, Ksusig.magic⟩ rfl rfl
  generalize edits.foldl _ _ = y at h1 h2 ⊢
  simp only [SigningBlock.recalculateSize, h1, h2]
  simp only [SigningBlock.mk.injEq, and_true, true_and]
  omega

example : ∃ b b', SigningBlock.new [] = .ok b ∧ SigningBlock.new (sampleContent.map ContentSpec.build) = .ok b' :=
  ⟨_, _, SigningBlock.new_eq_ok.mpr ⟨by decide +kernel, rfl⟩, SigningBlock.new_eq_ok.mpr ⟨by decide +kernel, rfl⟩⟩

/-- C82 does not hold beyond the limit: recalculating does not check the size, and what comes out is refused by the reader. -/
theorem C82_oversize_unreadable (p : Profile) {b : SigningBlock} {cs : List ContentSpec} (hm : b.magic = Ksusig.magic)
    (hok : ∀ c ∈ cs, c.Ok) (hs : ∀ es, ContentSpec.elf es ∈ cs → es.length < 2 ^ 32 ∧ ∀ e ∈ es, e.1.length < 2 ^ 16)
    (hbig : (cs.map fun c => c.build.size).sum + 24 > 16384) (h64 : (cs.map fun c => c.build.size).sum + 24 < 2 ^ 64) :
    SigningBlock.fromU8 p (SigningBlock.recalculateSize { b with content := cs.map ContentSpec.build }).toU8 = .err .blockTooLarge := by
  have hsm : ∀ c ∈ cs, c.Small := by
    intro c hc
    cases c with
    | elf es => exact hs es hc
    | _ => trivial
  generalize hb' : SigningBlock.recalculateSize { b with content := cs.map ContentSpec.build } = b'
  have hcont : b'.content = cs.map ContentSpec.build := by subst hb'; rfl
  have hwf : ∀ v ∈ b'.content, v.WF := by
    intro v hv
    rw [hcont, List.mem_map] at hv
    obtain ⟨c, hc, rfl⟩ := hv
    exact build_wf (hok c hc) (hsm c hc)
  have hm' : b'.magic = Ksusig.magic := by subst hb'; exact hm
  have hss : b'.sizeStart = contentSum b'.content + 24 := by subst hb'; rfl
  have hse : b'.sizeEnd = b'.sizeStart := by subst hb'; rfl
  have hsum : contentSum b'.content = (cs.map fun c => c.build.size).sum := by
    rw [hcont, contentSum_eq, List.map_map]; rfl
  have hcl := content_length hwf
  have hml : Ksusig.magic.length = 16 := rfl
  have hl : b'.toU8.length = b'.sizeStart + 8 := by
    simp only [SigningBlock.toU8, SigningBlock.contentToU8, List.length_append, leBytes_length, hm', hcl, hml]
    omega
  have hsz8 : b'.sizeStart < 256 ^ 8 := by
    have : (256 : Nat) ^ 8 = 2 ^ 64 := by decide
    omega
  unfold SigningBlock.fromU8
  rw [if_neg (by omega), show b'.toU8.length - 16 = (b'.toU8.length - 17) + 1 by omega]
  have s1 : slice? b'.toU8 (b'.toU8.length - 17 + 1) (b'.toU8.length - 17 + 1 + 16) = some Ksusig.magic := by
    have := slice?_append (leBytes 8 b'.sizeStart ++ b'.contentToU8 ++ leBytes 8 b'.sizeEnd) Ksusig.magic []
    rw [List.append_nil, ← hm'] at this
    have e : (leBytes 8 b'.sizeStart ++ b'.contentToU8 ++ leBytes 8 b'.sizeEnd).length = b'.toU8.length - 17 + 1 := by
      simp only [hl, List.length_append, leBytes_length, SigningBlock.contentToU8, hcl]
      omega
    rw [e, hm', hml, ← hm'] at this
    rw [← hm']; exact this
  have s3 : slice? b'.toU8 (b'.toU8.length - 17 + 1 - 8) (b'.toU8.length - 17 + 1) =
      some (leBytes 8 b'.sizeEnd) := by
    have := slice?_append (leBytes 8 b'.sizeStart ++ b'.contentToU8) (leBytes 8 b'.sizeEnd) b'.magic
    have e : (leBytes 8 b'.sizeStart ++ b'.contentToU8).length = b'.toU8.length - 17 + 1 - 8 := by
      simp only [hl, List.length_append, leBytes_length, SigningBlock.contentToU8, hcl]
      omega
    rw [e, leBytes_length] at this
    rw [show b'.toU8.length - 17 + 1 - 8 + 8 = b'.toU8.length - 17 + 1 by omega] at this
    exact this
  unfold fromU8Scan
  rw [s1]
  simp only [if_true]
  unfold fromU8At
  have u1 : usub p (b'.toU8.length - 17 + 1) 8 = .ok (b'.toU8.length - 17 + 1 - 8) := by
    unfold usub; rw [if_pos (by omega)]
  rw [u1]
  simp only [Res.ok_bind, s3, Res.ofOption_some, hse, leNat_leBytes_of_lt hsz8]
  rw [if_pos (by rw [hss, hsum]; simp only [maxBlockSize]; omega)]

example : (⟨7, 0, 0, 0, [], 0, Ksusig.magic⟩ : SigningBlock).magic = Ksusig.magic ∧ (∀ c ∈ [ContentSpec.raw 5 (List.replicate 16384 0)], c.Ok) ∧
    ([ContentSpec.raw 5 (List.replicate 16384 0)].map fun c => c.build.size).sum + 24 > 16384 := by
  exact ⟨rfl, by decide +kernel, by decide +kernel⟩

/-- C82: without recalculation an edit that changes the total size is never read back: whatever the reader finds in the bytes, it
is not the edited content. -/
theorem C82_stale_sizes_never_read_back (p : Profile) {c c' : List Value} {b r : SigningBlock} (h : SigningBlock.new c = .ok b)
    (hne : (c'.map Value.size).sum ≠ (c.map Value.size).sum) (hr : SigningBlock.fromU8 p { b with content := c' }.toU8 = .ok r) :
    r.content ≠ c' := by
  obtain ⟨hlim, rfl⟩ := SigningBlock.new_eq_ok.mp h
  obtain ⟨pre, pairs, post, hd, hp, ht, hlast, _⟩ := C07_from_u8 p _ _ hr
  have hml : Ksusig.magic.length = 16 := rfl
  have hmb : maxBlockSize = 16384 := rfl
  simp only [SigningBlock.toU8, SigningBlock.contentToU8] at hd hlast
  generalize hx : leBytes 8 (contentSum c + 24) ++ c'.flatMap Value.toU8 = x at hd hlast
  have hu := hlast (x ++ leBytes 8 (contentSum c + 24)).length (by
    have := slice?_append (x ++ leBytes 8 (contentSum c + 24)) Ksusig.magic []
    rw [List.append_nil, hml] at this
    exact this)
  have hlen := congrArg List.length hd
  simp only [List.length_append, leBytes_length, wireFrame_length, hml] at hlen hu
  have hpost : post = [] := List.eq_nil_of_length_eq_zero (by omega)
  subst hpost
  have hdd := congrArg (fun l => (l.drop x.length).take 8) hd
  rw [List.append_assoc, List.drop_left' rfl, List.take_left' (by simp)] at hdd
  have hw : pre ++ wireFrame pairs ++ [] = (pre ++ (leBytes 8 (pairs.length + 24) ++ pairs)) ++ (leBytes 8 (pairs.length + 24) ++ Ksusig.magic) := by
    simp [wireFrame, Ksusig.magic]
  rw [hw, List.drop_left' (by simp; omega), List.take_left' (by simp)] at hdd
  have h8 : (256 : Nat) ^ 8 = 2 ^ 64 := by decide
  have heq := leBytes_inj (by omega) (by omega) hdd
  intro hc
  rw [hc] at ht
  have := sizes_of_tiled ht
  rw [contentSum_eq] at this heq
  omega

example : ∃ b, SigningBlock.new [] = .ok b ∧
    ((sampleContent.map ContentSpec.build).map Value.size).sum ≠ (([] : List Value).map Value.size).sum :=
  ⟨_, SigningBlock.new_eq_ok.mpr ⟨by decide +kernel, rfl⟩, by decide +kernel⟩

/-- C82: recalculating does not renew the padding: appending to a padded block, as the sign command does with the sections of an
ELF file, gives a block whose length is off the 4096 boundary by the length of what was appended. -/
theorem C82_padding_not_renewed {p : Profile} {c : List Value} {v : Value} {b : SigningBlock}
    (h : SigningBlock.newWithPadding p c = .ok b) :
    (SigningBlock.recalculateSize { b with content := b.content ++ [v] }).fullSize % 4096 = v.size % 4096 := by
  have h1 := (C03_padding_content p c b h).2
  obtain ⟨_, pad, _, _, _, rfl⟩ := SigningBlock.newWithPadding_ok h
  simp only [SigningBlock.fullSize, SigningBlock.recalculateSize, contentSum_append] at h1 ⊢
  have : contentSum [v] = v.size := by simp [contentSum]
  omega

end Ksusig.Props
