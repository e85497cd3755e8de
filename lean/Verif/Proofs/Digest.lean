import Verif.Props.Zip

/-! The content digest. -/

namespace Ksusig

open Spec

theorem pieces_nil : pieces [] = [] := by decide

theorem pieces_cons {d : Bytes} (h : d ≠ []) : pieces d = d.take (2 ^ 20) :: pieces (d.drop (2 ^ 20)) := by
  have hpos : 0 < d.length := List.length_pos_iff.mpr h
  unfold pieces
  have e : (d.length + (2 ^ 20 - 1)) / 2 ^ 20 = ((d.drop (2 ^ 20)).length + (2 ^ 20 - 1)) / 2 ^ 20 + 1 := by
    rw [List.length_drop]; omega
  rw [e, List.range_succ_eq_map, List.map_cons, List.map_map]
  have e2 : ∀ i, (fun i => List.take (2 ^ 20) (List.drop (i * 2 ^ 20) d)) (Nat.succ i) =
      List.take (2 ^ 20) (List.drop (i * 2 ^ 20) (List.drop (2 ^ 20) d)) := by
    intro i
    have e3 : Nat.succ i * 2 ^ 20 = 2 ^ 20 + i * 2 ^ 20 := by omega
    rw [List.drop_drop]
    simp only [e3]
  have e4 := List.map_congr_left (l := List.range (((d.drop (2 ^ 20)).length + (2 ^ 20 - 1)) / 2 ^ 20))
    (fun i _ => e2 i)
  refine List.cons_eq_cons.mpr ⟨?_, e4⟩
  rw [Nat.zero_mul, List.drop_zero]

theorem chunksBy_full {s : Sched} (hs : ∀ k, chunkSize ≤ s k) : ∀ (fuel k : Nat) (d : Bytes), d.length ≤ fuel →
    chunksBy s fuel k d = pieces d := by
  intro fuel
  induction fuel with
  | zero =>
    intro k d h
    have : d = [] := List.eq_nil_of_length_eq_zero (by omega)
    subst this; rw [pieces_nil]; rfl
  | succ fuel ih =>
    intro k d h
    rw [chunksBy]
    split
    · rename_i hd; subst hd; rw [pieces_nil]
    · rename_i hd
      have hpos : 0 < d.length := List.length_pos_iff.mpr hd
      have hsk := hs k
      have hc : chunkSize = 1048576 := rfl
      dsimp only
      have en : max 1 (min (s k) (min chunkSize d.length)) = min chunkSize d.length := by omega
      rw [en, ih (k + 1) _ (by rw [List.length_drop]; omega), pieces_cons hd]
      by_cases hle : chunkSize ≤ d.length
      · rw [Nat.min_eq_left hle]; rfl
      · rw [Nat.min_eq_right (by omega), List.take_length, List.drop_length,
          List.take_of_length_le (by omega), List.drop_eq_nil_of_le (by omega)]

theorem pieces_flatten : ∀ (n : Nat) (d : Bytes), d.length ≤ n → (pieces d).flatten = d := by
  intro n
  induction n with
  | zero =>
    intro d h
    have : d = [] := List.eq_nil_of_length_eq_zero (by omega)
    subst this; rw [pieces_nil]; rfl
  | succ n ih =>
    intro d h
    by_cases hd : d = []
    · subst hd; rw [pieces_nil]; rfl
    · have hpos : 0 < d.length := List.length_pos_iff.mpr hd
      rw [pieces_cons hd, List.flatten_cons, ih _ (by rw [List.length_drop]; omega), List.take_append_drop]

theorem pieces_length_le : ∀ (n : Nat) (d : Bytes), d.length ≤ n → ∀ c ∈ pieces d, c.length ≤ 2 ^ 20 := by
  intro n d _ c hc
  unfold pieces at hc
  simp only [List.mem_map] at hc
  obtain ⟨i, _, rfl⟩ := hc
  rw [List.length_take]; omega

theorem pieces_small {d : Bytes} (h : d ≠ []) (hl : d.length ≤ 2 ^ 20) : pieces d = [d] := by
  rw [pieces_cons h, List.take_of_length_le hl, List.drop_eq_nil_of_le hl, pieces_nil]

theorem fixed_flatten_inj {n : Nat} (hn : 0 < n) : ∀ (xs ys : List Bytes), (∀ x ∈ xs, x.length = n) →
    (∀ y ∈ ys, y.length = n) → xs.flatten = ys.flatten → xs = ys := by
  intro xs
  induction xs with
  | nil =>
    intro ys _ hy h
    cases ys with
    | nil => rfl
    | cons y ys =>
      have := congrArg List.length h
      simp only [List.flatten_cons, List.flatten_nil, List.length_append, List.length_nil, hy y (by simp)] at this
      omega
  | cons x xs ih =>
    intro ys hx hy h
    cases ys with
    | nil =>
      have := congrArg List.length h
      simp only [List.flatten_cons, List.flatten_nil, List.length_append, List.length_nil, hx x (by simp)] at this
      omega
    | cons y ys =>
      rw [List.flatten_cons, List.flatten_cons] at h
      obtain ⟨h1, h2⟩ := List.append_inj h (by rw [hx x (by simp), hy y (by simp)])
      rw [h1, ih ys (fun a ha => hx a (by simp [ha])) (fun a ha => hy a (by simp [ha])) h2]

theorem pieceInput_inj {c c' : Bytes} (h : pieceInput c = pieceInput c') : c = c' := by
  unfold pieceInput at h
  have h1 := (List.cons.inj h).2
  exact (List.append_inj h1 (by simp)).2

theorem map_hash_eq (h : Bytes → Bytes) : ∀ (xs ys : List Bytes),
    (xs.map fun c => h (pieceInput c)) = (ys.map fun c => h (pieceInput c)) →
    xs = ys ∨ ∃ x ∈ xs, ∃ y ∈ ys, pieceInput x ≠ pieceInput y ∧ h (pieceInput x) = h (pieceInput y) := by
  intro xs
  induction xs with
  | nil => intro ys hy; cases ys with
    | nil => exact .inl rfl
    | cons y ys => simp at hy
  | cons x xs ih =>
    intro ys hy
    cases ys with
    | nil => simp at hy
    | cons y ys =>
      simp only [List.map_cons, List.cons.injEq] at hy
      by_cases hxy : x = y
      · subst hxy
        rcases ih ys hy.2 with h1 | ⟨a, ha, b, hb, h2⟩
        · exact .inl (by rw [h1])
        · exact .inr ⟨a, by simp [ha], b, by simp [hb], h2⟩
      · exact .inr ⟨x, by simp, y, by simp, fun h => hxy (pieceInput_inj h), hy.1⟩

/-- Equal digests: equal pieces or a collision among what was hashed. -/
theorem treeDigest_eq {h : Bytes → Bytes} (hh : FixedLength h) {ps ps' : List Bytes}
    (heq : treeDigest h ps = treeDigest h ps') :
    ps.flatMap pieces = ps'.flatMap pieces ∨
      ∃ x ∈ hashInputs h ps, ∃ y ∈ hashInputs h ps', x ≠ y ∧ h x = h y := by
  obtain ⟨n, hn, hl⟩ := hh
  by_cases ht : topInput h ps = topInput h ps'
  · unfold topInput at ht
    have h1 := (List.append_inj (List.cons.inj ht).2 (by simp)).2
    have h2 := fixed_flatten_inj hn _ _ (fun x hx => by
      obtain ⟨c, _, rfl⟩ := List.mem_map.mp hx; exact hl _) (fun x hx => by
      obtain ⟨c, _, rfl⟩ := List.mem_map.mp hx; exact hl _) h1
    rcases map_hash_eq h _ _ h2 with h3 | ⟨x, hx, y, hy, h3, h4⟩
    · exact .inl h3
    · exact .inr ⟨pieceInput x, List.mem_cons_of_mem _ (List.mem_map.mpr ⟨x, hx, rfl⟩), pieceInput y,
        List.mem_cons_of_mem _ (List.mem_map.mpr ⟨y, hy, rfl⟩), h3, h4⟩
  · exact .inr ⟨_, List.mem_cons_self, _, List.mem_cons_self, ht, heq⟩

/-- The three regions are determined by the pieces, if the last is small and fixes the length of the first. -/
theorem regions_of_pieces {a b c a' b' c' : Bytes} (hc : c ≠ []) (hc' : c' ≠ []) (hl : c.length ≤ 2 ^ 20)
    (hl' : c'.length ≤ 2 ^ 20) (hlen : c = c' → a.length = a'.length)
    (h : [a, b, c].flatMap pieces = [a', b', c'].flatMap pieces) : a = a' ∧ b = b' ∧ c = c' := by
  simp only [List.flatMap_cons, List.flatMap_nil, List.append_nil, pieces_small hc hl, pieces_small hc' hl'] at h
  rw [← List.append_assoc, ← List.append_assoc] at h
  obtain ⟨h1, h2⟩ := List.append_inj' h rfl
  have hcc : c = c' := by simpa using h2
  have h3 := congrArg List.flatten h1
  rw [List.flatten_append, List.flatten_append, pieces_flatten _ a (Nat.le_refl _), pieces_flatten _ b (Nat.le_refl _),
    pieces_flatten _ a' (Nat.le_refl _), pieces_flatten _ b' (Nat.le_refl _)] at h3
  obtain ⟨h4, h5⟩ := List.append_inj h3 (hlen hcc)
  exact ⟨h4, h5, hcc⟩

theorem fullReads_ge (k : Nat) : chunkSize ≤ fullReads k := Nat.le_refl _

theorem digestRegion_eq (E : Env) {s : Sched} (hs : ∀ k, chunkSize ≤ s k) (file : Bytes) (start size : Nat) (algo : Algo) :
    digestRegion E s file start size algo =
      (pieces ((file.drop start).take size)).map fun c => algo.hash E (pieceInput c) := by
  unfold digestRegion
  simp only [chunksBy_full hs _ _ _ (Nat.le_refl _)]
  rfl

theorem eocdForDigest_eq {file : Bytes} {start off : Nat} (h : 20 ≤ (file.drop start).length) :
    eocdForDigest file start off = .ok (patchOffset (file.drop start) off) := by
  unfold eocdForDigest
  simp only [slice?_of_le (d := file.drop start) (a := 0) (b := 16) (by omega) (by omega), sliceFrom?, if_pos h]
  simp [patchOffset]

/-- The digest of three regions given by in-range offsets. -/
theorem digestModule_eq (E : Env) (p : Profile) {s1 s2 : Sched} (hs1 : ∀ k, chunkSize ≤ s1 k)
    (hs2 : ∀ k, chunkSize ≤ s2 k) (file : Bytes) (o : FileOffsets) (algo : Algo)
    (h1 : o.startContent ≤ o.stopContent) (h2 : o.startCd ≤ o.stopCd) (h3 : o.startEocd ≤ o.stopEocd)
    (h4 : 20 ≤ (file.drop o.startEocd).length) :
    digestModule E p s1 s2 file o algo =
      .ok (treeDigest (algo.hash E)
        [(file.drop o.startContent).take (o.stopContent - o.startContent), (file.drop o.startCd).take (o.stopCd - o.startCd),
          patchOffset (file.drop o.startEocd) o.stopContent]) := by
  unfold digestModule
  rw [usub_of_le h1, usub_of_le h2, usub_of_le h3]
  simp only [Res.ok_bind, digestRegion_eq E hs1, digestRegion_eq E hs2, digestEocd, eocdForDigest_eq h4,
    chunksBy_full fullReads_ge _ _ _ (Nat.le_refl _)]
  congr 1
  simp only [digestFinal, treeDigest, topInput, List.flatMap_cons, List.flatMap_nil, List.append_nil, List.map_append,
    List.length_append, List.length_map, List.flatten_append, List.append_assoc]
  rfl

theorem Spec.Split.tail_bounds {p : Profile} {file body block cd tail : Bytes} (h : Split p file body block cd tail) :
    22 ≤ tail.length ∧ tail.length ≤ 65557 ∧ body.length < 2 ^ 32 := by
  obtain ⟨e, he, hfo, hb⟩ := h.parts
  obtain ⟨_, h1, h2, h3, _, _, _⟩ := Props.C12_record_is_real he
  have hl : file.length = body.length + block.length + cd.length + tail.length := by
    rw [h.file_eq]; simp only [List.length_append]
  have h22 : 22 ≤ e.toU8.length := by
    unfold Eocd.toU8
    obtain ⟨_, _, _, _, hs, _⟩ := Props.C12_record_is_real he
    rw [hs]; simp; omega
  refine ⟨by omega, by omega, ?_⟩
  have hlt := e.cdOffset.toNat_lt
  rcases hb with ⟨b, hb, hs, hf⟩ | ⟨err, _, _, _, hc⟩
  · obtain ⟨e', _, _, _, he', _, _, _, hle, _⟩ := Props.C15_last_magic_partial hb
    rw [he] at he'; cases he'
    omega
  · omega

theorem Spec.Split.offsets {p : Profile} {file body block cd tail : Bytes} (h : Split p file body block cd tail) :
    (Module.new file).getOffsets p file = .ok (FileOffsets.new body.length (body.length + block.length)
      (body.length + block.length + cd.length) file.length) := by
  obtain ⟨e, he, hfo, hb⟩ := h.parts
  have h2 : (Module.new file).findEocd file = .ok e := he
  rcases hb with ⟨b, hb, hs, hf⟩ | ⟨err, hb, hm, hn, hc⟩
  · unfold Module.getSigningBlock at hb
    simp only [Module.getOffsets, Module.getOffsetsT, hb, h2, Res.ok_bind]
    simp [Module.new, hs, hf, hfo]
  · unfold Module.getSigningBlock at hb
    simp only [Module.getOffsets, Module.getOffsetsT, hb, h2, Res.ok_bind]
    simp [Module.new, hm, hfo, hc, hn, FileOffsets.withoutSignature]

/-- The digest of a module in terms of its parts. -/
theorem Spec.Split.digest (E : Env) {p : Profile} {file body block cd tail : Bytes} (h : Split p file body block cd tail)
    (algo : Algo) : (Module.new file).digest E p file algo =
      .ok (treeDigest (algo.hash E) [body, cd, patchOffset tail body.length]) := by
  have ht := h.tail_bounds
  have ho := h.offsets
  have hl : file.length = body.length + block.length + cd.length + tail.length := by
    rw [h.file_eq]; simp only [List.length_append]
  unfold Module.getOffsets at ho
  have hdt : file.drop (body.length + block.length + cd.length) = tail := by
    rw [h.file_eq]
    apply drop_append_left
    simp only [List.length_append]
  simp only [Module.digest, Module.digestT, ho, Res.ok_bind]
  rw [digestModule_eq E p fullReads_ge fullReads_ge file _ algo (by simp [FileOffsets.new]) (by simp [FileOffsets.new])
    (by simp only [FileOffsets.new]; omega) (by simp only [FileOffsets.new, hdt]; omega)]
  simp only [FileOffsets.new, hdt]
  congr 3
  · rw [h.file_eq]
    simp only [List.drop_zero, Nat.sub_zero, List.append_assoc]
    exact take_append_left rfl
  · congr 1
    exact take_mid (pre := body ++ block) (post := tail) h.file_eq (by simp) (by omega)


theorem split_four (file : Bytes) {a b c : Nat} (h1 : a ≤ b) (h2 : b ≤ c) :
    file = file.take a ++ (file.drop a).take (b - a) ++ (file.drop b).take (c - b) ++ file.drop c := by
  have e1 : file.drop c = (file.drop b).drop (c - b) := by rw [List.drop_drop]; congr 1; omega
  have e2 : file.drop b = (file.drop a).drop (b - a) := by rw [List.drop_drop]; congr 1; omega
  rw [List.append_assoc, e1, List.take_append_drop, e2, List.append_assoc, List.take_append_drop,
    List.take_append_drop]

/-- Offsets were determined and the directory does not start beyond the end record: the file divides into parts. -/
theorem split_of_offsets {p : Profile} {file : Bytes} {o : FileOffsets}
    (h : (Module.new file).getOffsets p file = .ok o) (hle : o.startCd ≤ o.stopCd) :
    ∃ body block cd tail, Split p file body block cd tail := by
  unfold Module.getOffsets Module.getOffsetsT at h
  obtain ⟨e, he, h2⟩ := Res.bind_eq_ok.mp h
  have he' : findEocd file file.length = .ok e := he
  obtain ⟨_, _, hend, _, hsig, _, _⟩ := Props.C12_record_is_real he'
  split at h2
  · rename_i b hb
    cases h2
    have hb' : (Module.new file).getSigningBlock p file = .ok b := hb
    obtain ⟨e', pre, pairs, post, _, hf, hs, hen, _⟩ := Props.C15_last_magic_partial hb'
    have hraw : (Module.new file).raw = false := rfl
    rw [hraw] at hle
    simp only [FileOffsets.new, Bool.false_eq_true, if_false] at hle
    refine ⟨_, _, _, _, ⟨split_four file (a := b.fileStart) (b := b.fileEnd) (c := e.fileOffset) (by omega) hle, e, he', ?_,
      .inl ⟨b, hb', ?_, ?_⟩⟩⟩ <;>
    · simp only [List.length_take, List.length_drop]; omega
  · rename_i err hb
    split at h2
    · rename_i hm
      cases h2
      simp only [FileOffsets.withoutSignature, FileOffsets.new] at hle
      refine ⟨_, _, _, _, ⟨split_four file (a := e.cdOffset.toNat) (b := e.cdOffset.toNat) (c := e.fileOffset)
        (Nat.le_refl _) hle, e, he', ?_, .inr ⟨err, hb, hm, ?_, ?_⟩⟩⟩
      · simp only [List.length_take, List.length_drop]; omega
      · simp
      · simp only [List.length_take]; omega
    · cases h2
  · cases h2

theorem usub_dev_le {a b n : Nat} (h : usub .dev a b = .ok n) : b ≤ a := by
  unfold usub at h
  split at h
  · assumption
  · cases h

theorem split_of_digest_dev {E : Env} {file d : Bytes} {algo : Algo}
    (h : (Module.new file).digest E .dev file algo = .ok d) :
    ∃ body block cd tail, Split .dev file body block cd tail := by
  unfold Module.digest Module.digestT at h
  obtain ⟨o, ho, h2⟩ := Res.bind_eq_ok.mp h
  refine split_of_offsets (o := o) ho ?_
  unfold digestModule at h2
  obtain ⟨n1, _, h3⟩ := Res.bind_eq_ok.mp h2
  obtain ⟨n2, h4, _⟩ := Res.bind_eq_ok.mp h3
  exact usub_dev_le h4

/-- The parts of a file are unique. -/
theorem Spec.Split.unique {p : Profile} {file body block cd tail body' block' cd' tail' : Bytes}
    (h : Split p file body block cd tail) (h' : Split p file body' block' cd' tail') :
    body = body' ∧ block = block' ∧ cd = cd' ∧ tail = tail' := by
  obtain ⟨e, he, h1, h2⟩ := h.parts
  obtain ⟨e', he', h1', h2'⟩ := h'.parts
  rw [he] at he'; cases he'
  have hf := h.file_eq.symm.trans h'.file_eq
  have hlen : body.length = body'.length ∧ block.length = block'.length := by
    rcases h2 with ⟨b, hb, hs, hf⟩ | ⟨err, hb, hm, hn, hc⟩ <;>
    rcases h2' with ⟨b', hb', hs', hf'⟩ | ⟨err', hb', hm', hn', hc'⟩ <;> rw [hb] at hb' <;> cases hb'
    · omega
    · subst hn hn'; exact ⟨by omega, rfl⟩
  simp only [List.append_assoc] at hf
  obtain ⟨e1, hf⟩ := List.append_inj hf hlen.1
  obtain ⟨e2, hf⟩ := List.append_inj hf hlen.2
  obtain ⟨e3, hf⟩ := List.append_inj hf (by omega)
  exact ⟨e1, e2, e3, hf⟩

theorem split_signed (p : Profile) {a : Archive} {b : SigningBlock} (hb : b.WF) (hok : a.Ok)
    (hclean : a.CleanAt (a.body.length + b.toU8.length)) (hsz : a.body.length + b.toU8.length < 2 ^ 32) :
    Split p (a.signed b.toU8) a.body b.toU8 a.cd (wireEocd a.tail (a.body.length + b.toU8.length)) :=
  ⟨rfl, _, findEocd_signed hok hclean, rfl, .inl ⟨_, getSigningBlock_signed p hb hok hclean hsz, rfl, rfl⟩⟩

theorem split_unsigned (p : Profile) {a : Archive} (hok : a.Ok)
    (hclean : a.CleanAt a.body.length) (hsz : a.body.length < 2 ^ 32) (hno : a.NoMagic) :
    Split p a.unsigned a.body [] a.cd (wireEocd a.tail a.body.length) :=
  ⟨by rw [a.unsigned_eq_signed]; simp [Archive.signed], _, findEocd_unsigned hok hclean, rfl,
    .inr ⟨_, getSigningBlock_unsigned p hok hclean hsz hno, rfl, rfl, u32_ofNat_toNat hsz⟩⟩

theorem patchOffset_wireEocd_append (t : Tail) (off off' : Nat) (rest : Bytes) :
    patchOffset (wireEocd t off ++ rest) off' = wireEocd t off' ++ rest := by
  have h : wireEocd t off ++ rest = ([0x50, 0x4b, 0x05, 0x06] ++ leBytes 2 t.disk.toNat ++ leBytes 2 t.diskCd.toNat ++
      leBytes 2 t.entries.toNat ++ leBytes 2 t.total.toNat ++ leBytes 4 t.cdSize.toNat) ++ leBytes 4 off ++
      (leBytes 2 t.comment.length ++ t.comment ++ rest) := by
    simp only [wireEocd, List.append_assoc]
  have h16 : (wireEocd t off ++ rest).take 16 = [0x50, 0x4b, 0x05, 0x06] ++ leBytes 2 t.disk.toNat ++
      leBytes 2 t.diskCd.toNat ++ leBytes 2 t.entries.toNat ++ leBytes 2 t.total.toNat ++ leBytes 4 t.cdSize.toNat := by
    rw [h, List.append_assoc]
    apply take_append_left
    simp
  have h20 : (wireEocd t off ++ rest).drop 20 = leBytes 2 t.comment.length ++ t.comment ++ rest := by
    rw [h]
    apply drop_append_left
    simp
  unfold patchOffset
  rw [h16, h20]
  simp only [wireEocd, List.append_assoc]

theorem patchOffset_wireEocd (t : Tail) (off off' : Nat) : patchOffset (wireEocd t off) off' = wireEocd t off' := by
  have := patchOffset_wireEocd_append t off off' []
  simpa only [List.append_nil] using this

theorem leBytes4_inj {a b : Nat} (ha : a < 2 ^ 32) (hb : b < 2 ^ 32) (h : leBytes 4 a = leBytes 4 b) : a = b := by
  have := congrArg leNat h
  rwa [leNat_leBytes, leNat_leBytes, Nat.mod_eq_of_lt (by omega), Nat.mod_eq_of_lt (by omega)] at this

theorem patchOffset_inj_off {t t' : Bytes} {a b : Nat} (ha : a < 2 ^ 32) (hb : b < 2 ^ 32) (ht : 22 ≤ t.length)
    (ht' : 22 ≤ t'.length) (h : patchOffset t a = patchOffset t' b) : a = b := by
  unfold patchOffset at h
  simp only [List.append_assoc] at h
  have h1 := (List.append_inj h (by simp only [List.length_take]; omega)).2
  exact leBytes4_inj ha hb (List.append_inj h1 (by simp)).1

theorem patchOffset_length {t : Bytes} {a : Nat} (ht : 22 ≤ t.length) : (patchOffset t a).length = t.length := by
  simp only [patchOffset, List.length_append, List.length_take, List.length_drop, leBytes_length]; omega

theorem tamper_evident {E : Env} {p p' : Profile} {algo : Algo} (hE : FixedLength (algo.hash E))
    {file body block cd tail file' body' block' cd' tail' d : Bytes} (hs : Split p file body block cd tail)
    (hs' : Split p' file' body' block' cd' tail') (h : (Module.new file).digest E p file algo = .ok d)
    (h' : (Module.new file').digest E p' file' algo = .ok d) :
    (body = body' ∧ cd = cd' ∧ patchOffset tail body.length = patchOffset tail' body'.length) ∨
      ∃ x ∈ hashInputs (algo.hash E) [body, cd, patchOffset tail body.length],
        ∃ y ∈ hashInputs (algo.hash E) [body', cd', patchOffset tail' body'.length],
        x ≠ y ∧ algo.hash E x = algo.hash E y := by
  rw [hs.digest] at h
  rw [hs'.digest] at h'
  have heq := (Res.ok.inj h).trans (Res.ok.inj h').symm
  obtain ⟨t1, t2, t3⟩ := hs.tail_bounds
  obtain ⟨t1', t2', t3'⟩ := hs'.tail_bounds
  rcases treeDigest_eq hE heq with h1 | h1
  · left
    have hl := patchOffset_length (a := body.length) t1
    have hl' := patchOffset_length (a := body'.length) t1'
    refine regions_of_pieces ?_ ?_ (by omega) (by omega) (fun h => patchOffset_inj_off t3 t3' t1 t1' h) h1
    · intro h; rw [h] at hl; simp at hl; omega
    · intro h; rw [h] at hl'; simp at hl'; omega
  · exact .inr h1

end Ksusig
