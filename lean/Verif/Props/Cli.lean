import Verif.Proofs.ModuleVerify
import Verif.Props.Signer

/-! # C35, C36, C49–C51: the command line -/

namespace Ksusig.Props

open Ksusig Spec

/-! ### C35 -/

theorem addPem_ok {E : Env} {pem : Bytes} {roots : Roots} :
    Roots.new.addPem E pem = .ok roots ↔ ∃ c, E.pemParse pem = some ("CERTIFICATE", c) ∧ roots = storeOf E [c] := by
  unfold Roots.addPem
  cases h : E.pemParse pem with
  | none => simp
  | some x =>
    obtain ⟨tag, c⟩ := x
    dsimp only
    by_cases ht : tag = "CERTIFICATE"
    · subst ht
      rw [if_neg (by simp)]
      constructor
      · intro h; cases h; exact ⟨c, rfl, rfl⟩
      · rintro ⟨c', h, rfl⟩; cases h; rfl
    · rw [if_pos ht]
      constructor
      · intro h; cases h
      · rintro ⟨c', h, rfl⟩; cases h; exact absurd rfl ht

theorem cliRoots_of {E : Env} {pem : Bytes} {root : Option Bytes} {c : Bytes}
    (h : E.pemParse (root.getD pem) = some ("CERTIFICATE", c)) : cliRoots E pem root = .ok (storeOf E [c]) := by
  have h' : Roots.new.addPem E (root.getD pem) = .ok (storeOf E [c]) := addPem_ok.mpr ⟨c, h, rfl⟩
  cases root with
  | some r => exact h'
  | none =>
    have h'' : Roots.new.addPem E pem = .ok (storeOf E [c]) := h'
    show Res.ok (Roots.withBuiltin E pem) = _
    unfold Roots.withBuiltin
    rw [h'']

theorem cliRoots_ok {E : Env} {pem : Bytes} {root : Option Bytes} {roots : Roots} (h : cliRoots E pem root = .ok roots) :
    (∃ c, E.pemParse (root.getD pem) = some ("CERTIFICATE", c) ∧ roots = storeOf E [c]) ∨ roots = storeOf E [] := by
  cases root with
  | some r => exact .inl (addPem_ok.mp h)
  | none =>
    have h' : Roots.withBuiltin E pem = roots := by
      have : Res.ok (Roots.withBuiltin E pem) = .ok roots := h
      injection this
    unfold Roots.withBuiltin at h'
    split at h'
    · rename_i r hr
      subst h'
      exact .inl (addPem_ok.mp hr)
    · exact .inr h'.symm

theorem no_roots_no_v2 {E : Env} {now : Nat} {b : SigningBlock} {c : DigestCtx} :
    ¬ FullyValid (verifyV2 E (storeOf E []) now b (some c)) := by
  rw [verifyV2_valid]
  rintro ⟨h1, h2⟩
  obtain ⟨s, rest, hs⟩ := List.exists_cons_of_ne_nil h1
  obtain ⟨_, _, _, _, h, _⟩ := (h2 s (by rw [hs]; simp)).cert
  exact h rfl

/-- What a successful command has done. -/
theorem cliVerify_ok {E : Env} {p : Profile} {pem : Bytes} {root : Option Bytes} {now : Nat} {file : Bytes}
    (h : cliVerify E p pem root now file = .ok ()) :
    ∃ b roots ps, (Module.new file).getSigningBlock p file = .ok b ∧ cliRoots E pem root = .ok roots ∧
      ∀ E a, (Module.new file).digest E p file a = .ok (treeDigest (a.hash E) ps) := by
  unfold cliVerify at h
  dsimp only at h
  obtain ⟨b, hb, h⟩ := Res.bind_eq_ok.mp h
  have hb' : (Module.new file).getSigningBlock p file = .ok b := by
    cases hx : (Module.new file).getSigningBlock p file with
    | ok x => rw [hx] at hb; cases hb; rfl
    | err e => rw [hx] at hb; cases hb
    | panic => rw [hx] at hb; cases hb
  obtain ⟨roots, hr, h⟩ := Res.bind_eq_ok.mp h
  obtain ⟨c1, h1, h⟩ := Res.bind_eq_ok.mp h
  obtain ⟨c2, h2, h⟩ := Res.bind_eq_ok.mp h
  rcases digest_form p (Module.new file) file with ⟨ps, hd⟩ | ⟨e, hd⟩ | ⟨hd⟩
  · exact ⟨b, roots, ps, hb', hr, hd⟩
  · unfold cliAddDigest at h1 h2
    rw [hd] at h1 h2
    cases h1
    cases h2
    rw [if_pos (by rfl)] at h
    cases h
  · unfold cliAddDigest at h1
    rw [hd] at h1
    cases h1

/-- C35: the verify command succeeds exactly if the file carries a readable block, the root certificate (the given one,
or the built-in one) loads, both content digests could be computed, the block has a V2 signer and every V2 signer is good for these digests under that root, and
there is no source stamp or the first one is good too. -/
theorem C35_verify_command {E : Env} {p : Profile} {builtinPem : Bytes} {root : Option Bytes} {now : Nat} {file : Bytes} :
    cliVerify E p builtinPem root now file = .ok () ↔
      ∃ b cert d256 d384, (Module.new file).getSigningBlock p file = .ok b ∧
        E.pemParse (root.getD builtinPem) = some ("CERTIFICATE", cert) ∧
        (Module.new file).digest E p file .p256 = .ok d256 ∧ (Module.new file).digest E p file .p384 = .ok d384 ∧
        v2Signers b ≠ [] ∧ (∀ s ∈ v2Signers b, GoodV2 E [cert] now (table d256 d384) s) ∧
        ∀ s rest, stamps b = s :: rest → GoodStamp E [cert] now (table d256 d384) s := by
  constructor
  · intro h
    obtain ⟨b, roots, ps, hb, hr, hd⟩ := cliVerify_ok h
    obtain ⟨c, hc, hiff⟩ := cliVerify_of (now := now) hb hr hd
    have hiff := hiff.mp h
    rw [allFlags_iff] at hiff
    rcases cliRoots_ok hr with ⟨cert, hp, rfl⟩ | rfl
    · obtain ⟨hv, hs⟩ := hiff
      rw [allFlags_iff, isNoSignature_iff, verifySourceStamp_valid, verifySourceStamp_noSignature] at hs
      rw [verifyV2_valid] at hv
      have hfun : c.get = table (treeDigest (Algo.p256.hash E) ps) (treeDigest (Algo.p384.hash E) ps) := funext hc
      rw [hfun] at hv hs
      refine ⟨b, cert, _, _, hb, hp, hd _ _, hd _ _, hv.1, hv.2, fun s rest he => ?_⟩
      rcases hs with ⟨s', rest', he', hg⟩ | h0
      · rw [he] at he'; cases he'; exact hg
      · rw [he] at h0; cases h0
    · exact absurd hiff.1 no_roots_no_v2
  · rintro ⟨b, cert, d256, d384, hb, hp, h1, h2, hne, hv, hs⟩
    have hr := cliRoots_of hp
    rcases digest_form p (Module.new file) file with ⟨ps, hd⟩ | ⟨e, hd⟩ | ⟨hd⟩
    · rw [hd] at h1 h2
      cases h1
      cases h2
      obtain ⟨c, hc, hiff⟩ := cliVerify_of (now := now) hb hr hd
      have hfun : c.get = table (treeDigest (Algo.p256.hash E) ps) (treeDigest (Algo.p384.hash E) ps) := funext hc
      rw [hiff, allFlags_iff, allFlags_iff, isNoSignature_iff, verifySourceStamp_valid, verifySourceStamp_noSignature,
        verifyV2_valid, hfun]
      refine ⟨⟨hne, hv⟩, ?_⟩
      cases hst : stamps b with
      | nil => exact .inr rfl
      | cons s rest => exact .inl ⟨s, rest, rfl, hs s rest hst⟩
    · rw [hd] at h1; cases h1
    · rw [hd] at h1; cases h1

/-! ### C36 -/

theorem verifyWithRoots_valid {E : Env} {p : Profile} {file : Bytes} {added : List Bytes} {now : Nat} :
    (∃ v, (Module.new file).verifyWithRoots E p file (storeOf E added) now = .ok v ∧ v.isValid = true ∧ ∃ r, v.v2 = .ok r) ↔
      ∃ b ps, (Module.new file).getSigningBlock p file = .ok b ∧
        (∀ E a, (Module.new file).digest E p file a = .ok (treeDigest (a.hash E) ps)) ∧ v2Signers b ≠ [] ∧
        (∀ s ∈ v2Signers b, GoodV2 E added now (table (treeDigest (Algo.p256.hash E) ps) (treeDigest (Algo.p384.hash E) ps)) s) ∧
        ∀ s rest, stamps b = s :: rest →
          GoodStamp E added now (table (treeDigest (Algo.p256.hash E) ps) (treeDigest (Algo.p384.hash E) ps)) s := by
  rw [verifyWithRoots_eq]
  constructor
  · rintro ⟨v, hv, hval, r, hr⟩
    cases hb : (Module.new file).getSigningBlock p file with
    | err e => rw [hb] at hv; cases hv; cases hr
    | panic => rw [hb] at hv; cases hv
    | ok b =>
      rw [hb] at hv
      dsimp only at hv
      cases hf : fillCtx E p (Module.new file) file (storedAlgos b) DigestCtx.new with
      | err e => rw [hf] at hv; cases hv
      | panic => rw [hf] at hv; cases hv
      | ok c =>
        rw [hf] at hv
        cases hv
        have hcan := storedAlgos_canon (getSigningBlock_canon hb)
        have hne : v2Signers b ≠ [] := by
          intro h0
          have := (verifyV2_noSignature (E := E) (roots := storeOf E added) (now := now) (ctx := some c)).mpr h0
          have hr' : verifyV2 E (storeOf E added) now b (some c) = .ok r := hr
          rw [this] at hr'
          cases hr'
        rw [isValid_iff] at hval
        -- some digest was computed, so the digest can be computed
        obtain ⟨s, rest, hs⟩ := List.exists_cons_of_ne_nil hne
        have hmem : s ∈ v2Signers b := by rw [hs]; simp
        have hg := hval.1 s hmem
        obtain ⟨g, gs, hgs⟩ := List.exists_cons_of_ne_nil hg.signed
        obtain ⟨d, hd, hcd⟩ := hg.content g (by rw [hgs]; simp)
        have hda : d.algo ∈ storedAlgos b := by
          obtain ⟨pre, post, he, _, _⟩ := hd
          exact mem_storedAlgos_v2 hmem (by rw [he]; simp)
        rcases digest_form p (Module.new file) file with ⟨ps, hdig⟩ | ⟨e, hdig⟩ | ⟨hdig⟩
        · have hget := fillCtx_get hdig hcan hf
          refine ⟨b, ps, rfl, hdig, hne, fun s hs => ?_, fun s rest he => ?_⟩
          · refine (hval.1 s hs).congr fun d hd hk => ?_
            rw [hget _ (mem_storedAlgos_v2 hs hd), table_known hk]
          · refine (hval.2 s rest he).congr fun d hd hk => ?_
            rw [hget _ (mem_storedAlgos_stamp (by rw [he]; simp) hd), table_known hk]
        · rw [fillCtx_err hdig] at hf
          cases hf
          cases hcd
        · rw [fillCtx_panic hdig, if_neg (List.ne_nil_of_mem hda)] at hf
          cases hf
  · rintro ⟨b, ps, hb, hdig, hne, hv, hs⟩
    obtain ⟨c, hf, _⟩ := fillCtx_parts (E := E) hdig (storedAlgos b) DigestCtx.new
    have hcan := storedAlgos_canon (getSigningBlock_canon hb)
    have hget := fillCtx_get hdig hcan hf
    have hv' : ∀ s ∈ v2Signers b, GoodV2 E added now c.get s := fun s hs =>
      (hv s hs).congr fun d hd hk => by rw [hget _ (mem_storedAlgos_v2 hs hd), table_known hk]
    have hs' : ∀ s rest, stamps b = s :: rest → GoodStamp E added now c.get s := fun s rest he =>
      (hs s rest he).congr fun d hd hk => by
        rw [hget _ (mem_storedAlgos_stamp (by rw [he]; simp) hd), table_known hk]
    refine ⟨verifyAll E (storeOf E added) now b (some c), by rw [hb]; dsimp only; rw [hf]; rfl, isValid_iff.mpr ⟨hv', hs'⟩, ?_⟩
    obtain ⟨r, hr, _⟩ := verifyV2_valid.mpr ⟨hne, hv'⟩
    exact ⟨r, hr⟩

/-- C36: with a given root file, the command succeeds exactly if the library, given the trust store with that one
certificate, returns a valid verdict with a V2 result; without one, the same holds with the library's built-in roots. -/
theorem C36_command_agrees_with_library {E : Env} {p : Profile} {builtinPem : Bytes} {now : Nat} {file : Bytes} :
    (∀ rootPem roots, Roots.new.addPem E rootPem = .ok roots →
      (cliVerify E p builtinPem (some rootPem) now file = .ok () ↔
        ∃ v, (Module.new file).verifyWithRoots E p file roots now = .ok v ∧ v.isValid = true ∧ ∃ r, v.v2 = .ok r)) ∧
    (∀ rootPem, (∀ roots, Roots.new.addPem E rootPem ≠ .ok roots) →
      cliVerify E p builtinPem (some rootPem) now file ≠ .ok ()) ∧
    (cliVerify E p builtinPem none now file = .ok () ↔
      ∃ v, (Module.new file).verifyFull E p file builtinPem now = .ok v ∧ v.isValid = true ∧ ∃ r, v.v2 = .ok r) := by
  have key : ∀ root cert, E.pemParse (Option.getD root builtinPem) = some ("CERTIFICATE", cert) →
      (cliVerify E p builtinPem root now file = .ok () ↔
        ∃ v, (Module.new file).verifyWithRoots E p file (storeOf E [cert]) now = .ok v ∧ v.isValid = true ∧ ∃ r, v.v2 = .ok r) := by
    intro root cert hp
    rw [C35_verify_command, verifyWithRoots_valid]
    constructor
    · rintro ⟨b, cert', d256, d384, hb, hp', h1, h2, h3⟩
      rw [hp] at hp'
      cases hp'
      rcases digest_form p (Module.new file) file with ⟨ps, hd⟩ | ⟨e, hd⟩ | ⟨hd⟩
      · rw [hd] at h1 h2
        cases h1
        cases h2
        exact ⟨b, ps, hb, hd, h3⟩
      · rw [hd] at h1; cases h1
      · rw [hd] at h1; cases h1
    · rintro ⟨b, ps, hb, hd, h3⟩
      exact ⟨b, cert, _, _, hb, hp, hd _ _, hd _ _, h3⟩
  refine ⟨fun rootPem roots hr => ?_, fun rootPem hr h => ?_, ?_⟩
  · obtain ⟨c, hp, rfl⟩ := addPem_ok.mp hr
    exact key (some rootPem) c hp
  · obtain ⟨_, c, _, _, _, hp, _⟩ := C35_verify_command.mp h
    exact hr _ (addPem_ok.mpr ⟨c, hp, rfl⟩)
  · unfold Module.verifyFull
    cases hp : Roots.new.addPem E builtinPem with
    | ok roots =>
      obtain ⟨c, hp', rfl⟩ := addPem_ok.mp hp
      have : Roots.withBuiltin E builtinPem = storeOf E [c] := by unfold Roots.withBuiltin; rw [hp]
      rw [this]
      exact key none c hp'
    | err e =>
      have : Roots.withBuiltin E builtinPem = storeOf E [] := by unfold Roots.withBuiltin; rw [hp]; rfl
      rw [this, C35_verify_command]
      constructor
      · rintro ⟨_, c, _, _, _, hp', _⟩
        have hp'' := addPem_ok.mpr ⟨c, hp', rfl⟩
        rw [show Roots.new.addPem E (Option.getD none builtinPem) = .err e from hp] at hp''
        cases hp''
      · intro h
        obtain ⟨b, ps, _, _, hne, hv, _⟩ := verifyWithRoots_valid.mp h
        obtain ⟨s, rest, hs⟩ := List.exists_cons_of_ne_nil hne
        obtain ⟨_, _, _, _, h0, _⟩ := (hv s (by rw [hs]; simp)).cert
        exact absurd rfl h0
    | panic =>
      unfold Roots.addPem at hp
      split at hp
      · cases hp
      · split at hp <;> cases hp

/-! ### C49 -/

theorem dumpLoop_eq : ∀ (fuel : Nat) (d : Bytes) (n : Nat), n ≤ fuel →
    ((dumpLoop fuel d n).2 = true ↔ n ≤ d.length) ∧ (n ≤ d.length → (dumpLoop fuel d n).1 = d.take n) := by
  intro fuel
  induction fuel with
  | zero =>
    intro d n h
    have : n = 0 := by omega
    subst this
    exact ⟨by simp [dumpLoop], by simp [dumpLoop]⟩
  | succ f ih =>
    intro d n h
    unfold dumpLoop
    by_cases h0 : n = 0
    · subst h0; simp
    · rw [if_neg h0]
      dsimp only
      by_cases hl : d.length < min n 65536
      · rw [if_pos hl]
        refine ⟨⟨fun h => (by cases h), fun h => ?_⟩, fun h => ?_⟩ <;> omega
      · rw [if_neg hl]
        have := ih (d.drop (min n 65536)) (n - min n 65536) (by omega)
        rw [List.length_drop] at this
        refine ⟨?_, fun hn => ?_⟩
        · rw [this.1]; omega
        · rw [this.2 (by omega)]
          have e : n = min n 65536 + (n - min n 65536) := by omega
          rw [show d.take n = d.take (min n 65536 + (n - min n 65536)) from by rw [← e], List.take_add]

/-- C49: dumping regions succeeds exactly if every non-empty region lies inside the file, and then the output is the bytes of the regions, one after
the other. -/
theorem C49_dump_is_the_regions (file : Bytes) (rs : List DigestRegion) :
    ((dumpRegions file rs).2 = true ↔ ∀ r ∈ rs, r.size = 0 ∨ r.offset + r.size ≤ file.length) ∧
    ((dumpRegions file rs).2 = true → (dumpRegions file rs).1 = rs.flatMap fun r => (file.drop r.offset).take r.size) := by
  induction rs with
  | nil => exact ⟨by simp [dumpRegions], by simp [dumpRegions]⟩
  | cons r rs ih =>
    have h := dumpLoop_eq r.size (file.drop r.offset) r.size (Nat.le_refl _)
    rw [List.length_drop] at h
    have hiff : (dumpLoop r.size (file.drop r.offset) r.size).2 = true ↔ (r.size = 0 ∨ r.offset + r.size ≤ file.length) := by
      rw [h.1]; omega
    unfold dumpRegions
    dsimp only
    by_cases hok : (dumpLoop r.size (file.drop r.offset) r.size).2 = true
    · rw [if_pos hok]
      refine ⟨?_, fun h2 => ?_⟩
      · rw [ih.1]
        simp only [List.mem_cons, forall_eq_or_imp]
        exact ⟨fun h => ⟨hiff.mp hok, h⟩, fun h => h.2⟩
      · rw [List.flatMap_cons, ← ih.2 h2, h.2 (h.1.mp hok)]
    · rw [if_neg hok]
      refine ⟨⟨fun h => (by cases h), fun h => ?_⟩, fun h => (by cases h)⟩
      exact absurd (hiff.mpr (h r (by simp))) hok

/-! ### C50 -/

/-- The value of a lower-case hex digit. -/
def hexValue (c : Char) : Option Nat := "0123456789abcdef".toList.findIdx? (· == c)

theorem hexValue_hexDigit : ∀ n, n < 16 → hexValue (hexDigit n) = some n := by decide

/-- C50: two digits per byte, high digit first, each a lower-case hex digit with the right value. -/
theorem C50_hex_digits (d : Bytes) :
    (hexEncode d).length = 2 * d.length ∧
    (hexEncode d).map hexValue = d.flatMap fun b => [some (b.toNat / 16), some (b.toNat % 16)] := by
  constructor
  · unfold hexEncode
    induction d with
    | nil => rfl
    | cons b bs ih => rw [List.flatMap_cons, List.length_append, ih]; simp only [List.length_cons, List.length_nil]; omega
  · unfold hexEncode
    rw [List.map_flatMap]
    congr 1
    funext b
    have : b.toNat < 256 := b.toNat_lt
    simp [hexValue_hexDigit _ (show b.toNat / 16 < 16 by omega), hexValue_hexDigit _ (show b.toNat % 16 < 16 by omega)]

/-- C50: different byte strings print differently. -/
theorem C50_hex_injective {d d' : Bytes} (h : hexEncode d = hexEncode d') : d = d' := by
  have h1 := (C50_hex_digits d).2
  rw [h, (C50_hex_digits d').2] at h1
  clear h
  induction d generalizing d' with
  | nil =>
    cases d' with
    | nil => rfl
    | cons b bs => simp at h1
  | cons a as ih =>
    cases d' with
    | nil => simp at h1
    | cons b bs =>
      simp only [List.flatMap_cons, List.cons_append, List.nil_append, List.cons.injEq, Option.some.injEq] at h1
      obtain ⟨ha, hb, hr⟩ := h1
      have : a = b := UInt8.toNat_inj.mp (by omega)
      rw [this, ih hr]

example : hexEncode [0x00, 0x9f, 0xff] = "009fff".toList := by decide

/-! ### C51 -/

/-- C51: a file is treated as ELF exactly if it starts with the ELF magic, as a module exactly if it does not and starts
with `PK` or contains a complete end record in its last 65557 bytes; every other file (in particular one shorter than 4 bytes) is an error, never
a panic. -/
theorem C51_format_detection (file : Bytes) :
    (detectFileFormat file = .ok .elf ↔ [0x7f, 0x45, 0x4c, 0x46] <+: file) ∧
    (detectFileFormat file = .ok .module ↔ 4 ≤ file.length ∧ ¬ [0x7f, 0x45, 0x4c, 0x46] <+: file ∧
      ([0x50, 0x4b] <+: file ∨ ∃ k, file.length ≤ k + 65557 ∧ RecordAt file k)) ∧
    (detectFileFormat file = .ok .elf ∨ detectFileFormat file = .ok .module ∨ ∃ e, detectFileFormat file = .err e) := by
  by_cases h4 : file.length < 4
  · have hd : detectFileFormat file = .err .unexpectedEof := by
      unfold detectFileFormat readExactAt
      rw [slice?, if_neg (by omega)]
      rfl
    have hp : ¬ [0x7f, 0x45, 0x4c, 0x46] <+: file := fun h => by have := h.length_le; simp at this; omega
    rw [hd]
    refine ⟨⟨fun h => (by cases h), fun h => absurd h hp⟩, ⟨fun h => (by cases h), fun h => ?_⟩, .inr (.inr ⟨_, rfl⟩)⟩
    omega
  · have hm : readExactAt file 0 4 = .ok (file.take 4) := by
      unfold readExactAt
      rw [slice?, if_pos (by omega)]
      rfl
    have h4' : (file.take 4).length = 4 := by rw [List.length_take]; omega
    have helf : file.take 4 = [0x7f, 0x45, 0x4c, 0x46] ↔ [0x7f, 0x45, 0x4c, 0x46] <+: file := by
      rw [List.prefix_iff_eq_take]
      exact ⟨fun h => h.symm, fun h => h.symm⟩
    have hpk : (file.take 4).take 2 = [0x50, 0x4b] ↔ [0x50, 0x4b] <+: file := by
      rw [List.prefix_iff_eq_take, List.take_take]
      exact ⟨fun h => h.symm, fun h => h.symm⟩
    have hrec : (∃ e, findEocd file file.length = .ok e ∧ ∃ k, file.length ≤ k + 65557 ∧ RecordAt file k) ∨
        (∃ e, findEocd file file.length = .err e ∧ ∀ k, file.length ≤ k + 65557 → ¬ RecordAt file k) := by
      by_cases h22 : file.length < 22
      · refine .inr ⟨_, findEocd_small h22, fun k _ hr => ?_⟩
        have := hr.2.1
        omega
      · rcases findEocd_spec (file := file) (fl := file.length) (Nat.le_refl _) (by omega) with ⟨h1, h2⟩ | ⟨k, h1, h2, h3, h5⟩
        · exact .inr ⟨_, h1, fun k hk => by have := h2 k hk; rwa [List.take_length] at this⟩
        · rw [List.take_length] at h2
          exact .inl ⟨_, h5, k, h1, h2⟩
    unfold detectFileFormat
    rw [hm]
    simp only [Res.ok_bind]
    by_cases he : file.take 4 = [0x7f, 0x45, 0x4c, 0x46]
    · rw [if_pos he]
      have := helf.mp he
      simp [this]
    · rw [if_neg he]
      have he' : ¬ [0x7f, 0x45, 0x4c, 0x46] <+: file := fun h => he (helf.mpr h)
      by_cases hp : (file.take 4).take 2 = [0x50, 0x4b]
      · rw [if_pos hp]
        refine ⟨⟨fun h => (by cases h), fun h => absurd h he'⟩, ⟨fun _ => ⟨by omega, he', .inl (hpk.mp hp)⟩, fun _ => rfl⟩,
          .inr (.inl rfl)⟩
      · rw [if_neg hp]
        have hp' : ¬ [0x50, 0x4b] <+: file := fun h => hp (hpk.mpr h)
        rcases hrec with ⟨e, h1, h2⟩ | ⟨e, h1, h2⟩
        · rw [h1]
          exact ⟨⟨fun h => (by cases h), fun h => absurd h he'⟩, ⟨fun _ => ⟨by omega, he', .inr h2⟩, fun _ => rfl⟩,
            .inr (.inl rfl)⟩
        · rw [h1]
          refine ⟨⟨fun h => (by cases h), fun h => absurd h he'⟩, ⟨fun h => (by cases h), fun h => ?_⟩, .inr (.inr ⟨_, rfl⟩)⟩
          rcases h.2.2 with h | ⟨k, hk, hr⟩
          · exact absurd h hp'
          · exact absurd hr (h2 k hk)

example : detectFileFormat sampleArchive.unsigned = .ok .module := by decide +kernel
example : detectFileFormat [0x7f, 0x45, 0x4c, 0x46, 2] = .ok .elf := by decide
example : detectFileFormat [1, 2, 3, 4, 5] = .err .unknownFormat := by decide

end Ksusig.Props
