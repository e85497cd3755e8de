import Verif.Model.Serde
import Verif.SpecSerde
import Verif.SpecGrammar

/-!
# Lemmas about storing blocks as JSON
-/

namespace Ksusig

open Spec

theorem mapM_map_iff {α : Type} {f : Json → Option α} {g : α → Json} {P : α → Prop} (h : ∀ x, f (g x) = some x ↔ P x) (l : List α) :
    (l.map g).mapM f = some l ↔ ∀ x ∈ l, P x := by
  induction l with
  | nil => simp
  | cons a l ih =>
    rw [List.map_cons, List.mapM_cons]
    simp only [bind, Option.bind_eq_some_iff, pure, Option.some.injEq, List.cons.injEq]
    constructor
    · rintro ⟨y, h1, ys, h2, rfl, rfl⟩ x hx
      rcases List.mem_cons.mp hx with rfl | hx
      · exact (h _).mp h1
      · exact ih.mp h2 x hx
    · intro hx
      exact ⟨a, (h a).mpr (hx a (by simp)), l, ih.mpr (fun x hx' => hx x (by simp [hx'])), rfl, rfl⟩

theorem mapM_all {α : Type} {f : Json → Option α} {P : α → Prop} (h : ∀ j x, f j = some x → P x) {l : List Json} {r : List α}
    (hr : l.mapM f = some r) : ∀ x ∈ r, P x := by
  induction l generalizing r with
  | nil => simp at hr; subst hr; simp
  | cons a l ih =>
    rw [List.mapM_cons] at hr
    simp only [bind, Option.bind_eq_some_iff, pure, Option.some.injEq] at hr
    obtain ⟨y, h1, ys, h2, rfl⟩ := hr
    intro x hx
    rcases List.mem_cons.mp hx with rfl | hx
    · exact h _ _ h1
    · exact ih h2 x hx

theorem nat_iff {bound : Nat} {j : Json} {n : Nat} : j.nat bound = some n ↔ j = .num n ∧ n < bound := by
  unfold Json.nat
  cases j with
  | num m =>
    dsimp only
    split
    · rename_i h
      constructor
      · intro h'; cases h'; exact ⟨rfl, h⟩
      · rintro ⟨h', _⟩; cases h'; rfl
    · rename_i h
      constructor
      · intro h'; cases h'
      · rintro ⟨h', h2⟩; cases h'; exact absurd h2 h
  | _ => simp

theorem usize_num {n m : Nat} : (Json.num n).usize = some m ↔ n = m ∧ m < 2 ^ 64 := by
  unfold Json.usize
  rw [nat_iff]
  constructor
  · rintro ⟨h, h'⟩; cases h; exact ⟨rfl, h'⟩
  · rintro ⟨rfl, h'⟩; exact ⟨rfl, h'⟩

theorem usize_lt {j : Json} {n : Nat} (h : j.usize = some n) : n < 2 ^ 64 := (nat_iff.mp h).2

theorem u64_num (x : UInt64) : (Json.num x.toNat).u64 = some x := by
  unfold Json.u64
  rw [nat_iff.mpr ⟨rfl, x.toNat_lt⟩]
  simp

theorem u32_num (x : UInt32) : (Json.num x.toNat).u32 = some x := by
  unfold Json.u32
  rw [nat_iff.mpr ⟨rfl, x.toNat_lt⟩]
  simp

theorem u16_num (x : UInt16) : (Json.num x.toNat).u16 = some x := by
  unfold Json.u16
  rw [nat_iff.mpr ⟨rfl, x.toNat_lt⟩]
  simp

theorem u8_num (x : UInt8) : (Json.num x.toNat).u8 = some x := by
  unfold Json.u8
  rw [nat_iff.mpr ⟨rfl, x.toNat_lt⟩]
  simp

theorem bytes_ofBytes (b : Bytes) : (Json.ofBytes b).bytes = some b := by
  unfold Json.ofBytes Json.bytes Json.list
  exact (mapM_map_iff (P := fun _ => True) (fun x => by simp [u8_num]) b).mpr fun _ _ => trivial

theorem algo_iff (a : Algo) : Algo.ofJson a.toJson = some a ↔ AlgoOk a := by
  unfold Algo.ofJson Algo.toJson
  rw [u32_num]
  simp only [Option.map_some, Option.some.injEq]
  unfold Algo.deserialize Algo.serialize
  unfold AlgoOk
  cases a with
  | p256 => simp [Algo.ofU32, Algo.toU32]
  | p384 => simp [Algo.ofU32, Algo.toU32]
  | unknown u =>
    simp only [Algo.ofU32, Algo.toU32, ne_eq, Algo.unknown.injEq]
    by_cases h1 : u = 513
    · simp [h1]
    · by_cases h2 : u = 514
      · simp [h2]
      · simp [h1, h2]

theorem digest_iff (d : Digest) : Digest.ofJson d.toJson = some d ↔ StorableDigest d := by
  cases d
  simp [Digest.ofJson, Digest.toJson, StorableDigest, Json.fields, bytes_ofBytes, Option.bind_eq_some_iff, usize_num, algo_iff]

theorem list_iff {α : Type} {f : Json → Option α} {g : α → Json} {P : α → Prop} (h : ∀ x, f (g x) = some x ↔ P x) (l : List α) :
    (Json.arr (l.map g)).list f = some l ↔ ∀ x ∈ l, P x := mapM_map_iff h l

theorem digests_iff (d : Digests) : Digests.ofJson d.toJson = some d ↔ StorableDigests d := by
  cases d
  simp [Digests.ofJson, Digests.toJson, StorableDigests, Json.fields, Option.bind_eq_some_iff, usize_num, list_iff digest_iff]

theorem cert_iff (d : Cert) : Cert.ofJson d.toJson = some d ↔ d.size < 2 ^ 64 := by
  cases d
  simp [Cert.ofJson, Cert.toJson, Json.fields, bytes_ofBytes, Option.bind_eq_some_iff, usize_num]

theorem certs_iff (d : Certs) : Certs.ofJson d.toJson = some d ↔ StorableCerts d := by
  cases d
  simp [Certs.ofJson, Certs.toJson, StorableCerts, Json.fields, Option.bind_eq_some_iff, usize_num, list_iff cert_iff]

theorem sig_iff (d : Sig) : Sig.ofJson d.toJson = some d ↔ d.size < 2 ^ 64 ∧ AlgoOk d.algo := by
  cases d
  simp [Sig.ofJson, Sig.toJson, Json.fields, bytes_ofBytes, Option.bind_eq_some_iff, usize_num, algo_iff]

theorem sigs_iff (d : Sigs) : Sigs.ofJson d.toJson = some d ↔ StorableSigs d := by
  cases d
  simp [Sigs.ofJson, Sigs.toJson, StorableSigs, Json.fields, Option.bind_eq_some_iff, usize_num, list_iff sig_iff]

theorem attr_iff (d : Attr) : Attr.ofJson d.toJson = some d ↔ d.size < 2 ^ 64 := by
  cases d
  simp [Attr.ofJson, Attr.toJson, Json.fields, bytes_ofBytes, Option.bind_eq_some_iff, usize_num, u32_num]

theorem attrs_iff (d : Attrs) : Attrs.ofJson d.toJson = some d ↔ StorableAttrs d := by
  cases d
  simp [Attrs.ofJson, Attrs.toJson, StorableAttrs, Json.fields, Option.bind_eq_some_iff, usize_num, list_iff attr_iff]

theorem pubKey_iff (d : PubKey) : PubKey.ofJson d.toJson = some d ↔ d.size < 2 ^ 64 := by
  cases d
  simp [PubKey.ofJson, PubKey.toJson, Json.fields, bytes_ofBytes, Option.bind_eq_some_iff, usize_num]

theorem signedV2_iff (d : SignedDataV2) : SignedDataV2.ofJson d.toJson = some d ↔ StorableSignedV2 d := by
  cases d
  simp [SignedDataV2.ofJson, SignedDataV2.toJson, StorableSignedV2, Json.fields, Json.toBool, Option.bind_eq_some_iff, usize_num]
  constructor
  · rintro ⟨_, ⟨rfl, h1⟩, _, h2, _, h3, _, h4, _, rfl, rfl, rfl⟩
    exact ⟨h1, (digests_iff _).mp h2, (certs_iff _).mp h3, (attrs_iff _).mp h4⟩
  · rintro ⟨h1, h2, h3, h4⟩
    exact ⟨_, ⟨rfl, h1⟩, _, (digests_iff _).mpr h2, _, (certs_iff _).mpr h3, _, (attrs_iff _).mpr h4, rfl, rfl, rfl, rfl⟩

theorem signer_iff (d : SignerV2) : SignerV2.ofJson d.toJson = some d ↔ StorableSigner d := by
  cases d
  simp [SignerV2.ofJson, SignerV2.toJson, StorableSigner, Json.fields, Option.bind_eq_some_iff, usize_num]
  constructor
  · rintro ⟨_, ⟨rfl, h1⟩, _, h2, _, h3, _, h4, _, rfl, rfl, rfl⟩
    exact ⟨h1, (signedV2_iff _).mp h2, (sigs_iff _).mp h3, (pubKey_iff _).mp h4⟩
  · rintro ⟨h1, h2, h3, h4⟩
    exact ⟨_, ⟨rfl, h1⟩, _, (signedV2_iff _).mpr h2, _, (sigs_iff _).mpr h3, _, (pubKey_iff _).mpr h4, rfl, rfl, rfl, rfl⟩

theorem signers_iff (d : SignersV2) : SignersV2.ofJson d.toJson = some d ↔ d.size < 2 ^ 64 ∧ ∀ x ∈ d.data, StorableSigner x := by
  cases d
  simp [SignersV2.ofJson, SignersV2.toJson, Json.fields, Option.bind_eq_some_iff, usize_num, list_iff signer_iff]

theorem schemeV2_iff (d : SchemeV2) : SchemeV2.ofJson d.toJson = some d ↔ StorableValue (.v2 d) := by
  cases d
  simp [SchemeV2.ofJson, SchemeV2.toJson, StorableValue, Json.fields, Option.bind_eq_some_iff, usize_num, u32_num, signers_iff]

theorem signedStamp_iff (d : SignedDataStamp) : SignedDataStamp.ofJson d.toJson = some d ↔ StorableSignedStamp d := by
  cases d
  simp [SignedDataStamp.ofJson, SignedDataStamp.toJson, StorableSignedStamp, Json.fields, Option.bind_eq_some_iff]
  constructor
  · rintro ⟨_, h2, _, h3, _, h4, rfl, rfl, rfl⟩
    exact ⟨(digests_iff _).mp h2, (certs_iff _).mp h3, (attrs_iff _).mp h4⟩
  · rintro ⟨h2, h3, h4⟩
    exact ⟨_, (digests_iff _).mpr h2, _, (certs_iff _).mpr h3, _, (attrs_iff _).mpr h4, rfl, rfl, rfl⟩

theorem stampBlock_iff (d : StampBlock) : StampBlock.ofJson d.toJson = some d ↔ StorableStamp d := by
  cases d
  simp [StampBlock.ofJson, StampBlock.toJson, StorableStamp, Json.fields, Option.bind_eq_some_iff, usize_num]
  constructor
  · rintro ⟨_, ⟨rfl, h1⟩, _, h2, _, h3, _, h4, _, rfl, rfl, rfl⟩
    exact ⟨h1, (signedStamp_iff _).mp h2, (sigs_iff _).mp h3, (pubKey_iff _).mp h4⟩
  · rintro ⟨h1, h2, h3, h4⟩
    exact ⟨_, ⟨rfl, h1⟩, _, (signedStamp_iff _).mpr h2, _, (sigs_iff _).mpr h3, _, (pubKey_iff _).mpr h4, rfl, rfl, rfl, rfl⟩

theorem stamp_iff (d : SourceStamp) : SourceStamp.ofJson d.toJson = some d ↔ StorableValue (.stamp d) := by
  cases d
  simp [SourceStamp.ofJson, SourceStamp.toJson, StorableValue, Json.fields, Option.bind_eq_some_iff, usize_num, u32_num, stampBlock_iff]

theorem entry_iff (d : SectionEntry) : SectionEntry.ofJson d.toJson = some d ↔ validUtf8 d.name = true := by
  cases d
  simp [SectionEntry.ofJson, SectionEntry.toJson, Json.fields, Json.text, Option.bind_eq_some_iff, u16_num, u64_num]

theorem info_iff (d : ElfSectionInfo) : ElfSectionInfo.ofJson d.toJson = some d ↔ StorableValue (.elf d) := by
  cases d
  simp [ElfSectionInfo.ofJson, ElfSectionInfo.toJson, StorableValue, Json.fields, Option.bind_eq_some_iff, usize_num, u32_num,
    list_iff entry_iff]

theorem raw_iff (d : RawData) : RawData.ofJson d.toJson = some d ↔ StorableValue (.raw d) := by
  cases d
  simp [RawData.ofJson, RawData.toJson, StorableValue, Json.fields, bytes_ofBytes, Option.bind_eq_some_iff, usize_num, u32_num]

theorem value_iff (v : Value) : Value.ofJson v.toJson = some v ↔ StorableValue v := by
  cases v with
  | raw r => simp [Value.ofJson, Value.toJson, raw_iff]
  | v2 r => simp [Value.ofJson, Value.toJson, schemeV2_iff]
  | stamp r => simp [Value.ofJson, Value.toJson, stamp_iff]
  | elf r => simp [Value.ofJson, Value.toJson, info_iff]

theorem block_iff (b : SigningBlock) : SigningBlock.ofJson b.toJson = some b ↔ Storable b := by
  cases b
  simp [SigningBlock.ofJson, SigningBlock.toJson, Json.fields, Json.bytes16, bytes_ofBytes, Option.bind_eq_some_iff, usize_num]
  constructor
  · rintro ⟨_, ⟨rfl, h1⟩, _, ⟨rfl, h2⟩, _, ⟨rfl, h3⟩, _, ⟨rfl, h4⟩, _, h5, _, ⟨rfl, h6⟩, _, ⟨h7, _⟩, _, _, _, _, rfl, _⟩
    exact ⟨h1, h2, h3, h4, (list_iff value_iff _).mp h5, h6, h7⟩
  · rintro ⟨h1, h2, h3, h4, h5, h6, h7⟩
    exact ⟨_, ⟨rfl, h1⟩, _, ⟨rfl, h2⟩, _, ⟨rfl, h3⟩, _, ⟨rfl, h4⟩, _, (list_iff value_iff _).mpr h5, _, ⟨rfl, h6⟩, _, ⟨h7, rfl⟩,
      rfl, rfl, rfl, rfl, rfl, rfl, rfl⟩

/-! ## What is loaded -/

theorem algo_loaded {j : Json} {a : Algo} (h : Algo.ofJson j = some a) : AlgoOk a := by
  simp only [Algo.ofJson, Option.map_eq_some_iff] at h
  obtain ⟨n, -, rfl⟩ := h
  unfold Algo.deserialize Algo.ofU32 AlgoOk
  constructor <;> repeat' split
  all_goals first | (intro hh; cases hh; omega) | simp_all

theorem list_loaded {α : Type} {f : Json → Option α} {P : α → Prop} (h : ∀ j x, f j = some x → P x) {j : Json} {r : List α}
    (hr : j.list f = some r) : ∀ x ∈ r, P x := by
  cases j <;> simp only [Json.list] at hr
  case arr l => exact mapM_all h hr
  all_goals cases hr

theorem digest_loaded {j : Json} {d : Digest} (h : Digest.ofJson j = some d) : StorableDigest d := by
  simp only [Digest.ofJson, Option.bind_eq_bind, Option.bind_eq_some_iff] at h
  obtain ⟨f, -, h⟩ := h
  split at h
  · simp only [Option.bind_eq_some_iff, Option.pure_def, Option.some.injEq] at h
    obtain ⟨x0, h0, x1, h1, x2, h2, rfl⟩ := h
    exact ⟨usize_lt h0, algo_loaded h1⟩
  · cases h

theorem digests_loaded {j : Json} {d : Digests} (h : Digests.ofJson j = some d) : StorableDigests d := by
  simp only [Digests.ofJson, Option.bind_eq_bind, Option.bind_eq_some_iff] at h
  obtain ⟨f, -, h⟩ := h
  split at h
  · simp only [Option.bind_eq_some_iff, Option.pure_def, Option.some.injEq] at h
    obtain ⟨x0, h0, x1, h1, rfl⟩ := h
    exact ⟨usize_lt h0, list_loaded (fun _ _ => digest_loaded) h1⟩
  · cases h

theorem cert_loaded {j : Json} {d : Cert} (h : Cert.ofJson j = some d) : d.size < 2 ^ 64 := by
  simp only [Cert.ofJson, Option.bind_eq_bind, Option.bind_eq_some_iff] at h
  obtain ⟨f, -, h⟩ := h
  split at h
  · simp only [Option.bind_eq_some_iff, Option.pure_def, Option.some.injEq] at h
    obtain ⟨x0, h0, x1, h1, rfl⟩ := h
    exact usize_lt h0
  · cases h

theorem certs_loaded {j : Json} {d : Certs} (h : Certs.ofJson j = some d) : StorableCerts d := by
  simp only [Certs.ofJson, Option.bind_eq_bind, Option.bind_eq_some_iff] at h
  obtain ⟨f, -, h⟩ := h
  split at h
  · simp only [Option.bind_eq_some_iff, Option.pure_def, Option.some.injEq] at h
    obtain ⟨x0, h0, x1, h1, rfl⟩ := h
    exact ⟨usize_lt h0, list_loaded (fun _ _ => cert_loaded) h1⟩
  · cases h

theorem sig_loaded {j : Json} {d : Sig} (h : Sig.ofJson j = some d) : d.size < 2 ^ 64 ∧ AlgoOk d.algo := by
  simp only [Sig.ofJson, Option.bind_eq_bind, Option.bind_eq_some_iff] at h
  obtain ⟨f, -, h⟩ := h
  split at h
  · simp only [Option.bind_eq_some_iff, Option.pure_def, Option.some.injEq] at h
    obtain ⟨x0, h0, x1, h1, x2, h2, rfl⟩ := h
    exact ⟨usize_lt h0, algo_loaded h1⟩
  · cases h

theorem sigs_loaded {j : Json} {d : Sigs} (h : Sigs.ofJson j = some d) : StorableSigs d := by
  simp only [Sigs.ofJson, Option.bind_eq_bind, Option.bind_eq_some_iff] at h
  obtain ⟨f, -, h⟩ := h
  split at h
  · simp only [Option.bind_eq_some_iff, Option.pure_def, Option.some.injEq] at h
    obtain ⟨x0, h0, x1, h1, rfl⟩ := h
    exact ⟨usize_lt h0, list_loaded (fun _ _ => sig_loaded) h1⟩
  · cases h

theorem attr_loaded {j : Json} {d : Attr} (h : Attr.ofJson j = some d) : d.size < 2 ^ 64 := by
  simp only [Attr.ofJson, Option.bind_eq_bind, Option.bind_eq_some_iff] at h
  obtain ⟨f, -, h⟩ := h
  split at h
  · simp only [Option.bind_eq_some_iff, Option.pure_def, Option.some.injEq] at h
    obtain ⟨x0, h0, x1, h1, x2, h2, rfl⟩ := h
    exact usize_lt h0
  · cases h

theorem attrs_loaded {j : Json} {d : Attrs} (h : Attrs.ofJson j = some d) : StorableAttrs d := by
  simp only [Attrs.ofJson, Option.bind_eq_bind, Option.bind_eq_some_iff] at h
  obtain ⟨f, -, h⟩ := h
  split at h
  · simp only [Option.bind_eq_some_iff, Option.pure_def, Option.some.injEq] at h
    obtain ⟨x0, h0, x1, h1, rfl⟩ := h
    exact ⟨usize_lt h0, list_loaded (fun _ _ => attr_loaded) h1⟩
  · cases h

theorem pubKey_loaded {j : Json} {d : PubKey} (h : PubKey.ofJson j = some d) : d.size < 2 ^ 64 := by
  simp only [PubKey.ofJson, Option.bind_eq_bind, Option.bind_eq_some_iff] at h
  obtain ⟨f, -, h⟩ := h
  split at h
  · simp only [Option.bind_eq_some_iff, Option.pure_def, Option.some.injEq] at h
    obtain ⟨x0, h0, x1, h1, rfl⟩ := h
    exact usize_lt h0
  · cases h

theorem signedV2_loaded {j : Json} {d : SignedDataV2} (h : SignedDataV2.ofJson j = some d) : StorableSignedV2 d := by
  simp only [SignedDataV2.ofJson, Option.bind_eq_bind, Option.bind_eq_some_iff] at h
  obtain ⟨f, -, h⟩ := h
  split at h
  · simp only [Option.bind_eq_some_iff, Option.pure_def, Option.some.injEq] at h
    obtain ⟨x0, h0, x1, h1, x2, h2, x3, h3, x4, h4, rfl⟩ := h
    exact ⟨usize_lt h0, digests_loaded h1, certs_loaded h2, attrs_loaded h3⟩
  · cases h

theorem signer_loaded {j : Json} {d : SignerV2} (h : SignerV2.ofJson j = some d) : StorableSigner d := by
  simp only [SignerV2.ofJson, Option.bind_eq_bind, Option.bind_eq_some_iff] at h
  obtain ⟨f, -, h⟩ := h
  split at h
  · simp only [Option.bind_eq_some_iff, Option.pure_def, Option.some.injEq] at h
    obtain ⟨x0, h0, x1, h1, x2, h2, x3, h3, rfl⟩ := h
    exact ⟨usize_lt h0, signedV2_loaded h1, sigs_loaded h2, pubKey_loaded h3⟩
  · cases h

theorem signers_loaded {j : Json} {d : SignersV2} (h : SignersV2.ofJson j = some d) : d.size < 2 ^ 64 ∧ ∀ x ∈ d.data, StorableSigner x := by
  simp only [SignersV2.ofJson, Option.bind_eq_bind, Option.bind_eq_some_iff] at h
  obtain ⟨f, -, h⟩ := h
  split at h
  · simp only [Option.bind_eq_some_iff, Option.pure_def, Option.some.injEq] at h
    obtain ⟨x0, h0, x1, h1, rfl⟩ := h
    exact ⟨usize_lt h0, list_loaded (fun _ _ => signer_loaded) h1⟩
  · cases h

theorem schemeV2_loaded {j : Json} {d : SchemeV2} (h : SchemeV2.ofJson j = some d) : StorableValue (.v2 d) := by
  simp only [SchemeV2.ofJson, Option.bind_eq_bind, Option.bind_eq_some_iff] at h
  obtain ⟨f, -, h⟩ := h
  split at h
  · simp only [Option.bind_eq_some_iff, Option.pure_def, Option.some.injEq] at h
    obtain ⟨x0, h0, x1, h1, x2, h2, rfl⟩ := h
    exact ⟨usize_lt h0, signers_loaded h2⟩
  · cases h

theorem signedStamp_loaded {j : Json} {d : SignedDataStamp} (h : SignedDataStamp.ofJson j = some d) : StorableSignedStamp d := by
  simp only [SignedDataStamp.ofJson, Option.bind_eq_bind, Option.bind_eq_some_iff] at h
  obtain ⟨f, -, h⟩ := h
  split at h
  · simp only [Option.bind_eq_some_iff, Option.pure_def, Option.some.injEq] at h
    obtain ⟨x0, h0, x1, h1, x2, h2, rfl⟩ := h
    exact ⟨digests_loaded h0, certs_loaded h1, attrs_loaded h2⟩
  · cases h

theorem stampBlock_loaded {j : Json} {d : StampBlock} (h : StampBlock.ofJson j = some d) : StorableStamp d := by
  simp only [StampBlock.ofJson, Option.bind_eq_bind, Option.bind_eq_some_iff] at h
  obtain ⟨f, -, h⟩ := h
  split at h
  · simp only [Option.bind_eq_some_iff, Option.pure_def, Option.some.injEq] at h
    obtain ⟨x0, h0, x1, h1, x2, h2, x3, h3, rfl⟩ := h
    exact ⟨usize_lt h0, signedStamp_loaded h1, sigs_loaded h2, pubKey_loaded h3⟩
  · cases h

theorem stamp_loaded {j : Json} {d : SourceStamp} (h : SourceStamp.ofJson j = some d) : StorableValue (.stamp d) := by
  simp only [SourceStamp.ofJson, Option.bind_eq_bind, Option.bind_eq_some_iff] at h
  obtain ⟨f, -, h⟩ := h
  split at h
  · simp only [Option.bind_eq_some_iff, Option.pure_def, Option.some.injEq] at h
    obtain ⟨x0, h0, x1, h1, x2, h2, rfl⟩ := h
    exact ⟨usize_lt h0, stampBlock_loaded h2⟩
  · cases h

theorem text_valid {j : Json} {s : Bytes} (h : j.text = some s) : validUtf8 s = true := by
  cases j <;> simp only [Json.text] at h
  case str t =>
    by_cases hv : validUtf8 t = true
    · simp only [hv, if_true, Option.some.injEq] at h
      exact h ▸ hv
    · simp [hv] at h
  all_goals cases h

theorem entry_loaded {j : Json} {d : SectionEntry} (h : SectionEntry.ofJson j = some d) : validUtf8 d.name = true := by
  simp only [SectionEntry.ofJson, Option.bind_eq_bind, Option.bind_eq_some_iff] at h
  obtain ⟨f, -, h⟩ := h
  split at h
  · simp only [Option.bind_eq_some_iff, Option.pure_def, Option.some.injEq] at h
    obtain ⟨x0, h0, x1, h1, x2, h2, x3, h3, rfl⟩ := h
    exact text_valid h1
  · cases h

theorem info_loaded {j : Json} {d : ElfSectionInfo} (h : ElfSectionInfo.ofJson j = some d) : StorableValue (.elf d) := by
  simp only [ElfSectionInfo.ofJson, Option.bind_eq_bind, Option.bind_eq_some_iff] at h
  obtain ⟨f, -, h⟩ := h
  split at h
  · simp only [Option.bind_eq_some_iff, Option.pure_def, Option.some.injEq] at h
    obtain ⟨x0, h0, x1, h1, x2, h2, x3, h3, rfl⟩ := h
    exact ⟨usize_lt h0, list_loaded (fun _ _ => entry_loaded) h3⟩
  · cases h

theorem raw_loaded {j : Json} {d : RawData} (h : RawData.ofJson j = some d) : StorableValue (.raw d) := by
  simp only [RawData.ofJson, Option.bind_eq_bind, Option.bind_eq_some_iff] at h
  obtain ⟨f, -, h⟩ := h
  split at h
  · simp only [Option.bind_eq_some_iff, Option.pure_def, Option.some.injEq] at h
    obtain ⟨x0, h0, x1, h1, x2, h2, rfl⟩ := h
    exact usize_lt h0
  · cases h

theorem value_loaded {j : Json} {v : Value} (h : Value.ofJson j = some v) : StorableValue v := by
  unfold Value.ofJson at h
  split at h
  · repeat' split at h
    all_goals try simp only [Option.map_eq_some_iff] at h
    · obtain ⟨_, h, rfl⟩ := h; exact raw_loaded h
    · obtain ⟨_, h, rfl⟩ := h; exact schemeV2_loaded h
    · obtain ⟨_, h, rfl⟩ := h; exact stamp_loaded h
    · obtain ⟨_, h, rfl⟩ := h; exact info_loaded h
    · cases h
  · cases h

theorem bytes16_length {j : Json} {b : Bytes} (h : j.bytes16 = some b) : b.length = 16 := by
  unfold Json.bytes16 at h
  split at h
  · split at h
    · cases h; assumption
    · cases h
  · cases h

theorem loaded_block {j : Json} {d : SigningBlock} (h : SigningBlock.ofJson j = some d) : Storable d := by
  simp only [SigningBlock.ofJson, Option.bind_eq_bind, Option.bind_eq_some_iff] at h
  obtain ⟨f, -, h⟩ := h
  split at h
  · simp only [Option.bind_eq_some_iff, Option.pure_def, Option.some.injEq] at h
    obtain ⟨x0, h0, x1, h1, x2, h2, x3, h3, x4, h4, x5, h5, x6, h6, rfl⟩ := h
    exact ⟨usize_lt h0, usize_lt h1, usize_lt h2, usize_lt h3, list_loaded (fun _ _ => value_loaded) h4, usize_lt h5,
      bytes16_length h6⟩
  · cases h

/-! ## What is read -/

theorem entries_all {α : Type} {item : Bytes → α → Prop} {P : α → Prop} (h : ∀ w a, item w a → P a) {n : Nat} {w : Bytes}
    {l : List α} (he : Entries item n w l) : ∀ x ∈ l, P x := by
  induction he with
  | done => simp
  | more n w ws a as _ hi _ ih =>
    intro x hx
    rcases List.mem_cons.mp hx with rfl | hx
    · exact h _ _ hi
    · exact ih x hx

theorem digests_read {w : Bytes} {d : Digests} (h : IsDigests w d) : StorableDigests d := by
  obtain ⟨_, -, -, h1, h2⟩ := h
  exact ⟨by omega, entries_all (fun w a h => ⟨by have := h.2.1; omega, h.2.2.2⟩) h2⟩

theorem certs_read {w : Bytes} {d : Certs} (h : IsCerts w d) : StorableCerts d := by
  obtain ⟨_, -, h1, h2⟩ := h
  exact ⟨by omega, entries_all (fun w a h => by have := h.2.2; omega) h2⟩

theorem attrs_read {w : Bytes} {d : Attrs} (h : IsAttrs w d) : StorableAttrs d := by
  obtain ⟨_, -, h1, h2⟩ := h
  exact ⟨by omega, entries_all (fun w a h => by have := h.2.2; omega) h2⟩

theorem sigs_read {w : Bytes} {d : Sigs} (h : IsSigs w d) : StorableSigs d := by
  obtain ⟨_, -, h1, h2⟩ := h
  exact ⟨by omega, entries_all (fun w a h => ⟨by have := h.2.1; omega, h.2.2.2⟩) h2⟩

theorem signer_read {w : Bytes} {d : SignerV2} (h : IsSigner w d) : StorableSigner d := by
  obtain ⟨_, _, _, -, h1, ⟨_, _, _, _, -, -, h2, h3, h4, h5, -⟩, h6, h7⟩ := h
  exact ⟨by omega, ⟨by omega, digests_read h3, certs_read h4, attrs_read h5⟩, sigs_read h6, by have := h7.2.2; omega⟩

theorem stamp_read {w : Bytes} {d : StampBlock} (h : IsStamp w d) : StorableStamp d := by
  obtain ⟨_, _, _, _, -, -, h1, ⟨_, _, _, _, -, -, h3, h4, h5⟩, h6, h7⟩ := h
  exact ⟨by omega, ⟨digests_read h3, certs_read h4, attrs_read h5⟩, sigs_read h6, by have := h7.2.2; omega⟩

theorem value_read {id : UInt32} {value : Bytes} {v : Value} (hl : value.length < 2 ^ 32) (h : IsValue id value v) :
    StorableValue v := by
  cases v with
  | raw r => obtain ⟨rfl, -⟩ := h; simp only [StorableValue]; omega
  | v2 s =>
    obtain ⟨-, -, h1, _, _, -, _, -, -, h2, h3⟩ := h
    exact ⟨by omega, by omega, entries_all (P := StorableSigner) (fun _ _ => signer_read) h3⟩
  | stamp s =>
    obtain ⟨-, -, h1, _, _, -, h2⟩ := h
    exact ⟨by omega, stamp_read h2⟩
  | elf e =>
    obtain ⟨-, -, h1, es, _, -, -, h2, -, rfl, -⟩ := h
    exact ⟨by omega, fun x hx => (h2 _ (List.mem_map_of_mem hx)).2⟩

theorem content_read {pairs : Bytes} {vs : List Value} (h : IsContent pairs vs) (hl : pairs.length < 2 ^ 32) :
    ∀ v ∈ vs, StorableValue v := by
  induction h with
  | nil => simp
  | cons id value v rest vs hv _ ih =>
    simp only [wirePair, List.length_append] at hl
    intro x hx
    rcases List.mem_cons.mp hx with rfl | hx
    · exact value_read (by omega) hv
    · exact ih (by omega) x hx

theorem storable_read {pairs : Bytes} {vs : List Value} {start : Nat} (hl : pairs.length + 24 ≤ 16384)
    (hs : start + pairs.length + 32 < 2 ^ 64) (h : IsContent pairs vs) :
    Storable ⟨start, start + pairs.length + 32, pairs.length + 24, pairs.length, vs, pairs.length + 24, magic⟩ :=
  ⟨by simp only; omega, by simp only; omega, by simp only; omega, by simp only; omega, content_read h (by omega),
    by simp only; omega, rfl⟩

/-! ## The order of the fields -/

theorem fields_perm (names : List String) {l l' : List (String × Json)} (h : l.Perm l') :
    Json.fields names (.obj l) = Json.fields names (.obj l') := by
  unfold Json.fields
  simp only
  congr 1
  funext n
  have hp := h.filter (fun x : String × Json => decide (x.1 = n))
  cases hf : l.filter fun x => decide (x.1 = n) with
  | nil => rw [hf] at hp; rw [List.nil_perm.mp hp]
  | cons a t =>
    cases t with
    | nil => rw [hf] at hp; rw [List.perm_singleton.mp hp.symm]
    | cons b t =>
      rw [hf] at hp
      have hlen := hp.length_eq
      cases hf' : l'.filter fun x => decide (x.1 = n) with
      | nil => simp [hf'] at hlen
      | cons c u =>
        cases u with
        | nil => simp [hf'] at hlen
        | cons _ _ => rfl

theorem fields_unknown (names : List String) (l : List (String × Json)) (n : String) (j : Json) (h : n ∉ names) :
    Json.fields names (.obj ((n, j) :: l)) = Json.fields names (.obj l) := by
  unfold Json.fields
  simp only
  induction names with
  | nil => rfl
  | cons m ms ih =>
    simp only [List.mem_cons, not_or] at h
    rw [List.mapM_cons, List.mapM_cons, ih h.2]
    simp only [List.filter_cons, h.1, decide_false, Bool.false_eq_true, if_false]

end Ksusig
