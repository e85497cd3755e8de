import Verif.Spec
import Verif.Proofs.RoundTrip

/-! Constructor-built content is well-formed and has the specified wire format. -/

namespace Ksusig.Spec

open Ksusig

theorem AlgoOk.canon {a : Algo} (h : AlgoOk a) : a.Canon := by
  cases a with
  | p256 => decide
  | p384 => decide
  | unknown u =>
    have h1 : u ≠ 0x0201 := fun e => h.1 (by rw [e])
    have h2 : u ≠ 0x0202 := fun e => h.2 (by rw [e])
    simp [Algo.Canon, Algo.toU32, Algo.ofU32, h1, h2]

theorem buildDigests_wf {s : SignerSpec} (h : s.Ok) : s.buildDigests.WF := by
  refine ⟨by simp [SignerSpec.buildDigests, Digests.new, foldl_add4_eq_sum], ?_⟩
  intro x hx
  simp only [SignerSpec.buildDigests, Digests.new, List.mem_map] at hx
  obtain ⟨d, hd, rfl⟩ := hx
  exact ⟨rfl, (h.1 d hd).canon⟩

theorem buildSigs_wf {s : SignerSpec} (h : s.Ok) : s.buildSigs.WF := by
  refine ⟨by simp [SignerSpec.buildSigs, Sigs.new, foldl_add4_eq_sum], ?_⟩
  intro x hx
  simp only [SignerSpec.buildSigs, Sigs.new, List.mem_map] at hx
  obtain ⟨d, hd, rfl⟩ := hx
  exact ⟨rfl, (h.2 d hd).canon⟩

theorem buildCerts_wf (s : SignerSpec) : s.buildCerts.WF := by
  refine ⟨by simp [SignerSpec.buildCerts, Certs.new, foldl_add4_eq_sum], ?_⟩
  intro x hx
  simp only [SignerSpec.buildCerts, Certs.new, List.mem_map] at hx
  obtain ⟨d, hd, rfl⟩ := hx
  rfl

theorem buildAttrs_wf (s : SignerSpec) : s.buildAttrs.WF := by
  refine ⟨by simp [SignerSpec.buildAttrs, Attrs.new, foldl_add4_eq_sum], ?_⟩
  intro x hx
  simp only [SignerSpec.buildAttrs, Attrs.new, List.mem_map] at hx
  obtain ⟨d, hd, rfl⟩ := hx
  rfl

theorem buildV2_wf {s : SignerSpec} (h : s.Ok) : s.buildV2.WF := by
  refine ⟨?_, ⟨?_, buildDigests_wf h, buildCerts_wf s, buildAttrs_wf s, rfl⟩, buildSigs_wf h, rfl⟩
  · simp only [SignerSpec.buildV2, SignerV2.new]; omega
  · simp only [SignerSpec.buildV2, SignerV2.new, SignedDataV2.new]; omega

theorem buildStamp_wf {s : SignerSpec} (h : s.Ok) : s.buildStamp.WF := by
  refine ⟨?_, ⟨buildDigests_wf h, buildCerts_wf s, buildAttrs_wf s⟩, buildSigs_wf h, rfl⟩
  simp only [SignerSpec.buildStamp, StampBlock.new]; omega

/-- Content small enough for its count and name-length fields. -/
def ContentSpec.Small : ContentSpec → Prop
  | .elf es => es.length < 2 ^ 32 ∧ ∀ e ∈ es, e.1.length < 2 ^ 16
  | _ => True

theorem build_wf {c : ContentSpec} (h : c.Ok) (hs : c.Small) : c.build.WF := by
  cases c with
  | raw id d => exact ⟨rfl, h.1, h.2.1, h.2.2⟩
  | v2 ss =>
    refine ⟨?_, rfl, ?_, ?_⟩
    · simp only [SchemeV2.new]; omega
    · simp [SchemeV2.new, SignersV2.new, foldl_add4_eq_sum]
    · intro x hx
      simp only [SchemeV2.new, SignersV2.new, List.mem_map] at hx
      obtain ⟨d, hd, rfl⟩ := hx
      exact buildV2_wf (h d hd)
  | stamp s =>
    refine ⟨?_, rfl, buildStamp_wf h⟩
    simp only [SourceStamp.new]; omega
  | elf es =>
    refine ⟨?_, rfl, ?_, ?_⟩
    · simp only [ElfSectionInfo.fromTuples, ElfSectionInfo.new]
    · simp only [ElfSectionInfo.fromTuples, ElfSectionInfo.new, List.length_map, UInt32.toNat_ofNat']
      exact Nat.mod_eq_of_lt hs.1
    · intro x hx
      simp only [ElfSectionInfo.fromTuples, ElfSectionInfo.new, List.mem_map] at hx
      obtain ⟨d, hd, rfl⟩ := hx
      refine ⟨?_, h d hd⟩
      simp only [SectionEntry.new, UInt16.toNat_ofNat']
      exact Nat.mod_eq_of_lt (hs.2 d hd)

/-- Anything that fits into a block is small. -/
theorem small_of_size {c : ContentSpec} (h : c.build.size ≤ maxBlockSize) : c.Small := by
  cases c with
  | elf es =>
    have hsum : (es.map fun e => 18 + e.1.length).sum + 16 ≤ 16384 := by
      simp only [ContentSpec.build, Value.size, Value.innerSize, ElfSectionInfo.fromTuples, ElfSectionInfo.new,
        List.map_map] at h
      have e : (SectionEntry.byteSize ∘ fun x : Bytes × UInt64 × UInt64 =>
          match x with | (n, o, s) => SectionEntry.new n o s) = fun e => 18 + e.1.length := by
        funext e
        obtain ⟨n, o, s⟩ := e
        simp [SectionEntry.byteSize, SectionEntry.new]; omega
      rw [e] at h
      have : maxBlockSize = 16384 := rfl
      omega
    constructor
    · have : (es.map fun _ => 1).sum ≤ (es.map fun e => 18 + e.1.length).sum := by
        clear hsum h
        induction es with
        | nil => simp
        | cons e es ih => simp only [List.map_cons, List.sum_cons]; omega
      have e1 : (es.map fun _ => 1).sum = es.length := by
        clear this hsum h
        induction es with
        | nil => rfl
        | cons e es ih => simp only [List.map_cons, List.sum_cons, ih, List.length_cons]; omega
      rw [e1] at this
      omega
    · intro e he
      have := le_sum_of_mem (List.mem_map.mpr ⟨e, he, rfl⟩ : 18 + e.1.length ∈ es.map fun e => 18 + e.1.length)
      omega
  | _ => trivial

/-! ### Wire format -/

theorem lp4_length (b : Bytes) : (lp4 b).length = b.length + 4 := by simp [lp4]; omega

theorem toU8_lp4 {size : Nat} {c : Bytes} (h : size = c.length) : leBytes 4 size ++ c = lp4 c := by
  rw [h]; rfl

theorem digest_wire (x : Algo × Bytes) : (Digest.new x.1 x.2).toU8 = wireTagged x := by
  have : (Digest.new x.1 x.2).content = leBytes 4 x.1.toU32.toNat ++ lp4 x.2 := by
    simp [Digest.content, Digest.new, lp4]
  rw [Digest.toU8, this, zeroPad_nil (by simp [Digest.new, lp4]; omega)]
  simp only [wireTagged, List.append_nil]
  exact toU8_lp4 (by simp [Digest.new, lp4]; omega)

theorem sig_wire (x : Algo × Bytes) : (Sig.new x.1 x.2).toU8 = wireTagged x := by
  have : (Sig.new x.1 x.2).content = leBytes 4 x.1.toU32.toNat ++ lp4 x.2 := by
    simp [Sig.content, Sig.new, lp4]
  rw [Sig.toU8, this, zeroPad_nil (by simp [Sig.new, lp4]; omega)]
  simp only [wireTagged, List.append_nil]
  exact toU8_lp4 (by simp [Sig.new, lp4]; omega)

theorem cert_wire (x : Bytes) : (Cert.new x).toU8 = lp4 x := by
  rw [Cert.toU8, zeroPad_nil (by simp [Cert.new])]; simp [Cert.new, lp4]

theorem attr_wire (x : UInt32 × Bytes) : (⟨4 + x.2.length, x.1, x.2⟩ : Attr).toU8 = wireAttr x := by
  rw [Attr.toU8, zeroPad_nil (by simp [Attr.content])]
  simp [Attr.content, wireAttr, lp4]

theorem key_wire (x : Bytes) : (PubKey.new x).toU8 = lp4 x := by
  rw [PubKey.toU8, zeroPad_nil (by simp [PubKey.new])]; simp [PubKey.new, lp4]

theorem digests_wire {s : SignerSpec} (h : s.Ok) : s.buildDigests.toU8 = lp4 (s.digests.flatMap wireTagged) := by
  rw [Digests.toU8_eq (buildDigests_wf h)]
  have : s.buildDigests.content = s.digests.flatMap wireTagged := by
    simp only [Digests.content, SignerSpec.buildDigests, Digests.new, List.flatMap_map, digest_wire]
  rw [this]
  exact toU8_lp4 (by rw [← this, Digests.content_length (buildDigests_wf h)])

theorem sigs_wire {s : SignerSpec} (h : s.Ok) : s.buildSigs.toU8 = lp4 (s.sigs.flatMap wireTagged) := by
  rw [Sigs.toU8_eq (buildSigs_wf h)]
  have : s.buildSigs.content = s.sigs.flatMap wireTagged := by
    simp only [Sigs.content, SignerSpec.buildSigs, Sigs.new, List.flatMap_map, sig_wire]
  rw [this]
  exact toU8_lp4 (by rw [← this, Sigs.content_length (buildSigs_wf h)])

theorem certs_wire (s : SignerSpec) : s.buildCerts.toU8 = lp4 (s.certs.flatMap lp4) := by
  rw [Certs.toU8_eq (buildCerts_wf s)]
  have : s.buildCerts.content = s.certs.flatMap lp4 := by
    simp only [Certs.content, SignerSpec.buildCerts, Certs.new, List.flatMap_map, cert_wire]
  rw [this]
  exact toU8_lp4 (by rw [← this, Certs.content_length (buildCerts_wf s)])

theorem attrs_wire (s : SignerSpec) : s.buildAttrs.toU8 = lp4 (s.attrs.flatMap wireAttr) := by
  rw [Attrs.toU8_eq (buildAttrs_wf s)]
  have : s.buildAttrs.content = s.attrs.flatMap wireAttr := by
    simp only [Attrs.content, SignerSpec.buildAttrs, Attrs.new, List.flatMap_map, attr_wire]
  rw [this]
  exact toU8_lp4 (by rw [← this, Attrs.content_length (buildAttrs_wf s)])

/-- The V2 signed data of a constructor-built signer. -/
theorem signedV2_wire {s : SignerSpec} (h : s.Ok) :
    s.buildV2.signedData.toU8 = lp4 (s.wireSigned ++ [0, 0, 0, 0]) := by
  have hw := (buildV2_wf h).2.1
  have hc : s.buildV2.signedData.content = s.wireSigned := by
    simp only [SignedDataV2.content, SignerSpec.buildV2, SignerV2.new, SignedDataV2.new, digests_wire h, certs_wire,
      attrs_wire, SignerSpec.wireSigned]
  have hl := SignedDataV2.content_length hw
  rw [SignedDataV2.toU8, hc]
  have hz : zeroPad s.buildV2.signedData.size s.wireSigned = [0, 0, 0, 0] := by
    rw [zeroPad, ← hl, hc, Nat.add_sub_cancel_left]; rfl
  rw [hz, List.append_assoc]
  exact toU8_lp4 (by rw [← hl, hc]; simp)

theorem v2_wire {s : SignerSpec} (h : s.Ok) : s.buildV2.toU8 = s.wireV2 := by
  rw [SignerV2.toU8_eq (buildV2_wf h), SignerV2.content, signedV2_wire h]
  have e1 : s.buildV2.sigs = s.buildSigs := rfl
  have e2 : s.buildV2.pubKey = PubKey.new s.key := rfl
  have hl := SignerV2.content_length (buildV2_wf h)
  rw [SignerV2.content, signedV2_wire h, e1, e2, sigs_wire h, key_wire] at hl
  rw [e1, e2, sigs_wire h, key_wire]
  exact toU8_lp4 hl.symm

theorem signedStamp_wire {s : SignerSpec} (h : s.Ok) : s.buildStamp.signedData.toU8 = lp4 s.wireSigned := by
  have hc : s.buildStamp.signedData.content = s.wireSigned := by
    simp only [SignedDataStamp.content, SignerSpec.buildStamp, StampBlock.new, SignedDataStamp.new, digests_wire h,
      certs_wire, attrs_wire, SignerSpec.wireSigned]
  rw [SignedDataStamp.toU8, hc]; rfl

theorem stamp_wire {s : SignerSpec} (h : s.Ok) : s.buildStamp.toU8 = s.wireStamp := by
  have hl := StampBlock.toU8_length (buildStamp_wf h)
  have e1 : s.buildStamp.sigs = s.buildSigs := rfl
  have e2 : s.buildStamp.pubKey = PubKey.new s.key := rfl
  simp only [StampBlock.toU8, signedStamp_wire h, e1, e2, sigs_wire h, key_wire, List.append_assoc] at hl ⊢
  rw [SignerSpec.wireStamp, List.append_assoc]
  apply toU8_lp4
  simp only [List.length_append, leBytes_length] at hl ⊢
  omega

theorem section_wire {e : Bytes × UInt64 × UInt64} (h : e.1.length < 2 ^ 16) :
    (SectionEntry.new e.1 e.2.1 e.2.2).toU8 = wireSection e := by
  simp only [SectionEntry.toU8, SectionEntry.new, wireSection, UInt16.toNat_ofNat']
  rw [Nat.mod_eq_of_lt h]

theorem build_id (c : ContentSpec) : c.build.id = c.id := by cases c <;> rfl

theorem build_body {c : ContentSpec} (h : c.Ok) (hs : c.Small) : c.build.body = c.wireValue := by
  cases c with
  | raw id d => rfl
  | v2 ss =>
    have hw := build_wf (c := .v2 ss) h hs
    have hw' : (SignersV2.new (ss.map SignerSpec.buildV2)).WF := hw.2.2
    have hc : (SignersV2.new (ss.map SignerSpec.buildV2)).content = ss.flatMap SignerSpec.wireV2 := by
      simp only [SignersV2.content, SignersV2.new, List.flatMap_map]
      have : ∀ l : List SignerSpec, (∀ s ∈ l, s.Ok) →
          (l.flatMap fun a => a.buildV2.toU8) = l.flatMap SignerSpec.wireV2 := by
        intro l hl
        induction l with
        | nil => rfl
        | cons x xs ih =>
          simp only [List.flatMap_cons]
          rw [v2_wire (hl x (by simp)), ih fun s hs => hl s (by simp [hs])]
      exact this ss h
    simp only [ContentSpec.build, Value.newV2, Value.body, SchemeV2.new, ContentSpec.wireValue]
    rw [SignersV2.toU8_eq hw', hc]
    exact toU8_lp4 (by rw [← hc, SignersV2.content_length hw'])
  | stamp s =>
    simp only [ContentSpec.build, Value.newSourceStamp, Value.body, SourceStamp.new, ContentSpec.wireValue]
    exact stamp_wire h
  | elf es =>
    simp only [ContentSpec.build, Value.body, ElfSectionInfo.fromTuples, ElfSectionInfo.new, ContentSpec.wireValue,
      List.length_map, UInt32.toNat_ofNat', List.flatMap_map]
    rw [Nat.mod_eq_of_lt hs.1]
    congr 1
    have h2 := hs.2
    clear h hs
    induction es with
    | nil => rfl
    | cons x xs ih =>
      simp only [List.flatMap_cons]
      rw [ih fun e he => h2 e (by simp [he])]
      congr 1
      exact section_wire (h2 x (by simp))

theorem build_wire {c : ContentSpec} (h : c.Ok) (hs : c.Small) : c.build.toU8 = wirePair c.id c.wireValue := by
  have hw := build_wf h hs
  have hb := Value.body_length hw
  rw [Value.toU8_eq hw, build_body h hs, build_id, wirePair, List.append_assoc]
  rw [build_body h hs] at hb
  rw [← hb, Nat.add_comm]

end Ksusig.Spec
