import Verif.Proofs.Codec

/-! Well-formed values (what the constructors build), encoded lengths and parser round-trips. -/

namespace Ksusig

/-- An algorithm value that comes from an identifier. -/
def Algo.Canon (a : Algo) : Prop := Algo.ofU32 a.toU32 = a

instance (a : Algo) : Decidable a.Canon := inferInstanceAs (Decidable (_ = _))

theorem Algo.canon_ofU32 (x : UInt32) : (Algo.ofU32 x).Canon := by
  unfold Algo.Canon Algo.ofU32
  split
  · rfl
  · split
    · rfl
    · simp_all [Algo.toU32]

/-! ### Items -/

def Digest.WF (d : Digest) : Prop := d.size = 8 + d.digest.length ∧ d.algo.Canon
def Cert.WF (c : Cert) : Prop := c.size = c.cert.length
def Sig.WF (s : Sig) : Prop := s.size = 8 + s.signature.length ∧ s.algo.Canon
def Attr.WF (a : Attr) : Prop := a.size = 4 + a.data.length
def PubKey.WF (k : PubKey) : Prop := k.size = k.data.length

theorem Digest.content_length (d : Digest) : d.content.length = 8 + d.digest.length := by
  simp [Digest.content]; omega

theorem Digest.toU8_eq {d : Digest} (h : d.WF) : d.toU8 =
    leBytes 4 d.size ++ (leBytes 4 d.algo.toU32.toNat ++ (leBytes 4 d.digest.length ++ d.digest)) := by
  rw [Digest.toU8, zeroPad_nil (by rw [d.content_length, h.1]; exact Nat.le_refl _)]
  simp [Digest.content]

theorem Digest.toU8_length {d : Digest} (h : d.WF) : d.toU8.length = d.size + 4 := by
  rw [Digest.toU8_eq h]; simp [h.1]; omega

theorem Digest.parses {d : Digest} (h : d.WF) (hs : d.size < 2 ^ 32) : Parses Digest.parse d.toU8 d := by
  rw [Digest.toU8_eq h]
  have hd := h.1
  refine Parses.bind (Parses.readSize hs) ?_
  refine Parses.bind (Parses.readU32 _) ?_
  refine Parses.bind (Parses.readSize (by omega)) ?_
  have := Parses.bindPure (g := fun x => (⟨d.size, Algo.ofU32 d.algo.toU32, x⟩ : Digest)) (Parses.getTo (enc := d.digest) rfl)
  rw [show Algo.ofU32 d.algo.toU32 = d.algo from h.2] at this ⊢
  exact this

theorem Cert.toU8_eq {c : Cert} (h : c.WF) : c.toU8 = leBytes 4 c.size ++ c.cert := by
  rw [Cert.toU8, zeroPad_nil (by rw [h]; exact Nat.le_refl _)]; simp

theorem Cert.toU8_length {c : Cert} (h : c.WF) : c.toU8.length = c.size + 4 := by
  rw [Cert.toU8_eq h]; simp; rw [h]; omega

theorem Cert.parses {c : Cert} (h : c.WF) (hs : c.size < 2 ^ 32) : Parses Cert.parse c.toU8 c := by
  rw [Cert.toU8_eq h]
  refine Parses.bind (Parses.readSize hs) ?_
  exact Parses.bindPure (g := fun x => (⟨c.size, x⟩ : Cert)) (Parses.getTo (Eq.symm h))

theorem Sig.content_length (d : Sig) : d.content.length = 8 + d.signature.length := by
  simp [Sig.content]; omega

theorem Sig.toU8_eq {d : Sig} (h : d.WF) : d.toU8 =
    leBytes 4 d.size ++ (leBytes 4 d.algo.toU32.toNat ++ (leBytes 4 d.signature.length ++ d.signature)) := by
  rw [Sig.toU8, zeroPad_nil (by rw [d.content_length, h.1]; exact Nat.le_refl _)]
  simp [Sig.content]

theorem Sig.toU8_length {d : Sig} (h : d.WF) : d.toU8.length = d.size + 4 := by
  rw [Sig.toU8_eq h]; simp [h.1]; omega

theorem Sig.parses {d : Sig} (h : d.WF) (hs : d.size < 2 ^ 32) : Parses Sig.parse d.toU8 d := by
  rw [Sig.toU8_eq h]
  have hd := h.1
  refine Parses.bind (Parses.readSize hs) ?_
  refine Parses.bind (Parses.readU32 _) ?_
  refine Parses.bind (Parses.readSize (by omega)) ?_
  have := Parses.bindPure (g := fun x => (⟨d.size, Algo.ofU32 d.algo.toU32, x⟩ : Sig)) (Parses.getTo (enc := d.signature) rfl)
  rw [show Algo.ofU32 d.algo.toU32 = d.algo from h.2] at this ⊢
  exact this

theorem Attr.toU8_eq {a : Attr} (h : a.WF) : a.toU8 =
    leBytes 4 a.size ++ (leBytes 4 a.id.toNat ++ a.data) := by
  rw [Attr.toU8, zeroPad_nil (by simp [Attr.content, show a.size = 4 + a.data.length from h])]
  simp [Attr.content]

theorem Attr.toU8_length {a : Attr} (h : a.WF) : a.toU8.length = a.size + 4 := by
  rw [Attr.toU8_eq h]; simp [show a.size = 4 + a.data.length from h]; omega

theorem Attr.parses {a : Attr} (h : a.WF) (hs : a.size < 2 ^ 32) : Parses Attr.parse a.toU8 a := by
  rw [Attr.toU8_eq h]
  have hd : a.size = 4 + a.data.length := h
  refine Parses.bind (Parses.readSize hs) ?_
  refine Parses.bind (Parses.readU32 _) ?_
  rw [if_neg (by omega)]
  exact Parses.bindPure (g := fun x => (⟨a.size, a.id, x⟩ : Attr)) (Parses.getTo (by omega))

theorem PubKey.toU8_eq {k : PubKey} (h : k.WF) : k.toU8 = leBytes 4 k.size ++ k.data := by
  rw [PubKey.toU8, zeroPad_nil (by rw [h]; exact Nat.le_refl _)]; simp

theorem PubKey.toU8_length {k : PubKey} (h : k.WF) : k.toU8.length = k.size + 4 := by
  rw [PubKey.toU8_eq h]; simp; rw [h]; omega

theorem PubKey.parses {k : PubKey} (h : k.WF) (hs : k.size < 2 ^ 32) : Parses PubKey.parse k.toU8 k := by
  rw [PubKey.toU8_eq h]
  refine Parses.bind (Parses.readSize hs) ?_
  exact Parses.bindPure (g := fun x => (⟨k.size, x⟩ : PubKey)) (Parses.getTo (Eq.symm h))

/-! ### Lists of items -/

def Digests.WF (d : Digests) : Prop := d.size = (d.data.map fun x => x.size + 4).sum ∧ ∀ x ∈ d.data, x.WF
def Certs.WF (d : Certs) : Prop := d.size = (d.data.map fun x => x.size + 4).sum ∧ ∀ x ∈ d.data, x.WF
def Sigs.WF (d : Sigs) : Prop := d.size = (d.data.map fun x => x.size + 4).sum ∧ ∀ x ∈ d.data, x.WF
def Attrs.WF (d : Attrs) : Prop := d.size = (d.data.map fun x => x.size + 4).sum ∧ ∀ x ∈ d.data, x.WF

theorem mem_size_lt {l : List α} {f : α → Nat} {x : α} (hx : x ∈ l) : f x + 4 ≤ (l.map fun x => f x + 4).sum :=
  le_sum_of_mem (List.mem_map.mpr ⟨x, hx, rfl⟩)

theorem Digests.content_length {d : Digests} (h : d.WF) : d.content.length = d.size := by
  rw [Digests.content, flatMap_length_eq_sum, h.1]
  exact map_sum_congr fun x hx => Digest.toU8_length (h.2 x hx)

theorem Digests.toU8_eq {d : Digests} (h : d.WF) : d.toU8 = leBytes 4 d.size ++ d.content := by
  rw [Digests.toU8, zeroPad_nil (by rw [Digests.content_length h]; exact Nat.le_refl _)]; simp

theorem Digests.toU8_length {d : Digests} (h : d.WF) : d.toU8.length = d.size + 4 := by
  rw [Digests.toU8_eq h]; simp [Digests.content_length h]; omega

theorem Digests.parses {d : Digests} (h : d.WF) (hs : d.size < 2 ^ 32) : Parses Digests.parse d.toU8 d := by
  rw [Digests.toU8_eq h]
  refine Parses.bind (Parses.readSize hs) ?_
  have hl := Digests.content_length h
  have hmem : ∀ a ∈ d.data, a.size < 2 ^ 32 := fun a ha => by
    have : a.size + 4 ≤ d.size := by rw [h.1]; exact mem_size_lt (f := Digest.size) ha
    omega
  have hloop := Parses.loopTo (item := Digest.parse) d.data
    (fun a ha => Digest.parses (h.2 a ha) (hmem a ha))
    (fun a ha => by rw [Digest.toU8_length (h.2 a ha)]; omega) [] []
  simp only [List.nil_append, List.append_nil, List.length_nil, Nat.zero_add] at hloop
  rw [show (d.data.flatMap Digest.toU8).length = d.size from hl] at hloop
  have := Parses.sub (q := fun _ => P.loopTo Digest.parse d.size) (enc := d.content)
    (k := fun ds => (pure ⟨d.size, ds⟩ : P Digests)) hl hloop (Parses.pure _)
  simpa using this

theorem Certs.content_length {d : Certs} (h : d.WF) : d.content.length = d.size := by
  rw [Certs.content, flatMap_length_eq_sum, h.1]
  exact map_sum_congr fun x hx => Cert.toU8_length (h.2 x hx)

theorem Certs.toU8_eq {d : Certs} (h : d.WF) : d.toU8 = leBytes 4 d.size ++ d.content := by
  rw [Certs.toU8, zeroPad_nil (by rw [Certs.content_length h]; exact Nat.le_refl _)]; simp

theorem Certs.toU8_length {d : Certs} (h : d.WF) : d.toU8.length = d.size + 4 := by
  rw [Certs.toU8_eq h]; simp [Certs.content_length h]; omega

theorem Certs.parses {d : Certs} (h : d.WF) (hs : d.size < 2 ^ 32) : Parses Certs.parse d.toU8 d := by
  rw [Certs.toU8_eq h]
  refine Parses.bind (Parses.readSize hs) ?_
  have hl := Certs.content_length h
  have hmem : ∀ a ∈ d.data, a.size < 2 ^ 32 := fun a ha => by
    have : a.size + 4 ≤ d.size := by rw [h.1]; exact mem_size_lt (f := Cert.size) ha
    omega
  have := Parses.loopHere (item := Cert.parse) (enc := Cert.toU8) (l := d.data) (size := d.size)
    (k := fun cs => (pure ⟨d.size, cs⟩ : P Certs))
    (fun a ha => Cert.parses (h.2 a ha) (hmem a ha))
    (fun a ha => by rw [Cert.toU8_length (h.2 a ha)]; omega) (Eq.symm hl) (Parses.pure _)
  simpa [Certs.content] using this

theorem Attrs.content_length {d : Attrs} (h : d.WF) : d.content.length = d.size := by
  rw [Attrs.content, flatMap_length_eq_sum, h.1]
  exact map_sum_congr fun x hx => Attr.toU8_length (h.2 x hx)

theorem Attrs.toU8_eq {d : Attrs} (h : d.WF) : d.toU8 = leBytes 4 d.size ++ d.content := by
  rw [Attrs.toU8, zeroPad_nil (by rw [Attrs.content_length h]; exact Nat.le_refl _)]; simp

theorem Attrs.toU8_length {d : Attrs} (h : d.WF) : d.toU8.length = d.size + 4 := by
  rw [Attrs.toU8_eq h]; simp [Attrs.content_length h]; omega

theorem Attrs.parses {d : Attrs} (h : d.WF) (hs : d.size < 2 ^ 32) : Parses Attrs.parse d.toU8 d := by
  rw [Attrs.toU8_eq h]
  refine Parses.bind (Parses.readSize hs) ?_
  have hl := Attrs.content_length h
  have hmem : ∀ a ∈ d.data, a.size < 2 ^ 32 := fun a ha => by
    have : a.size + 4 ≤ d.size := by rw [h.1]; exact mem_size_lt (f := Attr.size) ha
    omega
  have := Parses.loopHere (item := Attr.parse) (enc := Attr.toU8) (l := d.data) (size := d.size)
    (k := fun cs => (pure ⟨d.size, cs⟩ : P Attrs))
    (fun a ha => Attr.parses (h.2 a ha) (hmem a ha))
    (fun a ha => by rw [Attr.toU8_length (h.2 a ha)]; omega) (Eq.symm hl) (Parses.pure _)
  simpa [Attrs.content] using this

theorem Sigs.content_length {d : Sigs} (h : d.WF) : d.content.length = d.size := by
  rw [Sigs.content, flatMap_length_eq_sum, h.1]
  exact map_sum_congr fun x hx => Sig.toU8_length (h.2 x hx)

theorem Sigs.toU8_eq {d : Sigs} (h : d.WF) : d.toU8 = leBytes 4 d.size ++ d.content := by
  rw [Sigs.toU8, zeroPad_nil (by rw [Sigs.content_length h]; exact Nat.le_refl _)]; simp

theorem Sigs.toU8_length {d : Sigs} (h : d.WF) : d.toU8.length = d.size + 4 := by
  rw [Sigs.toU8_eq h]; simp [Sigs.content_length h]; omega

theorem Sigs.parses {d : Sigs} (h : d.WF) (hs : d.size < 2 ^ 32) : Parses Sigs.parse d.toU8 d := by
  rw [Sigs.toU8_eq h]
  refine Parses.bind (Parses.readSize hs) ?_
  have hl := Sigs.content_length h
  by_cases h0 : d.size = 0
  · have hnil : d.data = [] := by
      cases hd : d.data with
      | nil => rfl
      | cons x xs =>
        have : x.size + 4 ≤ d.size := by rw [h.1]; exact mem_size_lt (f := Sig.size) (by rw [hd]; simp)
        omega
    rw [if_pos h0]
    have : d = ⟨d.size, []⟩ := by cases d; simp_all
    have hc : d.content = [] := by simp [Sigs.content, hnil]
    rw [hc, ← this]
    exact Parses.pure d
  · rw [if_neg h0]
    have hmem : ∀ a ∈ d.data, a.size < 2 ^ 32 := fun a ha => by
      have : a.size + 4 ≤ d.size := by rw [h.1]; exact mem_size_lt (f := Sig.size) ha
      omega
    have := Parses.loopHere (item := Sig.parse) (enc := Sig.toU8) (l := d.data) (size := d.size)
      (k := fun cs => (pure ⟨d.size, cs⟩ : P Sigs))
      (fun a ha => Sig.parses (h.2 a ha) (hmem a ha))
      (fun a ha => by rw [Sig.toU8_length (h.2 a ha)]; omega) (Eq.symm hl) (Parses.pure _)
    simpa [Sigs.content] using this

/-! ### V2 -/

def SignedDataV2.WF (s : SignedDataV2) : Prop :=
  s.size = s.digests.size + s.certs.size + s.attrs.size + 16 ∧ s.digests.WF ∧ s.certs.WF ∧ s.attrs.WF ∧
    s.autoPad = true

theorem SignedDataV2.content_length {s : SignedDataV2} (h : s.WF) : s.content.length + 4 = s.size := by
  obtain ⟨h0, h1, h2, h3, _⟩ := h
  simp [SignedDataV2.content, Digests.toU8_length h1, Certs.toU8_length h2, Attrs.toU8_length h3, h0]; omega

theorem SignedDataV2.toU8_length {s : SignedDataV2} (h : s.WF) : s.toU8.length = s.size + 4 := by
  have := SignedDataV2.content_length h
  simp [SignedDataV2.toU8]; omega

theorem SignedDataV2.parses {s : SignedDataV2} (h : s.WF) (hs : s.size < 2 ^ 32) :
    Parses SignedDataV2.parse s.toU8 s := by
  have hc := SignedDataV2.content_length h
  obtain ⟨h0, h1, h2, h3, h4⟩ := h
  rw [SignedDataV2.toU8, List.append_assoc]
  refine Parses.bind (Parses.readSize hs) ?_
  have hin : Parses (do
      let d ← Digests.parse
      let c ← Certs.parse
      let a ← Attrs.parse
      return (⟨s.size, d, c, a, true⟩ : SignedDataV2)) s.content s := by
    rw [SignedDataV2.content, List.append_assoc]
    refine Parses.bind (Digests.parses h1 (by omega)) ?_
    refine Parses.bind (Certs.parses h2 (by omega)) ?_
    have := Parses.bindPure (g := fun a => (⟨s.size, s.digests, s.certs, a, true⟩ : SignedDataV2)) (Attrs.parses h3 (by omega))
    rwa [show (⟨s.size, s.digests, s.certs, s.attrs, true⟩ : SignedDataV2) = s by rw [← h4]] at this
  exact Parses.sub' (by simp; omega) (hin.run _)

def SignerV2.WF (s : SignerV2) : Prop :=
  s.size = s.signedData.size + s.sigs.size + s.pubKey.size + 12 ∧ s.signedData.WF ∧ s.sigs.WF ∧ s.pubKey.WF

theorem SignerV2.content_length {s : SignerV2} (h : s.WF) : s.content.length = s.size := by
  obtain ⟨h0, h1, h2, h3⟩ := h
  simp [SignerV2.content, SignedDataV2.toU8_length h1, Sigs.toU8_length h2, PubKey.toU8_length h3, h0]; omega

theorem SignerV2.toU8_eq {s : SignerV2} (h : s.WF) : s.toU8 = leBytes 4 s.size ++ s.content := by
  rw [SignerV2.toU8, zeroPad_nil (by rw [SignerV2.content_length h]; exact Nat.le_refl _)]; simp

theorem SignerV2.toU8_length {s : SignerV2} (h : s.WF) : s.toU8.length = s.size + 4 := by
  rw [SignerV2.toU8_eq h]; simp [SignerV2.content_length h]; omega

theorem SignerV2.parses {s : SignerV2} (h : s.WF) (hs : s.size < 2 ^ 32) :
    Parses SignerV2.parse s.toU8 s := by
  rw [SignerV2.toU8_eq h, SignerV2.content, List.append_assoc]
  obtain ⟨h0, h1, h2, h3⟩ := h
  refine Parses.bind (Parses.readSize hs) ?_
  refine Parses.bind (SignedDataV2.parses h1 (by omega)) ?_
  refine Parses.bind (Sigs.parses h2 (by omega)) ?_
  exact Parses.bindPure (g := fun k => (⟨s.size, s.signedData, s.sigs, k⟩ : SignerV2)) (PubKey.parses h3 (by omega))

def SignersV2.WF (d : SignersV2) : Prop := d.size = (d.data.map fun x => x.size + 4).sum ∧ ∀ x ∈ d.data, x.WF

theorem SignersV2.content_length {d : SignersV2} (h : d.WF) : d.content.length = d.size := by
  rw [SignersV2.content, flatMap_length_eq_sum, h.1]
  exact map_sum_congr fun x hx => SignerV2.toU8_length (h.2 x hx)

theorem SignersV2.toU8_eq {d : SignersV2} (h : d.WF) : d.toU8 = leBytes 4 d.size ++ d.content := by
  rw [SignersV2.toU8, zeroPad_nil (by rw [SignersV2.content_length h]; exact Nat.le_refl _)]; simp

theorem SignersV2.toU8_length {d : SignersV2} (h : d.WF) : d.toU8.length = d.size + 4 := by
  rw [SignersV2.toU8_eq h]; simp [SignersV2.content_length h]; omega

theorem SignersV2.parses {d : SignersV2} (h : d.WF) (hs : d.size < 2 ^ 32) :
    Parses SignersV2.parse d.toU8 d := by
  rw [SignersV2.toU8_eq h]
  refine Parses.bind (Parses.readSize hs) ?_
  have hl := SignersV2.content_length h
  have hmem : ∀ a ∈ d.data, a.size < 2 ^ 32 := fun a ha => by
    have : a.size + 4 ≤ d.size := by rw [h.1]; exact mem_size_lt (f := SignerV2.size) ha
    omega
  have hloop := Parses.loopTo (item := SignerV2.parse) d.data
    (fun a ha => SignerV2.parses (h.2 a ha) (hmem a ha))
    (fun a ha => by rw [SignerV2.toU8_length (h.2 a ha)]; omega) [] []
  simp only [List.nil_append, List.append_nil, List.length_nil, Nat.zero_add] at hloop
  have := Parses.sub (q := fun sub => P.loopTo SignerV2.parse sub.data.length) (enc := d.content)
    (k := fun ds => (pure ⟨d.size, ds⟩ : P SignersV2)) hl hloop (Parses.pure _)
  simpa using this

def SchemeV2.WF (s : SchemeV2) : Prop := s.size = s.signers.size + 8 ∧ s.id = v2BlockId ∧ s.signers.WF

theorem SchemeV2.toU8_eq {s : SchemeV2} (h : s.WF) :
    s.toU8 = leBytes 8 s.size ++ (leBytes 4 s.id.toNat ++ s.signers.toU8) := by
  obtain ⟨h0, _, h2⟩ := h
  rw [SchemeV2.toU8, zeroPad_nil (by simp [SchemeV2.content, SignersV2.toU8_length h2, h0]; omega)]
  simp [SchemeV2.content]

theorem SchemeV2.toU8_length {s : SchemeV2} (h : s.WF) : s.toU8.length = s.size + 8 := by
  rw [SchemeV2.toU8_eq h]; simp [SignersV2.toU8_length h.2.2, h.1]; omega

theorem SchemeV2.parses {s : SchemeV2} (h : s.WF) (hs : s.size < 2 ^ 32) :
    Parses (SchemeV2.parse s.size s.id) s.signers.toU8 s := by
  have := h.1
  exact Parses.bindPure (g := fun k => (⟨s.size, s.id, k⟩ : SchemeV2)) (SignersV2.parses h.2.2 (by omega))

/-! ### Source stamp -/

def SignedDataStamp.WF (s : SignedDataStamp) : Prop := s.digests.WF ∧ s.certs.WF ∧ s.attrs.WF

theorem SignedDataStamp.content_length {s : SignedDataStamp} (h : s.WF) : s.content.length = s.size := by
  obtain ⟨h1, h2, h3⟩ := h
  simp [SignedDataStamp.content, SignedDataStamp.size, Digests.toU8_length h1, Certs.toU8_length h2, Attrs.toU8_length h3]; omega

theorem SignedDataStamp.toU8_length {s : SignedDataStamp} (h : s.WF) : s.toU8.length = s.size + 4 := by
  simp [SignedDataStamp.toU8, SignedDataStamp.content_length h]; omega

theorem SignedDataStamp.parses {s : SignedDataStamp} (h : s.WF) (hs : s.size < 2 ^ 32) :
    Parses SignedDataStamp.parse s.toU8 s := by
  have hc := SignedDataStamp.content_length h
  obtain ⟨h1, h2, h3⟩ := h
  have hsz : s.size = s.digests.size + s.certs.size + s.attrs.size + 12 := rfl
  rw [SignedDataStamp.toU8]
  refine Parses.bind (Parses.readSize (by omega)) ?_
  have hin : Parses (do
      let d ← Digests.parse
      let c ← Certs.parse
      let a ← Attrs.parse
      return (⟨d, c, a⟩ : SignedDataStamp)) s.content s := by
    rw [SignedDataStamp.content, List.append_assoc]
    refine Parses.bind (Digests.parses h1 (by omega)) ?_
    refine Parses.bind (Certs.parses h2 (by omega)) ?_
    exact Parses.bindPure (g := fun a => (⟨s.digests, s.certs, a⟩ : SignedDataStamp)) (Attrs.parses h3 (by omega))
  have := hin.run []
  simp only [List.append_nil] at this
  exact Parses.sub' rfl this

def StampBlock.WF (s : StampBlock) : Prop :=
  s.size = s.signedData.size + s.sigs.size + s.pubKey.size + 12 ∧ s.signedData.WF ∧ s.sigs.WF ∧ s.pubKey.WF

theorem StampBlock.toU8_length {s : StampBlock} (h : s.WF) : s.toU8.length = s.size + 4 := by
  obtain ⟨h0, h1, h2, h3⟩ := h
  simp [StampBlock.toU8, SignedDataStamp.toU8_length h1, Sigs.toU8_length h2, PubKey.toU8_length h3, h0]; omega

theorem StampBlock.parses {s : StampBlock} (h : s.WF) (hs : s.size < 2 ^ 32) :
    Parses StampBlock.parse s.toU8 s := by
  have hlen := StampBlock.toU8_length h
  obtain ⟨h0, h1, h2, h3⟩ := h
  have hin : Parses (do
      let sd ← SignedDataStamp.parse
      let ss ← Sigs.parse
      let k ← PubKey.parse
      return (⟨s.size, sd, ss, k⟩ : StampBlock)) (s.signedData.toU8 ++ (s.sigs.toU8 ++ s.pubKey.toU8)) s := by
    refine Parses.bind (SignedDataStamp.parses h1 (by omega)) ?_
    refine Parses.bind (Sigs.parses h2 (by omega)) ?_
    exact Parses.bindPure (g := fun k => (⟨s.size, s.signedData, s.sigs, k⟩ : StampBlock)) (PubKey.parses h3 (by omega))
  simp only [StampBlock.toU8, List.append_assoc] at hlen ⊢
  refine Parses.bind (Parses.readSize hs) ?_
  have := hin.run []
  simp only [List.append_nil] at this
  exact Parses.sub' (by simp only [List.length_append, leBytes_length] at hlen ⊢; omega) this

def SourceStamp.WF (s : SourceStamp) : Prop := s.size = s.block.size + 8 ∧ s.id = stampBlockId ∧ s.block.WF

theorem SourceStamp.toU8_length {s : SourceStamp} (h : s.WF) : s.toU8.length = s.size + 8 := by
  simp [SourceStamp.toU8, StampBlock.toU8_length h.2.2, h.1]; omega

theorem SourceStamp.parses {s : SourceStamp} (h : s.WF) (hs : s.size < 2 ^ 32) :
    Parses (SourceStamp.parse s.size s.id) s.block.toU8 s := by
  have := h.1
  exact Parses.bindPure (g := fun k => (⟨s.size, s.id, k⟩ : SourceStamp)) (StampBlock.parses h.2.2 (by omega))

/-! ### ELF section info -/

def SectionEntry.WF (e : SectionEntry) : Prop := e.nameLen.toNat = e.name.length ∧ validUtf8 e.name = true

theorem SectionEntry.toU8_length (e : SectionEntry) : e.toU8.length = e.byteSize := by
  simp [SectionEntry.toU8, SectionEntry.byteSize]; omega

theorem SectionEntry.parses {e : SectionEntry} (h : e.WF) : Parses SectionEntry.parse e.toU8 e := by
  obtain ⟨h1, h2⟩ := h
  simp only [SectionEntry.toU8, List.append_assoc]
  refine Parses.bind (Parses.readU16 _) ?_
  refine Parses.bind (Parses.getTo (Eq.symm h1)) ?_
  rw [if_pos h2]
  refine Parses.bind (Parses.readU64 _) ?_
  exact Parses.bindPure (g := fun z => (⟨e.nameLen, e.name, e.offset, z⟩ : SectionEntry)) (Parses.readU64 _)

def ElfSectionInfo.WF (e : ElfSectionInfo) : Prop :=
  e.size = 8 + (e.sections.map SectionEntry.byteSize).sum ∧ e.id = elfInfoBlockId ∧
    e.count.toNat = e.sections.length ∧ ∀ s ∈ e.sections, s.WF

theorem ElfSectionInfo.toU8_length {e : ElfSectionInfo} (h : e.WF) : e.toU8.length = e.size + 8 := by
  have := flatMap_length_eq_sum SectionEntry.toU8 e.sections
  have h2 : (e.sections.map fun x => x.toU8.length).sum = (e.sections.map SectionEntry.byteSize).sum :=
    map_sum_congr fun x _ => x.toU8_length
  have h0 := h.1
  simp only [ElfSectionInfo.toU8, List.length_append, leBytes_length]
  omega

theorem ElfSectionInfo.parses {e : ElfSectionInfo} (h : e.WF) :
    Parses (ElfSectionInfo.parse e.size e.id) (leBytes 4 e.count.toNat ++ e.sections.flatMap SectionEntry.toU8) e := by
  obtain ⟨_, _, h2, h3⟩ := h
  refine Parses.bind (Parses.readU32 _) ?_
  rw [h2]
  exact Parses.bindPure (g := fun z => (⟨e.size, e.id, e.count, z⟩ : ElfSectionInfo))
    (Parses.repeatN e.sections fun a ha => SectionEntry.parses (h3 a ha))

/-! ### Pairs and blocks -/

def RawData.WF (r : RawData) : Prop :=
  r.size = 4 + r.data.length ∧ r.id ≠ v2BlockId ∧ r.id ≠ stampBlockId ∧ r.id ≠ elfInfoBlockId

def Value.WF : Value → Prop
  | .raw r => r.WF
  | .v2 s => s.WF
  | .stamp s => s.WF
  | .elf e => e.WF

theorem Value.toU8_length {v : Value} (h : v.WF) : v.toU8.length = v.size := by
  cases v with
  | raw r =>
    have : r.size = 4 + r.data.length := h.1
    simp [Value.toU8, Value.size, Value.innerSize, RawData.toU8]; omega
  | v2 s => exact SchemeV2.toU8_length h
  | stamp s => exact SourceStamp.toU8_length h
  | elf e => exact ElfSectionInfo.toU8_length h

/-- The value bytes (after size and id) of a pair. -/
def Value.body : Value → Bytes
  | .raw r => r.data
  | .v2 s => s.signers.toU8
  | .stamp s => s.block.toU8
  | .elf e => leBytes 4 e.count.toNat ++ e.sections.flatMap SectionEntry.toU8

theorem Value.toU8_eq {v : Value} (h : v.WF) :
    v.toU8 = leBytes 8 v.innerSize ++ (leBytes 4 v.id.toNat ++ v.body) := by
  cases v with
  | raw r => simp [Value.toU8, RawData.toU8, Value.innerSize, Value.id, Value.body]
  | v2 s => exact SchemeV2.toU8_eq h
  | stamp s => simp [Value.toU8, SourceStamp.toU8, Value.innerSize, Value.id, Value.body]
  | elf e => simp [Value.toU8, ElfSectionInfo.toU8, Value.innerSize, Value.id, Value.body]

theorem Value.body_length {v : Value} (h : v.WF) : v.body.length + 4 = v.innerSize := by
  have h1 := Value.toU8_length h
  rw [Value.toU8_eq h, Value.size] at h1
  simp at h1; omega

theorem Value.parses {v : Value} (h : v.WF) (hs : v.innerSize ≤ maxPairSize) : Parses Value.parse v.toU8 v := by
  have hb := Value.body_length h
  have hmp : maxPairSize = 16384 := rfl
  rw [Value.toU8_eq h]
  refine Parses.bind (Parses.readSizeU64 (by omega)) ?_
  rw [if_neg (by omega)]
  refine Parses.bind (Parses.readU32 _) ?_
  rw [if_neg (by omega)]
  have hsl : Parses (P.asSlice (v.innerSize - 4)) v.body ⟨v.body, 0⟩ := by
    unfold P.asSlice
    exact Parses.bindPure (g := fun d => (⟨d, 0⟩ : Reader)) (Parses.getTo (by omega))
  have hbody : Parses (Value.parseBody v.innerSize v.id ⟨v.body, 0⟩) [] v := by
    cases v with
    | raw r =>
      obtain ⟨_, h1, h2, h3⟩ := h
      simp only [Value.parseBody, Value.id, h1, h2, h3, if_false, Value.innerSize, Value.body]
      exact Parses.pure _
    | v2 s =>
      have hp := (SchemeV2.parses h (by have : s.size ≤ maxPairSize := hs; omega)).run []
      simp only [List.append_nil] at hp
      simp only [Value.parseBody, Value.id, h.2.1, if_true, Value.innerSize, Value.body]
      rw [h.2.1] at hp
      intro pre post
      simp [P.bind_def, P.on, hp]
    | stamp s =>
      have hp := (SourceStamp.parses h (by have : s.size ≤ maxPairSize := hs; omega)).run []
      simp only [List.append_nil] at hp
      simp only [Value.parseBody, Value.id, h.2.1, Value.innerSize, Value.body]
      rw [h.2.1] at hp
      rw [if_neg (by decide), if_pos trivial]
      intro pre post
      simp [P.bind_def, P.on, hp]
    | elf e =>
      have hp := (ElfSectionInfo.parses h).run []
      simp only [List.append_nil] at hp
      simp only [Value.parseBody, Value.id, h.2.1, Value.innerSize, Value.body]
      rw [h.2.1] at hp
      rw [if_neg (by decide), if_neg (by decide), if_pos trivial]
      intro pre post
      simp [P.bind_def, P.on, hp]
  have := Parses.bind (f := fun value => Value.parseBody v.innerSize v.id value) hsl hbody
  simpa using this

theorem contentSum_eq (c : List Value) : contentSum c = (c.map Value.size).sum := by
  unfold contentSum; rw [foldl_add_eq_sum]; simp

theorem content_length {c : List Value} (h : ∀ v ∈ c, v.WF) : (c.flatMap Value.toU8).length = contentSum c := by
  rw [flatMap_length_eq_sum, contentSum_eq]
  exact map_sum_congr fun v hv => Value.toU8_length (h v hv)

theorem extractValues_flatMap {c : List Value} (h : ∀ v ∈ c, v.WF) (hs : ∀ v ∈ c, v.innerSize ≤ maxPairSize) :
    extractValues (c.flatMap Value.toU8) = .ok c := by
  have hloop := Parses.loopTo (item := Value.parse) c (fun a ha => Value.parses (h a ha) (hs a ha))
    (fun a ha => by rw [Value.toU8_length (h a ha), Value.size]; omega) [] []
  simp only [List.nil_append, List.append_nil, List.length_nil, Nat.zero_add] at hloop
  simp only [extractValues, Reader.new]
  rw [hloop]

/-- A block whose fields are consistent with its (well-formed) content. -/
structure SigningBlock.WF (b : SigningBlock) : Prop where
  content : ∀ v ∈ b.content, v.WF
  contentSize : b.contentSize = contentSum b.content
  sizeStart : b.sizeStart = contentSum b.content + 24
  sizeEnd : b.sizeEnd = b.sizeStart
  limit : b.sizeStart ≤ maxBlockSize
  magic : b.magic = Ksusig.magic

theorem magic_length : Ksusig.magic.length = 16 := rfl

theorem SigningBlock.WF.toU8_length {b : SigningBlock} (h : b.WF) : b.toU8.length = b.sizeStart + 8 := by
  have h1 := content_length h.content
  have h2 := h.sizeStart
  simp only [SigningBlock.toU8, SigningBlock.contentToU8, List.length_append, leBytes_length, h.magic, magic_length]
  omega

theorem SigningBlock.WF.innerSize_le {b : SigningBlock} (h : b.WF) : ∀ v ∈ b.content, v.innerSize ≤ maxPairSize := by
  intro v hv
  have h1 : v.size ≤ contentSum b.content := by
    rw [contentSum_eq]; exact le_sum_of_mem (List.mem_map.mpr ⟨v, hv, rfl⟩)
  have h2 := h.limit
  have h3 := h.sizeStart
  have : maxBlockSize = 16384 := rfl
  have : maxPairSize = 16384 := rfl
  simp only [Value.size] at h1
  omega

theorem parseFullBlock_toU8 (p : Profile) {b : SigningBlock} (h : b.WF) :
    parseFullBlock p b.toU8 = .ok { b with fileStart := 0, fileEnd := b.toU8.length } := by
  have hlen := h.toU8_length
  have hcl := content_length h.content
  have h1 := h.sizeStart
  have h2 := h.sizeEnd
  have h3 := h.limit
  have hm := h.magic
  have hmb : maxBlockSize = 16384 := rfl
  have hml : Ksusig.magic.length = 16 := rfl
  have hsz : b.sizeStart < 256 ^ 8 := by
    have : (256 : Nat) ^ 8 = 2 ^ 64 := by decide
    omega
  have s1 : slice? b.toU8 (b.toU8.length - 16) b.toU8.length = some Ksusig.magic := by
    have := slice?_append (leBytes 8 b.sizeStart ++ b.contentToU8 ++ leBytes 8 b.sizeEnd) Ksusig.magic []
    rw [List.append_nil, ← hm] at this
    have e : (leBytes 8 b.sizeStart ++ b.contentToU8 ++ leBytes 8 b.sizeEnd).length = b.toU8.length - 16 := by
      simp only [SigningBlock.toU8, List.length_append, hm, hml]; omega
    rw [e, hm, hml, ← hm] at this
    rw [show b.toU8.length - 16 + 16 = b.toU8.length by omega] at this
    rw [← hm]; exact this
  have s2 : slice? b.toU8 0 8 = some (leBytes 8 b.sizeStart) := by
    have := slice?_append [] (leBytes 8 b.sizeStart) (b.contentToU8 ++ leBytes 8 b.sizeEnd ++ b.magic)
    simpa [SigningBlock.toU8] using this
  have s3 : slice? b.toU8 (b.toU8.length - 16 - 8) (b.toU8.length - 16) = some (leBytes 8 b.sizeEnd) := by
    have := slice?_append (leBytes 8 b.sizeStart ++ b.contentToU8) (leBytes 8 b.sizeEnd) b.magic
    have e : (leBytes 8 b.sizeStart ++ b.contentToU8).length = b.toU8.length - 16 - 8 := by
      simp only [SigningBlock.toU8, List.length_append, hm, hml, leBytes_length]; omega
    rw [e, leBytes_length] at this
    rw [show b.toU8.length - 16 - 8 + 8 = b.toU8.length - 16 by omega] at this
    exact this
  have s4 : slice? b.toU8 8 (b.toU8.length - 16 - 8) = some b.contentToU8 := by
    have := slice?_append (leBytes 8 b.sizeStart) b.contentToU8 (leBytes 8 b.sizeEnd ++ b.magic)
    have e : (leBytes 8 b.sizeStart).length + b.contentToU8.length = b.toU8.length - 16 - 8 := by
      simp only [SigningBlock.toU8, List.length_append, hm, hml, leBytes_length]; omega
    rw [e, leBytes_length] at this
    simpa [SigningBlock.toU8] using this
  have hex := extractValues_flatMap h.content h.innerSize_le
  unfold parseFullBlock
  rw [if_neg (by omega), s1, s2, s3, s4]
  simp only [Res.ofOption_some, Res.ok_bind, leNat_leBytes_of_lt hsz, h2, ne_eq, not_true, if_false]
  rw [show b.contentToU8 = b.content.flatMap Value.toU8 from rfl, hex]
  rw [if_neg (by omega), if_neg (by omega)]
  have hda : debugAssert p (b.sizeStart == b.sizeStart) = .ok () := by cases p <;> simp [debugAssert]
  rw [hda]
  simp only [Res.ok_bind]
  congr 1
  rw [h.contentSize, hm]
  congr 1
  omega

end Ksusig
