import Verif.SpecDocument
import Verif.Proofs.Serde

/-!
# Lemmas about documents
-/

namespace Ksusig

open Spec

theorem mapM_each {α β : Type} {f : α → Option β} {R : α → β → Prop} (h : ∀ a b, f a = some b ↔ R a b) (l : List α) (r : List β) :
    l.mapM f = some r ↔ Each R l r := by
  induction l generalizing r with
  | nil =>
    simp only [List.mapM_nil, pure, Option.some.injEq]
    constructor
    · rintro rfl; exact .nil
    · intro h; cases h; rfl
  | cons a l ih =>
    rw [List.mapM_cons]
    simp only [bind, Option.bind_eq_some_iff, pure, Option.some.injEq]
    constructor
    · rintro ⟨y, h1, ys, h2, rfl⟩
      exact .cons _ _ _ _ ((h _ _).mp h1) ((ih _).mp h2)
    · intro he
      cases he with
      | cons _ b _ bs h1 h2 => exact ⟨b, (h _ _).mpr h1, bs, (ih _).mpr h2, rfl⟩

theorem once_iff (l : List (String × Json)) (n : String) (v : Json) :
    (match l.filter fun x => x.1 = n with | [x] => some x.2 | _ => none) = some v ↔ Once l n v := by
  induction l with
  | nil =>
    simp only [List.filter_nil]
    constructor
    · intro h; cases h
    · rintro ⟨before, after, h, _⟩
      cases before <;> cases h
  | cons a l ih =>
    by_cases ha : a.1 = n
    · rw [List.filter_cons, if_pos (by simpa using ha)]
      constructor
      · intro h
        have h0 : l.filter (fun x => decide (x.1 = n)) = [] := by
          cases hf : l.filter (fun x => decide (x.1 = n)) with
          | nil => rfl
          | cons b t => rw [hf] at h; cases h
        rw [h0] at h
        cases h
        refine ⟨[], l, by rw [← ha]; rfl, fun x hx => ?_⟩
        have := List.filter_eq_nil_iff.mp h0 x (by simpa using hx)
        simpa using this
      · rintro ⟨before, after, h, hn⟩
        cases before with
        | nil =>
          obtain ⟨rfl, rfl⟩ := List.cons.inj h
          have h0 : l.filter (fun x => decide (x.1 = n)) = [] :=
            List.filter_eq_nil_iff.mpr fun x hx => by simpa using hn x (by simpa using hx)
          rw [h0]
        | cons b t =>
          cases h
          exact absurd ha (hn _ (by simp))
    · rw [List.filter_cons, if_neg (by simpa using ha), ih]
      constructor
      · rintro ⟨before, after, rfl, hn⟩
        refine ⟨a :: before, after, rfl, fun x hx => ?_⟩
        rcases List.mem_cons.mp hx with rfl | hx
        · exact ha
        · exact hn x hx
      · rintro ⟨before, after, h, hn⟩
        cases before with
        | nil => cases h; exact absurd rfl ha
        | cons b t =>
          cases h
          exact ⟨t, after, rfl, fun x hx => hn x (by simp only [List.cons_append, List.mem_cons]; exact .inr hx)⟩

theorem fields_iff (j : Json) (names : List String) (vs : List Json) : j.fields names = some vs ↔ Fields j names vs := by
  unfold Json.fields Fields
  cases j with
  | obj l =>
    dsimp only
    refine (mapM_each (R := Once l) (fun n v => ?_) names vs).trans ?_
    · exact once_iff l n v
    constructor
    · intro h; exact .inl ⟨l, rfl, h⟩
    · rintro (⟨l', h, he⟩ | ⟨h, _⟩)
      · cases h; exact he
      · cases h
  | arr l =>
    dsimp only
    split
    · rename_i hl
      constructor
      · intro h; cases h; exact .inr ⟨rfl, hl⟩
      · rintro (⟨l', h, he⟩ | ⟨h, _⟩)
        · cases h
        · cases h; rfl
    · rename_i hl
      constructor
      · intro h; cases h
      · rintro (⟨l', h, he⟩ | ⟨h, h'⟩)
        · cases h
        · cases h; exact absurd h' hl
  | _ =>
    constructor
    · intro h; cases h
    · rintro (⟨l', h, he⟩ | ⟨h, _⟩) <;> cases h

theorem take2 {α : Type} {j : Json} {names : List String} {f : Json → Json → Option α} {x : α} :
    (j.fields names >>= fun l => match l with | [a, b] => f a b | _ => none) = some x ↔
      ∃ a b, Fields j names [a, b] ∧ f a b = some x := by
  simp only [bind, Option.bind_eq_some_iff, fields_iff]
  constructor
  · rintro ⟨l, h, hm⟩
    split at hm
    · exact ⟨_, _, h, hm⟩
    · cases hm
  · rintro ⟨a, b, h, hm⟩; exact ⟨_, h, hm⟩

theorem take3 {α : Type} {j : Json} {names : List String} {f : Json → Json → Json → Option α} {x : α} :
    (j.fields names >>= fun l => match l with | [a, b, c] => f a b c | _ => none) = some x ↔
      ∃ a b c, Fields j names [a, b, c] ∧ f a b c = some x := by
  simp only [bind, Option.bind_eq_some_iff, fields_iff]
  constructor
  · rintro ⟨l, h, hm⟩
    split at hm
    · exact ⟨_, _, _, h, hm⟩
    · cases hm
  · rintro ⟨a, b, c, h, hm⟩; exact ⟨_, h, hm⟩

theorem take4 {α : Type} {j : Json} {names : List String} {f : Json → Json → Json → Json → Option α} {x : α} :
    (j.fields names >>= fun l => match l with | [a, b, c, d] => f a b c d | _ => none) = some x ↔
      ∃ a b c d, Fields j names [a, b, c, d] ∧ f a b c d = some x := by
  simp only [bind, Option.bind_eq_some_iff, fields_iff]
  constructor
  · rintro ⟨l, h, hm⟩
    split at hm
    · exact ⟨_, _, _, _, h, hm⟩
    · cases hm
  · rintro ⟨a, b, c, d, h, hm⟩; exact ⟨_, h, hm⟩

theorem take5 {α : Type} {j : Json} {names : List String} {f : Json → Json → Json → Json → Json → Option α} {x : α} :
    (j.fields names >>= fun l => match l with | [a, b, c, d, e] => f a b c d e | _ => none) = some x ↔
      ∃ a b c d e, Fields j names [a, b, c, d, e] ∧ f a b c d e = some x := by
  simp only [bind, Option.bind_eq_some_iff, fields_iff]
  constructor
  · rintro ⟨l, h, hm⟩
    split at hm
    · exact ⟨_, _, _, _, _, h, hm⟩
    · cases hm
  · rintro ⟨a, b, c, d, e, h, hm⟩; exact ⟨_, h, hm⟩

theorem take7 {α : Type} {j : Json} {names : List String} {f : Json → Json → Json → Json → Json → Json → Json → Option α} {x : α} :
    (j.fields names >>= fun l => match l with | [a, b, c, d, e, g, h] => f a b c d e g h | _ => none) = some x ↔
      ∃ a b c d e g h, Fields j names [a, b, c, d, e, g, h] ∧ f a b c d e g h = some x := by
  simp only [bind, Option.bind_eq_some_iff, fields_iff]
  constructor
  · rintro ⟨l, h, hm⟩
    split at hm
    · exact ⟨_, _, _, _, _, _, _, h, hm⟩
    · cases hm
  · rintro ⟨a, b, c, d, e, g, i, h, hm⟩; exact ⟨_, h, hm⟩

theorem docSize (j : Json) (n : Nat) : j.usize = some n ↔ DocSize j n := nat_iff

theorem docU64 (j : Json) (n : UInt64) : j.u64 = some n ↔ DocU64 j n := by
  unfold Json.u64 DocU64
  simp only [Option.map_eq_some_iff, nat_iff]
  constructor
  · rintro ⟨m, ⟨rfl, hm⟩, rfl⟩
    rw [UInt64.toNat_ofNat_of_lt' hm]
  · rintro rfl
    exact ⟨_, ⟨rfl, n.toNat_lt⟩, by simp⟩

theorem docU32 (j : Json) (n : UInt32) : j.u32 = some n ↔ DocU32 j n := by
  unfold Json.u32 DocU32
  simp only [Option.map_eq_some_iff, nat_iff]
  constructor
  · rintro ⟨m, ⟨rfl, hm⟩, rfl⟩
    rw [UInt32.toNat_ofNat_of_lt' hm]
  · rintro rfl
    exact ⟨_, ⟨rfl, n.toNat_lt⟩, by simp⟩

theorem docU16 (j : Json) (n : UInt16) : j.u16 = some n ↔ DocU16 j n := by
  unfold Json.u16 DocU16
  simp only [Option.map_eq_some_iff, nat_iff]
  constructor
  · rintro ⟨m, ⟨rfl, hm⟩, rfl⟩
    rw [UInt16.toNat_ofNat_of_lt' hm]
  · rintro rfl
    exact ⟨_, ⟨rfl, n.toNat_lt⟩, by simp⟩

theorem docU8 (j : Json) (n : UInt8) : j.u8 = some n ↔ DocU8 j n := by
  unfold Json.u8 DocU8
  simp only [Option.map_eq_some_iff, nat_iff]
  constructor
  · rintro ⟨m, ⟨rfl, hm⟩, rfl⟩
    rw [UInt8.toNat_ofNat_of_lt' hm]
  · rintro rfl
    exact ⟨_, ⟨rfl, n.toNat_lt⟩, by simp⟩

theorem docList {α : Type} {f : Json → Option α} {R : Json → α → Prop} (h : ∀ j x, f j = some x ↔ R j x) (j : Json) (l : List α) :
    j.list f = some l ↔ DocList R j l := by
  unfold Json.list DocList
  cases j with
  | arr js =>
    dsimp only
    rw [mapM_each h]
    constructor
    · intro h; exact ⟨js, rfl, h⟩
    · rintro ⟨_, h, he⟩; cases h; exact he
  | _ =>
    constructor
    · intro h; cases h
    · rintro ⟨_, h, _⟩; cases h

theorem docBytes (j : Json) (b : Bytes) : j.bytes = some b ↔ DocBytes j b := docList docU8 j b

theorem docText (j : Json) (s : Bytes) : j.text = some s ↔ DocText j s := by
  unfold Json.text DocText
  cases j with
  | str x =>
    dsimp only
    split
    · rename_i hx
      constructor
      · intro h; cases h; exact ⟨rfl, hx⟩
      · rintro ⟨h, _⟩; cases h; rfl
    · rename_i hx
      constructor
      · intro h; cases h
      · rintro ⟨h, h'⟩; cases h; exact absurd h' hx
  | _ =>
    constructor
    · intro h; cases h
    · rintro ⟨h, _⟩; cases h

theorem docBool (j : Json) (b : Bool) : j.toBool = some b ↔ j = .bool b := by
  cases j <;> simp [Json.toBool]

theorem docAlgo (j : Json) (a : Algo) : Algo.ofJson j = some a ↔ DocAlgo j a := by
  unfold Algo.ofJson
  simp only [Option.map_eq_some_iff, docU32, DocU32]
  unfold Algo.deserialize Algo.ofU32 DocAlgo
  constructor
  · rintro ⟨n, rfl, rfl⟩
    by_cases h1 : n = 0x0201
    · subst h1; rfl
    · by_cases h2 : n = 0x0202
      · subst h2; rfl
      · rw [if_neg h1, if_neg h2]; exact ⟨rfl, h1, h2⟩
  · cases a with
    | p256 => rintro rfl; exact ⟨0x0201, rfl, rfl⟩
    | p384 => rintro rfl; exact ⟨0x0202, rfl, rfl⟩
    | unknown u => rintro ⟨rfl, h1, h2⟩; exact ⟨u, rfl, by rw [if_neg h1, if_neg h2]⟩

theorem docDigest (j : Json) (d : Digest) : Digest.ofJson j = some d ↔ DocDigest j d := by
  refine take3.trans ?_
  cases d
  simp [DocDigest, Option.bind_eq_some_iff, docSize, docAlgo, docBytes]
  constructor
  · rintro ⟨a, b, c, hf, _, h1, _, h2, _, h3, rfl, rfl, rfl⟩; exact ⟨a, b, c, hf, h1, h2, h3⟩
  · rintro ⟨a, b, c, hf, h1, h2, h3⟩; exact ⟨a, b, c, hf, _, h1, _, h2, _, h3, rfl, rfl, rfl⟩

theorem docDigests (j : Json) (d : Digests) : Digests.ofJson j = some d ↔ DocDigests j d := by
  refine take2.trans ?_
  cases d
  simp [DocDigests, Option.bind_eq_some_iff, docSize, docList docDigest]

theorem docCert (j : Json) (d : Cert) : Cert.ofJson j = some d ↔ DocCert j d := by
  refine take2.trans ?_
  cases d
  simp [DocCert, Option.bind_eq_some_iff, docSize, docBytes]

theorem docCerts (j : Json) (d : Certs) : Certs.ofJson j = some d ↔ DocCerts j d := by
  refine take2.trans ?_
  cases d
  simp [DocCerts, Option.bind_eq_some_iff, docSize, docList docCert]

theorem docSig (j : Json) (d : Sig) : Sig.ofJson j = some d ↔ DocSig j d := by
  refine take3.trans ?_
  cases d
  simp [DocSig, Option.bind_eq_some_iff, docSize, docAlgo, docBytes]
  constructor
  · rintro ⟨a, b, c, hf, _, h1, _, h2, _, h3, rfl, rfl, rfl⟩; exact ⟨a, b, c, hf, h1, h2, h3⟩
  · rintro ⟨a, b, c, hf, h1, h2, h3⟩; exact ⟨a, b, c, hf, _, h1, _, h2, _, h3, rfl, rfl, rfl⟩

theorem docSigs (j : Json) (d : Sigs) : Sigs.ofJson j = some d ↔ DocSigs j d := by
  refine take2.trans ?_
  cases d
  simp [DocSigs, Option.bind_eq_some_iff, docSize, docList docSig]

theorem docAttr (j : Json) (d : Attr) : Attr.ofJson j = some d ↔ DocAttr j d := by
  refine take3.trans ?_
  cases d
  simp [DocAttr, Option.bind_eq_some_iff, docSize, docU32, docBytes]
  constructor
  · rintro ⟨a, b, c, hf, _, h1, _, h2, _, h3, rfl, rfl, rfl⟩; exact ⟨a, b, c, hf, h1, h2, h3⟩
  · rintro ⟨a, b, c, hf, h1, h2, h3⟩; exact ⟨a, b, c, hf, _, h1, _, h2, _, h3, rfl, rfl, rfl⟩

theorem docAttrs (j : Json) (d : Attrs) : Attrs.ofJson j = some d ↔ DocAttrs j d := by
  refine take2.trans ?_
  cases d
  simp [DocAttrs, Option.bind_eq_some_iff, docSize, docList docAttr]

theorem docPubKey (j : Json) (d : PubKey) : PubKey.ofJson j = some d ↔ DocPubKey j d := by
  refine take2.trans ?_
  cases d
  simp [DocPubKey, Option.bind_eq_some_iff, docSize, docBytes]

theorem docSignedV2 (j : Json) (d : SignedDataV2) : SignedDataV2.ofJson j = some d ↔ DocSignedV2 j d := by
  refine take5.trans ?_
  cases d
  simp only [DocSignedV2, bind, Option.bind_eq_some_iff, docSize, docDigests, docCerts, docAttrs, docBool, pure, Option.some.injEq,
    SignedDataV2.mk.injEq]
  constructor
  · rintro ⟨a, b, c, d, e, hf, _, h1, _, h2, _, h3, _, h4, _, h5, rfl, rfl, rfl, rfl, rfl⟩
    exact ⟨a, b, c, d, e, hf, h1, h2, h3, h4, h5⟩
  · rintro ⟨a, b, c, d, e, hf, h1, h2, h3, h4, h5⟩
    exact ⟨a, b, c, d, e, hf, _, h1, _, h2, _, h3, _, h4, _, h5, rfl, rfl, rfl, rfl, rfl⟩

theorem docSigner (j : Json) (d : SignerV2) : SignerV2.ofJson j = some d ↔ DocSigner j d := by
  refine take4.trans ?_
  cases d
  simp [DocSigner, Option.bind_eq_some_iff, docSize, docSignedV2, docSigs, docPubKey]
  constructor
  · rintro ⟨a, b, c, d, hf, _, h1, _, h2, _, h3, _, h4, rfl, rfl, rfl, rfl⟩; exact ⟨a, b, c, d, hf, h1, h2, h3, h4⟩
  · rintro ⟨a, b, c, d, hf, h1, h2, h3, h4⟩; exact ⟨a, b, c, d, hf, _, h1, _, h2, _, h3, _, h4, rfl, rfl, rfl, rfl⟩

theorem docSigners (j : Json) (d : SignersV2) : SignersV2.ofJson j = some d ↔ DocSigners j d := by
  refine take2.trans ?_
  cases d
  simp [DocSigners, Option.bind_eq_some_iff, docSize, docList docSigner]

theorem docScheme (j : Json) (d : SchemeV2) : SchemeV2.ofJson j = some d ↔ DocScheme j d := by
  refine take3.trans ?_
  cases d
  simp [DocScheme, Option.bind_eq_some_iff, docSize, docU32, docSigners]
  constructor
  · rintro ⟨a, b, c, hf, _, h1, _, h2, _, h3, rfl, rfl, rfl⟩; exact ⟨a, b, c, hf, h1, h2, h3⟩
  · rintro ⟨a, b, c, hf, h1, h2, h3⟩; exact ⟨a, b, c, hf, _, h1, _, h2, _, h3, rfl, rfl, rfl⟩

theorem docSignedStamp (j : Json) (d : SignedDataStamp) : SignedDataStamp.ofJson j = some d ↔ DocSignedStamp j d := by
  refine take3.trans ?_
  cases d
  simp [DocSignedStamp, Option.bind_eq_some_iff, docDigests, docCerts, docAttrs]
  constructor
  · rintro ⟨a, b, c, hf, _, h1, _, h2, _, h3, rfl, rfl, rfl⟩; exact ⟨a, b, c, hf, h1, h2, h3⟩
  · rintro ⟨a, b, c, hf, h1, h2, h3⟩; exact ⟨a, b, c, hf, _, h1, _, h2, _, h3, rfl, rfl, rfl⟩

theorem docStampBlock (j : Json) (d : StampBlock) : StampBlock.ofJson j = some d ↔ DocStampBlock j d := by
  refine take4.trans ?_
  cases d
  simp [DocStampBlock, Option.bind_eq_some_iff, docSize, docSignedStamp, docSigs, docPubKey]
  constructor
  · rintro ⟨a, b, c, d, hf, _, h1, _, h2, _, h3, _, h4, rfl, rfl, rfl, rfl⟩; exact ⟨a, b, c, d, hf, h1, h2, h3, h4⟩
  · rintro ⟨a, b, c, d, hf, h1, h2, h3, h4⟩; exact ⟨a, b, c, d, hf, _, h1, _, h2, _, h3, _, h4, rfl, rfl, rfl, rfl⟩

theorem docStamp (j : Json) (d : SourceStamp) : SourceStamp.ofJson j = some d ↔ DocStamp j d := by
  refine take3.trans ?_
  cases d
  simp [DocStamp, Option.bind_eq_some_iff, docSize, docU32, docStampBlock]
  constructor
  · rintro ⟨a, b, c, hf, _, h1, _, h2, _, h3, rfl, rfl, rfl⟩; exact ⟨a, b, c, hf, h1, h2, h3⟩
  · rintro ⟨a, b, c, hf, h1, h2, h3⟩; exact ⟨a, b, c, hf, _, h1, _, h2, _, h3, rfl, rfl, rfl⟩

theorem docSection (j : Json) (d : SectionEntry) : SectionEntry.ofJson j = some d ↔ DocSection j d := by
  refine take4.trans ?_
  cases d
  simp [DocSection, Option.bind_eq_some_iff, docU16, docText, docU64]
  constructor
  · rintro ⟨a, b, c, d, hf, _, h1, _, h2, _, h3, _, h4, rfl, rfl, rfl, rfl⟩; exact ⟨a, b, c, d, hf, h1, h2, h3, h4⟩
  · rintro ⟨a, b, c, d, hf, h1, h2, h3, h4⟩; exact ⟨a, b, c, d, hf, _, h1, _, h2, _, h3, _, h4, rfl, rfl, rfl, rfl⟩

theorem docElf (j : Json) (d : ElfSectionInfo) : ElfSectionInfo.ofJson j = some d ↔ DocElf j d := by
  refine take4.trans ?_
  cases d
  simp [DocElf, Option.bind_eq_some_iff, docSize, docU32, docList docSection]
  constructor
  · rintro ⟨a, b, c, d, hf, _, h1, _, h2, _, h3, _, h4, rfl, rfl, rfl, rfl⟩; exact ⟨a, b, c, d, hf, h1, h2, h3, h4⟩
  · rintro ⟨a, b, c, d, hf, h1, h2, h3, h4⟩; exact ⟨a, b, c, d, hf, _, h1, _, h2, _, h3, _, h4, rfl, rfl, rfl, rfl⟩

theorem docRaw (j : Json) (d : RawData) : RawData.ofJson j = some d ↔ DocRaw j d := by
  refine take3.trans ?_
  cases d
  simp [DocRaw, Option.bind_eq_some_iff, docSize, docU32, docBytes]
  constructor
  · rintro ⟨a, b, c, hf, _, h1, _, h2, _, h3, rfl, rfl, rfl⟩; exact ⟨a, b, c, hf, h1, h2, h3⟩
  · rintro ⟨a, b, c, hf, h1, h2, h3⟩; exact ⟨a, b, c, hf, _, h1, _, h2, _, h3, rfl, rfl, rfl⟩

theorem docValue (j : Json) (v : Value) : Value.ofJson j = some v ↔ DocValue j v := by
  unfold Value.ofJson DocValue
  split
  · rename_i n x
    by_cases h1 : n = "BaseSigningBlock"
    · subst h1
      cases v <;> simp [docRaw]
    · by_cases h2 : n = "SignatureSchemeV2Block"
      · subst h2
        cases v <;> simp [docScheme]
      · by_cases h3 : n = "SourceStampBlock"
        · subst h3
          cases v <;> simp [docStamp]
        · by_cases h4 : n = "ElfSectionInfoBlock"
          · subst h4
            cases v <;> simp [docElf]
          · cases v <;> simp [h1, h2, h3, h4]
  · rename_i hn
    constructor
    · intro h; cases h
    · cases v <;> rintro ⟨x, rfl, _⟩ <;> exact absurd rfl (hn _ _)

theorem docMagic (j : Json) (b : Bytes) : j.bytes16 = some b ↔ DocBytes j b ∧ b.length = 16 := by
  unfold Json.bytes16
  constructor
  · intro h
    split at h
    · rename_i x hx
      split at h
      · rename_i hl
        cases h
        exact ⟨(docBytes _ _).mp hx, hl⟩
      · cases h
    · cases h
  · rintro ⟨h, hl⟩
    rw [(docBytes _ _).mpr h]
    exact if_pos hl

theorem docBlock (j : Json) (d : SigningBlock) : SigningBlock.ofJson j = some d ↔ DocBlock j d := by
  refine take7.trans ?_
  cases d
  simp only [DocBlock, bind, Option.bind_eq_some_iff, docSize, docList docValue, docMagic, pure, Option.some.injEq,
    SigningBlock.mk.injEq]
  constructor
  · rintro ⟨a, b, c, d, e, f, g, hf, _, h1, _, h2, _, h3, _, h4, _, h5, _, h6, _, ⟨h7, h8⟩, rfl, rfl, rfl, rfl, rfl, rfl, rfl⟩
    exact ⟨a, b, c, d, e, f, g, hf, h1, h2, h3, h4, h5, h6, h7, h8⟩
  · rintro ⟨a, b, c, d, e, f, g, hf, h1, h2, h3, h4, h5, h6, h7, h8⟩
    exact ⟨a, b, c, d, e, f, g, hf, _, h1, _, h2, _, h3, _, h4, _, h5, _, h6, _, ⟨h7, h8⟩, rfl, rfl, rfl, rfl, rfl, rfl, rfl⟩

end Ksusig
