import Verif.Model.CliInfo
import Verif.SpecReport
import Verif.Props.Commands
import Verif.Props.Report

/-!
# What the info command prints (C84)
-/

namespace Ksusig.Props

open Ksusig Spec

/-- The lines of the list of contents. -/
def isEntry : ILine → Bool
  | .v2Entry | .stampEntry | .elfEntry _ | .unknownEntry _ => true
  | _ => false

/-- The line that is right for a pair of the file, decoded to `v`: the kind follows from the identifier alone; for section records
the number of sections is shown. -/
def Listed (id : UInt32) (v : Value) : ILine → Prop
  | .v2Entry => id = 0x7109871a
  | .stampEntry => id = 0x6dff800d
  | .elfEntry n => id = 0x4c45534b ∧ ∃ e, v = .elf e ∧ n = e.sections.length
  | .unknownEntry i => i = id ∧ id ≠ 0x7109871a ∧ id ≠ 0x6dff800d ∧ id ≠ 0x4c45534b
  | _ => False

/-- C84: the command with its output is the command of C60. It succeeds whenever it finds a block, whatever the signatures are. -/
theorem C84_result (E : Env) (p : Profile) (pem : Bytes) (now : Nat) (file : Bytes) :
    ((cliInfoRun E p pem now file).2 = (cliInfo E p pem now file).bind fun _ => .ok ()) ∧
    ((cliInfoRun E p pem now file).2 = .ok () ↔ ∃ b, cliInfoBlock p file = .ok b) := by
  unfold cliInfoRun cliInfo
  cases cliInfoBlock p file with
  | err e => exact ⟨rfl, by simp⟩
  | panic => exact ⟨rfl, by simp⟩
  | ok b => exact ⟨rfl, by simp⟩

theorem infoV2Lines_kind (v : Verdict) : ∀ x ∈ infoV2Lines v, isEntry x = false := by
  intro x hx
  unfold infoV2Lines at hx
  split at hx
  · rcases List.mem_append.mp hx with hx | hx
    · rcases List.mem_append.mp hx with hx | hx
      · rcases List.mem_append.mp hx with hx | hx
        · rw [List.mem_singleton] at hx; subst hx; rfl
        · split at hx
          · rw [List.mem_singleton] at hx; subst hx; rfl
          · cases hx
      · split at hx
        · rw [List.mem_singleton] at hx; subst hx; rfl
        · rcases List.mem_cons.mp hx with rfl | hx
          · rfl
          · obtain ⟨_, _, rfl⟩ := List.mem_map.mp hx; rfl
    · obtain ⟨_, _, rfl⟩ := List.mem_map.mp hx; rfl
  · rw [List.mem_singleton] at hx; subst hx; rfl

theorem infoStampLines_kind (v : Verdict) : ∀ x ∈ infoStampLines v, isEntry x = false := by
  intro x hx
  unfold infoStampLines at hx
  split at hx
  · split at hx
    · rcases List.mem_append.mp hx with hx | hx
      · rw [List.mem_singleton] at hx; subst hx; rfl
      · split at hx
        · rw [List.mem_singleton] at hx; subst hx; rfl
        · cases hx
    · cases hx
  · cases hx

theorem tiled_listed {x : Bytes} {vs : List Value} (h : Tiled x vs) :
    ∃ l : List (UInt32 × Bytes), x = l.flatMap (fun q => wirePair q.1 q.2) ∧ l.length = vs.length ∧
      ∀ (i : Nat) (h1 : i < l.length) (h2 : i < vs.length), Listed l[i].1 vs[i] (infoEntry vs[i]) := by
  obtain ⟨l, h1, h2, h3⟩ := tiled_pairs h
  refine ⟨l, h1, h2, fun i hi hj => ?_⟩
  obtain ⟨v, hv, hp⟩ := h3 i l[i] (List.getElem?_eq_getElem hi)
  rw [List.getElem?_eq_getElem hj] at hv
  cases hv
  cases hv : vs[i] with
  | v2 s => rw [hv] at hp; exact hp.1
  | stamp s => rw [hv] at hp; exact hp.1
  | elf e => rw [hv] at hp; exact ⟨hp.1, e, rfl, hp.2.2.2⟩
  | raw r => rw [hv] at hp; obtain ⟨rfl, h⟩ := hp; exact ⟨rfl, h⟩

/-- C84: when the command succeeds, it shows the size of the file, and the place and size of a block that really is there; the list of
contents has one line for each pair of that block, in order, each of the right kind, and no other lines. -/
theorem C84_listing {E : Env} {p : Profile} {pem : Bytes} {now : Nat} {file : Bytes}
    (h : (cliInfoRun E p pem now file).2 = .ok ()) :
    ∃ (b : SigningBlock) (pre post : Bytes) (l : List (UInt32 × Bytes)) (entries rest : List ILine),
      cliInfoBlock p file = .ok b ∧
      file = pre ++ wireFrame (l.flatMap fun q => wirePair q.1 q.2) ++ post ∧
      (cliInfoRun E p pem now file).1 = [.fileSize file.length, .found,
        .location pre.length (file.length - post.length), .size (file.length - post.length - pre.length)] ++
          (if l = [] then [] else .contents :: entries) ++ rest ∧
      l.length = b.content.length ∧ entries.length = l.length ∧
      (∀ (i : Nat) (h1 : i < l.length) (h2 : i < b.content.length) (h3 : i < entries.length),
        Listed l[i].1 b.content[i] entries[i]) ∧
      ∀ x ∈ rest, isEntry x = false := by
  obtain ⟨b, hb⟩ := (C84_result E p pem now file).2.mp h
  obtain ⟨pre, pairs, post, hf, _, hv, _, _, hbb⟩ := fromReader_ok hb
  obtain ⟨l, rfl, hl, hli⟩ := tiled_listed (extractValues_ok hv)
  have hw := wireFrame_length' (l.flatMap fun q => wirePair q.1 q.2)
  generalize hfr : wireFrame (l.flatMap fun q => wirePair q.1 q.2) = fr at *
  have hlen : file.length = pre.length + fr.length + post.length := by rw [hf]; simp only [List.length_append]
  refine ⟨b, pre, post, l, b.content.map infoEntry, infoV2Lines (verifyV2 E (Roots.withBuiltin E pem) now b none) ++
    infoStampLines (verifySourceStamp E (Roots.withBuiltin E pem) now b none), hb, (by rw [hfr]; exact hf), ?_, hl, by simp [hl], ?_, ?_⟩
  · unfold cliInfoRun
    rw [hb]
    dsimp only
    unfold infoBlockLines
    have e1 : b.fileStart = pre.length := by rw [hbb]
    have e2 : b.fileEnd = file.length - post.length := by rw [hbb]; show _ = _; dsimp only; omega
    have e3 : b.sizeStart + 8 = file.length - post.length - pre.length := by rw [hbb]; dsimp only; omega
    have e4 : (if b.content.isEmpty = true then [] else ILine.contents :: b.content.map infoEntry) =
        if l = [] then [] else ILine.contents :: b.content.map infoEntry := by
      cases hc : b.content with
      | nil => rw [hc] at hl; rw [if_pos (List.length_eq_zero_iff.mp hl)]; rfl
      | cons v vs =>
        rw [hc] at hl
        rw [if_neg (show ¬ l = [] by rintro rfl; simp at hl)]
        rfl
    rw [e1, e2, e3, e4]
    simp
  · intro i h1 h2 h3
    rw [List.getElem_map]
    exact hli i h1 h2
  · intro x hx
    rcases List.mem_append.mp hx with hx | hx
    · exact infoV2Lines_kind _ x hx
    · exact infoStampLines_kind _ x hx

/-! ### The flags -/

theorem withBuiltin_store (E : Env) (pem : Bytes) :
    (∃ cert, E.pemParse pem = some ("CERTIFICATE", cert) ∧ Roots.withBuiltin E pem = storeOf E [cert]) ∨
      Roots.withBuiltin E pem = storeOf E [] := by
  have h : cliRoots E pem none = .ok (Roots.withBuiltin E pem) := rfl
  rcases cliRoots_ok h with ⟨cert, h1, h2⟩ | h
  · exact .inl ⟨cert, h1, h2⟩
  · exact .inr h

theorem run_lines {E : Env} {p : Profile} {pem : Bytes} {now : Nat} {file : Bytes} {x : ILine}
    (hx : x ∈ (cliInfoRun E p pem now file).1) (h : ∀ n, x ≠ .fileSize n) (h' : x ≠ .notFound) :
    ∃ b, cliInfoBlock p file = .ok b ∧ (x ∈ infoBlockLines b ∨ x ∈ infoV2Lines (verifyV2 E (Roots.withBuiltin E pem) now b none) ∨
      x ∈ infoStampLines (verifySourceStamp E (Roots.withBuiltin E pem) now b none)) := by
  unfold cliInfoRun at hx
  split at hx
  · simp only [List.mem_cons, List.not_mem_nil, or_false] at hx
    rcases hx with rfl | rfl
    · exact absurd rfl (h _)
    · exact absurd rfl h'
  · rw [List.mem_singleton] at hx; exact absurd hx (h _)
  · rename_i b hb
    refine ⟨b, hb, ?_⟩
    dsimp only at hx
    rcases List.mem_append.mp hx with hx | hx
    · rcases List.mem_append.mp hx with hx | hx
      · rcases List.mem_append.mp hx with hx | hx
        · rw [List.mem_singleton] at hx; exact absurd hx (h _)
        · exact .inl hx
      · exact .inr (.inl hx)
    · exact .inr (.inr hx)

theorem blockLines_kind (b : SigningBlock) : ∀ x ∈ infoBlockLines b, isEntry x = true ∨ x = .found ∨ x = .contents ∨
    (∃ i j, x = .location i j) ∨ ∃ n, x = .size n := by
  intro x hx
  unfold infoBlockLines at hx
  rcases List.mem_append.mp hx with hx | hx
  · simp only [List.mem_cons, List.not_mem_nil, or_false] at hx
    rcases hx with rfl | rfl | rfl
    · exact .inr (.inl rfl)
    · exact .inr (.inr (.inr (.inl ⟨_, _, rfl⟩)))
    · exact .inr (.inr (.inr (.inr ⟨_, rfl⟩)))
  · split at hx
    · cases hx
    · rcases List.mem_cons.mp hx with rfl | hx
      · exact .inr (.inr (.inl rfl))
      · obtain ⟨v, _, rfl⟩ := List.mem_map.mp hx
        left
        cases v <;> rfl

theorem v2Lines_flags {v : Verdict} {s d c t : Bool} :
    .v2Flags s d c t ∈ infoV2Lines v ↔ ∃ r, v = .ok r ∧ s = r.sigValid ∧ d = r.digestValid ∧ c = r.chainValid ∧ t = r.trusted := by
  unfold infoV2Lines
  split
  · rename_i r
    constructor
    · intro hx
      rcases List.mem_append.mp hx with hx | hx
      · rcases List.mem_append.mp hx with hx | hx
        · rcases List.mem_append.mp hx with hx | hx
          · rw [List.mem_singleton] at hx; cases hx; exact ⟨r, rfl, rfl, rfl, rfl, rfl⟩
          · split at hx
            · rw [List.mem_singleton] at hx; cases hx
            · cases hx
        · split at hx
          · rw [List.mem_singleton] at hx; cases hx
          · rcases List.mem_cons.mp hx with hx | hx
            · cases hx
            · obtain ⟨_, _, hx⟩ := List.mem_map.mp hx; cases hx
      · obtain ⟨_, _, hx⟩ := List.mem_map.mp hx; cases hx
    · rintro ⟨r', hr, rfl, rfl, rfl, rfl⟩
      cases hr
      simp
  · simp

theorem stampLines_flags {v : Verdict} {s c t : Bool} :
    .stampFlags s c t ∈ infoStampLines v ↔ ∃ r, v = .ok r ∧ r.sigValid = true ∧ s = true ∧ c = r.chainValid ∧ t = r.trusted := by
  unfold infoStampLines
  split
  · rename_i r
    split <;> rename_i h
    · constructor
      · intro hx
        rcases List.mem_append.mp hx with hx | hx
        · rw [List.mem_singleton] at hx; cases hx; exact ⟨r, rfl, h, h, rfl, rfl⟩
        · split at hx
          · rw [List.mem_singleton] at hx; cases hx
          · cases hx
      · rintro ⟨r', hr, h1, rfl, rfl, rfl⟩
        cases hr
        simp [h1]
    · constructor
      · intro hx; cases hx
      · rintro ⟨r', hr, h1, _⟩
        cases hr
        exact absurd h1 h
  · simp

theorem not_stampLine {v : Verdict} {s d c t : Bool} : .v2Flags s d c t ∉ infoStampLines v := by
  unfold infoStampLines
  split
  · split
    · intro hx
      rcases List.mem_append.mp hx with hx | hx
      · rw [List.mem_singleton] at hx; cases hx
      · split at hx
        · rw [List.mem_singleton] at hx; cases hx
        · cases hx
    · simp
  · simp

theorem not_v2Line {v : Verdict} {s c t : Bool} : .stampFlags s c t ∉ infoV2Lines v := by
  unfold infoV2Lines
  split
  · intro hx
    rcases List.mem_append.mp hx with hx | hx
    · rcases List.mem_append.mp hx with hx | hx
      · rcases List.mem_append.mp hx with hx | hx
        · rw [List.mem_singleton] at hx; cases hx
        · split at hx
          · rw [List.mem_singleton] at hx; cases hx
          · cases hx
      · split at hx
        · rw [List.mem_singleton] at hx; cases hx
        · rcases List.mem_cons.mp hx with hx | hx
          · cases hx
          · obtain ⟨_, _, hx⟩ := List.mem_map.mp hx; cases hx
    · obtain ⟨_, _, hx⟩ := List.mem_map.mp hx; cases hx
  · simp

/-- C84: the flags shown for the V2 signature are true of the block at the shown place: content is never called verified; if the
signature is called valid, every signature of every V2 signer is correct; the certificates carry the signers' keys; and if it is
called trusted, the leaf of every V2 signer is trusted with the built-in root certificate. -/
theorem C84_v2_flags {E : Env} {p : Profile} {pem : Bytes} {now : Nat} {file : Bytes} {s d c t : Bool}
    (h : .v2Flags s d c t ∈ (cliInfoRun E p pem now file).1) :
    d = false ∧ ∃ b, cliInfoBlock p file = .ok b ∧ v2Signers b ≠ [] ∧
      (∀ g ∈ v2Signers b, ∀ leaf rest, certsOf g = leaf :: rest → E.certSpki leaf = some g.pubKey.data) ∧
      (s = true → ∀ g ∈ v2Signers b, ∀ x ∈ g.sigs.data,
        CryptoOk E x.algo g.pubKey.data (g.signedData.toU8.drop 4) x.signature) ∧
      (t = true → ∃ cert, E.pemParse pem = some ("CERTIFICATE", cert) ∧ ∀ g ∈ v2Signers b, ∃ leaf rest,
        certsOf g = leaf :: rest ∧ Trusted E [cert] now leaf rest) := by
  obtain ⟨b, hb, hx | hx | hx⟩ := run_lines h (by simp) (by simp)
  · rcases blockLines_kind b _ hx with h | h | h | ⟨_, _, h⟩ | ⟨_, h⟩ <;> simp [isEntry] at h
  · obtain ⟨r, hr, rfl, rfl, rfl, rfl⟩ := v2Lines_flags.mp hx
    refine ⟨(C30_no_context.1 r hr).1, b, hb, ?_⟩
    obtain ⟨hs, hne, hrr⟩ := verifyV2_signers hr
    have hlen := (report_entry hr).1
    have hflags := fromSigners_flags hne
    rw [← hrr] at hflags
    refine ⟨?_, ?_, ?_, ?_⟩
    · intro hn
      rw [hn] at hlen
      exact hne (List.length_eq_zero_iff.mp hlen)
    · intro g hg leaf rest hc
      obtain ⟨i, hi, rfl⟩ := List.getElem_of_mem hg
      obtain ⟨st, -, -, -, -, -, -, e⟩ := report_fields hr i (by omega) hi
      rcases e with ⟨e, _⟩ | ⟨leaf', rest', e1, e2, _⟩
      · rw [hc] at e; cases e
      · rw [hc] at e1; cases e1; exact e2
    · intro hv g hg x hx
      rw [hflags.1, List.all_eq_true] at hv
      obtain ⟨i, hi, rfl⟩ := List.getElem_of_mem hg
      exact ((C28_signature_valid_partial hr).2 i (by omega) hi (hv _ (List.getElem_mem _))).1 x hx
    · intro hv
      rw [hflags.2.2.2.1, List.all_eq_true] at hv
      rcases withBuiltin_store E pem with ⟨cert, hp, hst⟩ | hst
      · refine ⟨cert, hp, fun g hg => ?_⟩
        obtain ⟨i, hi, rfl⟩ := List.getElem_of_mem hg
        rw [hst] at hr
        exact ((C73_report_identifies_signers hr).2.1 i (by omega) hi).2.2.mp (hv _ (List.getElem_mem _))
      · exfalso
        obtain ⟨x, xs, hx⟩ := List.exists_cons_of_ne_nil hne
        have h0 : 0 < r.signers.length := by rw [hx]; simp
        rw [hst] at hr
        obtain ⟨_, _, _, ht, _⟩ := ((C73_report_identifies_signers hr).2.1 0 h0 (by omega)).2.2.mp (hv _ (List.getElem_mem _))
        exact ht rfl
  · exact absurd hx not_stampLine

/-- C84: only the certificates of the first V2 signer are shown; those of the others never are. -/
theorem C84_first_signer_shown {E : Env} {p : Profile} {pem : Bytes} {now : Nat} {file : Bytes} {b : SigningBlock} {r : VResult}
    (hb : cliInfoBlock p file = .ok b) (hr : verifyV2 E (Roots.withBuiltin E pem) now b none = .ok r) (c : Bytes) :
    (.leaf c ∈ (cliInfoRun E p pem now file).1 ↔ ∃ s more, v2Signers b = s :: more ∧ (certsOf s).head? = some c) ∧
    ∀ i, .chainCert i c ∈ (cliInfoRun E p pem now file).1 ↔ ∃ s more, v2Signers b = s :: more ∧ (certsOf s)[i + 1]? = some c := by
  have hrun : ∀ x : ILine, isEntry x = false → x ≠ .found → x ≠ .contents → (∀ i j, x ≠ .location i j) → (∀ n, x ≠ .size n) →
      (∀ n, x ≠ .fileSize n) → x ≠ .notFound → (∀ v, x ∉ infoStampLines v) →
      (x ∈ (cliInfoRun E p pem now file).1 ↔ x ∈ infoV2Lines (.ok r)) := by
    intro x h1 h2 h3 h4 h5 h6 h7 h8
    constructor
    · intro hx
      obtain ⟨b', hb', hx | hx | hx⟩ := run_lines hx h6 h7
      · rcases blockLines_kind b' _ hx with h | h | h | ⟨_, _, h⟩ | ⟨_, h⟩
        · rw [h1] at h; cases h
        · exact absurd h h2
        · exact absurd h h3
        · exact absurd h (h4 _ _)
        · exact absurd h (h5 _)
      · rw [hb] at hb'; cases hb'
        rw [hr] at hx
        exact hx
      · exact absurd hx (h8 _)
    · intro hx
      unfold cliInfoRun
      rw [hb]
      dsimp only
      rw [hr]
      exact List.mem_append_left _ (List.mem_append_right _ hx)
  have hstamp : ∀ (v : Verdict) (x : ILine), (∀ s c t, x ≠ .stampFlags s c t) → (∀ c, x ≠ .stampLeaf c) → x ∉ infoStampLines v := by
    intro v x h1 h2 hx
    unfold infoStampLines at hx
    split at hx
    · split at hx
      · rcases List.mem_append.mp hx with hx | hx
        · rw [List.mem_singleton] at hx; exact h1 _ _ _ hx
        · split at hx
          · rw [List.mem_singleton] at hx; exact h2 _ hx
          · cases hx
      · cases hx
    · cases hx
  have hst : (∃ s more, v2Signers b = s :: more ∧ r.cert = (certsOf s).head? ∧ r.chain = (certsOf s).drop 1) := by
    rcases withBuiltin_store E pem with ⟨cert, hp, hst⟩ | hst
    · rw [hst] at hr; exact (C73_report_identifies_signers hr).2.2.1
    · rw [hst] at hr; exact (C73_report_identifies_signers hr).2.2.1
  obtain ⟨s, more, hs, hc, hch⟩ := hst
  constructor
  · rw [hrun _ rfl (by simp) (by simp) (by simp) (by simp) (by simp) (by simp) (fun v => hstamp v _ (by simp) (by simp))]
    have h1 : .leaf c ∈ infoV2Lines (.ok r) ↔ r.cert = some c := by
      unfold infoV2Lines
      dsimp only
      cases r.cert with
      | none =>
        simp only [List.append_nil, reduceCtorEq, iff_false]
        intro hx
        rcases List.mem_append.mp hx with hx | hx
        · rcases List.mem_append.mp hx with hx | hx
          · rw [List.mem_singleton] at hx; cases hx
          · split at hx
            · rw [List.mem_singleton] at hx; cases hx
            · rcases List.mem_cons.mp hx with hx | hx
              · cases hx
              · obtain ⟨_, _, hx⟩ := List.mem_map.mp hx; cases hx
        · obtain ⟨_, _, hx⟩ := List.mem_map.mp hx; cases hx
      | some c' =>
        constructor
        · intro hx
          rcases List.mem_append.mp hx with hx | hx
          · rcases List.mem_append.mp hx with hx | hx
            · rcases List.mem_append.mp hx with hx | hx
              · rw [List.mem_singleton] at hx; cases hx
              · rw [List.mem_singleton] at hx; cases hx; rfl
            · split at hx
              · rw [List.mem_singleton] at hx; cases hx
              · rcases List.mem_cons.mp hx with hx | hx
                · cases hx
                · obtain ⟨_, _, hx⟩ := List.mem_map.mp hx; cases hx
          · obtain ⟨_, _, hx⟩ := List.mem_map.mp hx; cases hx
        · intro h; cases h; simp
    rw [h1, hc]
    constructor
    · intro h; exact ⟨s, more, hs, h⟩
    · rintro ⟨s', more', hs', h⟩
      rw [hs] at hs'; cases hs'
      exact h
  · intro i
    rw [hrun _ rfl (by simp) (by simp) (by simp) (by simp) (by simp) (by simp) (fun v => hstamp v _ (by simp) (by simp))]
    have h1 : .chainCert i c ∈ infoV2Lines (.ok r) ↔ r.chain[i]? = some c := by
      unfold infoV2Lines
      dsimp only
      constructor
      · intro hx
        rcases List.mem_append.mp hx with hx | hx
        · rcases List.mem_append.mp hx with hx | hx
          · rcases List.mem_append.mp hx with hx | hx
            · rw [List.mem_singleton] at hx; cases hx
            · split at hx
              · rw [List.mem_singleton] at hx; cases hx
              · cases hx
          · split at hx
            · rw [List.mem_singleton] at hx; cases hx
            · rcases List.mem_cons.mp hx with hx | hx
              · cases hx
              · obtain ⟨⟨y, j⟩, hy, hx⟩ := List.mem_map.mp hx
                cases hx
                exact List.mem_zipIdx_iff_getElem?.mp hy
        · obtain ⟨_, _, hx⟩ := List.mem_map.mp hx; cases hx
      · intro hx
        refine List.mem_append_left _ (List.mem_append_right _ ?_)
        rw [if_neg (by intro he; rw [List.isEmpty_iff] at he; rw [he] at hx; simp at hx)]
        exact List.mem_cons_of_mem _ (List.mem_map.mpr ⟨(c, i), List.mem_zipIdx_iff_getElem?.mpr hx, rfl⟩)
    rw [h1, hch]
    constructor
    · intro h; exact ⟨s, more, hs, by simpa [Nat.add_comm] using h⟩
    · rintro ⟨s', more', hs', h⟩
      rw [hs] at hs'; cases hs'
      simpa [Nat.add_comm] using h

/-! ### The source stamp -/

theorem stampSigLoop_none {E : Env} {pk raw : Bytes} {ds : List Digest} :
    ∀ (sigs : List Sig) (st : SigState), st.error = none →
      ((stampSigLoop E none pk raw ds sigs st).error = none ↔ ∀ g ∈ sigs, CryptoOk E g.algo pk raw g.signature)
  | [], st, h => by simp [stampSigLoop, h]
  | g :: gs, st, h => by
    rw [stampSigLoop]
    by_cases hv : g.algo.verify E pk raw g.signature = true
    · rw [if_neg (by simp [hv])]
      have hc := Algo.verify_iff.mp hv
      cases ds.find? (fun d => d.algo == g.algo) with
      | none => simp only [List.forall_mem_cons, hc, true_and]; exact stampSigLoop_none gs st h
      | some d => simp only [List.forall_mem_cons, hc, true_and]; exact stampSigLoop_none gs st h
    · rw [if_pos (by simp [hv])]
      simp only [reduceCtorEq, List.forall_mem_cons, false_iff, not_and]
      exact fun hc => absurd (Algo.verify_iff.mpr hc) hv

theorem verifyStamp_none {E : Env} {roots : Roots} {now : Nat} {s : StampBlock} :
    (verifyStamp E roots now none s).1.error = none ↔
      (∀ g ∈ s.sigs.data, CryptoOk E g.algo s.pubKey.data (s.signedData.toU8.drop 4) g.signature) ∧
      ∀ leaf rest, stampCertsOf s = leaf :: rest → E.certSpki leaf = some s.pubKey.data := by
  have hl := stampSigLoop_none (E := E) (pk := s.pubKey.data) (raw := s.signedData.toU8.drop 4) (ds := s.signedData.digests.data)
    s.sigs.data SigState.init rfl
  unfold verifyStamp stampCertsOf
  rw [sliceFrom?_4_stamp]
  dsimp only
  unfold finishSigner
  have hadj : ∀ st : SigState, (stampAdjust none st).error = st.error := fun st => rfl
  cases hc : s.signedData.certs.data.map (·.cert) with
  | nil =>
    dsimp only
    rw [hadj, hl]
    simp
  | cons leaf rest =>
    dsimp only
    have hk : verifyPubkeyBinding E s.pubKey.data leaf = true ↔ E.certSpki leaf = some s.pubKey.data := by
      unfold verifyPubkeyBinding
      cases E.certSpki leaf with
      | none => simp
      | some k => simp only [beq_iff_eq, Option.some.injEq]; exact eq_comm
    by_cases hb : verifyPubkeyBinding E s.pubKey.data leaf = true
    · rw [if_neg (by simp [hb])]
      dsimp only
      rw [hadj, hl]
      constructor
      · intro h; exact ⟨h, fun _ _ he => by cases he; exact hk.mp hb⟩
      · exact fun h => h.1
    · rw [if_pos (by simp [hb])]
      simp only [reduceCtorEq, false_iff, not_and]
      exact fun _ h => hb (hk.mpr (h _ _ rfl))

/-- C84: details of a source stamp are shown exactly if the block has a stamp and the first one is correctly signed under its
certificate's key; and it is called trusted only if the built-in root certificate makes its certificate trusted. -/
theorem C84_stamp_shown {E : Env} {p : Profile} {pem : Bytes} {now : Nat} {file : Bytes} :
    ((∃ s c t, .stampFlags s c t ∈ (cliInfoRun E p pem now file).1) ↔
      ∃ b s rest, cliInfoBlock p file = .ok b ∧ stamps b = s :: rest ∧
        (∀ g ∈ s.sigs.data, CryptoOk E g.algo s.pubKey.data (s.signedData.toU8.drop 4) g.signature) ∧
        ∀ leaf rest, stampCertsOf s = leaf :: rest → E.certSpki leaf = some s.pubKey.data) ∧
    ∀ s c, .stampFlags s c true ∈ (cliInfoRun E p pem now file).1 → ∃ b st rest cert leaf more, cliInfoBlock p file = .ok b ∧
      stamps b = st :: rest ∧ E.pemParse pem = some ("CERTIFICATE", cert) ∧ stampCertsOf st = leaf :: more ∧
      Trusted E [cert] now leaf [] := by
  have hin : ∀ {s c t}, .stampFlags s c t ∈ (cliInfoRun E p pem now file).1 → ∃ b, cliInfoBlock p file = .ok b ∧
      .stampFlags s c t ∈ infoStampLines (verifySourceStamp E (Roots.withBuiltin E pem) now b none) := by
    intro s c t h
    obtain ⟨b, hb, hx | hx | hx⟩ := run_lines h (by simp) (by simp)
    · rcases blockLines_kind b _ hx with h | h | h | ⟨_, _, h⟩ | ⟨_, h⟩ <;> simp [isEntry] at h
    · exact absurd hx not_v2Line
    · exact ⟨b, hb, hx⟩
  have herr : ∀ {b s rest r}, stamps b = s :: rest → verifySourceStamp E (Roots.withBuiltin E pem) now b none = .ok r →
      (verifyStamp E (Roots.withBuiltin E pem) now none s).1.error = none := by
    intro b s rest r hs h
    rw [verifySourceStamp, stampLoop_eq, hs] at h
    dsimp only at h
    rcases concludeVerify_cases [(verifyStamp E (Roots.withBuiltin E pem) now none s).1] with ⟨h1, _⟩ | ⟨_, _, he⟩ | ⟨_, hall, _⟩
    · cases h1
    · rw [he] at h; cases h
    · exact hall _ (by simp)
  constructor
  · constructor
    · rintro ⟨sg, c, t, h⟩
      obtain ⟨b, hb, hx⟩ := hin h
      obtain ⟨r, hr, _⟩ := stampLines_flags.mp hx
      obtain ⟨s, rest, hs, _⟩ := verifySourceStamp_signers hr
      exact ⟨b, s, rest, hb, hs, verifyStamp_none.mp (herr hs hr)⟩
    · rintro ⟨b, s, rest, hb, hs, h⟩
      have he := verifyStamp_none (roots := Roots.withBuiltin E pem) (now := now).mpr h
      have hv : ∃ r, verifySourceStamp E (Roots.withBuiltin E pem) now b none = .ok r := by
        rw [verifySourceStamp, stampLoop_eq, hs]
        dsimp only
        rcases concludeVerify_cases [(verifyStamp E (Roots.withBuiltin E pem) now none s).1] with ⟨h1, _⟩ | ⟨_, ⟨x, hx, hxe⟩, he'⟩ | ⟨_, _, he'⟩
        · cases h1
        · rw [List.mem_singleton] at hx; subst hx; exact absurd he hxe
        · exact ⟨_, he'⟩
      obtain ⟨r, hr⟩ := hv
      have hsv : r.sigValid = true := by
        rcases withBuiltin_store E pem with ⟨cert, hp, hst⟩ | hst
        · rw [hst] at hr; obtain ⟨_, _, _, h, _⟩ := C75_stamp_explained hr; exact h
        · rw [hst] at hr; obtain ⟨_, _, _, h, _⟩ := C75_stamp_explained hr; exact h
      refine ⟨true, r.chainValid, r.trusted, ?_⟩
      unfold cliInfoRun
      rw [hb]
      dsimp only
      exact List.mem_append_right _ (stampLines_flags.mpr ⟨r, hr, hsv, rfl, rfl, rfl⟩)
  · intro sg c h
    obtain ⟨b, hb, hx⟩ := hin h
    obtain ⟨r, hr, _, _, _, ht⟩ := stampLines_flags.mp hx
    rcases withBuiltin_store E pem with ⟨cert, hp, hst⟩ | hst
    · rw [hst] at hr
      obtain ⟨s, rest, x, hs, hrs, _, _, _, htr, _⟩ := C73_stamp_report hr
      have hrt : r.trusted = x.trusted := by
        obtain ⟨s', rest', hs', hrr⟩ := verifySourceStamp_signers hr
        rw [hrr] at hrs ⊢
        simp only [VResult.fromSigners] at hrs ⊢
        cases hrs
        simp
      obtain ⟨leaf, more, hc, htt⟩ := htr.mp (by rw [← hrt, ← ht])
      exact ⟨b, s, rest, cert, leaf, more, hb, hs, hp, hc, htt⟩
    · exfalso
      rw [hst] at hr
      obtain ⟨s, rest, x, hs, hrs, _, _, _, htr, _⟩ := C73_stamp_report hr
      have hrt : r.trusted = x.trusted := by
        obtain ⟨s', rest', hs', hrr⟩ := verifySourceStamp_signers hr
        rw [hrr] at hrs ⊢
        simp only [VResult.fromSigners] at hrs ⊢
        cases hrs
        simp
      obtain ⟨leaf, more, hc, htt⟩ := htr.mp (by rw [← hrt, ← ht])
      exact htt.1 rfl

/-- C84 fails for stamps that do not verify: the command lists the stamp with a check mark, and says nothing about it being bad. The
lines printed are those of the same block with the stamp details left out, and the command succeeds. -/
theorem C84_bad_stamp_not_mentioned {E : Env} {p : Profile} {pem : Bytes} {now : Nat} {file : Bytes} {b : SigningBlock} {s : StampBlock}
    {rest : List StampBlock} (hb : cliInfoBlock p file = .ok b) (hs : stamps b = s :: rest)
    (hbad : ∃ g ∈ s.sigs.data, ¬ CryptoOk E g.algo s.pubKey.data (s.signedData.toU8.drop 4) g.signature) :
    (cliInfoRun E p pem now file).2 = .ok () ∧ .stampEntry ∈ (cliInfoRun E p pem now file).1 ∧
    (cliInfoRun E p pem now file).1 = [.fileSize file.length] ++ infoBlockLines b ++
      infoV2Lines (verifyV2 E (Roots.withBuiltin E pem) now b none) := by
  have hno : infoStampLines (verifySourceStamp E (Roots.withBuiltin E pem) now b none) = [] := by
    rw [verifySourceStamp, stampLoop_eq, hs]
    dsimp only
    rcases concludeVerify_cases [(verifyStamp E (Roots.withBuiltin E pem) now none s).1] with ⟨h1, _⟩ | ⟨_, _, he'⟩ | ⟨_, hall, he'⟩
    · cases h1
    · rw [he']; rfl
    · obtain ⟨g, hg, hn⟩ := hbad
      exact absurd ((verifyStamp_none (roots := Roots.withBuiltin E pem) (now := now).mp (hall _ (by simp))).1 g hg) hn
  have hrun : cliInfoRun E p pem now file = ([.fileSize file.length] ++ infoBlockLines b ++
      infoV2Lines (verifyV2 E (Roots.withBuiltin E pem) now b none), .ok ()) := by
    unfold cliInfoRun
    rw [hb]
    dsimp only
    rw [hno, List.append_nil]
  rw [hrun]
  refine ⟨rfl, ?_, rfl⟩
  refine List.mem_append_left _ (List.mem_append_right _ ?_)
  have hmem : ∃ v ∈ b.content, infoEntry v = .stampEntry := by
    have : s ∈ stamps b := by rw [hs]; simp
    unfold stamps at this
    obtain ⟨v, hv, he⟩ := List.mem_filterMap.mp this
    refine ⟨v, hv, ?_⟩
    cases v <;> first | rfl | cases he
  obtain ⟨v, hv, he⟩ := hmem
  unfold infoBlockLines
  rw [if_neg (by intro h; rw [List.isEmpty_iff] at h; rw [h] at hv; cases hv)]
  exact List.mem_append_right _ (List.mem_cons_of_mem _ (List.mem_map.mpr ⟨v, hv, he⟩))

/-- A signed module whose stamp was carries the wrong public key: it is listed all the same. -/
def badStampFile : Bytes :=
  sampleArchive.signed (blockOf [Value.newSourceStamp { toyStamp [1, 2] with pubKey := PubKey.new [0] }]).recalculateSize.toU8

set_option maxRecDepth 100000 in
example : ∃ b s rest, cliInfoBlock .dev badStampFile = .ok b ∧ stamps b = s :: rest ∧
    ∃ g ∈ s.sigs.data, ¬ CryptoOk toyEnv g.algo s.pubKey.data (s.signedData.toU8.drop 4) g.signature := by
  have h : (match cliInfoBlock .dev badStampFile with
    | .ok b => (match stamps b with
      | s :: _ => s.sigs.data.any fun g => !g.algo.verify toyEnv s.pubKey.data (s.signedData.toU8.drop 4) g.signature
      | [] => false)
    | _ => false) = true := by decide +kernel
  split at h
  · rename_i b hb
    split at h
    · rename_i s rest hs
      obtain ⟨g, hg, hv⟩ := List.any_eq_true.mp h
      refine ⟨b, s, rest, hb, hs, g, hg, fun hc => ?_⟩
      rw [Algo.verify_iff.mpr hc] at hv
      cases hv
    · cases h
  · cases h

set_option maxRecDepth 100000 in
example : (cliInfoRun toyEnv .dev [] 0 badStampFile).2 = .ok () ∧
    (cliInfoRun toyEnv .dev [] 0 (sampleArchive.signed sampleBlock.toU8)).2 = .ok () := by decide +kernel

end Ksusig.Props
