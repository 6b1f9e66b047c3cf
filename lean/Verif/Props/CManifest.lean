import Verif.Model.CManifest
import Verif.Lemmas.Std
import Verif.Props.SerializeManifest
import Mathlib.Data.List.TakeWhile

/-!
# C109: manifests made and read through the C interface

Which manifests can be made with the C functions, what they read back, and what they cannot tell apart.
-/

namespace EG.CMan

/-! ## What can be made -/

/-- A text without a zero. -/
def NoNul (s : Str) : Prop := Char.ofNat 0 ∉ s

def CleanAnnotated (a : Annotated) : Prop := NoNul a.annotation ∧ NoNul a.value
def CleanLanguage (l : Language) : Prop := NoNul l.value ∧ NoNul l.language
def CleanText (t : IText) : Prop := ∀ l ∈ t, CleanLanguage l
def CleanContact (c : Contact) : Prop :=
  NoNul c.name ∧ (∀ a ∈ c.addressLine, NoNul a) ∧ (∀ a ∈ c.email, CleanAnnotated a) ∧
    (∀ a ∈ c.phone, CleanAnnotated a)
def CleanGpUnit (u : GpUnit) : Prop := NoNul u.objectId ∧ NoNul u.name ∧ ∀ c, u.contact = some c → CleanContact c
def CleanStyle (s : BallotStyle) : Prop :=
  NoNul s.objectId ∧ (∀ i ∈ s.gpUnitIds, NoNul i) ∧ (∀ i ∈ s.partyIds, NoNul i) ∧ NoNul s.imageUri

/-- A party that can be made: it has a name, if only an empty one. -/
def CleanParty (p : Party) : Prop :=
  NoNul p.objectId ∧ (∃ t, p.name = some t ∧ CleanText t) ∧ NoNul p.abbreviation ∧ NoNul p.color ∧ NoNul p.logoUri

/-- A candidate that can be made: without a name there is no image. -/
def CleanCandidate (c : Candidate) : Prop :=
  NoNul c.objectId ∧ (∀ t, c.name = some t → CleanText t) ∧ NoNul c.partyId ∧ NoNul c.imageUri ∧
    (c.name = none → c.imageUri = [])

def CleanSelection (s : SelectionDesc) : Prop := NoNul s.objectId ∧ NoNul s.candidateId

/-- A contest that can be made: title and subtitle come together, and without them the number of votes allowed is not
chosen. -/
def CleanContest (c : ContestDesc) : Prop :=
  NoNul c.objectId ∧ NoNul c.districtId ∧ NoNul c.name ∧ (∀ t, c.title = some t → CleanText t) ∧
    (∀ t, c.subtitle = some t → CleanText t) ∧ (∀ s ∈ c.selections, CleanSelection s) ∧
    (∀ i ∈ c.primaryPartyIds, NoNul i) ∧ c.title.isSome = c.subtitle.isSome ∧
    (c.title = none → c.votesAllowed =
      if c.variation = .n_of_m ∨ c.variation = .one_of_m then c.numberElected else 0)

/-- A manifest that can be made: a name comes with contact information. -/
def CleanManifest (m : Manifest) : Prop :=
  NoNul m.scopeId ∧ (∀ u ∈ m.gpUnits, CleanGpUnit u) ∧ (∀ p ∈ m.parties, CleanParty p) ∧
    (∀ c ∈ m.candidates, CleanCandidate c) ∧ (∀ c ∈ m.contests, CleanContest c) ∧ (∀ s ∈ m.styles, CleanStyle s) ∧
    (∀ t, m.name = some t → CleanText t) ∧ (∀ c, m.contact = some c → CleanContact c) ∧
    m.name.isSome = m.contact.isSome

/-- Made by some call. -/
def MadeAnnotated (a : Annotated) : Prop := ∃ x y, annotatedNew x y = .ok a
def MadeLanguage (l : Language) : Prop := ∃ x y, languageNew x y = .ok l
def MadeText (t : IText) : Prop := ∃ ls, textNew ls = .ok t ∧ ∀ l, some l ∈ ls → MadeLanguage l
def MadeContact (c : Contact) : Prop :=
  (∃ n, contactNew n = .ok c) ∨ ∃ n a e p, contactNewWith n a e p = .ok c ∧ (∀ x, some x ∈ e → MadeAnnotated x) ∧
    ∀ x, some x ∈ p → MadeAnnotated x
def MadeGpUnit (u : GpUnit) : Prop :=
  (∃ i n t, gpUnitNew i n t = .ok u) ∨ ∃ i n t c, gpUnitNewWith i n t c = .ok u ∧ ∀ x, c = some x → MadeContact x
def MadeStyle (s : BallotStyle) : Prop :=
  (∃ i g, styleNew i g = .ok s) ∨ ∃ i g p u, styleNewWith i g p u = .ok s
def MadeParty (p : Party) : Prop :=
  (∃ i, partyNew i = .ok p) ∨ ∃ i n a c l, partyNewWith i n a c l = .ok p ∧ ∀ t, n = some t → MadeText t
def MadeCandidate (c : Candidate) : Prop :=
  (∃ i w, candidateNew i w = .ok c) ∨ (∃ i p w, candidateNewParty i p w = .ok c) ∨
    ∃ i n p u w, candidateNewWith i n p u w = .ok c ∧ ∀ t, n = some t → MadeText t
def MadeSelection (s : SelectionDesc) : Prop := ∃ i c n, selectionNew i c n = .ok s
def MadeContest (c : ContestDesc) : Prop :=
  (∃ i d q v e n l, contestNew i d q v e n l = .ok c ∧ ∀ s, some s ∈ l → MadeSelection s) ∨
  (∃ i d q v e a n t u l, contestNewTitle i d q v e a n t u l = .ok c ∧ (∀ x, t = some x → MadeText x) ∧
    (∀ x, u = some x → MadeText x) ∧ ∀ s, some s ∈ l → MadeSelection s) ∨
  (∃ i d q v e n l p, contestNewParties i d q v e n l p = .ok c ∧ ∀ s, some s ∈ l → MadeSelection s) ∨
  (∃ i d q v e a n t u l p, contestNewTitleParties i d q v e a n t u l p = .ok c ∧ (∀ x, t = some x → MadeText x) ∧
    (∀ x, u = some x → MadeText x) ∧ ∀ s, some s ∈ l → MadeSelection s)
def MadeParts (p : PartsArg) : Prop :=
  (∀ x, some x ∈ p.gpUnits → MadeGpUnit x) ∧ (∀ x, some x ∈ p.parties → MadeParty x) ∧
    (∀ x, some x ∈ p.candidates → MadeCandidate x) ∧ (∀ x, some x ∈ p.contests → MadeContest x) ∧
    ∀ x, some x ∈ p.styles → MadeStyle x
def MadeManifest (m : Manifest) : Prop :=
  (∃ i t s e p, manifestNew i t s e p = .ok m ∧ MadeParts p) ∨
  ∃ i t s e p n c, manifestNewWith i t s e p n c = .ok m ∧ MadeParts p ∧ (∀ x, n = some x → MadeText x) ∧
    ∀ x, c = some x → MadeContact x

theorem takeWhile_self {s : Str} (h : NoNul s) : s.takeWhile (· ≠ Char.ofNat 0) = s := by
  refine List.takeWhile_eq_self_iff.2 ?_
  intro c hc
  simp only [ne_eq, decide_eq_true_eq]
  rintro rfl
  exact h hc

theorem noNul_takeWhile (s : Str) : NoNul (s.takeWhile (· ≠ Char.ofNat 0)) := by
  intro h
  have := List.mem_takeWhile_imp h
  simp at this

theorem cstr_some {s : Str} (h : NoNul s) : cstr (some s) = .ok s := by
  simp only [cstr, takeWhile_self h]

theorem noNul_of_cstr {p : Option Str} {s : Str} (h : cstr p = .ok s) : NoNul s := by
  cases p with
  | none => simp [cstr] at h
  | some t =>
    simp only [cstr, Res.ok.injEq] at h
    rw [← h]
    exact noNul_takeWhile t

theorem deref_ok {α : Type} {p : Option α} {a : α} : deref p = .ok a ↔ p = some a := by
  cases p <;> simp [deref]

theorem mapRes_deref {α : Type} : ∀ {xs : List (Option α)} {l : List α}, mapRes deref xs = .ok l ↔ xs = l.map some
  | [], l => by
    cases l <;> simp [mapRes]
  | x :: xs, l => by
    simp only [mapRes, Res.bind_eq_ok, deref_ok, mapRes_deref, Res.ok.injEq]
    constructor
    · rintro ⟨a, rfl, ys, rfl, rfl⟩
      rfl
    · intro h
      cases l with
      | nil => simp at h
      | cons y ys =>
        simp only [List.map_cons, List.cons.injEq] at h
        exact ⟨y, h.1, ys, h.2, rfl⟩

theorem mapRes_cstr_noNul : ∀ {xs : List (Option Str)} {l : List Str}, mapRes cstr xs = .ok l → ∀ s ∈ l, NoNul s
  | [], l, h => by
    simp only [mapRes, Res.ok.injEq] at h
    simp [← h]
  | x :: xs, l, h => by
    simp only [mapRes, Res.bind_eq_ok, Res.ok.injEq] at h
    obtain ⟨a, ha, ys, hys, rfl⟩ := h
    intro s hs
    rcases List.mem_cons.1 hs with rfl | hs
    · exact noNul_of_cstr ha
    · exact mapRes_cstr_noNul hys s hs

theorem mapRes_cstr_some : ∀ {l : List Str}, (∀ s ∈ l, NoNul s) → mapRes cstr (l.map some) = .ok l
  | [], _ => rfl
  | x :: xs, h => by
    have ih := mapRes_cstr_some (l := xs) (fun s hs => h s (by simp [hs]))
    simp only [List.map_cons, mapRes, cstr_some (h x (by simp)), Res.bind_ok, ih]

theorem mapRes_deref_some {α : Type} (l : List α) : mapRes deref (l.map some) = .ok l := mapRes_deref.2 rfl

theorem made_annotated (a : Annotated) : MadeAnnotated a ↔ CleanAnnotated a := by
  constructor
  · rintro ⟨x, y, h⟩
    simp only [annotatedNew, Res.bind_eq_ok, Res.ok.injEq] at h
    obtain ⟨b, hb, c, hc, rfl⟩ := h
    exact ⟨noNul_of_cstr hb, noNul_of_cstr hc⟩
  · intro h
    exact ⟨some a.annotation, some a.value, by simp only [annotatedNew, cstr_some h.1, cstr_some h.2, Res.bind_ok]⟩

theorem made_language (l : Language) : MadeLanguage l ↔ CleanLanguage l := by
  constructor
  · rintro ⟨x, y, h⟩
    simp only [languageNew, Res.bind_eq_ok, Res.ok.injEq] at h
    obtain ⟨b, hb, c, hc, rfl⟩ := h
    exact ⟨noNul_of_cstr hb, noNul_of_cstr hc⟩
  · intro h
    exact ⟨some l.value, some l.language, by simp only [languageNew, cstr_some h.1, cstr_some h.2, Res.bind_ok]⟩

theorem mem_map_some {α : Type} {l : List α} {P : α → Prop} : (∀ x, some x ∈ l.map some → P x) ↔ ∀ x ∈ l, P x := by
  simp

theorem made_text (t : IText) : MadeText t ↔ CleanText t := by
  unfold MadeText CleanText
  constructor
  · rintro ⟨ls, h, hm⟩
    rw [textNew, mapRes_deref] at h
    subst h
    intro l hl
    exact (made_language l).1 (mem_map_some.1 hm l hl)
  · intro h
    exact ⟨t.map some, mapRes_deref_some t, mem_map_some.2 (fun l hl => (made_language l).2 (h l hl))⟩

theorem made_contact (c : Contact) : MadeContact c ↔ CleanContact c := by
  constructor
  · rintro (⟨n, h⟩ | ⟨n, a, e, p, h, he, hp⟩)
    · simp only [contactNew, Res.bind_eq_ok, Res.ok.injEq] at h
      obtain ⟨s, hs, rfl⟩ := h
      exact ⟨noNul_of_cstr hs, by simp, by simp, by simp⟩
    · simp only [contactNewWith, Res.bind_eq_ok, Res.ok.injEq, mapRes_deref] at h
      obtain ⟨as, has, es, rfl, ps, rfl, s, hs, rfl⟩ := h
      exact ⟨noNul_of_cstr hs, mapRes_cstr_noNul has,
        fun x hx => (made_annotated x).1 (mem_map_some.1 he x hx),
        fun x hx => (made_annotated x).1 (mem_map_some.1 hp x hx)⟩
  · rintro ⟨h1, h2, h3, h4⟩
    refine Or.inr ⟨some c.name, c.addressLine.map some, c.email.map some, c.phone.map some, ?_,
      mem_map_some.2 (fun x hx => (made_annotated x).2 (h3 x hx)),
      mem_map_some.2 (fun x hx => (made_annotated x).2 (h4 x hx))⟩
    simp only [contactNewWith, cstr_some h1, mapRes_cstr_some h2, mapRes_deref_some, Res.bind_ok]

theorem made_gpUnit (u : GpUnit) : MadeGpUnit u ↔ CleanGpUnit u := by
  constructor
  · rintro (⟨i, n, t, h⟩ | ⟨i, n, t, c, h, hc⟩)
    · simp only [gpUnitNew, Res.bind_eq_ok, Res.ok.injEq] at h
      obtain ⟨a, ha, b, hb, rfl⟩ := h
      exact ⟨noNul_of_cstr ha, noNul_of_cstr hb, by simp⟩
    · simp only [gpUnitNewWith, Res.bind_eq_ok, Res.ok.injEq, deref_ok] at h
      obtain ⟨a, ha, b, hb, x, rfl, rfl⟩ := h
      refine ⟨noNul_of_cstr ha, noNul_of_cstr hb, ?_⟩
      intro y hy
      exact (made_contact y).1 (hc y hy)
  · obtain ⟨oid, nm, ty, ct⟩ := u
    rintro ⟨h1, h2, h3⟩
    cases ct with
    | none =>
      exact Or.inl ⟨some oid, some nm, ty, by simp only [gpUnitNew, cstr_some h1, cstr_some h2, Res.bind_ok]⟩
    | some c =>
      refine Or.inr ⟨some oid, some nm, ty, some c, ?_, ?_⟩
      · simp only [gpUnitNewWith, cstr_some h1, cstr_some h2, deref, Res.bind_ok]
      · rintro x ⟨⟩
        exact (made_contact c).2 (h3 c rfl)

theorem made_style (s : BallotStyle) : MadeStyle s ↔ CleanStyle s := by
  have h0 : NoNul [] := by simp [NoNul]
  constructor
  · rintro (⟨i, g, h⟩ | ⟨i, g, p, u, h⟩)
    · simp only [styleNew, Res.bind_eq_ok, Res.ok.injEq] at h
      obtain ⟨a, ha, b, hb, rfl⟩ := h
      exact ⟨noNul_of_cstr ha, mapRes_cstr_noNul hb, by simp, h0⟩
    · simp only [styleNewWith, Res.bind_eq_ok, Res.ok.injEq] at h
      obtain ⟨a, ha, b, hb, c, hc, d, hd, rfl⟩ := h
      exact ⟨noNul_of_cstr ha, mapRes_cstr_noNul hc, mapRes_cstr_noNul hd, noNul_of_cstr hb⟩
  · rintro ⟨h1, h2, h3, h4⟩
    exact Or.inr ⟨some s.objectId, s.gpUnitIds.map some, s.partyIds.map some, some s.imageUri, by
      simp only [styleNewWith, cstr_some h1, cstr_some h4, mapRes_cstr_some h2, mapRes_cstr_some h3, Res.bind_ok]⟩

theorem made_party (p : Party) : MadeParty p ↔ CleanParty p := by
  have h0 : NoNul [] := by simp [NoNul]
  constructor
  · rintro (⟨i, h⟩ | ⟨i, n, a, c, l, h, hn⟩)
    · simp only [partyNew, Res.bind_eq_ok, Res.ok.injEq] at h
      obtain ⟨x, hx, rfl⟩ := h
      exact ⟨noNul_of_cstr hx, ⟨[], rfl, by simp [CleanText]⟩, h0, h0, h0⟩
    · simp only [partyNewWith, Res.bind_eq_ok, Res.ok.injEq, deref_ok] at h
      obtain ⟨x, hx, y, hy, z, hz, t, rfl, w, hw, rfl⟩ := h
      exact ⟨noNul_of_cstr hx, ⟨t, rfl, (made_text t).1 (hn t rfl)⟩, noNul_of_cstr hy, noNul_of_cstr hz,
        noNul_of_cstr hw⟩
  · obtain ⟨oid, nm, ab, co, lo⟩ := p
    rintro ⟨h1, ⟨t, h2, h3⟩, h4, h5, h6⟩
    dsimp only at *
    subst h2
    refine Or.inr ⟨some oid, some t, some ab, some co, some lo, ?_, ?_⟩
    · simp only [partyNewWith, cstr_some h1, cstr_some h4, cstr_some h5, cstr_some h6, deref, Res.bind_ok]
    · rintro x ⟨⟩
      exact (made_text t).2 h3

theorem made_candidate (c : Candidate) : MadeCandidate c ↔ CleanCandidate c := by
  have h0 : NoNul [] := by simp [NoNul]
  constructor
  · rintro (⟨i, w, h⟩ | ⟨i, p, w, h⟩ | ⟨i, n, p, u, w, h, hn⟩)
    · simp only [candidateNew, Res.bind_eq_ok, Res.ok.injEq] at h
      obtain ⟨x, hx, rfl⟩ := h
      exact ⟨noNul_of_cstr hx, by simp, h0, h0, by simp⟩
    · simp only [candidateNewParty, Res.bind_eq_ok, Res.ok.injEq] at h
      obtain ⟨x, hx, y, hy, rfl⟩ := h
      exact ⟨noNul_of_cstr hx, by simp, noNul_of_cstr hy, h0, by simp⟩
    · simp only [candidateNewWith, Res.bind_eq_ok, Res.ok.injEq, deref_ok] at h
      obtain ⟨x, hx, y, hy, z, hz, t, rfl, rfl⟩ := h
      refine ⟨noNul_of_cstr hx, ?_, noNul_of_cstr hy, noNul_of_cstr hz, by simp⟩
      intro t' ht'
      exact (made_text t').1 (hn t' ht')
  · obtain ⟨oid, nm, pa, im, wi⟩ := c
    rintro ⟨h1, h2, h3, h4, h5⟩
    dsimp only at *
    cases nm with
    | none =>
      refine Or.inr (Or.inl ⟨some oid, some pa, wi, ?_⟩)
      simp only [candidateNewParty, cstr_some h1, cstr_some h3, Res.bind_ok, h5 rfl]
    | some t =>
      refine Or.inr (Or.inr ⟨some oid, some t, some pa, some im, wi, ?_, ?_⟩)
      · simp only [candidateNewWith, cstr_some h1, cstr_some h3, cstr_some h4, deref, Res.bind_ok]
      · rintro x ⟨⟩
        exact (made_text t).2 (h2 t rfl)

theorem made_selection (s : SelectionDesc) : MadeSelection s ↔ CleanSelection s := by
  constructor
  · rintro ⟨i, c, n, h⟩
    simp only [selectionNew, Res.bind_eq_ok, Res.ok.injEq] at h
    obtain ⟨x, hx, y, hy, rfl⟩ := h
    exact ⟨noNul_of_cstr hx, noNul_of_cstr hy⟩
  · rintro ⟨h1, h2⟩
    exact ⟨some s.objectId, some s.candidateId, s.seq, by
      simp only [selectionNew, cstr_some h1, cstr_some h2, Res.bind_ok]⟩

theorem made_contest (c : ContestDesc) : MadeContest c ↔ CleanContest c := by
  constructor
  · rintro (⟨i, d, q, v, e, n, l, h, hl⟩ | ⟨i, d, q, v, e, a, n, t, u, l, h, ht, hu, hl⟩ |
      ⟨i, d, q, v, e, n, l, p, h, hl⟩ | ⟨i, d, q, v, e, a, n, t, u, l, p, h, ht, hu, hl⟩)
    · simp only [contestNew, Res.bind_eq_ok, Res.ok.injEq, mapRes_deref] at h
      obtain ⟨x, hx, y, hy, z, hz, w, rfl, rfl⟩ := h
      exact ⟨noNul_of_cstr hx, noNul_of_cstr hy, noNul_of_cstr hz, by simp, by simp,
        fun s hs => (made_selection s).1 (mem_map_some.1 hl s hs), by simp, rfl, fun _ => rfl⟩
    · simp only [contestNewTitle, Res.bind_eq_ok, Res.ok.injEq, mapRes_deref, deref_ok] at h
      obtain ⟨x, hx, y, hy, z, hz, w, rfl, t', rfl, u', rfl, rfl⟩ := h
      exact ⟨noNul_of_cstr hx, noNul_of_cstr hy, noNul_of_cstr hz, fun s hs => (made_text s).1 (ht s hs),
        fun s hs => (made_text s).1 (hu s hs),
        fun s hs => (made_selection s).1 (mem_map_some.1 hl s hs), by simp, rfl, by simp⟩
    · simp only [contestNewParties, Res.bind_eq_ok, Res.ok.injEq, mapRes_deref] at h
      obtain ⟨x, hx, y, hy, z, hz, w, rfl, k, hk, rfl⟩ := h
      exact ⟨noNul_of_cstr hx, noNul_of_cstr hy, noNul_of_cstr hz, by simp, by simp,
        fun s hs => (made_selection s).1 (mem_map_some.1 hl s hs), mapRes_cstr_noNul hk, rfl, fun _ => rfl⟩
    · simp only [contestNewTitleParties, Res.bind_eq_ok, Res.ok.injEq, mapRes_deref, deref_ok] at h
      obtain ⟨x, hx, y, hy, z, hz, w, rfl, k, hk, t', rfl, u', rfl, rfl⟩ := h
      exact ⟨noNul_of_cstr hx, noNul_of_cstr hy, noNul_of_cstr hz, fun s hs => (made_text s).1 (ht s hs),
        fun s hs => (made_text s).1 (hu s hs),
        fun s hs => (made_selection s).1 (mem_map_some.1 hl s hs), mapRes_cstr_noNul hk, rfl, by simp⟩
  · obtain ⟨oid, di, sq, va, ne, vo, nm, ti, su, se, pr⟩ := c
    rintro ⟨h1, h2, h3, h4, h5, h6, h7, h8, h9⟩
    dsimp only at *
    have hs : ∀ s, some s ∈ se.map some → MadeSelection s :=
      mem_map_some.2 (fun s hs => (made_selection s).2 (h6 s hs))
    cases ti with
    | none =>
      cases su with
      | some _ => simp at h8
      | none =>
        refine Or.inr (Or.inr (Or.inl ⟨some oid, some di, sq, va, ne, some nm, se.map some, pr.map some, ?_, hs⟩))
        simp only [contestNewParties, cstr_some h1, cstr_some h2, cstr_some h3, mapRes_deref_some,
          mapRes_cstr_some h7, Res.bind_ok, h9 rfl, defaultVotesAllowed]
    | some t =>
      cases su with
      | none => simp at h8
      | some u =>
        refine Or.inr (Or.inr (Or.inr ⟨some oid, some di, sq, va, ne, vo, some nm, some t, some u, se.map some,
          pr.map some, ?_, ?_, ?_, hs⟩))
        · simp only [contestNewTitleParties, cstr_some h1, cstr_some h2, cstr_some h3, mapRes_deref_some,
            mapRes_cstr_some h7, deref, Res.bind_ok]
        · rintro x ⟨⟩
          exact (made_text t).2 (h4 t rfl)
        · rintro x ⟨⟩
          exact (made_text u).2 (h5 u rfl)

theorem made_manifest (m : Manifest) : MadeManifest m ↔ CleanManifest m := by
  constructor
  · rintro (⟨i, t, s, e, p, h, hg, hp, hc, hd, hs⟩ | ⟨i, t, s, e, p, n, c, h, ⟨hg, hp, hc, hd, hs⟩, hn, hk⟩)
    · simp only [manifestNew, Res.bind_eq_ok, Res.ok.injEq, mapRes_deref] at h
      obtain ⟨x, hx, x1, h1, x2, h2, x3, h3, x4, h4, x5, h5, rfl⟩ := h
      rw [h1] at hg; rw [h2] at hp; rw [h3] at hc; rw [h4] at hd; rw [h5] at hs
      exact ⟨noNul_of_cstr hx, fun y hy => (made_gpUnit y).1 (mem_map_some.1 hg y hy),
        fun y hy => (made_party y).1 (mem_map_some.1 hp y hy),
        fun y hy => (made_candidate y).1 (mem_map_some.1 hc y hy),
        fun y hy => (made_contest y).1 (mem_map_some.1 hd y hy),
        fun y hy => (made_style y).1 (mem_map_some.1 hs y hy), by simp, by simp, rfl⟩
    · simp only [manifestNewWith, Res.bind_eq_ok, Res.ok.injEq, mapRes_deref, deref_ok] at h
      obtain ⟨x, hx, x1, h1, x2, h2, x3, h3, x4, h4, x5, h5, x6, rfl, x7, rfl, rfl⟩ := h
      rw [h1] at hg; rw [h2] at hp; rw [h3] at hc; rw [h4] at hd; rw [h5] at hs
      exact ⟨noNul_of_cstr hx, fun y hy => (made_gpUnit y).1 (mem_map_some.1 hg y hy),
        fun y hy => (made_party y).1 (mem_map_some.1 hp y hy),
        fun y hy => (made_candidate y).1 (mem_map_some.1 hc y hy),
        fun y hy => (made_contest y).1 (mem_map_some.1 hd y hy),
        fun y hy => (made_style y).1 (mem_map_some.1 hs y hy),
        fun y hy => (made_text y).1 (hn y hy), fun y hy => (made_contact y).1 (hk y hy), rfl⟩
  · obtain ⟨sc, ty, sd, ed, gp, pa, ca, co, st, nm, ct⟩ := m
    rintro ⟨h1, h2, h3, h4, h5, h6, h7, h8, h9⟩
    dsimp only at *
    have hp : MadeParts ⟨gp.map some, pa.map some, ca.map some, co.map some, st.map some⟩ :=
      ⟨mem_map_some.2 (fun y hy => (made_gpUnit y).2 (h2 y hy)),
        mem_map_some.2 (fun y hy => (made_party y).2 (h3 y hy)),
        mem_map_some.2 (fun y hy => (made_candidate y).2 (h4 y hy)),
        mem_map_some.2 (fun y hy => (made_contest y).2 (h5 y hy)),
        mem_map_some.2 (fun y hy => (made_style y).2 (h6 y hy))⟩
    cases nm with
    | none =>
      cases ct with
      | some _ => simp at h9
      | none =>
        refine Or.inl ⟨some sc, ty, sd, ed, _, ?_, hp⟩
        simp only [manifestNew, cstr_some h1, mapRes_deref_some, Res.bind_ok]
    | some n =>
      cases ct with
      | none => simp at h9
      | some c =>
        refine Or.inr ⟨some sc, ty, sd, ed, _, some n, some c, ?_, hp, ?_, ?_⟩
        · simp only [manifestNewWith, cstr_some h1, mapRes_deref_some, deref, Res.bind_ok]
        · rintro x ⟨⟩
          exact (made_text n).2 (h7 n rfl)
        · rintro x ⟨⟩
          exact (made_contact c).2 (h8 c rfl)

/-- C109.  The manifests that can be made with the functions of the C interface are exactly those whose texts have no
zero, whose parties have a name, whose candidates have an image only if they have a name, whose contests have a title
and a subtitle or neither — and in this case the default number of votes allowed — and which have a name and contact
information or neither. -/
theorem C109_made_partial (m : Manifest) : MadeManifest m ↔ CleanManifest m := made_manifest m

/-! ## What is read -/

/-- C109.  Getting an element succeeds exactly for the indices below the size; a client that goes through them reads the
whole collection, in its order. -/
theorem C109_read {α β : Type} (f : α → β) (l : List α) :
    (∀ i a, getAt l i = (.success, some a) ↔ l[i]? = some a) ∧
    (∀ i, l.length ≤ i → getAt l i = (.badAlloc, none)) ∧ readAll f l = l.map f := by
  refine ⟨?_, ?_, ?_⟩
  · intro i a
    unfold getAt
    cases h : l[i]? <;> simp
  · intro i hi
    simp [getAt, List.getElem?_eq_none hi]
  · unfold readAll
    have h : ∀ i ∈ List.range l.length, (getAt l i).2.map f = (l.map f)[i]? := by
      intro i hi
      have hi := List.mem_range.1 hi
      simp [getAt, List.getElem?_eq_getElem hi]
    rw [List.filterMap_congr h]
    refine List.ext_getElem? ?_
    intro n
    have h2 : ∀ (k : List β), (List.range k.length).filterMap (fun i => k[i]?) = k := by
      intro k
      induction k using List.reverseRecOn with
      | nil => rfl
      | append_singleton k x ih =>
        rw [List.length_append, List.length_singleton, List.range_succ, List.filterMap_append]
        have h3 : ∀ i ∈ List.range k.length, (k ++ [x])[i]? = k[i]? := by
          intro i hi
          exact List.getElem?_append_left (List.mem_range.1 hi)
        rw [List.filterMap_congr h3, ih]
        simp
    have h4 := h2 (l.map f)
    rw [List.length_map] at h4
    rw [h4]

theorem readAll_eq {α β : Type} (f : α → β) (l : List α) : readAll f l = l.map f := (C109_read f l).2.2

theorem outText_eq {s : Str} (h : NoNul s) : outText s = s := takeWhile_self h

/-- What the getters of a contest leave out: the order in which the selections were given, and the primary parties. -/
def forgetContest (S : StdSort) (c : ContestDesc) : ContestDesc :=
  { c with selections := S.sort SelectionDesc.seq c.selections, primaryPartyIds := [] }

/-- What the getters of a manifest leave out: the contact information of the geopolitical units, the name in the contact
information of the manifest, and the order in which the contests were given. -/
def forget (S : StdSort) (m : Manifest) : Manifest :=
  { m with
    gpUnits := m.gpUnits.map (fun u => { u with contact := none })
    contests := (S.sort ContestDesc.seq m.contests).map (forgetContest S)
    contact := m.contact.map (fun c => { c with name := [] }) }

theorem map_iff {α β γ : Type} {P : α → Prop} {f : α → β} {g : α → γ}
    (h : ∀ a b, P a → P b → (f a = f b ↔ g a = g b)) :
    ∀ {l k : List α}, (∀ a ∈ l, P a) → (∀ a ∈ k, P a) → (l.map f = k.map f ↔ l.map g = k.map g)
  | [], [], _, _ => by simp
  | [], _ :: _, _, _ => by simp
  | _ :: _, [], _, _ => by simp
  | a :: l, b :: k, h1, h2 => by
    simp only [List.map_cons, List.cons.injEq]
    rw [h a b (h1 a (by simp)) (h2 b (by simp)),
      map_iff h (fun x hx => h1 x (by simp [hx])) (fun x hx => h2 x (by simp [hx]))]

theorem map_inj_iff {α β : Type} {P : α → Prop} {f : α → β} (h : ∀ a b, P a → P b → (f a = f b ↔ a = b))
    {l k : List α} (hl : ∀ a ∈ l, P a) (hk : ∀ a ∈ k, P a) : l.map f = k.map f ↔ l = k := by
  have := map_iff (g := id) h hl hk
  simpa using this

theorem see_text_list {l k : List Str} (hl : ∀ a ∈ l, NoNul a) (hk : ∀ a ∈ k, NoNul a) :
    readAll outText l = readAll outText k ↔ l = k := by
  rw [readAll_eq, readAll_eq]
  exact map_inj_iff (P := NoNul) (fun a b ha hb => by rw [outText_eq ha, outText_eq hb]) hl hk

theorem see_annotated (a b : Annotated) (ha : CleanAnnotated a) (hb : CleanAnnotated b) :
    seeAnnotated a = seeAnnotated b ↔ a = b := by
  cases a; cases b
  simp only [seeAnnotated, outText_eq ha.1, outText_eq ha.2, outText_eq hb.1, outText_eq hb.2, Prod.mk.injEq,
    Annotated.mk.injEq]

theorem see_language (a b : Language) (ha : CleanLanguage a) (hb : CleanLanguage b) :
    seeLanguage a = seeLanguage b ↔ a = b := by
  cases a; cases b
  simp only [seeLanguage, outText_eq ha.1, outText_eq ha.2, outText_eq hb.1, outText_eq hb.2, Prod.mk.injEq,
    Language.mk.injEq]

theorem see_text (a b : IText) (ha : CleanText a) (hb : CleanText b) : seeText a = seeText b ↔ a = b := by
  simp only [seeText, readAll_eq]
  exact map_inj_iff see_language ha hb

theorem see_opt_text {a b : Option IText} (ha : ∀ t, a = some t → CleanText t) (hb : ∀ t, b = some t → CleanText t) :
    a.map seeText = b.map seeText ↔ a = b := by
  cases a with
  | none => cases b <;> simp
  | some a =>
    cases b with
    | none => simp
    | some b =>
      simp only [Option.map_some, Option.some.injEq]
      exact see_text a b (ha a rfl) (hb b rfl)

theorem see_contact (a b : Contact) (ha : CleanContact a) (hb : CleanContact b) :
    seeContact a = seeContact b ↔ ({ a with name := [] } : Contact) = { b with name := [] } := by
  cases a; cases b
  simp only [seeContact, Prod.mk.injEq, Contact.mk.injEq, see_text_list ha.2.1 hb.2.1]
  rw [readAll_eq, readAll_eq, readAll_eq, readAll_eq, map_inj_iff see_annotated ha.2.2.1 hb.2.2.1,
    map_inj_iff see_annotated ha.2.2.2 hb.2.2.2]
  simp

theorem see_gpUnit (a b : GpUnit) (ha : CleanGpUnit a) (hb : CleanGpUnit b) :
    seeGpUnit a = seeGpUnit b ↔ ({ a with contact := none } : GpUnit) = { b with contact := none } := by
  cases a; cases b
  simp only [seeGpUnit, outText_eq ha.1, outText_eq ha.2.1, outText_eq hb.1, outText_eq hb.2.1, Prod.mk.injEq,
    GpUnit.mk.injEq, and_true]

theorem see_style (a b : BallotStyle) (ha : CleanStyle a) (hb : CleanStyle b) : seeStyle a = seeStyle b ↔ a = b := by
  cases a; cases b
  simp only [seeStyle, outText_eq ha.1, outText_eq hb.1, outText_eq ha.2.2.2, outText_eq hb.2.2.2, Prod.mk.injEq,
    BallotStyle.mk.injEq, see_text_list ha.2.1 hb.2.1, see_text_list ha.2.2.1 hb.2.2.1]

theorem see_party (a b : Party) (ha : CleanParty a) (hb : CleanParty b) : seeParty a = seeParty b ↔ a = b := by
  obtain ⟨a1, ⟨t, a2, a3⟩, a4, a5, a6⟩ := ha
  obtain ⟨b1, ⟨u, b2, b3⟩, b4, b5, b6⟩ := hb
  cases a; cases b
  dsimp only at *
  subst a2
  subst b2
  simp only [seeParty, outText_eq a1, outText_eq b1, outText_eq a4, outText_eq b4, outText_eq a5, outText_eq b5,
    outText_eq a6, outText_eq b6, Prod.mk.injEq, Party.mk.injEq, Option.map_some, Option.some.injEq, see_text t u a3 b3]
  tauto

theorem see_candidate (a b : Candidate) (ha : CleanCandidate a) (hb : CleanCandidate b) :
    seeCandidate a = seeCandidate b ↔ a = b := by
  obtain ⟨a1, a2, a3, a4, -⟩ := ha
  obtain ⟨b1, b2, b3, b4, -⟩ := hb
  cases a; cases b
  simp only [seeCandidate, outText_eq a1, outText_eq b1, outText_eq a3, outText_eq b3, outText_eq a4, outText_eq b4,
    Prod.mk.injEq, Candidate.mk.injEq, see_opt_text a2 b2]

theorem see_selection (a b : SelectionDesc) (ha : CleanSelection a) (hb : CleanSelection b) :
    seeSelection a = seeSelection b ↔ a = b := by
  cases a; cases b
  simp only [seeSelection, outText_eq ha.1, outText_eq ha.2, outText_eq hb.1, outText_eq hb.2, Prod.mk.injEq,
    SelectionDesc.mk.injEq]

theorem see_contest (S : StdSort) (a b : ContestDesc) (ha : CleanContest a) (hb : CleanContest b) :
    seeContest S a = seeContest S b ↔ forgetContest S a = forgetContest S b := by
  obtain ⟨a1, a2, a3, a4, a5, a6, -⟩ := ha
  obtain ⟨b1, b2, b3, b4, b5, b6, -⟩ := hb
  have hs : readAll seeSelection (a.getSelections S) = readAll seeSelection (b.getSelections S) ↔
      S.sort SelectionDesc.seq a.selections = S.sort SelectionDesc.seq b.selections := by
    rw [readAll_eq, readAll_eq]
    refine map_inj_iff see_selection ?_ ?_
    · intro s hs
      exact a6 s ((mem_sort S _ _ _).1 hs)
    · intro s hs
      exact b6 s ((mem_sort S _ _ _).1 hs)
  simp only [seeContest, forgetContest, ContestView.mk.injEq, ContestDesc.mk.injEq, outText_eq a1, outText_eq b1,
    outText_eq a2, outText_eq b2, outText_eq a3, outText_eq b3, see_opt_text a4 b4, see_opt_text a5 b5, hs, and_true]

/-- C109, what a client of the C interface can tell apart: of two manifests that can be made through it and have the
same dates, everything that is read is equal exactly if they are equal but for the contact information of geopolitical
units, the name in the contact information, the primary parties of contests, and the order in which contests and
selections were given. -/
theorem C109_view_partial (S : StdSort) (m k : Manifest) (hm : MadeManifest m) (hk : MadeManifest k)
    (hs : m.startDate = k.startDate) (he : m.endDate = k.endDate) :
    seeManifest S m = seeManifest S k ↔ forget S m = forget S k := by
  obtain ⟨m1, m2, m3, m4, m5, m6, m7, m8, -⟩ := (made_manifest m).1 hm
  obtain ⟨k1, k2, k3, k4, k5, k6, k7, k8, -⟩ := (made_manifest k).1 hk
  have hc : m.contact.map seeContact = k.contact.map seeContact ↔
      m.contact.map (fun c => ({ c with name := [] } : Contact)) = k.contact.map (fun c => { c with name := [] }) := by
    cases h1 : m.contact with
    | none => cases h2 : k.contact <;> simp
    | some a =>
      cases h2 : k.contact with
      | none => simp
      | some b =>
        rw [Option.map_some, Option.map_some, Option.map_some, Option.map_some, Option.some.injEq, Option.some.injEq]
        exact see_contact a b (m8 a h1) (k8 b h2)
  have hd : readAll (seeContest S) (S.sort ContestDesc.seq m.contests) =
      readAll (seeContest S) (S.sort ContestDesc.seq k.contests) ↔
      (S.sort ContestDesc.seq m.contests).map (forgetContest S) =
        (S.sort ContestDesc.seq k.contests).map (forgetContest S) := by
    rw [readAll_eq, readAll_eq]
    refine map_iff (see_contest S) ?_ ?_
    · intro s hs
      exact m5 s ((mem_sort S _ _ _).1 hs)
    · intro s hs
      exact k5 s ((mem_sort S _ _ _).1 hs)
  simp only [seeManifest, forget, ManifestView.mk.injEq, Manifest.mk.injEq, outText_eq m1, outText_eq k1, hs, he,
    see_opt_text m7 k7, hc, hd]
  rw [readAll_eq, readAll_eq, readAll_eq, readAll_eq, readAll_eq, readAll_eq, readAll_eq, readAll_eq,
    map_iff see_gpUnit m2 k2, map_inj_iff see_party m3 k3, map_inj_iff see_candidate m4 k4,
    map_inj_iff see_style m6 k6]
  simp

/-- The contests of a manifest in increasing order, their selections too, and nothing that cannot be read. -/
structure Readable (m : Manifest) : Prop where
  units : ∀ u ∈ m.gpUnits, u.contact = none
  contact : ∀ c, m.contact = some c → c.name = []
  contests : m.contests.Pairwise (fun a b => a.seq < b.seq)
  selections : ∀ c ∈ m.contests, c.selections.Pairwise (fun a b => a.seq < b.seq) ∧ c.primaryPartyIds = []

theorem sort_of_lt (S : StdSort) {α : Type} (key : α → ℕ) (l : List α) (h : l.Pairwise (fun a b => key a < key b)) :
    S.sort key l = l := by
  refine sort_of_sorted S key l (h.imp le_of_lt) ?_
  refine key_inj_of_nodup key l ?_
  rw [List.nodup_iff_pairwise_ne, List.pairwise_map]
  exact h.imp Nat.ne_of_lt

theorem forget_plain (S : StdSort) (m : Manifest) (h : Readable m) : forget S m = m := by
  obtain ⟨h1, h2, h3, h4⟩ := h
  obtain ⟨sc, ty, sd, ed, gp, pa, ca, co, st, nm, ct⟩ := m
  simp only [forget, Manifest.mk.injEq, true_and]
  dsimp only at *
  refine ⟨?_, ?_, ?_⟩
  · refine map_self ?_
    intro u hu
    obtain ⟨a, b, c, d⟩ := u
    simpa using (h1 _ hu).symm
  · rw [sort_of_lt S _ _ h3]
    refine map_self ?_
    intro c hc
    obtain ⟨c1, c2⟩ := h4 c hc
    simp only [forgetContest, sort_of_lt S _ _ c1, ← c2]
  · cases ct with
    | none => rfl
    | some c =>
      have := h2 c rfl
      simp only [Option.map_some, ← this]

/-- C109.  Manifests in their order, without what cannot be read, are told apart by the getters. -/
theorem C109_plain (S : StdSort) (m k : Manifest) (hm : MadeManifest m) (hk : MadeManifest k) (pm : Readable m)
    (pk : Readable k) (hs : m.startDate = k.startDate) (he : m.endDate = k.endDate)
    (h : seeManifest S m = seeManifest S k) : m = k := by
  rw [C109_view_partial S m k hm hk hs he, forget_plain S m pm, forget_plain S k pk] at h
  exact h

/-! ## What cannot be made or read -/

/-- A manifest that can be made; its contests are not listed in their order. -/
def demo : Manifest := { exampleManifest with parties := [⟨"p".toList, some [], [], [], []⟩] }

/-- The same with the contests in their order. -/
def demoOrdered : Manifest := { demo with contests := orderedManifest.contests }

/-- The same with an address for a geopolitical unit. -/
def demoContact : Manifest :=
  { demo with
    gpUnits := [⟨"d".toList, "D".toList, .county, some ⟨["street".toList], [], [], []⟩⟩,
      ⟨"e".toList, "E".toList, .city, none⟩] }

theorem demo_made : MadeManifest demo ∧ MadeManifest demoOrdered ∧ MadeManifest demoContact := by
  simp only [made_manifest]
  refine ⟨?_, ?_, ?_⟩ <;>
  · simp only [CleanManifest, CleanGpUnit, CleanParty, CleanCandidate, CleanContest, CleanStyle, CleanText,
      CleanContact, CleanSelection, demo, demoOrdered, demoContact, orderedManifest, exampleManifest, exampleContest,
      ContestDesc.make7, defaultVotesAllowed, NoNul]
    simp

/-- Manifests that meet the hypotheses of `C109_view_partial` and `C109_plain`. -/
example : MadeManifest demo ∧ MadeManifest demoOrdered ∧ Readable demoOrdered ∧ demoOrdered.isValid = true := by
  refine ⟨demo_made.1, demo_made.2.1, ⟨?_, ?_, ?_, ?_⟩, by decide +kernel⟩
  · simp [demoOrdered, demo, exampleManifest]
  · simp [demoOrdered, demo, exampleManifest]
  · decide +kernel
  · decide +kernel

/-- C109 is violated: these manifests are valid, and their hashes are defined, but they cannot be made through the C
interface: contact information without a name, a contest without title that allows another number of votes than it
elects, a party without a name, a candidate without a name that has an image, a text with a zero. -/
theorem C109_made_violated :
    ∃ l : List Manifest, l.length = 5 ∧ l.Nodup ∧ (∀ m ∈ l, m.isValid = true) ∧ (∀ m ∈ l, ¬ MadeManifest m) ∧
      ∀ m ∈ l, ∀ G C, ∃ h, m.hash G C = .ok h := by
  refine ⟨[{ demo with contact := some ⟨[], [], [], "n".toList⟩ },
    { demo with contests := [{ exampleContest with votesAllowed := 2 }] },
    exampleManifest,
    { demo with candidates := [⟨"a".toList, none, "p".toList, "u".toList, false⟩] },
    { demo with scopeId := ['s', Char.ofNat 0] }], rfl, by decide +kernel, by decide +kernel, ?_, ?_⟩
  · simp only [made_manifest, List.forall_mem_cons, List.not_mem_nil, false_imp_iff, implies_true, and_true]
    refine ⟨?_, ?_, ?_, ?_, ?_⟩
    · rintro ⟨-, -, -, -, -, -, -, -, h⟩
      exact absurd h (by decide)
    · rintro ⟨-, -, -, -, h, -⟩
      have := (h _ (List.mem_singleton.2 rfl)).2.2.2.2.2.2.2.2 rfl
      exact absurd this (by decide +kernel)
    · rintro ⟨-, -, h, -⟩
      obtain ⟨t, ht, -⟩ := (h _ (List.mem_singleton.2 rfl)).2.1
      simp at ht
    · rintro ⟨-, -, -, h, -⟩
      have := (h _ (List.mem_singleton.2 rfl)).2.2.2.2 rfl
      exact absurd this (by decide +kernel)
    · rintro ⟨h, -⟩
      exact h (by decide)
  · simp only [List.forall_mem_cons, List.not_mem_nil, false_imp_iff, implies_true, and_true]
    exact ⟨fun _ _ => ⟨_, rfl⟩, fun _ _ => ⟨_, rfl⟩, fun _ _ => ⟨_, rfl⟩, fun _ _ => ⟨_, rfl⟩, fun _ _ => ⟨_, rfl⟩⟩

theorem demo_plain : demo.Plain ∧ demoOrdered.Plain ∧ demoContact.Plain := by
  refine ⟨?_, ?_, ?_⟩ <;>
  · simp only [Manifest.Plain, Str.Plain, GpUnit.Plain, Party.Plain, ContestDesc.Plain,
      BallotStyle.Plain, SelectionDesc.Plain, IText.Plain, Contact.Plain, Language.Plain,
      Annotated.Plain]
    simp [demo, demoOrdered, demoContact, orderedManifest, exampleManifest, exampleContest, ContestDesc.make7,
      nullString]

/-- C109 is violated: the hash of a manifest is not a function of what can be read of it through the C interface.
These valid manifests are made through it and have the same dates, all getters give the same for them, and their hashes
differ — unless the hash function collides on strings hashed for the two: contests given in another order, and contact
information for a geopolitical unit. -/
theorem C109_view_violated (S : StdSort) :
    ∀ k, k = demoOrdered ∨ k = demoContact →
      MadeManifest demo ∧ MadeManifest k ∧ demo.isValid = true ∧ k.isValid = true ∧
      demo.startDate = k.startDate ∧ demo.endDate = k.endDate ∧ seeManifest S demo = seeManifest S k ∧
      ∀ G C, G.Valid → NoCollision G C (demo.queries G C ++ k.queries G C) → demo.hash G C ≠ k.hash G C := by
  have hb : ∀ k : Manifest, k.Plain → demo.covered ≠ k.covered → ∀ G C, G.Valid →
      NoCollision G C (demo.queries G C ++ k.queries G C) → demo.hash G C ≠ k.hash G C := by
    intro k hk hn G C hG hc he
    have h1 : ∃ h, demo.hash G C = .ok h := ⟨_, rfl⟩
    obtain ⟨h, hh⟩ := h1
    exact hn (C46_hash_binding_partial G C hG demo k h hh (he ▸ hh) demo_plain.1 hk hc)
  have hs : S.sort ContestDesc.seq demo.contests = orderedManifest.contests := sort_example S
  have hs2 : S.sort ContestDesc.seq orderedManifest.contests = orderedManifest.contests :=
    sort_of_lt S _ _ (by decide +kernel)
  rintro k (rfl | rfl)
  · refine ⟨demo_made.1, demo_made.2.1, by decide +kernel, by decide +kernel, rfl, rfl, ?_,
      hb _ demo_plain.2.1 (by decide +kernel)⟩
    refine (C109_view_partial S _ _ demo_made.1 demo_made.2.1 rfl rfl).2 ?_
    have h3 : S.sort ContestDesc.seq demoOrdered.contests = orderedManifest.contests := hs2
    unfold forget
    rw [hs, h3]
    rfl
  · refine ⟨demo_made.1, demo_made.2.2, by decide +kernel, by decide +kernel, rfl, rfl, ?_,
      hb _ demo_plain.2.2 (by decide +kernel)⟩
    refine (C109_view_partial S _ _ demo_made.1 demo_made.2.2 rfl rfl).2 ?_
    have h3 : demoContact.contests = demo.contests := rfl
    unfold forget
    rw [h3]
    rfl

/-! ## Numbers of enumerators -/

theorem findKey_ok {l : List (ℕ × Str)} (n : ℕ) : (∃ s, findKey l n = .ok s) ↔ n ∈ l.map (·.1) := by
  unfold findKey
  constructor
  · rintro ⟨s, h⟩
    cases hf : l.find? (fun e => e.1 = n) with
    | none => rw [hf] at h; simp at h
    | some e =>
      have h1 := List.find?_some hf
      simp only [decide_eq_true_eq] at h1
      exact List.mem_map.2 ⟨e, List.mem_of_find?_eq_some hf, h1⟩
  · intro h
    cases hf : l.find? (fun e => e.1 = n) with
    | some e => exact ⟨e.2, rfl⟩
    | none =>
      obtain ⟨e, he, rfl⟩ := List.mem_map.1 h
      have := List.find?_eq_none.1 hf e he
      simp at this

/-- C109.  The C functions take any number for the type of the election and the vote variation of a contest; the
manifest can be hashed only for the numbers of the enumerators that have a text — 0 to 7, and 0, 1 and 3 to 12 — and
different numbers have different texts. -/
theorem C109_codes :
    (∀ n, (∃ s, electionTypeText n = .ok s) ↔ n ≤ 7) ∧ (∀ n, (∃ s, variationText n = .ok s) ↔ n ≤ 12 ∧ n ≠ 2) ∧
    (∀ n, electionTypeText n = .ub ↔ 7 < n) ∧
    (∀ n k s, electionTypeText n = .ok s → electionTypeText k = .ok s → n = k) ∧
    (∀ n k s, variationText n = .ok s → variationText k = .ok s → n = k) ∧
    (∀ t, electionTypeText (electionTypeCode t) = t.string) ∧ ∀ v, variationText (variationCode v) = v.string := by
  have e1 : ∀ n, (∃ s, electionTypeText n = .ok s) ↔ n ≤ 7 := by
    intro n
    unfold electionTypeText
    rw [findKey_ok]
    simp only [electionTypeMap, List.map_cons, List.map_nil, electionTypeCode, List.mem_cons, List.not_mem_nil, or_false]
    omega
  have e2 : ∀ n, (∃ s, variationText n = .ok s) ↔ n ≤ 12 ∧ n ≠ 2 := by
    intro n
    unfold variationText
    rw [findKey_ok]
    simp only [voteVariationTypeMap, List.map_cons, List.map_nil, variationCode, List.mem_cons, List.not_mem_nil,
      or_false]
    omega
  refine ⟨e1, e2, ?_, ?_, ?_, ?_, ?_⟩
  · intro n
    have h := e1 n
    have h2 : electionTypeText n = .ub ∨ ∃ s, electionTypeText n = .ok s := by
      unfold electionTypeText findKey
      split
      · exact Or.inr ⟨_, rfl⟩
      · exact Or.inl rfl
    constructor
    · intro hu
      rw [hu] at h
      simp at h
      exact h
    · intro hn
      rcases h2 with h2 | h2
      · exact h2
      · have := h.1 h2
        omega
  · intro n k s h1 h2
    have a := (e1 n).1 ⟨s, h1⟩
    have b := (e1 k).1 ⟨s, h2⟩
    have h3 : electionTypeText n = electionTypeText k := by rw [h1, h2]
    clear h1 h2
    have key : ∀ n ≤ 7, ∀ k ≤ 7, electionTypeText n = electionTypeText k → n = k := by decide +kernel
    exact key n a k b h3
  · intro n k s h1 h2
    have a := (e2 n).1 ⟨s, h1⟩
    have b := (e2 k).1 ⟨s, h2⟩
    have h3 : variationText n = variationText k := by rw [h1, h2]
    clear h1 h2
    have key : ∀ n ≤ 12, ∀ k ≤ 12, variationText n = variationText k → n = k := by decide +kernel
    exact key n a.1 k b.1 h3
  · intro t
    cases t <;> rfl
  · intro v
    cases v <;> rfl

/-- C109.  The texts for all numbers. -/
theorem C109_texts :
    (List.range 8).map electionTypeText = ["unknown", "general", "partisanPrimaryClosed", "partisanPrimaryOpen", "primary",
      "runoff", "special", "other"].map (fun s => .ok s.toList) ∧
    ((List.range 13).filter (· ≠ 2)).map variationText = ["unknown", "one_of_m", "borda", "cumulative", "majority", "n_of_m",
      "plurality", "proportional", "range", "rcv", "super_majority", "other"].map (fun s => .ok s.toList) := by
  decide +kernel

end EG.CMan
