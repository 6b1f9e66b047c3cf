import Verif.Model.Encrypt
import Verif.Lemmas.Std
import Verif.Props.ManifestHash

/-!
# Plaintext ballots: C31, C34
-/

namespace EG

/-! ## C31 classification of plaintext contests -/

/-- The number of selections marked, whatever the value of the mark. -/
def PContest.marked (c : PContest) : ℕ := (c.selections.filter (fun s => s.vote ≠ 0)).length

/-- The total of all votes. -/
def PContest.total (c : PContest) : ℕ := (c.selections.map (·.vote)).sum

theorem countVotes_eq (l : List PSelection) (n v : ℕ) :
    countVotes l n v = (n + (l.filter (fun s => s.vote ≠ 0)).length,
      if l = [] then v else (v + (l.map (·.vote)).sum) % 2 ^ 64) := by
  induction l generalizing n v with
  | nil => simp [countVotes]
  | cons s l ih =>
    rw [countVotes, ih]
    by_cases h : s.vote = 0
    · have h' : ¬ s.vote ≥ 1 := by omega
      by_cases hl : l = []
      · subst hl; simp [h]
      · simp [h, hl, Nat.mod_add_mod]
    · have h' : s.vote ≥ 1 := by omega
      by_cases hl : l = []
      · subst hl; simp [h, h']
      · simp [h, h', hl, Nat.mod_add_mod, Nat.add_assoc, Nat.add_comm 1]

/-- Too many selections marked, or too many votes in total; a limit of 0 votes stands for the number
of seats. -/
def PContest.Overvoted (c : PContest) (elected votesAllowed : ℕ) : Prop :=
  elected < c.marked ∨ (if votesAllowed = 0 then elected else votesAllowed) < c.total

theorem contest_isValid_eq (c : PContest) (id : Str) (n e a : ℕ) (sup : Bool)
    (ht : c.total < 2 ^ 64) :
    (c.objectId ≠ id → c.isValid id n e a sup = .invalidObjectId) ∧
    (c.objectId = id → n < c.selections.length → c.isValid id n e a sup = .tooManySelections) ∧
    (c.objectId = id → c.selections.length ≤ n → c.Overvoted e a →
      c.isValid id n e a sup = if sup then .overvote else .overvoteError) ∧
    (c.objectId = id → c.selections.length ≤ n → ¬ c.Overvoted e a →
      c.isValid id n e a sup = .success) := by
  have hc : countVotes c.selections 0 0 = (c.marked, c.total) := by
    rw [countVotes_eq]
    by_cases hl : c.selections = []
    · simp [PContest.marked, PContest.total, hl]
    · rw [if_neg hl, Nat.zero_add, Nat.zero_add]
      exact congrArg₂ _ rfl (Nat.mod_eq_of_lt ht)
  unfold PContest.isValid PContest.Overvoted
  rw [hc]
  refine ⟨?_, ?_, ?_, ?_⟩
  · intro h; simp [h]
  · intro h hn; simp [h, hn]
  · intro h hn ho
    rw [if_neg (by simpa using h), if_neg (by omega)]
    dsimp only
    by_cases h1 : c.marked > e
    · rw [if_pos h1]
    · rw [if_neg h1, if_pos (by rcases ho with ho | ho <;> omega)]
  · intro h hn ho
    push Not at ho
    rw [if_neg (by simpa using h), if_neg (by omega)]
    dsimp only
    rw [if_neg (by omega), if_neg (by omega)]

/-- C31, partial: if the votes do not add up to `2^64` or more, each result is returned exactly in the
described situation.  The two error values that coincide in the enumeration share a line, and the
restriction on the total is needed: see the next two theorems. -/
theorem C31_classification_partial (c : PContest) (id : Str) (n e a : ℕ) (sup : Bool)
    (ht : c.total < 2 ^ 64) :
    (c.isValid id n e a sup = .success ↔
      c.objectId = id ∧ c.selections.length ≤ n ∧ ¬ c.Overvoted e a) ∧
    (c.isValid id n e a sup = .overvote ↔
      c.objectId = id ∧ c.selections.length ≤ n ∧ c.Overvoted e a ∧ sup = true) ∧
    (c.isValid id n e a sup = .tooManySelections ↔
      c.objectId = id ∧ n < c.selections.length) ∧
    (c.isValid id n e a sup = .value2 ↔
      c.objectId ≠ id ∨ c.selections.length ≤ n ∧ c.Overvoted e a ∧ sup = false) := by
  obtain ⟨h1, h2, h3, h4⟩ := contest_isValid_eq c id n e a sup ht
  by_cases hid : c.objectId = id
  · rcases lt_or_ge n c.selections.length with hn | hn
    · have hn' : ¬ c.selections.length ≤ n := by omega
      rw [h2 hid hn]
      simp [hid, hn, hn']
    · have hn' : ¬ n < c.selections.length := by omega
      by_cases ho : c.Overvoted e a
      · rw [h3 hid hn ho]
        cases sup <;> simp [hid, hn, ho]
      · rw [h4 hid hn ho]
        simp [hid, hn, ho]
  · rw [h1 hid]
    simp [hid]

/-- A contest in which two of three selections are marked, for one seat. -/
def overvotedContest : PContest :=
  { objectId := "c".toList
    selections := [⟨"a".toList, 1, false, []⟩, ⟨"b".toList, 1, false, []⟩, ⟨"d".toList, 0, false, []⟩] }

example : overvotedContest.total < 2 ^ 64 ∧
    overvotedContest.isValid "c".toList 3 1 1 true = .overvote ∧
    overvotedContest.isValid "c".toList 3 2 2 true = .success ∧
    overvotedContest.isValid "c".toList 2 2 2 true = .tooManySelections ∧
    overvotedContest.isValid "x".toList 3 2 2 true = .invalidObjectId := by decide

/-- C31 fails: an overvote reported as an error cannot be told from a wrong object id. -/
theorem C31_codes_violated :
    overvotedContest.isValid "c".toList 3 1 1 false = .overvoteError ∧
    overvotedContest.isValid "x".toList 3 1 1 false = .invalidObjectId ∧
    (ContestCheck.overvoteError = ContestCheck.invalidObjectId) := by decide

/-- C31 fails: the votes are added modulo `2^64`, so a contest with `2^64` votes passes. -/
theorem C31_wraparound_violated :
    ∃ c : PContest, (∀ s ∈ c.selections, s.vote < 2 ^ 64) ∧ c.total = 2 ^ 64 ∧
      c.Overvoted 2 2 ∧ c.isValid "c".toList 3 2 2 true = .success := by
  refine ⟨{ objectId := "c".toList
            selections := [⟨"a".toList, 2 ^ 63, false, []⟩, ⟨"b".toList, 2 ^ 63, false, []⟩] },
    by decide, by decide, Or.inr (by decide), by decide⟩

/-! ## C34 normalisation -/

/-- `x` is the first element of the list with the property. -/
def IsFirst {α : Type} (p : α → Prop) (l : List α) (x : α) : Prop :=
  ∃ before after, l = before ++ x :: after ∧ p x ∧ ∀ y ∈ before, ¬ p y

theorem isFirst_of_find {α : Type} (p : α → Prop) [DecidablePred p] (l : List α) (x : α)
    (h : l.find? (fun a => decide (p a)) = some x) : IsFirst p l x := by
  induction l with
  | nil => simp at h
  | cons a l ih =>
    by_cases ha : p a
    · rw [List.find?_cons_of_pos (by simpa using ha)] at h
      obtain rfl := Option.some.inj h
      exact ⟨[], l, rfl, ha, by simp⟩
    · rw [List.find?_cons_of_neg (by simpa using ha)] at h
      obtain ⟨b, c, hl, hx, hb⟩ := ih h
      refine ⟨a :: b, c, by simp [hl], hx, ?_⟩
      intro y hy
      rcases List.mem_cons.1 hy with rfl | hy
      · exact ha
      · exact hb y hy

/-- What normalisation should give for one selection of one contest: what the voter entered first for
that selection in the first contest with that id, otherwise an unmarked selection. -/
def NormalSelection (b : PBallot) (contestId selectionId : Str) (s : PSelection) : Prop :=
  (∃ c, IsFirst (fun c : PContest => c.objectId = contestId) b.contests c ∧
    IsFirst (fun s : PSelection => s.objectId = selectionId) c.selections s) ∨
  ((∀ c, IsFirst (fun c : PContest => c.objectId = contestId) b.contests c →
      ∀ t ∈ c.selections, t.objectId ≠ selectionId) ∧
    s = { objectId := selectionId, vote := 0, isPlaceholder := false, writeIn := [] })

theorem isFirst_unique {α : Type} (p : α → Prop) (l : List α) (x y : α) (hx : IsFirst p l x)
    (hy : IsFirst p l y) : x = y := by
  obtain ⟨b, c, rfl, px, hb⟩ := hx
  obtain ⟨b', c', e, py, hb'⟩ := hy
  rcases List.append_eq_append_iff.1 e with ⟨k, hk, e2⟩ | ⟨k, hk, e2⟩
  · cases k with
    | nil => simp at e2; exact e2.1
    | cons z k =>
      simp only [List.cons_append, List.cons.injEq] at e2
      exact absurd px (hb' x (by rw [hk]; simp [e2.1]))
  · cases k with
    | nil => simp at e2; exact e2.1.symm
    | cons z k =>
      simp only [List.cons_append, List.cons.injEq] at e2
      exact absurd py (hb y (by rw [hk]; simp [e2.1]))

theorem emplaceContest_normal (S : StdSort) (b : PBallot) (c : PContest) (d : ContestDesc)
    (hc : IsFirst (fun c : PContest => c.objectId = d.objectId) b.contests c) :
    List.Forall₂ (fun sd s => NormalSelection b d.objectId sd.objectId s) (d.getSelections S)
      (emplaceContest S c d).selections := by
  unfold emplaceContest
  dsimp only
  rw [List.forall₂_map_right_iff, List.forall₂_same]
  intro sd _
  unfold emplaceSelection
  cases h : c.selections.find? (fun s => s.objectId = sd.objectId) with
  | some s => exact Or.inl ⟨c, hc, isFirst_of_find _ _ _ h⟩
  | none =>
    refine Or.inr ⟨?_, rfl⟩
    intro c' hc' t ht
    rw [isFirst_unique _ _ _ _ hc' hc] at ht
    have := List.find?_eq_none.1 h t ht
    simpa using this

theorem contestFrom_normal (S : StdSort) (b : PBallot) (d : ContestDesc)
    (hc : ∀ c ∈ b.contests, c.objectId ≠ d.objectId) :
    List.Forall₂ (fun sd s => NormalSelection b d.objectId sd.objectId s) (d.getSelections S)
      (contestFrom S d).selections := by
  unfold contestFrom
  dsimp only
  rw [List.forall₂_map_right_iff, List.forall₂_same]
  intro sd _
  refine Or.inr ⟨?_, rfl⟩
  rintro c' ⟨p, q, hb, hp, _⟩
  exact absurd hp (hc c' (by rw [hb]; simp))

/-- C34: for a ballot of a known style the result has the same ids and exactly one contest for every
contest of the style, in the order of the manifest, each with exactly one selection per description:
the voter's if there is one, otherwise an unmarked one.  Everything else is dropped. -/
theorem C34_normalisation (S : StdSort) (b : PBallot) (m : IManifest) (style : BallotStyle)
    (hs : m.getBallotStyle b.styleId = some style) (hu : style.gpUnitIds ≠ []) :
    ∃ b' ds, emplaceBallot S b m = .ok b' ∧ m.getContestsFor S b.styleId = .ok ds ∧
      b'.objectId = b.objectId ∧ b'.styleId = b.styleId ∧
      List.Forall₂ (fun (d : ContestDescP) (c : PContest) => c.objectId = d.desc.objectId ∧
        List.Forall₂ (fun sd s => NormalSelection b d.desc.objectId sd.objectId s)
          (d.desc.getSelections S) c.selections) ds b'.contests := by
  have hid : style.objectId = b.styleId := by
    have := List.find?_some hs
    simpa using this
  have hds : m.getContestsFor S b.styleId =
      .ok (S.sort (fun c => c.desc.seq) (contestsOfUnits m.contests style.gpUnitIds)) := by
    unfold IManifest.getContestsFor
    rw [hs]
    simp [hu]
  refine ⟨{ objectId := b.objectId, styleId := b.styleId
            contests := (S.sort (fun c => c.desc.seq) (contestsOfUnits m.contests
              style.gpUnitIds)).map (emplaceFrom S b) }, _,
    by rw [emplaceBallot, hs]; dsimp only; rw [hid, hds]; rfl, hds, rfl, rfl, ?_⟩
  dsimp only
  rw [List.forall₂_map_right_iff, List.forall₂_same]
  intro d _
  unfold emplaceFrom
  cases h : b.contests.find? (fun c => c.objectId = d.desc.objectId) with
  | some c => exact ⟨rfl, emplaceContest_normal S b c d.desc (isFirst_of_find _ _ _ h)⟩
  | none =>
    refine ⟨rfl, contestFrom_normal S b d.desc ?_⟩
    intro c hc
    simpa using List.find?_eq_none.1 h c hc

/-- C34, consequence: votes are kept or 0, and ids are those of the descriptions. -/
theorem NormalSelection.id {b : PBallot} {ci si : Str} {s : PSelection}
    (h : NormalSelection b ci si s) : s.objectId = si := by
  rcases h with ⟨c, _, _, _, _, h, _⟩ | ⟨_, h⟩
  · exact h
  · rw [h]

theorem find_id_map (f : ContestDescP → PContest) (hf : ∀ d, (f d).objectId = d.desc.objectId)
    (l : List ContestDescP)
    (hinj : ∀ x ∈ l, ∀ y ∈ l, x.desc.objectId = y.desc.objectId → x = y) (d : ContestDescP)
    (hd : d ∈ l) :
    (l.map f).find? (fun a => a.objectId = d.desc.objectId) = some (f d) := by
  induction l with
  | nil => simp at hd
  | cons a l ih =>
    rw [List.map_cons]
    by_cases h : a.desc.objectId = d.desc.objectId
    · have := hinj a (by simp) d hd h
      subst this
      rw [List.find?_cons_of_pos (by simp [hf])]
    · rw [List.find?_cons_of_neg (by simpa [hf] using h)]
      rcases List.mem_cons.1 hd with rfl | hd
      · exact absurd rfl h
      · exact ih (fun x hx y hy => hinj x (by simp [hx]) y (by simp [hy])) hd

theorem find_id_map_sel (f : SelectionDesc → PSelection) (hf : ∀ d, (f d).objectId = d.objectId)
    (hfe : ∀ d e : SelectionDesc, d.objectId = e.objectId → f d = f e) (l : List SelectionDesc)
    (d : SelectionDesc) (hd : d ∈ l) :
    (l.map f).find? (fun a => a.objectId = d.objectId) = some (f d) := by
  induction l with
  | nil => simp at hd
  | cons a l ih =>
    rw [List.map_cons]
    by_cases h : a.objectId = d.objectId
    · rw [List.find?_cons_of_pos (by simp [hf, h]), hfe a d h]
    · rw [List.find?_cons_of_neg (by simpa [hf] using h)]
      rcases List.mem_cons.1 hd with rfl | hd
      · exact absurd rfl h
      · exact ih hd

theorem emplaceSelection_id (c : PContest) (sd : SelectionDesc) :
    (emplaceSelection c sd).objectId = sd.objectId := by
  unfold emplaceSelection
  cases h : c.selections.find? (fun s => s.objectId = sd.objectId) with
  | some s => simpa using List.find?_some h
  | none => rfl

theorem emplaceSelection_congr (c : PContest) (d e : SelectionDesc) (h : d.objectId = e.objectId) :
    emplaceSelection c d = emplaceSelection c e := by
  simp only [emplaceSelection, selectionFrom, h]

theorem find_emplace (S : StdSort) (c : PContest) (d : ContestDesc) (sd : SelectionDesc)
    (hsd : sd ∈ d.getSelections S) :
    (emplaceContest S c d).selections.find? (fun s => s.objectId = sd.objectId) =
      some (emplaceSelection c sd) :=
  find_id_map_sel _ (emplaceSelection_id c) (emplaceSelection_congr c) _ sd hsd

theorem emplaceContest_idem (S : StdSort) (c : PContest) (d : ContestDesc) :
    emplaceContest S (emplaceContest S c d) d = emplaceContest S c d := by
  have e : ∀ c, emplaceContest S c d =
      ⟨d.objectId, (d.getSelections S).map (emplaceSelection c)⟩ := fun _ => rfl
  rw [e (emplaceContest S c d)]
  conv_rhs => rw [e c]
  congr 1
  apply List.map_congr_left
  intro sd hsd
  rw [emplaceSelection, find_emplace S c d sd hsd]

theorem emplaceContest_contestFrom (S : StdSort) (d : ContestDesc) :
    emplaceContest S (contestFrom S d) d = contestFrom S d := by
  have : contestFrom S d = emplaceContest S ⟨d.objectId, []⟩ d := by
    simp [contestFrom, emplaceContest, emplaceSelection]
  rw [this, emplaceContest_idem]

theorem emplaceFrom_id (S : StdSort) (b : PBallot) (d : ContestDescP) :
    (emplaceFrom S b d).objectId = d.desc.objectId := by
  unfold emplaceFrom
  split <;> rfl

theorem emplaceFrom_idem (S : StdSort) (b : PBallot) (d : ContestDescP) :
    emplaceContest S (emplaceFrom S b d) d.desc = emplaceFrom S b d := by
  unfold emplaceFrom
  split
  · exact emplaceContest_idem S _ d.desc
  · exact emplaceContest_contestFrom S d.desc

/-- C34, idempotence: normalising a normalised ballot changes nothing.  The contests of the style must
be determined by their ids, as they are in a valid manifest. -/
theorem C34_idempotent (S : StdSort) (b b' : PBallot) (m : IManifest) (ds : List ContestDescP)
    (hds : m.getContestsFor S b.styleId = .ok ds)
    (hinj : ∀ x ∈ ds, ∀ y ∈ ds, x.desc.objectId = y.desc.objectId → x = y)
    (h : emplaceBallot S b m = .ok b') : emplaceBallot S b' m = .ok b' := by
  unfold emplaceBallot at h
  cases hst : m.getBallotStyle b.styleId with
  | none => rw [hst] at h; simp at h
  | some style =>
    have hid : style.objectId = b.styleId := by
      have := List.find?_some hst
      simpa using this
    rw [hst] at h
    dsimp only at h
    rw [hid, hds] at h
    simp only [Res.bind_eq_ok, Res.ok.injEq] at h
    obtain ⟨ds', rfl, rfl⟩ := h
    unfold emplaceBallot
    dsimp only
    rw [hst]
    dsimp only
    rw [hid, hds]
    simp only [Res.bind_eq_ok, Res.ok.injEq]
    refine ⟨ds, rfl, ?_⟩
    congr 1
    apply List.map_congr_left
    intro d hd
    rw [emplaceFrom, find_id_map (emplaceFrom S b) (emplaceFrom_id S b) ds hinj d hd]
    exact emplaceFrom_idem S b d

/-- C34 fails for a ballot of an unknown style: a null pointer is dereferenced. -/
theorem C34_unknown_style_violated (S : StdSort) (b : PBallot) (m : IManifest)
    (hs : ∀ s ∈ m.styles, s.objectId ≠ b.styleId) : emplaceBallot S b m = .ub := by
  have : m.getBallotStyle b.styleId = none := by
    unfold IManifest.getBallotStyle
    rw [List.find?_eq_none]
    intro s hsm
    simpa using hs s hsm
  rw [emplaceBallot, this]

/-- The internal form of the example manifest, with any hash. -/
def exampleIM (h : ℕ) : IManifest :=
  { gpUnits := exampleManifest.gpUnits, candidates := exampleManifest.candidates
    contests := [exampleContestP2, exampleContestP], styles := exampleManifest.styles
    manifestHash := h }

theorem exampleIM_contests (S : StdSort) (h : ℕ) :
    (exampleIM h).getContestsFor S "style".toList = .ok [exampleContestP2, exampleContestP] := by
  have e : (exampleIM h).getBallotStyle "style".toList =
      some ⟨"style".toList, ["d".toList, "e".toList], [], []⟩ := by
    change exampleManifest.styles.find? (fun s => s.objectId = "style".toList) = _
    decide +kernel
  rw [IManifest.getContestsFor, e]
  have e2 : contestsOfUnits (exampleIM h).contests ["d".toList, "e".toList] =
      [exampleContestP2, exampleContestP] := by
    change contestsOfUnits [exampleContestP2, exampleContestP] _ = _
    decide +kernel
  have e3 : S.sort (fun c : ContestDescP => c.desc.seq) [exampleContestP2, exampleContestP] =
      [exampleContestP2, exampleContestP] := by
    refine sort_of_sorted S _ _ ?_ ?_ <;> decide +kernel
  change Res.ok (S.sort _ (contestsOfUnits (exampleIM h).contests ["d".toList, "e".toList])) = _
  rw [e2, e3]

/-- A voter fills in one selection of one contest, something for an unknown contest and something
for an unknown selection. -/
def exampleBallot : PBallot :=
  { objectId := "ballot".toList, styleId := "style".toList
    contests := [⟨"c".toList, [⟨"zz".toList, 1, false, []⟩, ⟨"s2".toList, 1, false, []⟩]⟩,
      ⟨"other".toList, []⟩] }

/-- Normalisation of the example ballot: two contests with two selections each. -/
example (S : StdSort) (h : ℕ) : emplaceBallot S exampleBallot (exampleIM h) = .ok
    { objectId := "ballot".toList, styleId := "style".toList
      contests := [⟨"c2".toList, [⟨"s1".toList, 0, false, []⟩, ⟨"s2".toList, 0, false, []⟩]⟩,
        ⟨"c".toList, [⟨"s1".toList, 0, false, []⟩, ⟨"s2".toList, 1, false, []⟩]⟩] } := by
  have e : (exampleIM h).getBallotStyle exampleBallot.styleId =
      some ⟨"style".toList, ["d".toList, "e".toList], [], []⟩ := by
    change exampleManifest.styles.find? (fun s => s.objectId = "style".toList) = _
    decide +kernel
  have h1 : exampleContestP.desc.getSelections S = exampleContest.selections := by
    refine sort_of_sorted S _ _ ?_ ?_ <;> decide +kernel
  have h2 : exampleContestP2.desc.getSelections S = exampleContest.selections := by
    refine sort_of_sorted S _ _ ?_ ?_ <;> decide +kernel
  have e1 : emplaceFrom S exampleBallot exampleContestP2 =
      ⟨"c2".toList, [⟨"s1".toList, 0, false, []⟩, ⟨"s2".toList, 0, false, []⟩]⟩ := by
    unfold emplaceFrom emplaceContest contestFrom
    simp only [h2]
    decide +kernel
  have e2 : emplaceFrom S exampleBallot exampleContestP =
      ⟨"c".toList, [⟨"s1".toList, 0, false, []⟩, ⟨"s2".toList, 1, false, []⟩]⟩ := by
    unfold emplaceFrom emplaceContest contestFrom
    simp only [h1]
    decide +kernel
  rw [emplaceBallot, e]
  dsimp only
  rw [exampleIM_contests]
  simp [e1, e2]
  decide +kernel

end EG
