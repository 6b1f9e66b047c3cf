import Verif.Lemmas.Std
import Verif.Props.Hash

/-!
# Properties of the manifest (C41-C46, C49)
-/

namespace EG

/-! ## C49 -/

/-- C49: every election type is read back from its string. -/
theorem C49_election_type (v : ElectionType) : ∃ s, v.string = .ok s ∧ electionTypeOf s = .ok v := by
  cases v <;> exact ⟨_, rfl, by decide +kernel⟩

/-- C49: every reporting unit type is read back from its string. -/
theorem C49_reporting_unit_type (v : ReportingUnitType) :
    ∃ s, v.string = .ok s ∧ reportingUnitTypeOf s = .ok v := by
  cases v <;> exact ⟨_, rfl, by decide +kernel⟩

/-- C49: every ballot box state is read back from its string. -/
theorem C49_ballot_box_state (v : BallotBoxState) :
    ∃ s, v.string = .ok s ∧ ballotBoxStateOf s = .ok v := by
  cases v <;> exact ⟨_, rfl, by decide +kernel⟩

/-- C49: every vote variation but `approval` is read back from its string. -/
theorem C49_vote_variation_partial (v : VoteVariationType) (h : v ≠ .approval) :
    ∃ s, v.string = .ok s ∧ voteVariationTypeOf s = .ok v := by
  cases v <;> first | exact absurd rfl h | exact ⟨_, rfl, by decide +kernel⟩

/-- C49 is violated: `approval` is missing from the table.  Its string is read through the end of the
map (undefined behaviour), and the string "approval" is read as `unknown`. -/
theorem C49_violated :
    VoteVariationType.approval.string = .ub ∧
      voteVariationTypeOf "approval".toList = .ok .unknown := by
  constructor <;> decide +kernel

/-- C49: so the hash of an approval contest is undefined behaviour whatever else the contest says, and
with it the hash of every manifest that contains one (and no earlier failure). -/
theorem C49_approval_contest (G : Params) (C : Crypto) (c : ContestDesc) (h : c.variation = .approval) :
    c.hash G C = .ub := by
  rw [ContestDesc.hash, h, C49_violated.1]
  rfl

theorem findByValue_none {K : Type} (m : List (K × Str)) (s : Str) (h : ∀ e ∈ m, e.2 ≠ s) :
    findByValue m s = .throw .outOfRange := by
  rw [findByValue, List.find?_eq_none.2 (by simpa using h)]

theorem mem_map_string {K : Type} [DecidableEq K] (m : List (K × Str)) (hm : (m.map (·.1)).Nodup)
    (e : K × Str) (he : e ∈ m) : findKey m e.1 = .ok e.2 := by
  rw [findKey]
  cases h : m.find? (fun x => x.1 = e.1) with
  | none => exact absurd (List.find?_eq_none.1 h e he) (by simp)
  | some x =>
    have h1 := List.mem_of_find?_eq_some h
    have h2 := List.find?_some h
    have : x = e := List.inj_on_of_nodup_map hm h1 he (by simpa using h2)
    rw [this]

/-- C49: a string that is the name of no value is read as the unknown value, by all four readers. -/
theorem C49_unknown_strings (s : Str) :
    ((∀ v : ElectionType, v.string ≠ .ok s) → electionTypeOf s = .ok .unknown) ∧
      ((∀ v : ReportingUnitType, v.string ≠ .ok s) → reportingUnitTypeOf s = .ok .unknown) ∧
      ((∀ v : VoteVariationType, v.string ≠ .ok s) → voteVariationTypeOf s = .ok .unknown) ∧
      ((∀ v : BallotBoxState, v.string ≠ .ok s) → ballotBoxStateOf s = .ok .unknown) := by
  refine ⟨fun h => ?_, fun h => ?_, fun h => ?_, fun h => ?_⟩
  · rw [electionTypeOf, findByValue_none _ _ (fun e he hs => h e.1 (by
      rw [ElectionType.string, mem_map_string _ (by decide) e he, hs]))]
    rfl
  · rw [reportingUnitTypeOf, findByValue_none _ _ (fun e he hs => h e.1 (by
      rw [ReportingUnitType.string, mem_map_string _ (by decide) e he, hs]))]
    rfl
  · rw [voteVariationTypeOf, findByValue_none _ _ (fun e he hs => h e.1 (by
      rw [VoteVariationType.string, mem_map_string _ (by decide) e he, hs]))]
    rfl
  · rw [ballotBoxStateOf, findByValue_none _ _ (fun e he hs => h e.1 (by
      rw [BallotBoxState.string, mem_map_string _ (by decide) e he, hs]))]
    rfl

example : ∀ v : ElectionType, v.string ≠ .ok "General".toList := by
  intro v; cases v <;> decide +kernel

/-! ## C42 -/

/-- What a well-formed contest description is. -/
structure ContestDesc.WellFormed (c : ContestDesc) : Prop where
  elected : c.numberElected ≤ c.selections.length
  allowed : c.votesAllowed = 0 ∨ c.numberElected ≤ c.votesAllowed
  candidates : (c.selections.map (·.candidateId)).Nodup ∧ ∀ s ∈ c.selections, s.candidateId ≠ []
  ids : (c.selections.map (·.objectId)).Nodup ∧ ∀ s ∈ c.selections, s.objectId ≠ []
  seqs : (c.selections.map (·.seq)).Nodup

theorem filter_map_length {α β : Type} [DecidableEq β] (f : α → β) (p : β → Bool) (l : List α) :
    (setOf ((l.map f).filter p)).length = l.length ↔ (l.map f).Nodup ∧ ∀ s ∈ l, p (f s) = true := by
  have := setOf_filter_length_iff p (l.map f)
  rw [List.length_map] at this
  rw [this, and_comm]
  simp

/-- C42: `isValid` holds exactly for well-formed contest descriptions. -/
theorem C42_contest_valid (c : ContestDesc) : c.isValid = true ↔ c.WellFormed := by
  have h3 : (setOf (c.selections.map (·.seq))).length = c.selections.length ↔
      (c.selections.map (·.seq)).Nodup := by
    rw [← setOf_length_iff, List.length_map]
  simp only [ContestDesc.isValid, Bool.and_eq_true, decide_eq_true_eq, filter_map_length, h3]
  constructor
  · rintro ⟨⟨⟨⟨a, b⟩, d⟩, e⟩, f⟩
    exact ⟨a, b, by simpa using d, by simpa using e, f⟩
  · rintro ⟨a, b, d, e, f⟩
    exact ⟨⟨⟨⟨a, b⟩, by simpa using d⟩, by simpa using e⟩, f⟩

/-- A contest between two candidates. -/
def exampleContest : ContestDesc :=
  .make7 "c".toList "d".toList 1 .one_of_m 1 "name".toList
    [⟨"s1".toList, "a".toList, 1⟩, ⟨"s2".toList, "b".toList, 2⟩]

example : exampleContest.isValid = true := by decide +kernel

/-! ## C41 -/

/-- What a well-formed manifest is. -/
structure Manifest.WellFormed (m : Manifest) : Prop where
  units : (m.gpUnits.map (·.objectId)).Nodup ∧ ∀ u ∈ m.gpUnits, u.objectId ≠ []
  styles : (m.styles.map (·.objectId)).Nodup ∧ ∀ s ∈ m.styles, s.objectId ≠ []
  styleUnits : ∀ s ∈ m.styles, s.gpUnitIds ≠ [] ∧
    ∀ i ∈ s.gpUnitIds, ∃ u ∈ m.gpUnits, u.objectId = i
  parties : (m.parties.map (·.objectId)).Nodup ∧ ∀ p ∈ m.parties, p.objectId ≠ []
  candidates : (m.candidates.map (·.objectId)).Nodup ∧ ∀ c ∈ m.candidates, c.objectId ≠ []
  candidateParties : ∀ c ∈ m.candidates, c.partyId = [] ∨ ∃ p ∈ m.parties, p.objectId = c.partyId
  contests : (m.contests.map (·.objectId)).Nodup ∧ ∀ c ∈ m.contests, c.objectId ≠ []
  contestSeqs : (m.contests.map (·.seq)).Nodup
  contestsWellFormed : ∀ c ∈ m.contests, c.WellFormed
  contestDistricts : ∀ c ∈ m.contests, ∃ u ∈ m.gpUnits, u.objectId = c.districtId

theorem foldl_and {α : Type} (f : α → Bool) (l : List α) (b : Bool) :
    l.foldl (fun ok u => ok && f u) b = (b && l.all f) := by
  induction l generalizing b with
  | nil => simp
  | cons a l ih => rw [List.foldl_cons, ih, List.all_cons, Bool.and_assoc]

theorem styleLoop_flag (gp : List Str) (l : List BallotStyle) (ids : List Str) (ok : Bool) :
    (styleLoop gp l ids ok).2 = true ↔
      (ok = true ∧ ∀ s ∈ l, ∀ i ∈ s.gpUnitIds, i ∈ gp) ∧ ∀ s ∈ l, s.gpUnitIds ≠ [] := by
  induction l generalizing ids ok with
  | nil => simp [styleLoop]
  | cons s l ih =>
    rw [styleLoop]
    by_cases h : s.gpUnitIds.length = 0
    · rw [List.length_eq_zero_iff] at h
      simp [h]
    · simp only [h, if_false]
      rw [ih, foldl_and]
      rw [List.length_eq_zero_iff] at h
      simp only [Bool.and_eq_true, List.all_eq_true, List.contains_iff_mem, List.mem_cons,
        forall_eq_or_imp]
      tauto

theorem styleLoop_ids (gp : List Str) (l : List BallotStyle) (ids : List Str) (ok : Bool)
    (h : ∀ s ∈ l, s.gpUnitIds ≠ []) :
    (styleLoop gp l ids ok).1 =
      ((l.map (·.objectId)).filter (· ≠ [])).foldl setInsert ids := by
  induction l generalizing ids ok with
  | nil => rfl
  | cons s l ih =>
    have hs : s.gpUnitIds.length ≠ 0 := by
      have := h s (by simp)
      simpa using this
    rw [styleLoop]
    simp only [hs, if_false]
    rw [ih _ _ (fun t ht => h t (by simp [ht]))]
    by_cases h0 : s.objectId = []
    · simp [h0]
    · simp [h0]

/-- C41: `isValid` holds exactly for well-formed manifests. -/
theorem C41_manifest_valid (m : Manifest) : m.isValid = true ↔ m.WellFormed := by
  have hid : ∀ {α : Type} (f : α → Str) (l : List α),
      (idSet (l.map f)).length = l.length ↔ (l.map f).Nodup ∧ ∀ s ∈ l, f s ≠ [] := by
    intro α f l
    rw [idSet, filter_map_length]
    simp
  have hsq : (setOf (m.contests.map (·.seq))).length = m.contests.length ↔
      (m.contests.map (·.seq)).Nodup := by
    rw [← setOf_length_iff, List.length_map]
  simp only [Manifest.isValid, Bool.and_eq_true, decide_eq_true_eq, hid, hsq, styleLoop_flag,
    List.all_eq_true, C42_contest_valid, List.contains_iff_mem, mem_idSet, List.mem_map,
    Bool.or_eq_true, Bool.not_eq_true', List.isEmpty_iff, List.isEmpty_eq_false_iff]
  constructor
  · rintro ⟨⟨⟨⟨a, b1, ⟨-, b2⟩, b3⟩, d⟩, e1, e2⟩, ⟨⟨f1, f2⟩, f3⟩, f4⟩
    rw [styleLoop_ids _ _ _ _ b3] at b1
    have b1' := (hid (fun s : BallotStyle => s.objectId) m.styles).1 b1
    refine ⟨a, b1', fun s hs => ⟨b3 s hs, fun i hi => (b2 s hs i hi).1⟩, d, e1, ?_, f1, f2, f3, ?_⟩
    · intro c hc
      rcases e2 c hc with h | h
      · exact Or.inl h
      · exact Or.inr h.1
    · intro c hc
      exact (f4 c hc).2.1
  · rintro ⟨a, b, su, p, c, cp, k, ks, kw, kd⟩
    refine ⟨⟨⟨⟨a, ?_, ⟨trivial, ?_⟩, fun s hs => (su s hs).1⟩, p⟩, c, ?_⟩, ⟨⟨k, ks⟩, kw⟩, ?_⟩
    · rw [styleLoop_ids _ _ _ _ (fun s hs => (su s hs).1)]
      exact (hid (fun s : BallotStyle => s.objectId) m.styles).2 b
    · intro s hs i hi
      obtain ⟨u, hu, rfl⟩ := (su s hs).2 i hi
      exact ⟨⟨u, hu, rfl⟩, a.2 u hu⟩
    · intro x hx
      rcases cp x hx with h | ⟨q, hq, h⟩
      · exact Or.inl h
      · exact Or.inr ⟨⟨q, hq, h⟩, h ▸ p.2 q hq⟩
    · intro x hx
      obtain ⟨u, hu, h⟩ := kd x hx
      exact ⟨h ▸ a.2 u hu, ⟨u, hu, h⟩, h ▸ a.2 u hu⟩

/-- A small manifest: two districts, one style for both. -/
def exampleManifest : Manifest where
  scopeId := "scope".toList
  type := .general
  startDate := "2021-02-04T13:30:10Z".toList
  endDate := "2021-02-05T13:30:10Z".toList
  gpUnits := [⟨"d".toList, "D".toList, .county, none⟩, ⟨"e".toList, "E".toList, .city, none⟩]
  parties := [⟨"p".toList, none, [], [], []⟩]
  candidates := [⟨"a".toList, none, "p".toList, [], false⟩, ⟨"b".toList, none, [], [], false⟩]
  contests := [exampleContest, { exampleContest with
    objectId := "c2".toList, districtId := "e".toList, seq := 0 }]
  styles := [⟨"style".toList, ["d".toList, "e".toList], [], []⟩]
  name := none
  contact := none

example : exampleManifest.isValid = true := by decide +kernel

/-! ## C43 -/

theorem decimal_ne_zero_char (n : ℕ) : decimal n ≠ ['0'] := by
  intro h
  unfold decimal at h
  rw [List.map_eq_cons_iff] at h
  obtain ⟨d, l, h1, h2, h3⟩ := h
  rw [List.map_eq_nil_iff] at h3
  subst h3
  have h4 : Nat.digits 10 n = [d] := by
    have := congrArg List.reverse h1
    simpa using this
  have hn : n ≠ 0 := by
    rintro rfl
    simp at h4
  have h5 := Nat.getLast_digit_ne_zero 10 hn
  have h6 : d < 10 := Nat.digits_lt_base (b := 10) (m := n) (by decide) (by rw [h4]; simp)
  simp only [h4, List.getLast_singleton] at h5
  interval_cases d <;> revert h2 h5 <;> decide

theorem decimalU64_inj (m n : ℕ) (h : placeholderFrom.decimalU64 m = placeholderFrom.decimalU64 n) :
    m = n := by
  unfold placeholderFrom.decimalU64 at h
  split at h <;> split at h
  · omega
  · exact absurd h.symm (decimal_ne_zero_char n)
  · exact absurd h (decimal_ne_zero_char m)
  · exact decimal_inj _ _ h

theorem maxSeq32_aux (l : List SelectionDesc) (m : ℕ) (h : ∀ s ∈ l, s.seq < 2 ^ 32) :
    m ≤ l.foldl (fun m s => if s.seq > m then s.seq % 2 ^ 32 else m) m ∧
      (∀ s ∈ l, s.seq ≤ l.foldl (fun m s => if s.seq > m then s.seq % 2 ^ 32 else m) m) ∧
      (l.foldl (fun m s => if s.seq > m then s.seq % 2 ^ 32 else m) m = m ∨
        ∃ s ∈ l, s.seq = l.foldl (fun m s => if s.seq > m then s.seq % 2 ^ 32 else m) m) := by
  induction l generalizing m with
  | nil => simp
  | cons a l ih =>
    have ha : a.seq % 2 ^ 32 = a.seq := Nat.mod_eq_of_lt (h a (by simp))
    rw [List.foldl_cons, ha]
    obtain ⟨h1, h2, h3⟩ := ih (if a.seq > m then a.seq else m) (fun s hs => h s (by simp [hs]))
    by_cases hm : a.seq > m
    · rw [if_pos hm] at *
      refine ⟨by omega, ?_, ?_⟩
      · intro s hs
        rcases List.mem_cons.1 hs with rfl | hs
        · exact h1
        · exact h2 s hs
      · rcases h3 with h3 | ⟨s, hs, h3⟩
        · exact Or.inr ⟨a, by simp, h3.symm⟩
        · exact Or.inr ⟨s, by simp [hs], h3⟩
    · rw [if_neg hm] at *
      refine ⟨h1, ?_, ?_⟩
      · intro s hs
        rcases List.mem_cons.1 hs with rfl | hs
        · omega
        · exact h2 s hs
      · rcases h3 with h3 | ⟨s, hs, h3⟩
        · exact Or.inl h3
        · exact Or.inr ⟨s, by simp [hs], h3⟩

/-- C43: there are exactly as many placeholders as seats. -/
theorem C43_count (S : StdSort) (c : ContestDesc) : (placeholdersFor S c).length = c.numberElected := by
  simp [placeholdersFor]

/-- C43 for sequence numbers below `2^32 - 1`: placeholders have distinct ids and consecutive sequence
numbers directly above every real selection of the contest. -/
theorem C43_distinct_partial (S : StdSort) (c : ContestDesc)
    (hs : ∀ s ∈ c.selections, s.seq + 1 < 2 ^ 32) (hn : c.numberElected < 2 ^ 63) :
    ((placeholdersFor S c).map (·.objectId)).Nodup ∧
      ((placeholdersFor S c).map (·.candidateId)).Nodup ∧
      ((placeholdersFor S c).map (·.seq)).Nodup ∧
      (∀ p ∈ placeholdersFor S c, ∀ s ∈ c.selections, s.seq < p.seq) ∧
      (∀ p ∈ placeholdersFor S c, p.seq < 2 ^ 64) := by
  obtain ⟨h1, h2, h3⟩ := maxSeq32_aux (c.getSelections S) 0 (by
    intro s h; have := hs s (by simpa [ContestDesc.getSelections] using h); omega)
  set m := (c.getSelections S).foldl (fun m s => if s.seq > m then s.seq % 2 ^ 32 else m) 0 with hm
  have hm1 : m + 1 < 2 ^ 32 := by
    rcases h3 with h3 | ⟨s, h, h3⟩
    · omega
    · have := hs s (by simpa [ContestDesc.getSelections] using h)
      omega
  have key : placeholdersFor S c =
      (List.range c.numberElected).map (fun i => placeholderFrom c.objectId (m + 1 + i)) := by
    simp only [placeholdersFor]
    refine List.map_congr_left fun i hi => ?_
    rw [List.mem_range] at hi
    have e1 : maxSeq32 (c.getSelections S) = m := rfl
    rw [e1, Nat.mod_eq_of_lt hm1, Nat.mod_eq_of_lt (by omega)]
  rw [key]
  simp only [List.map_map]
  refine ⟨?_, ?_, ?_, ?_, ?_⟩
  · refine List.Nodup.map_on ?_ List.nodup_range
    intro i _ j _ h
    simp only [Function.comp, placeholderFrom, List.append_assoc, List.append_cancel_left_eq] at h
    have := decimalU64_inj _ _ ((List.append_cancel_right_eq _ _ _).mp h)
    omega
  · refine List.Nodup.map_on ?_ List.nodup_range
    intro i _ j _ h
    simp only [Function.comp, placeholderFrom, List.append_assoc, List.append_cancel_left_eq] at h
    have := decimalU64_inj _ _ ((List.append_cancel_right_eq _ _ _).mp h)
    omega
  · refine List.Nodup.map_on ?_ List.nodup_range
    intro i _ j _ h
    simp only [Function.comp, placeholderFrom] at h
    omega
  · intro p hp s h
    rw [List.mem_map] at hp
    obtain ⟨i, -, rfl⟩ := hp
    have := h2 s (by simpa [ContestDesc.getSelections] using h)
    change s.seq < m + 1 + i
    omega
  · intro p hp
    rw [List.mem_map] at hp
    obtain ⟨i, hi, rfl⟩ := hp
    rw [List.mem_range] at hi
    change m + 1 + i < 2 ^ 64
    omega

example : (∀ s ∈ exampleContest.selections, s.seq + 1 < 2 ^ 32) ∧
    exampleContest.numberElected < 2 ^ 63 := by decide +kernel

theorem placeholdersFor_congr (S S' : StdSort) (c : ContestDesc)
    (h : c.getSelections S = c.getSelections S') : placeholdersFor S c = placeholdersFor S' c := by
  simp only [placeholdersFor, h]

/-- A valid contest with a sequence number of `2^32`. -/
def truncatedContest : ContestDesc :=
  { exampleContest with selections := [⟨"s1".toList, "a".toList, 1⟩, ⟨"s2".toList, "b".toList, 2 ^ 32⟩] }

/-- C43 is violated (1): the largest sequence number is truncated to 32 bits; the placeholder of this
valid contest gets the sequence number of the first real selection. -/
theorem C43_truncation_violated (S : StdSort) :
    truncatedContest.isValid = true ∧
      ∃ p ∈ placeholdersFor S truncatedContest, ∃ s ∈ truncatedContest.selections, p.seq = s.seq := by
  refine ⟨by decide +kernel, ?_⟩
  have h : truncatedContest.getSelections S = truncatedContest.selections := by
    refine sort_of_sorted S _ _ ?_ ?_ <;> decide +kernel
  simp only [placeholdersFor, h]
  decide +kernel

/-- A valid contest whose only selection is called like a placeholder. -/
def clashingContest : ContestDesc :=
  { exampleContest with selections := [⟨"c-2-placeholder".toList, "a".toList, 1⟩] }

/-- C43 is violated (2): a real selection may already have the id that is generated for a placeholder;
no check of the library notices. -/
theorem C43_id_violated (S : StdSort) :
    clashingContest.isValid = true ∧
      ∃ p ∈ placeholdersFor S clashingContest, ∃ s ∈ clashingContest.selections,
        p.objectId = s.objectId := by
  refine ⟨by decide +kernel, ?_⟩
  have h : clashingContest.getSelections S = clashingContest.selections := by
    refine sort_of_sorted S _ _ ?_ ?_ <;> decide +kernel
  simp only [placeholdersFor, h]
  decide +kernel

/-! ## C44 -/

theorem mem_contestsOfUnits (cs : List ContestDescP) (us : List Str) (c : ContestDescP) :
    c ∈ contestsOfUnits cs us ↔ c ∈ cs ∧ c.desc.districtId ∈ us := by
  simp only [contestsOfUnits, List.mem_flatMap, List.mem_map, List.mem_filter, decide_eq_true_eq]
  constructor
  · rintro ⟨d, hd, u, ⟨hu, rfl⟩, rfl⟩
    exact ⟨hd, hu⟩
  · rintro ⟨h1, h2⟩
    exact ⟨c, h1, _, ⟨h2, rfl⟩, rfl⟩

theorem contestsOfUnits_nodup (cs : List ContestDescP) (us : List Str) (h : us.Nodup) :
    contestsOfUnits cs us = cs.filter (fun c => us.contains c.desc.districtId) := by
  induction cs with
  | nil => rfl
  | cons c cs ih =>
    have e : contestsOfUnits (c :: cs) us =
        (us.filter (fun u => c.desc.districtId = u)).map (fun _ => c) ++ contestsOfUnits cs us := rfl
    rw [e, ih, List.filter_cons]
    have h1 : us.filter (fun u => decide (c.desc.districtId = u)) =
        if us.contains c.desc.districtId then [c.desc.districtId] else [] := by
      have hc : us.filter (fun u => decide (c.desc.districtId = u)) =
          List.replicate (us.count c.desc.districtId) c.desc.districtId := by
        rw [← List.filter_eq]
        exact List.filter_congr (fun u _ => by simp [eq_comm])
      by_cases hm : c.desc.districtId ∈ us
      · have h3 := List.count_eq_one_of_mem h hm
        rw [h3] at hc
        rw [if_pos (by simpa using hm)]
        exact hc
      · have h3 := List.count_eq_zero_of_not_mem hm
        rw [h3] at hc
        rw [if_neg (by simpa using hm)]
        exact hc
    rw [h1]
    by_cases hm : c.desc.districtId ∈ us
    · simp [hm]
    · simp [hm]

/-- C44: the result contains exactly the contests of the style's districts, sorted; this holds for
every style the manifest knows. -/
theorem C44_contests (S : StdSort) (m : IManifest) (id : Str) (r : List ContestDescP)
    (h : m.getContestsFor S id = .ok r) :
    ∃ style ∈ m.styles, style.objectId = id ∧
      (∀ c, c ∈ r ↔ c ∈ m.contests ∧ c.desc.districtId ∈ style.gpUnitIds) ∧
      r.Pairwise (fun a b => a.desc.seq ≤ b.desc.seq) := by
  rw [IManifest.getContestsFor] at h
  cases hs : m.getBallotStyle id with
  | none => simp [hs] at h
  | some style =>
    rw [hs] at h
    by_cases he : style.gpUnitIds.isEmpty
    · simp [he] at h
    · simp only [he, Bool.false_eq_true, if_false, Res.ok.injEq] at h
      subst h
      refine ⟨style, List.mem_of_find?_eq_some hs, by simpa using List.find?_some hs, ?_, S.sorted _ _⟩
      intro c
      rw [mem_sort, mem_contestsOfUnits]

/-- C44: each once, if the style lists every district once and contests have distinct sequence
numbers: then the result is determined, whatever `std::sort` does. -/
theorem C44_each_once_partial (S : StdSort) (m : IManifest) (id : Str) (r : List ContestDescP)
    (h : m.getContestsFor S id = .ok r)
    (hu : ∀ style ∈ m.styles, style.objectId = id → style.gpUnitIds.Nodup)
    (hd : (m.contests.map (fun c => c.desc.seq)).Nodup) :
    r.Nodup ∧ (r.map (fun c => c.desc.seq)).Pairwise (· < ·) := by
  rw [IManifest.getContestsFor] at h
  cases hs : m.getBallotStyle id with
  | none => simp [hs] at h
  | some style =>
    rw [hs] at h
    by_cases he : style.gpUnitIds.isEmpty
    · simp [he] at h
    · simp only [he, Bool.false_eq_true, if_false, Res.ok.injEq] at h
      have hus := hu style (List.mem_of_find?_eq_some hs) (by simpa using List.find?_some hs)
      rw [contestsOfUnits_nodup _ _ hus] at h
      have h1 : ((m.contests.filter (fun c => style.gpUnitIds.contains c.desc.districtId)).map
          (fun c => c.desc.seq)).Nodup := hd.sublist ((List.filter_sublist).map _)
      have h2 : (r.map (fun c => c.desc.seq)).Nodup := by
        rw [← h]
        exact ((S.perm _ _).map _).nodup_iff.2 h1
      refine ⟨List.Nodup.of_map _ h2, ?_⟩
      have h3 : (r.map (fun c => c.desc.seq)).Pairwise (· ≤ ·) := by
        rw [← h, List.pairwise_map]
        exact S.sorted _ _
      exact (List.pairwise_and_iff.2 ⟨h3, h2⟩).imp (fun ⟨a, b⟩ => lt_of_le_of_ne a b)

/-- C44: the call is refused exactly if the first style with this id has no districts or there is no
such style. -/
theorem C44_refused (S : StdSort) (m : IManifest) (id : Str) :
    m.getContestsFor S id = .throw .runtimeError ↔
      ((∀ style ∈ m.styles, style.objectId ≠ id) ∨
        ∃ style, m.styles.find? (fun s => s.objectId = id) = some style ∧ style.gpUnitIds = []) := by
  rw [IManifest.getContestsFor]
  cases hs : m.getBallotStyle id with
  | none =>
    simp only [true_iff]
    left
    simpa using List.find?_eq_none.1 hs
  | some style =>
    have h1 := List.mem_of_find?_eq_some hs
    have h2 := List.find?_some hs
    by_cases he : style.gpUnitIds.isEmpty
    · simp only [he, if_true, true_iff]
      right
      exact ⟨style, hs, by simpa using he⟩
    · simp only [he, Bool.false_eq_true, if_false, reduceCtorEq, false_iff]
      rintro (h | ⟨t, ht, h⟩)
      · exact h style h1 (by simpa using h2)
      · rw [IManifest.getBallotStyle] at hs
        rw [hs] at ht
        cases ht
        simp [h] at he

/-- The example manifest with a style that names one district twice. -/
def twiceManifest : Manifest :=
  { exampleManifest with styles := [⟨"style".toList, ["d".toList, "d".toList], [], []⟩] }

/-- The internal form of `exampleContest`. -/
def exampleContestP : ContestDescP :=
  { desc := exampleContest, placeholders := [placeholderFrom "c".toList 3] }

def exampleContestP2 : ContestDescP :=
  { desc := { exampleContest with objectId := "c2".toList, districtId := "e".toList, seq := 0 }
    placeholders := [placeholderFrom "c2".toList 3] }

theorem contestsWithPlaceholders_example (S : StdSort) (m : Manifest)
    (h : m.contests = exampleManifest.contests) :
    contestsWithPlaceholders S m = .ok [exampleContestP2, exampleContestP] := by
  have h1 : S.sort ContestDesc.seq m.contests =
      [{ exampleContest with objectId := "c2".toList, districtId := "e".toList, seq := 0 },
        exampleContest] := by
    refine (sorted_unique ContestDesc.seq _ _ ?_ ?_ (S.sorted _ _) ?_).symm
    · rw [h]
      exact (List.Perm.swap _ _ _).trans (S.perm _ exampleManifest.contests).symm
    · decide +kernel
    · decide +kernel
  have h2 : ∀ c : ContestDesc, c.selections = exampleContest.selections →
      c.getSelections S = exampleContest.selections := by
    intro c hc
    rw [ContestDesc.getSelections, hc]
    refine sort_of_sorted S _ _ ?_ ?_ <;> decide +kernel
  rw [contestsWithPlaceholders, h1]
  simp only [mapRes]
  have h3 := h2 exampleContest rfl
  have h4 := h2 { exampleContest with objectId := "c2".toList, districtId := "e".toList, seq := 0 } rfl
  simp only [placeholdersFor, h3, h4]
  decide +kernel

/-- C44 is violated: the manifest passes `isValid`, and the contest of the district that the style
names twice is returned twice, so it would appear twice on every ballot of the style. -/
theorem C44_violated (G : Params) (C : Crypto) (S : StdSort) :
    twiceManifest.isValid = true ∧
      ∃ im, IManifest.ofManifest G C S twiceManifest = .ok im ∧
        im.getContestsFor S "style".toList = .ok [exampleContestP, exampleContestP] := by
  refine ⟨by decide +kernel, ?_⟩
  have h1 := contestsWithPlaceholders_example S twiceManifest rfl
  obtain ⟨h, hh⟩ : ∃ h, twiceManifest.hash G C = .ok h := ⟨_, rfl⟩
  refine ⟨⟨twiceManifest.gpUnits, twiceManifest.candidates, [exampleContestP2, exampleContestP],
    twiceManifest.styles, h⟩, ?_, ?_⟩
  · rw [IManifest.ofManifest, h1, hh]
    rfl
  · have e : IManifest.getBallotStyle ⟨twiceManifest.gpUnits, twiceManifest.candidates,
        [exampleContestP2, exampleContestP], twiceManifest.styles, h⟩ "style".toList =
        some ⟨"style".toList, ["d".toList, "d".toList], [], []⟩ := by
      change twiceManifest.styles.find? (fun s => s.objectId = "style".toList) = _
      decide +kernel
    rw [IManifest.getContestsFor, e]
    have e2 : contestsOfUnits [exampleContestP2, exampleContestP] ["d".toList, "d".toList] =
        [exampleContestP, exampleContestP] := by decide +kernel
    simp only [e2]
    have e3 : S.sort (fun c : ContestDescP => c.desc.seq) [exampleContestP, exampleContestP] =
        [exampleContestP, exampleContestP] := by
      refine sort_of_sorted S _ _ ?_ ?_ <;> decide +kernel
    rw [e3]
    rfl

/-! ## C45 -/

/-- C45: exactly which contest descriptions are copied faithfully.  With a title a subtitle is
needed. -/
theorem C45_clone_partial (c : ContestDesc) :
    c.clone = .ok c ↔
      c.primaryPartyIds = [] ∧
        ((c.title ≠ none ∧ c.subtitle ≠ none) ∨
          (c.title = none ∧ c.subtitle = none ∧
            c.votesAllowed = if c.variation = .n_of_m ∨ c.variation = .one_of_m
              then c.numberElected else 0)) := by
  obtain ⟨o, d, sq, v, n, va, nm, t, st, sel, pp⟩ := c
  cases t <;> cases st <;>
    simp [ContestDesc.clone, ContestDesc.make7, ContestDesc.make10, defaultVotesAllowed, eq_comm,
      and_comm]

example : exampleContest.clone = .ok exampleContest := by decide +kernel

/-- C45: when the copy is made, ids, numbers, names and selections survive in any case; only
`votesAllowed`, subtitle and primary parties may be lost. -/
theorem C45_preserved_partial (c d : ContestDesc) (h : c.clone = .ok d) :
    d.objectId = c.objectId ∧ d.districtId = c.districtId ∧ d.seq = c.seq ∧
      d.variation = c.variation ∧ d.numberElected = c.numberElected ∧ d.name = c.name ∧
      d.selections = c.selections ∧ d.title = c.title := by
  obtain ⟨o, dd, sq, v, n, va, nm, t, st, sel, pp⟩ := c
  cases t <;> cases st <;>
    simp [ContestDesc.clone, ContestDesc.make7, ContestDesc.make10] at h <;> subst h <;> simp

/-- A valid contest in which two of three may be chosen for one seat. -/
def pluralityContest : ContestDesc :=
  { exampleContest with
    variation := .plurality, votesAllowed := 2
    selections := exampleContest.selections ++ [⟨"s3".toList, "x".toList, 3⟩] }

/-- C45 is violated: a valid contest whose copy has another `votesAllowed` and (for some hash
function) another hash. -/
theorem C45_violated :
    pluralityContest.isValid = true ∧
      ∃ d, pluralityContest.clone = .ok d ∧ d.votesAllowed = 0 ∧ pluralityContest.votesAllowed = 2 ∧
        ∃ C : Crypto, d.hash .std C ≠ pluralityContest.hash .std C := by
  refine ⟨by decide +kernel, _, rfl, rfl, rfl, demoCrypto, by decide +kernel⟩

/-- C45: a title without a subtitle is undefined behaviour, in the copy and in the hash. -/
theorem C45_title_without_subtitle (G : Params) (C : Crypto) (c : ContestDesc) (t : IText)
    (ht : c.title = some t) (hs : c.subtitle = none) (hv : c.variation ≠ .approval) :
    c.clone = .ub ∧ c.hash G C = .ub := by
  obtain ⟨s, h1, -⟩ := C49_vote_variation_partial c.variation hv
  simp only [ContestDesc.clone, ContestDesc.hash, ht, hs, h1]
  exact ⟨trivial, rfl⟩

end EG
