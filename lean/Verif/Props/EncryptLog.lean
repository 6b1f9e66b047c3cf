import Verif.Lemmas.EncryptLog
import Verif.Props.CompactTotal

/-!
# C104: what the log of an encryption says about the votes
-/

namespace EG.Log

variable (G : Params) (C : Crypto) (S : StdSort)

/-- What a line says besides its value: the level, the message and the calling function. -/
def Line.shape (l : Line) : Level × Str × Option Str := (l.level, l.msg, l.extra.map Prod.fst)

/-- The contest of the ballot for the description, with missing selections filled in, is overvoted. -/
def OvervotedIn (b : PBallot) (d : ContestDescP) : Prop :=
  (emplaceFrom S b d).Overvoted d.desc.numberElected d.desc.votesAllowed

/-- Votes are 32-bit numbers (in the C interface) and there are fewer than 2^32 selections. -/
structure Bounded (b : PBallot) (ds : List ContestDescP) : Prop where
  votes : ∀ c ∈ b.contests, ∀ s ∈ c.selections, s.vote < 2 ^ 32
  selections : ∀ d ∈ ds, d.desc.selections.length < 2 ^ 32

/-! ## Checks of a contest -/

theorem total_lt (b : PBallot) (ds : List ContestDescP) (hb : Bounded b ds) (d : ContestDescP)
    (hd : d ∈ ds) : (emplaceFrom S b d).total < 2 ^ 64 ∧
      (emplaceFrom S b d).selections.length = d.desc.selections.length := by
  have hnorm := emplaceFrom_normal S b d
  have hvote : ∀ s ∈ (emplaceFrom S b d).selections, s.vote < 2 ^ 32 := by
    intro s hs
    obtain ⟨sd, -, hn⟩ := forall₂_mem_right hnorm s hs
    rcases hn with ⟨c0, ⟨b1, b2, hb', -, -⟩, ⟨c1, c2, hc, -, -⟩⟩ | ⟨-, hn⟩
    · exact hb.votes c0 (by rw [hb']; simp) s (by rw [hc]; simp)
    · rw [hn]; norm_num
  have hlen : (emplaceFrom S b d).selections.length = d.desc.selections.length := by
    rw [← hnorm.length_eq]; simp [ContestDesc.getSelections]
  refine ⟨?_, hlen⟩
  have : (emplaceFrom S b d).total ≤ (emplaceFrom S b d).selections.length * 2 ^ 32 := by
    unfold PContest.total
    have := List.sum_le_card_nsmul ((emplaceFrom S b d).selections.map (·.vote)) (2 ^ 32) (by
      intro v hv
      obtain ⟨s, hs, rfl⟩ := List.mem_map.1 hv
      exact le_of_lt (hvote s hs))
    simpa using this
  rw [hlen] at this
  have := hb.selections d hd
  omega

theorem counts_eq (c : PContest) (ht : c.total < 2 ^ 64) :
    countVotes c.selections 0 0 = (c.marked, c.total) := by
  rw [countVotes_eq]
  by_cases hl : c.selections = []
  · simp [PContest.marked, PContest.total, hl]
  · rw [if_neg hl, Nat.zero_add, Nat.zero_add]
    exact congrArg₂ _ rfl (Nat.mod_eq_of_lt ht)

/-- The lines of the check of a contest with a proper id and number of selections. -/
theorem contestCheck_eq (b : PBallot) (ds : List ContestDescP) (hb : Bounded b ds) (d : ContestDescP)
    (hd : d ∈ ds) :
    contestCheck (emplaceFrom S b d) d.desc.objectId (d.desc.getSelections S).length
      d.desc.numberElected d.desc.votesAllowed =
    (if d.desc.numberElected < (emplaceFrom S b d).marked then [plain .info ": too many elections"]
      else if (if d.desc.votesAllowed = 0 then d.desc.numberElected else d.desc.votesAllowed) <
        (emplaceFrom S b d).total then [plain .info ": too many votes"] else []) := by
  obtain ⟨h1, h2⟩ := total_lt S b ds hb d hd
  have h3 : (d.desc.getSelections S).length = d.desc.selections.length := (S.perm _ _).length_eq
  unfold contestCheck
  rw [if_neg (by rw [emplaceFrom_id]; simp), if_neg (by omega), counts_eq _ h1]

theorem isOver_iff (b : PBallot) (ds : List ContestDescP) (hb : Bounded b ds) (d : ContestDescP)
    (hd : d ∈ ds) : isOver S (emplaceFrom S b d) d = true ↔ OvervotedIn S b d := by
  obtain ⟨h1, h2⟩ := total_lt S b ds hb d hd
  have h3 : (d.desc.getSelections S).length = d.desc.selections.length := (S.perm _ _).length_eq
  obtain ⟨-, -, k3, k4⟩ := contest_isValid_eq (emplaceFrom S b d) d.desc.objectId
    (d.desc.getSelections S).length d.desc.numberElected d.desc.votesAllowed true h1
  unfold isOver OvervotedIn
  by_cases ho : (emplaceFrom S b d).Overvoted d.desc.numberElected d.desc.votesAllowed
  · simp [ho, k3 (emplaceFrom_id S b d) (by omega) ho]
  · simp [ho, k4 (emplaceFrom_id S b d) (by omega) ho]

theorem contestCheck_nil (b : PBallot) (ds : List ContestDescP) (hb : Bounded b ds) (d : ContestDescP)
    (hd : d ∈ ds) (ho : ¬ OvervotedIn S b d) :
    contestCheck (emplaceFrom S b d) d.desc.objectId (d.desc.getSelections S).length
      d.desc.numberElected d.desc.votesAllowed = [] := by
  rw [contestCheck_eq S b ds hb d hd]
  unfold OvervotedIn PContest.Overvoted at ho
  rw [not_or] at ho
  rw [if_neg ho.1, if_neg ho.2]

/-! ## At the level info -/

theorem shown_append (min : Level) (a b : List Line) : shown min (a ++ b) = shown min a ++ shown min b := by
  simp [shown]

theorem shown_trace (l : List Line) (h : ∀ x ∈ l, x.level = .trace) : shown .info l = [] := by
  unfold shown
  rw [List.filter_eq_nil_iff.2, List.map_nil]
  intro x hx
  simp [h x hx, Level.rank]

theorem itext_trace (t : IText) : ∀ x ∈ itext G C t, x.level = .trace := by
  intro x hx
  simp only [itext, language, List.mem_append, List.mem_flatMap, List.mem_singleton] at hx
  rcases hx with ⟨_, -, rfl⟩ | rfl <;> rfl

theorem contestDesc_trace (d : ContestDesc) (hash : ℕ) : ∀ x ∈ contestDesc G C d hash, x.level = .trace := by
  intro x hx
  simp only [contestDesc, List.mem_append, List.mem_singleton] at hx
  rcases hx with ((hx | hx) | hx) | rfl
  · cases ht : d.title with
    | none => rw [ht] at hx; simp at hx
    | some t => rw [ht] at hx; exact itext_trace G C t x hx
  · cases ht : d.title with
    | none => rw [ht] at hx; simp at hx
    | some t =>
      cases hs : d.subtitle with
      | none => rw [ht, hs] at hx; simp at hx
      | some s => rw [ht, hs] at hx; exact itext_trace G C s x hx
  · simp only [selectionDesc, List.mem_flatMap, List.mem_singleton] at hx
    obtain ⟨_, -, rfl⟩ := hx
    rfl
  · rfl

theorem selLines_trace (pub : ℕ) (verify : Bool) (d : SelectionDesc) (v : ℕ) (q : Bool) (c : Ciphertext) :
    ∀ x ∈ selLines G C pub verify d v q c, x.level = .trace := by
  cases q <;> cases verify <;>
    simp [selLines, selectionDesc, elgamal, elgamalPrecomputed, proofStart, proofPrecomputed, proofValid,
      plain, valued]

theorem itemLines_trace (pub : ℕ) (verify : Bool) (items : List Item) (quads : ℕ) :
    ∀ x ∈ itemLines G C pub verify items quads, x.level = .trace := by
  induction items generalizing quads with
  | nil => simp [itemLines]
  | cons i items ih =>
    intro x hx
    rw [itemLines, List.mem_append] at hx
    rcases hx with hx | hx
    · exact selLines_trace G C _ _ _ _ _ _ x hx
    · exact ih _ x hx

theorem shown_contest (pub : ℕ) (verify : Bool) (c : PContest) (d : ContestDescP) (hash : ℕ)
    (items : List Item) (quads : ℕ) :
    shown .info (contestLines G C S pub verify c d hash items quads) =
      shown .info (contestCheck c d.desc.objectId (d.desc.getSelections S).length d.desc.numberElected
        d.desc.votesAllowed) ++
      shown .info (countWarning (if isOver S c d then 0 else d.desc.numberElected)
        d.desc.votesAllowed) := by
  unfold contestLines
  simp only [shown_append]
  rw [shown_trace _ (contestDesc_trace G C d.desc hash), shown_trace _ (itemLines_trace G C _ _ _ _),
    shown_trace constStart (by simp [constStart, plain]),
    shown_trace (if verify then constValid else []) (by cases verify <;> simp [constValid, plain])]
  simp

theorem shown_parts (pub : ℕ) (verify : Bool) (b : PBallot) (parts : List Part) (quads : ℕ) :
    shown .info (partLines G C S pub verify b parts quads) =
      (parts.map Part.desc).flatMap (fun d =>
        shown .info (contestCheck (emplaceFrom S b d) d.desc.objectId (d.desc.getSelections S).length
          d.desc.numberElected d.desc.votesAllowed) ++
        shown .info (countWarning (if isOver S (emplaceFrom S b d) d then 0 else d.desc.numberElected)
          d.desc.votesAllowed)) := by
  induction parts generalizing quads with
  | nil => rfl
  | cons p parts ih =>
    rw [partLines, shown_append, shown_contest, ih]
    rfl

theorem ballotChecks_trace (e : CBallot) : ∀ x ∈ ballotChecks S e, x.level = .trace := by
  intro x hx
  simp only [ballotChecks, List.mem_flatMap, List.mem_append] at hx
  obtain ⟨c, -, ⟨s, -, hx⟩ | hx⟩ := hx
  · simp only [proofValid, plain, List.mem_cons, List.not_mem_nil, or_false] at hx
    rcases hx with rfl | rfl <;> rfl
  · simp only [constValid, plain, List.mem_cons, List.not_mem_nil, or_false] at hx
    rcases hx with rfl | rfl <;> rfl

theorem ballotEnd_trace (verify : Bool) (e : CBallot) : ∀ x ∈ ballotEnd S verify e, x.level = .trace := by
  intro x hx
  unfold ballotEnd at hx
  cases verify with
  | false => simp only [Bool.false_eq_true, if_false, List.mem_singleton] at hx; rw [hx]; rfl
  | true =>
    simp only [if_true, List.mem_append, List.mem_singleton] at hx
    rcases hx with hx | rfl
    · exact ballotChecks_trace S e x hx
    · rfl

theorem shown_ballot (b : PBallot) (m : IManifest) (ctx : Context) (codeSeed : ℕ) (nonce : Option ℕ)
    (timestamp : ℕ) (verify : Bool) (w w' : World) (e : CBallot) (l : List Line)
    (ds : List ContestDescP) (hds : m.getContestsFor S b.styleId = .ok ds) (hgood : GoodContests ds)
    (h : encryptBallot G C S b m ctx codeSeed nonce timestamp verify w = (.ok e, w', l)) :
    shown .info l = ds.flatMap (fun d =>
      shown .info (contestCheck (emplaceFrom S b d) d.desc.objectId (d.desc.getSelections S).length
        d.desc.numberElected d.desc.votesAllowed) ++
      shown .info (countWarning (if isOver S (emplaceFrom S b d) d then 0 else d.desc.numberElected)
        d.desc.votesAllowed)) := by
  obtain ⟨parts, h1, -, -, -, rfl⟩ := ballot_ok G C S b m ctx codeSeed nonce timestamp verify w w' e l ds
    hds hgood h
  rw [shown_append, shown_append, shown_parts, h1, shown_trace _ (ballotEnd_trace S verify e),
    shown_trace (ballotHead _ _ _) (by simp [ballotHead, plain, valued])]
  simp

/-- C104: `encryptSelection` refuses a vote above 1 for the right selection, draws no precomputed values, and the only line
it logs is a warning that says so, without the vote. -/
theorem C104_refused (s : PSelection) (d : SelectionDesc) (pub extHash nonceSeed : ℕ) (isPlaceholder verify : Bool)
    (hid : s.objectId = d.objectId) (hv : 1 < s.vote) (w : World) :
    ∃ l, encryptSelection G C s d pub extHash nonceSeed isPlaceholder verify w = (.throw .invalidArgument, w, l) ∧
      shown .info l = ["Currently only supporting choices of 0 or 1".toList] ∧ shown .trace l = shown .info l ∧
      shown .error l = [] := by
  have hl : selectionCheck s d.objectId = [plain .warn "Currently only supporting choices of 0 or 1"] := by
    rw [selectionCheck, if_neg (by rw [hid]; exact fun h => h rfl), if_pos hv]
  have hi : s.isValid d.objectId = false := by
    simp [PSelection.isValid, hid]; omega
  refine ⟨[plain .warn "Currently only supporting choices of 0 or 1"], ?_, by decide +kernel, by decide +kernel,
    by decide +kernel⟩
  unfold encryptSelection
  rw [hi, hl]
  rfl

example : (⟨"a".toList, 2, false, []⟩ : PSelection).objectId = "a".toList ∧
    1 < (⟨"a".toList, 2, false, []⟩ : PSelection).vote := by decide +kernel

/-- C104: a vote for another selection than the described one is refused too, and the only line logged names both; it is
below a warning. -/
theorem C104_other (s : PSelection) (d : SelectionDesc) (pub extHash nonceSeed : ℕ) (isPlaceholder verify : Bool)
    (hid : s.objectId ≠ d.objectId) (w : World) :
    ∃ l, encryptSelection G C s d pub extHash nonceSeed isPlaceholder verify w = (.throw .invalidArgument, w, l) ∧
      shown .info l = ["invalid object_id: expected: ".toList ++ d.objectId ++ " actual: ".toList ++ s.objectId] ∧
      shown .trace l = shown .info l ∧ shown .warn l = [] := by
  have hl : selectionCheck s d.objectId = [⟨.info, "invalid object_id: expected: ".toList ++ d.objectId ++
      " actual: ".toList ++ s.objectId, none⟩] := by
    rw [selectionCheck, if_pos hid]
  have hi : s.isValid d.objectId = false := by
    simp [PSelection.isValid, hid]
  refine ⟨selectionCheck s d.objectId, ?_, by rw [hl]; rfl, by rw [hl]; rfl, by rw [hl]; rfl⟩
  unfold encryptSelection
  rw [hi]
  show ((Res.throw .invalidArgument, w, selectionCheck s d.objectId ++ []) : Res CSelection × World × List Line) = _
  rw [List.append_nil]

theorem bind_throw {α β : Type} {x : W α} {f : α → W β} {w w' : World} {e : Exn} {l : List Line}
    (h : x w = (.throw e, w', l)) : (x >>= f) w = (.throw e, w', l) := by
  show W.bind x f w = _
  unfold W.bind
  rw [h]

theorem tell_then {β : Type} (l : List Line) (f : Unit → W β) (w : World) :
    (W.tell l >>= f) w = ((f () w).1, (f () w).2.1, l ++ (f () w).2.2) := rfl

/-- C104: if the first vote of an accepted contest is above 1, `encryptContest` passes the exception on, and the warning is
all it has logged besides trace lines: what was logged before an exception stays. -/
theorem C104_refused_contest (c : PContest) (m : IManifest) (d : ContestDescP) (pub extHash nonceSeed : ℕ) (verify : Bool)
    (hc : c.isValid d.desc.objectId (d.desc.getSelections S).length d.desc.numberElected d.desc.votesAllowed true = .success)
    {hash : ℕ} (hh : d.desc.hash G C = .ok hash) {sd : SelectionDesc} {rest : List SelectionDesc}
    (hd : d.desc.getSelections S = sd :: rest) {s : PSelection}
    (hs : c.selections.find? (fun s => s.objectId = sd.objectId) = some s) (hv : 1 < s.vote) (w : World) :
    ∃ l, encryptContest G C S c m d pub extHash nonceSeed verify w = (.throw .invalidArgument, w, l) ∧
      shown .info l = ["Currently only supporting choices of 0 or 1".toList] ∧
      contestDesc G C d.desc hash ⊆ l := by
  have hid : s.objectId = sd.objectId := by simpa using List.find?_some hs
  have hcheck : contestCheck c d.desc.objectId (d.desc.getSelections S).length d.desc.numberElected d.desc.votesAllowed = [] := by
    unfold PContest.isValid at hc
    unfold contestCheck
    by_cases h1 : c.objectId = d.desc.objectId
    · rw [if_neg (by simp [h1])] at hc ⊢
      by_cases h2 : c.selections.length > (d.desc.getSelections S).length
      · rw [if_pos h2] at hc; cases hc
      · rw [if_neg h2] at hc ⊢
        dsimp only at hc ⊢
        split at hc
        · simp at hc
        · rename_i h3
          rw [if_neg h3]
          generalize (if d.desc.votesAllowed = 0 then d.desc.numberElected else d.desc.votesAllowed) = k at hc ⊢
          split at hc
          · simp at hc
          · rename_i h4
            rw [if_neg h4]
    · rw [if_pos h1] at hc; cases hc
  have hf : (emplaceContest S c d.desc).selections.find? (fun s => s.objectId = sd.objectId) = some s := by
    simp only [emplaceContest, hd, List.map_cons]
    have : emplaceSelection c sd = s := by rw [emplaceSelection, hs]
    rw [this, List.find?_cons_of_pos (by simpa using hid)]
  obtain ⟨l, hl, hi, -, -⟩ := C104_refused G C s sd pub extHash
    ((Nonces.makeWith G C hash (.q nonceSeed)).get G C d.desc.seq).1 false verify hid hv w
  refine ⟨contestDesc G C d.desc hash ++ l, ?_, ?_, List.subset_append_left _ _⟩
  · unfold encryptContest
    dsimp only
    rw [hcheck, tell_then, hc]
    rw [if_neg (by simp)]
    have h1 : ∀ {β : Type} (f : ℕ → W β), (W.lift (M.lift (d.desc.hash G C)) >>= f) w = f hash w := by
      intro β f
      rw [hh]
      show ((f hash w).1, (f hash w).2.1, [] ++ (f hash w).2.2) = _
      rw [List.nil_append]
    rw [h1, tell_then]
    have h2 : encryptReal G C pub extHash ((Nonces.makeWith G C hash (.q nonceSeed)).get G C d.desc.seq).1 verify
        (decide (ContestCheck.success = ContestCheck.overvote)) (emplaceContest S c d.desc).selections
        (d.desc.getSelections S) 0 w = (.throw .invalidArgument, w, l) := by
      rw [hd, encryptReal, hf]
      exact bind_throw hl
    rw [bind_throw h2, List.nil_append]
  · rw [shown_append, hi, shown_trace _ (contestDesc_trace G C d.desc hash), List.nil_append]

/-- C104: when the warning of `encryptContest` about the number of selections is given: if a contest allows more votes than
it elects, and if the voter overvoted a contest that has a number of allowed votes, since nothing is counted there. -/
theorem C104_warning (b : PBallot) (m : IManifest) (ctx : Context) (seed : ℕ)
    (nonce : Option ℕ) (t : ℕ) (verify : Bool) (w w' : World) (e : CBallot)
    (l : List Line) (ds : List ContestDescP) (hds : m.getContestsFor S b.styleId = .ok ds)
    (hgood : GoodContests ds) (hb : Bounded b ds)
    (h : encryptBallot G C S b m ctx seed nonce t verify w = (.ok e, w', l)) :
    "mismatching selection count: only n-of-m style elections are currently supported".toList ∈ shown .info l ↔
      ∃ d ∈ ds, d.desc.numberElected < d.desc.votesAllowed ∨ 0 < d.desc.votesAllowed ∧ OvervotedIn S b d := by
  rw [shown_ballot G C S b m ctx seed nonce t verify w w' e l ds hds hgood h, List.mem_flatMap]
  refine exists_congr fun d => and_congr_right fun hd => ?_
  have h1 : "mismatching selection count: only n-of-m style elections are currently supported".toList ∉
      shown .info (contestCheck (emplaceFrom S b d) d.desc.objectId (d.desc.getSelections S).length d.desc.numberElected
        d.desc.votesAllowed) := by
    rw [contestCheck_eq S b ds hb d hd]
    repeat' split
    all_goals decide +kernel
  have h2 : ∀ n k, "mismatching selection count: only n-of-m style elections are currently supported".toList ∈
      shown .info (countWarning n k) ↔ n < k := by
    intro n k
    unfold countWarning
    by_cases hnk : n < k
    · rw [if_pos hnk]
      exact iff_of_true (by decide +kernel) hnk
    · rw [if_neg hnk]
      exact iff_of_false (by decide +kernel) hnk
  rw [List.mem_append, or_iff_right h1, h2]
  have h3 := isOver_iff S b ds hb d hd
  by_cases ho : OvervotedIn S b d
  · rw [if_pos (h3.2 ho)]
    simp only [ho, and_true]
    omega
  · rw [if_neg (by rw [h3]; exact ho)]
    simp only [ho, and_false, or_false]

/-- C104, in part: in a build with the default level, what the encryption of a ballot without overvoted
contests writes to the console does not depend on the votes, on whether precomputed values are
available, or on anything else besides the ballot style. -/
theorem C104_info_partial (b b' : PBallot) (m : IManifest) (ctx ctx' : Context) (seed seed' : ℕ)
    (nonce nonce' : Option ℕ) (t t' : ℕ) (verify verify' : Bool) (w w1 w' w1' : World) (e e' : CBallot)
    (l l' : List Line) (ds : List ContestDescP) (hds : m.getContestsFor S b.styleId = .ok ds)
    (hst : b'.styleId = b.styleId) (hgood : GoodContests ds) (hb : Bounded b ds) (hb' : Bounded b' ds)
    (ho : ∀ d ∈ ds, ¬ OvervotedIn S b d) (ho' : ∀ d ∈ ds, ¬ OvervotedIn S b' d)
    (h : encryptBallot G C S b m ctx seed nonce t verify w = (.ok e, w1, l))
    (h' : encryptBallot G C S b' m ctx' seed' nonce' t' verify' w' = (.ok e', w1', l')) :
    shown .info l = shown .info l' := by
  rw [shown_ballot G C S b m ctx seed nonce t verify w w1 e l ds hds hgood h,
    shown_ballot G C S b' m ctx' seed' nonce' t' verify' w' w1' e' l' ds (by rw [hst]; exact hds) hgood h']
  have key : ∀ {f g : ContestDescP → List Str}, (∀ d ∈ ds, f d = g d) → ds.flatMap f = ds.flatMap g := by
    intro f g hfg
    rw [List.flatMap_def, List.flatMap_def, List.map_congr_left hfg]
  refine key (fun d hd => ?_)
  rw [contestCheck_nil S b ds hb d hd (ho d hd), contestCheck_nil S b' ds hb' d hd (ho' d hd),
    if_neg (by rw [isOver_iff S b ds hb d hd]; exact ho d hd),
    if_neg (by rw [isOver_iff S b' ds hb' d hd]; exact ho' d hd)]

/-- C104 does not hold for overvoted contests, even with the default level: the console tells whether
the voter overvoted a contest, which the ciphertexts keep secret (C32, C33). -/
theorem C104_overvote_violated (b : PBallot) (m : IManifest) (ctx : Context) (seed : ℕ)
    (nonce : Option ℕ) (t : ℕ) (verify : Bool) (w w' : World) (e : CBallot)
    (l : List Line) (ds : List ContestDescP) (hds : m.getContestsFor S b.styleId = .ok ds)
    (hgood : GoodContests ds) (hb : Bounded b ds)
    (h : encryptBallot G C S b m ctx seed nonce t verify w = (.ok e, w', l)) :
    (∃ d ∈ ds, OvervotedIn S b d) ↔
      (": too many elections".toList ∈ shown .info l ∨ ": too many votes".toList ∈ shown .info l) := by
  rw [shown_ballot G C S b m ctx seed nonce t verify w w' e l ds hds hgood h]
  have warn : ∀ n k, ": too many elections".toList ∉ shown .info (countWarning n k) ∧
      ": too many votes".toList ∉ shown .info (countWarning n k) := by
    intro n k
    unfold countWarning
    split <;> decide +kernel
  constructor
  · rintro ⟨d, hd, ho⟩
    have hc := contestCheck_eq S b ds hb d hd
    unfold OvervotedIn PContest.Overvoted at ho
    by_cases h1 : d.desc.numberElected < (emplaceFrom S b d).marked
    · left
      rw [List.mem_flatMap]
      refine ⟨d, hd, List.mem_append_left _ ?_⟩
      rw [hc, if_pos h1]
      decide +kernel
    · right
      rw [List.mem_flatMap]
      refine ⟨d, hd, List.mem_append_left _ ?_⟩
      rw [hc, if_neg h1, if_pos (ho.resolve_left h1)]
      decide +kernel
  · intro hl
    have : ∃ d ∈ ds, shown .info (contestCheck (emplaceFrom S b d) d.desc.objectId
        (d.desc.getSelections S).length d.desc.numberElected d.desc.votesAllowed) ≠ [] := by
      rcases hl with hl | hl <;> obtain ⟨d, hd, hx⟩ := List.mem_flatMap.1 hl <;>
        refine ⟨d, hd, ?_⟩ <;> rcases List.mem_append.1 hx with hx | hx
      · exact List.ne_nil_of_mem hx
      · exact absurd hx (warn _ _).1
      · exact List.ne_nil_of_mem hx
      · exact absurd hx (warn _ _).2
    obtain ⟨d, hd, hne⟩ := this
    refine ⟨d, hd, ?_⟩
    by_contra ho
    rw [contestCheck_nil S b ds hb d hd ho] at hne
    exact hne rfl

/-! ## At the level trace, without precomputed values -/

theorem elgamal_shape (pub pub' : ℕ) (c c' : Ciphertext) :
    (elgamal pub c).map Line.shape = (elgamal pub' c').map Line.shape := by
  unfold elgamal
  simp only [List.map_cons, List.map_nil, valued, Line.shape, Option.map]

theorem selLines_shape (pub pub' : ℕ) (verify : Bool) (d : SelectionDesc) (v v' : ℕ)
    (c c' : Ciphertext) :
    (selLines G C pub verify d v false c).map Line.shape =
      (selLines G C pub' verify d v' false c').map Line.shape := by
  unfold selLines
  simp only [Bool.false_eq_true, if_false, List.map_append]
  rw [elgamal_shape pub pub' c c']

theorem itemLines_shape (pub pub' : ℕ) (verify : Bool) (items items' : List Item)
    (h : items.map Item.desc = items'.map Item.desc) :
    (itemLines G C pub verify items 0).map Line.shape =
      (itemLines G C pub' verify items' 0).map Line.shape := by
  induction items generalizing items' with
  | nil =>
    cases items' with
    | nil => rfl
    | cons i l => simp at h
  | cons i items ih =>
    cases items' with
    | nil => simp at h
    | cons i' items' =>
      rw [List.map_cons, List.map_cons, List.cons.injEq] at h
      rw [itemLines, itemLines, List.map_append, List.map_append, ih items' h.2, h.1]
      rw [show decide (0 < 0) = false from rfl,
        selLines_shape G C pub pub' verify i'.desc i.vote i'.vote i.ciphertext i'.ciphertext]

theorem partLines_shape (ds : List ContestDescP) (pub pub' : ℕ) (verify : Bool) (b b' : PBallot) 
    (hb : Bounded b ds) (hb' : Bounded b' ds)
    (ho : ∀ d ∈ ds, ¬ OvervotedIn S b d) (ho' : ∀ d ∈ ds, ¬ OvervotedIn S b' d) (parts parts' : List Part)
    (hp : ∀ p ∈ parts, p.Of G C S b) (hp' : ∀ p ∈ parts', p.Of G C S b')
    (hsub : ∀ p ∈ parts, p.desc ∈ ds)
    (h : parts.map Part.desc = parts'.map Part.desc) :
    (partLines G C S pub verify b parts 0).map Line.shape =
      (partLines G C S pub' verify b' parts' 0).map Line.shape := by
  induction parts generalizing parts' with
  | nil =>
    cases parts' with
    | nil => rfl
    | cons i l => simp at h
  | cons p parts ih =>
    cases parts' with
    | nil => simp at h
    | cons p' parts' =>
      rw [List.map_cons, List.map_cons, List.cons.injEq] at h
      have hd := hsub p (by simp)
      have hd' : p'.desc ∈ ds := h.1 ▸ hd
      have k := hp p (by simp)
      have k' := hp' p' (by simp)
      have hh : p.hash = p'.hash := by
        have h1 := k.hash
        rw [h.1, k'.hash] at h1
        exact (Res.ok.inj h1).symm
      have hi : p.items.map Item.desc = p'.items.map Item.desc := by rw [k.descs, k'.descs, h.1]
      rw [partLines, partLines, List.map_append, List.map_append, Nat.zero_sub, Nat.zero_sub,
        ih parts' (fun q hq => hp q (by simp [hq])) (fun q hq => hp' q (by simp [hq]))
          (fun q hq => hsub q (by simp [hq])) h.2]
      congr 1
      unfold contestLines
      simp only [List.map_append]
      rw [contestCheck_nil S b ds hb _ hd (ho _ hd), contestCheck_nil S b' ds hb' _ hd' (ho' _ hd'),
        if_neg (show ¬ isOver S (emplaceFrom S b p.desc) p.desc = true by
          rw [isOver_iff S b ds hb _ hd]; exact ho _ hd),
        if_neg (show ¬ isOver S (emplaceFrom S b' p'.desc) p'.desc = true by
          rw [isOver_iff S b' ds hb' _ hd']; exact ho' _ hd'),
        itemLines_shape G C pub pub' verify _ _ hi, h.1, hh]

theorem ballotChecks_eq (e : CBallot) : ballotChecks S e =
    ((e.getContests S).map (fun c => c.selections.length)).flatMap (fun n =>
      (List.replicate n proofValid).flatten ++ constValid) := by
  unfold ballotChecks
  rw [List.flatMap_map]
  congr 1
  funext c
  congr 1
  have : c.selections.length = (c.getSelections S).length := (S.perm _ _).length_eq.symm
  rw [this, List.flatMap_def, List.map_const']

/-- The numbers of selections of the sorted contests depend on the numbers and the keys only. -/
theorem sorted_lengths (es es' : List CContest) (hk : es.map CContest.seq = es'.map CContest.seq)
    (hl : es.map (fun c => c.selections.length) = es'.map (fun c => c.selections.length))
    (hn : (es.map CContest.seq).Nodup) :
    (S.sort CContest.seq es).map (fun c => c.selections.length) =
      (S.sort CContest.seq es').map (fun c => c.selections.length) := by
  let f : CContest → ℕ × ℕ := fun c => (c.seq, c.selections.length)
  have hf : es.map f = es'.map f := by
    have e1 : ∀ l : List CContest, l.map f = (l.map CContest.seq).zip (l.map (fun c => c.selections.length)) := by
      intro l
      rw [List.zip_map']
    rw [e1, e1, hk, hl]
  have srt : ∀ l : List CContest, ((S.sort CContest.seq l).map f).Pairwise (fun a b => a.1 ≤ b.1) := by
    intro l
    rw [List.pairwise_map]
    exact S.sorted _ _
  have hfin : (S.sort CContest.seq es).map f = (S.sort CContest.seq es').map f := by
    refine sorted_unique Prod.fst _ _ ?_ (srt es) (srt es') ?_
    · refine ((S.perm _ _).map f).trans ?_
      rw [hf]
      exact ((S.perm _ _).map f).symm
    · apply key_inj_of_nodup
      rw [List.map_map]
      exact ((S.perm CContest.seq es).map CContest.seq).nodup_iff.2 hn
  have := congrArg (List.map Prod.snd) hfin
  rw [List.map_map, List.map_map] at this
  exact this

/-- C104, in part: at every level, without precomputed values and without overvoted contests, the lines
that are logged do not depend on the votes, apart from the values in them. -/
theorem C104_trace_partial (b b' : PBallot) (m : IManifest) (ctx ctx' : Context) (seed seed' : ℕ)
    (nonce nonce' : Option ℕ) (t t' : ℕ) (verify : Bool) (w w1 w' w1' : World) (e e' : CBallot)
    (l l' : List Line) (ds : List ContestDescP) (hds : m.getContestsFor S b.styleId = .ok ds)
    (hst : b'.styleId = b.styleId) (hgood : GoodContests ds)
    (hseq : (ds.map (fun d => d.desc.seq)).Nodup) (hb : Bounded b ds) (hb' : Bounded b' ds)
    (ho : ∀ d ∈ ds, ¬ OvervotedIn S b d) (ho' : ∀ d ∈ ds, ¬ OvervotedIn S b' d)
    (hw : w.pre.quads = []) (hw' : w'.pre.quads = [])
    (h : encryptBallot G C S b m ctx seed nonce t verify w = (.ok e, w1, l))
    (h' : encryptBallot G C S b' m ctx' seed' nonce' t' verify w' = (.ok e', w1', l')) :
    l.map Line.shape = l'.map Line.shape := by
  obtain ⟨parts, h1, h2, h3, h4, rfl⟩ := ballot_ok G C S b m ctx seed nonce t verify w w1 e l ds
    hds hgood h
  obtain ⟨parts', h1', h2', h3', h4', rfl⟩ := ballot_ok G C S b' m ctx' seed' nonce' t' verify w' w1' e' l'
    ds (by rw [hst]; exact hds) hgood h'
  have hlen : ∀ (b : PBallot) (ps : List Part), (∀ p ∈ ps, p.Of G C S b) →
      ps.map (fun p => (p.items.map Item.ciphertext).length) =
        (ps.map Part.desc).map (fun d => (d.desc.getSelections S ++ d.getPlaceholders S).length) := by
    intro b ps hps
    rw [List.map_map]
    apply List.map_congr_left
    intro p hp
    have := congrArg List.length (hps p hp).descs
    simpa using this
  have hsel : e.contests.map (fun c => c.selections.length) =
      e'.contests.map (fun c => c.selections.length) := by
    have k1 := congrArg (List.map List.length) h3
    have k2 := congrArg (List.map List.length) h3'
    rw [List.map_map, List.map_map] at k1 k2
    have k3 := (hlen b parts h2).symm.trans k1
    have k4 := (hlen b' parts' h2').symm.trans k2
    rw [h1] at k3
    rw [h1'] at k4
    have := k3.symm.trans k4
    simpa [Function.comp_def] using this
  have hend : (ballotEnd S verify e).map Line.shape = (ballotEnd S verify e').map Line.shape := by
    cases verify with
    | false => rfl
    | true =>
      simp only [ballotEnd, if_true]
      rw [ballotChecks_eq, ballotChecks_eq]
      have := sorted_lengths S e.contests e'.contests (by rw [h4, h4']) hsel (by rw [h4]; exact hseq)
      unfold CBallot.getContests
      rw [this]
  simp only [List.map_append]
  rw [hend, hw, hw']
  simp only [List.length_nil]
  rw [partLines_shape G C S ds ctx.pub ctx'.pub verify b b' hb hb' ho ho' parts parts' h2 h2'
    (fun p hp => by rw [← h1]; exact List.mem_map_of_mem hp) (by rw [h1, h1'])]
  congr 2

/-! ## The values that are logged -/

/-- What is public once the ballot and the manifest are: the hash of the manifest, the seed of the ballot
code, the time asked for, the key, the hashes of descriptions and their texts, and the ciphertexts. -/
inductive Published (m : IManifest) (ctx : Context) (seed t : ℕ) (ds : List ContestDescP) (e : CBallot) :
    Str → Prop
  | manifest : Published m ctx seed t ds e (toHexQ m.manifestHash)
  | seed : Published m ctx seed t ds e (toHexQ seed)
  | time : Published m ctx seed t ds e (placeholderFrom.decimalU64 t)
  | key : Published m ctx seed t ds e (toHexP ctx.pub)
  | contest (d : ContestDescP) (h : ℕ) : d ∈ ds → d.desc.hash G C = .ok h →
      Published m ctx seed t ds e (toHexQ h)
  | text (d : ContestDescP) (x : IText) : d ∈ ds → (d.desc.title = some x ∨ d.desc.subtitle = some x) →
      Published m ctx seed t ds e (toHexQ (x.hash G C))
  | language (d : ContestDescP) (x : IText) (y : Language) : d ∈ ds →
      (d.desc.title = some x ∨ d.desc.subtitle = some x) → y ∈ x →
      Published m ctx seed t ds e (toHexQ (y.hash G C))
  | selection (d : ContestDescP) (sd : SelectionDesc) : d ∈ ds → sd ∈ d.desc.selections ++ d.placeholders →
      Published m ctx seed t ds e (toHexQ (sd.hash G C))
  | pad (c : CContest) (s : CSelection) : c ∈ e.contests → s ∈ c.selections →
      Published m ctx seed t ds e (toHexP s.ciphertext.pad)
  | data (c : CContest) (s : CSelection) : c ∈ e.contests → s ∈ c.selections →
      Published m ctx seed t ds e (toHexP s.ciphertext.data)

/-- The values of the lines satisfy `P`. -/
def Values (P : Str → Prop) (l : List Line) : Prop := ∀ x ∈ l, ∀ c v, x.extra = some (c, v) → P v

theorem Values.append {P : Str → Prop} {a b : List Line} (ha : Values P a) (hb : Values P b) :
    Values P (a ++ b) := by
  intro x hx
  rcases List.mem_append.1 hx with hx | hx
  · exact ha x hx
  · exact hb x hx

theorem Values.nil (P : Str → Prop) : Values P [] := by simp [Values]

theorem Values.plain (P : Str → Prop) (lv : Level) (s : String) : Values P [plain lv s] := by
  intro x hx c v hv
  rw [List.mem_singleton.1 hx] at hv
  cases hv

theorem Values.valued (P : Str → Prop) (lv : Level) (s : String) (msg v : Str) (h : P v) :
    Values P [valued lv s msg v] := by
  intro x hx c v' hv
  rw [List.mem_singleton.1 hx] at hv
  cases hv
  exact h

theorem Values.cons {P : Str → Prop} {a : Line} {b : List Line} (ha : Values P [a]) (hb : Values P b) :
    Values P (a :: b) := Values.append (a := [a]) ha hb

theorem Values.ite {P : Str → Prop} {p : Prop} [Decidable p] {a b : List Line} (ha : Values P a)
    (hb : Values P b) : Values P (if p then a else b) := by
  by_cases h : p
  · rw [if_pos h]; exact ha
  · rw [if_neg h]; exact hb

theorem itext_values (P : Str → Prop) (t : IText) (h1 : ∀ y ∈ t, P (toHexQ (y.hash G C)))
    (h2 : P (toHexQ (t.hash G C))) : Values P (itext G C t) := by
  refine Values.append ?_ (Values.valued P _ _ _ _ h2)
  intro x hx c v hv
  obtain ⟨y, hy, hx⟩ := List.mem_flatMap.1 hx
  exact Values.valued P _ _ _ _ (h1 y hy) x hx c v hv

theorem selLines_values (P : Str → Prop) (pub : ℕ) (verify : Bool) (d : SelectionDesc) (v : ℕ) (q : Bool)
    (c : Ciphertext) (h1 : P (toHexQ (d.hash G C))) (h2 : P (toHexP pub)) (h3 : P (toHexP c.pad))
    (h4 : P (toHexP c.data)) : Values P (selLines G C pub verify d v q c) := by
  unfold selLines
  refine Values.append (Values.append (Values.append (Values.valued P _ _ _ _ h1)
    (Values.valued P _ _ _ _ h1)) ?_) ?_
  · cases q with
    | true =>
      rw [if_pos rfl]
      refine Values.append (Values.append (Values.cons (Values.plain _ _ _)
        (Values.cons (Values.valued _ _ _ _ _ h3) (Values.valued _ _ _ _ _ h4))) (Values.plain _ _ _)) ?_
      exact Values.cons (Values.valued _ _ _ _ _ h3) (Values.valued _ _ _ _ _ h4)
    | false =>
      rw [if_neg (by simp)]
      refine Values.append (Values.cons (Values.plain _ _ _) (Values.cons (Values.valued _ _ _ _ _ h2)
        (Values.cons (Values.valued _ _ _ _ _ h3) (Values.valued _ _ _ _ _ h4)))) (Values.plain _ _ _)
  · cases verify with
    | true => exact Values.cons (Values.plain _ _ _) (Values.plain _ _ _)
    | false => exact Values.nil _

theorem itemLines_values (P : Str → Prop) (pub : ℕ) (verify : Bool) (h2 : P (toHexP pub))
    (items : List Item) (quads : ℕ) (h : ∀ i ∈ items, P (toHexQ (i.desc.hash G C)) ∧
      P (toHexP i.ciphertext.pad) ∧ P (toHexP i.ciphertext.data)) :
    Values P (itemLines G C pub verify items quads) := by
  induction items generalizing quads with
  | nil => exact Values.nil _
  | cons i items ih =>
    obtain ⟨k1, k2, k3⟩ := h i (by simp)
    exact Values.append (selLines_values G C P _ _ _ _ _ _ k1 h2 k2 k3)
      (ih _ (fun j hj => h j (by simp [hj])))

theorem partLines_values (P : Str → Prop) (pub : ℕ) (verify : Bool) (b : PBallot) (h2 : P (toHexP pub))
    (parts : List Part) (quads : ℕ)
    (hc : ∀ p ∈ parts, Values P (contestDesc G C p.desc.desc p.hash))
    (h : ∀ p ∈ parts, ∀ i ∈ p.items, P (toHexQ (i.desc.hash G C)) ∧
      P (toHexP i.ciphertext.pad) ∧ P (toHexP i.ciphertext.data)) :
    Values P (partLines G C S pub verify b parts quads) := by
  induction parts generalizing quads with
  | nil => exact Values.nil _
  | cons p parts ih =>
    refine Values.append ?_ (ih _ (fun q hq => hc q (by simp [hq])) (fun q hq => h q (by simp [hq])))
    unfold contestLines
    refine Values.append (Values.append (Values.append (Values.append (Values.append ?_
      (hc p (by simp))) (itemLines_values G C P pub verify h2 _ _ (h p (by simp)))) ?_)
      (Values.plain _ _ _)) ?_
    · unfold contestCheck
      dsimp only
      exact Values.ite (Values.plain _ _ _) (Values.ite (Values.plain _ _ _)
        (Values.ite (Values.plain _ _ _) (Values.ite (Values.plain _ _ _) (Values.nil _))))
    · unfold countWarning
      exact Values.ite (Values.plain _ _ _) (Values.nil _)
    · cases verify
      · exact Values.nil _
      · exact Values.cons (Values.plain _ _ _) (Values.plain _ _ _)

/-- C104: at every level, with or without precomputed values, with or without overvotes, the values
that are logged are public: no nonce, no vote, nothing of the extended data. -/
theorem C104_values (b : PBallot) (m : IManifest) (ctx : Context) (seed : ℕ)
    (nonce : Option ℕ) (t : ℕ) (verify : Bool) (w w' : World) (e : CBallot)
    (l : List Line) (ds : List ContestDescP) (hds : m.getContestsFor S b.styleId = .ok ds)
    (hgood : GoodContests ds)
    (h : encryptBallot G C S b m ctx seed nonce t verify w = (.ok e, w', l)) :
    ∀ x ∈ l, ∀ caller v, x.extra = some (caller, v) → Published G C m ctx seed t ds e v := by
  obtain ⟨parts, h1, h2, h3, -, rfl⟩ := ballot_ok G C S b m ctx seed nonce t verify w w' e l ds
    hds hgood h
  have hmem : ∀ p ∈ parts, p.desc ∈ ds := fun p hp => by rw [← h1]; exact List.mem_map_of_mem hp
  refine Values.append (Values.append ?_ (partLines_values G C S _ _ _ _ (.key) parts _ ?_ ?_)) ?_
  · exact Values.cons (Values.plain _ _ _) (Values.cons (Values.valued _ _ _ _ _ .manifest)
      (Values.cons (Values.valued _ _ _ _ _ .seed) (Values.valued _ _ _ _ _ .time)))
  · intro p hp
    have hd := hmem p hp
    refine Values.append (Values.append (Values.append ?_ ?_) ?_)
      (Values.valued _ _ _ _ _ (.contest p.desc p.hash hd (h2 p hp).hash))
    · cases ht : p.desc.desc.title with
      | none => exact Values.nil _
      | some x =>
        dsimp only
        exact itext_values G C (Published G C m ctx seed t ds e) x
          (fun y hy => .language p.desc x y hd (Or.inl ht) hy) (.text p.desc x hd (Or.inl ht))
    · cases ht : p.desc.desc.title with
      | none => exact Values.nil _
      | some x =>
        cases hs : p.desc.desc.subtitle with
        | none => exact Values.nil _
        | some y =>
          dsimp only
          exact itext_values G C (Published G C m ctx seed t ds e) y
            (fun z hz => .language p.desc y z hd (Or.inr hs) hz) (.text p.desc y hd (Or.inr hs))
    · intro x hx c v hv
      obtain ⟨sd, hsd, hx⟩ := List.mem_flatMap.1 hx
      exact Values.valued _ _ _ _ _ (.selection p.desc sd hd (List.mem_append_left _ hsd)) x hx c v hv
  · intro p hp i hi
    have hd := hmem p hp
    have hsd : i.desc ∈ p.desc.desc.selections ++ p.desc.placeholders := by
      have := List.mem_map_of_mem (f := Item.desc) hi
      rw [(h2 p hp).descs, List.mem_append] at this
      rw [List.mem_append]
      exact this.imp (S.perm _ _).mem_iff.1 (S.perm _ _).mem_iff.1
    have hci : ∃ c ∈ e.contests, ∃ s ∈ c.selections, s.ciphertext = i.ciphertext := by
      have := List.mem_map_of_mem (f := fun p : Part => p.items.map Item.ciphertext) hp
      rw [h3] at this
      obtain ⟨c, hc, heq⟩ := List.mem_map.1 this
      have k := List.mem_map_of_mem (f := Item.ciphertext) hi
      rw [← heq] at k
      obtain ⟨s, hs, hh⟩ := List.mem_map.1 k
      exact ⟨c, hc, s, hs, hh⟩
    obtain ⟨c, hc, s, hs, hh⟩ := hci
    exact ⟨.selection p.desc _ hd hsd, hh ▸ .pad c s hc hs, hh ▸ .data c s hc hs⟩
  · unfold ballotEnd
    cases verify with
    | false => exact Values.plain _ _ _
    | true =>
      refine Values.append ?_ (Values.plain _ _ _)
      intro x hx c v hv
      obtain ⟨k, -, hx⟩ := List.mem_flatMap.1 hx
      refine Values.append ?_ (Values.cons (Values.plain _ _ _) (Values.plain _ _ _)) x hx c v hv
      intro x hx c v hv
      obtain ⟨k, -, hx⟩ := List.mem_flatMap.1 hx
      exact Values.cons (Values.plain _ _ _) (Values.plain _ _ _) x hx c v hv

/-! ## At the level trace, with precomputed values -/

/-- A vote read from a line on the console. -/
def voteOfText (t : Str) : Option ℕ :=
  if "make_one_with_precomputed::alpha".toList.isPrefixOf t then some 1
  else if "make_zero_with_precomputed::alpha".toList.isPrefixOf t then some 0
  else none

/-- The votes read from the console. -/
def readVotes (console : List Str) : List ℕ := console.filterMap voteOfText

theorem readVotes_append (a b : List Str) : readVotes (a ++ b) = readVotes a ++ readVotes b :=
  List.filterMap_append

theorem shown_all (l : List Line) : shown .trace l = l.map Line.text := by
  unfold shown
  congr 1
  rw [List.filter_eq_self]
  intro x _
  simp [Level.rank]

theorem voteOfText_none (t : Str) (h : t.head? ≠ some 'm') : voteOfText t = none := by
  cases t with
  | nil => rfl
  | cons k t =>
    have hk : ('m' == k) = false := by
      rw [beq_eq_false_iff_ne]
      rintro rfl
      exact h rfl
    have e : ∀ (p : List Char), ('m' :: p).isPrefixOf (k :: t) = false := by
      intro p
      rw [List.isPrefixOf, hk, Bool.false_and]
    unfold voteOfText
    rw [show "make_one_with_precomputed::alpha".toList = 'm' :: "ake_one_with_precomputed::alpha".toList
      from by decide +kernel, show "make_zero_with_precomputed::alpha".toList =
      'm' :: "ake_zero_with_precomputed::alpha".toList from by decide +kernel, e, e]
    rfl

/-- The console does not show a vote in the lines. -/
def Silent (l : List Line) : Prop := ∀ x ∈ l, x.text.head? ≠ some 'm'

theorem Silent.read {l : List Line} (h : Silent l) : readVotes (l.map Line.text) = [] := by
  unfold readVotes
  rw [List.filterMap_eq_nil_iff]
  intro t ht
  obtain ⟨x, hx, rfl⟩ := List.mem_map.1 ht
  exact voteOfText_none _ (h x hx)

theorem Silent.append {a b : List Line} (ha : Silent a) (hb : Silent b) : Silent (a ++ b) := by
  intro x hx
  rcases List.mem_append.1 hx with hx | hx
  · exact ha x hx
  · exact hb x hx

theorem Silent.cons {a : Line} {b : List Line} (ha : a.text.head? ≠ some 'm') (hb : Silent b) :
    Silent (a :: b) := by
  intro x hx
  rcases List.mem_cons.1 hx with rfl | hx
  · exact ha
  · exact hb x hx

theorem Silent.nil : Silent [] := by simp [Silent]

theorem Silent.flatMap {α : Type} (l : List α) (f : α → List Line) (h : ∀ a ∈ l, Silent (f a)) :
    Silent (l.flatMap f) := by
  intro x hx
  obtain ⟨a, ha, hx⟩ := List.mem_flatMap.1 hx
  exact h a ha x hx

theorem head_valued (lv : Level) (caller : String) (k : Char) (cs : List Char)
    (hc : caller.toList = k :: cs) (hk : k ≠ 'm') (msg v : Str) :
    (valued lv caller msg v).text.head? ≠ some 'm' := by
  unfold valued Line.text
  rw [hc]
  simpa using hk

theorem head_crypto (msg v : Str) : (valued .trace "crypto_hash" msg v).text.head? ≠ some 'm' :=
  head_valued _ _ 'c' "rypto_hash".toList (by decide +kernel) (by decide) _ _

theorem itext_silent (t : IText) : Silent (itext G C t) :=
  Silent.append (Silent.flatMap _ _ (fun _ _ => .cons (head_crypto _ _) .nil)) (.cons (head_crypto _ _) .nil)

theorem contestDesc_silent (d : ContestDesc) (hash : ℕ) : Silent (contestDesc G C d hash) := by
  refine .append (.append (.append ?_ ?_) ?_) (.cons (head_crypto _ _) .nil)
  · cases d.title with
    | none => exact .nil
    | some t => exact itext_silent G C t
  · cases d.title with
    | none => exact .nil
    | some t =>
      cases d.subtitle with
      | none => exact .nil
      | some s => exact itext_silent G C s
  · exact Silent.flatMap _ _ (fun _ _ => .cons (head_crypto _ _) .nil)

theorem proofStart_silent : Silent proofStart := .cons (by decide +kernel) .nil

theorem proofValid_silent : Silent proofValid := .cons (by decide +kernel) (.cons (by decide +kernel) .nil)

theorem constValid_silent : Silent constValid := .cons (by decide +kernel) (.cons (by decide +kernel) .nil)

theorem proofPrecomputed_read (vote : ℕ) (hv : vote ≤ 1) (c : Ciphertext) :
    readVotes ((proofPrecomputed vote c).map Line.text) = [vote] := by
  have hv : vote = 0 ∨ vote = 1 := by omega
  unfold proofPrecomputed
  generalize toHexP c.pad = x
  generalize toHexP c.data = y
  rcases hv with rfl | rfl <;> rfl

theorem selLines_read (pub : ℕ) (verify : Bool) (d : SelectionDesc) (v : ℕ) (hv : v ≤ 1) (c : Ciphertext) :
    readVotes ((selLines G C pub verify d v true c).map Line.text) = [v] := by
  have h1 : Silent (selectionDesc G C d ++ [valued .trace "encryptSelection"
      ("encryptSelection: for ".toList ++ d.objectId ++ " hash: ".toList) (toHexQ (d.hash G C))]) :=
    .append (.cons (head_crypto _ _) .nil) (.cons
      (head_valued _ _ 'e' "ncryptSelection".toList (by decide +kernel) (by decide) _ _) .nil)
  have h2 : Silent (elgamalPrecomputed c ++ proofStart) := by
    refine .append (.cons (by decide +kernel) (.cons ?_ (.cons ?_ .nil))) proofStart_silent
    · exact head_valued _ _ 'e' "lgamalEncrypt_with_precomputed".toList (by decide +kernel) (by decide) _ _
    · exact head_valued _ _ 'e' "lgamalEncrypt_with_precomputed".toList (by decide +kernel) (by decide) _ _
  have h3 : Silent (if verify then proofValid else []) := by
    cases verify
    · exact .nil
    · exact proofValid_silent
  unfold selLines
  rw [if_pos rfl]
  rw [List.map_append, List.map_append, List.map_append (l₁ := elgamalPrecomputed c ++ proofStart),
    readVotes_append, readVotes_append, readVotes_append, h1.read, h2.read, h3.read,
    proofPrecomputed_read v hv]
  rfl

theorem itemLines_read (pub : ℕ) (verify : Bool) (items : List Item) (quads : ℕ)
    (hq : items.length ≤ quads) (hv : ∀ i ∈ items, i.vote ≤ 1) :
    readVotes ((itemLines G C pub verify items quads).map Line.text) = items.map Item.vote := by
  induction items generalizing quads with
  | nil => rfl
  | cons i items ih =>
    rw [List.length_cons] at hq
    have : decide (0 < quads) = true := by simp; omega
    rw [itemLines, this, List.map_append, readVotes_append, selLines_read G C _ _ _ _ (hv i (by simp)),
      ih (quads - 1) (by omega) (fun j hj => hv j (by simp [hj]))]
    rfl

theorem partLines_read (pub : ℕ) (verify : Bool) (b : PBallot) (parts : List Part) (quads : ℕ)
    (hp : ∀ p ∈ parts, p.Of G C S b) (hq : (parts.map (fun p => p.items.length)).sum ≤ quads) :
    readVotes ((partLines G C S pub verify b parts quads).map Line.text) =
      (parts.map Part.desc).flatMap (fun d => contestVotes S (emplaceFrom S b d) d) := by
  induction parts generalizing quads with
  | nil => rfl
  | cons p parts ih =>
    rw [List.map_cons, List.sum_cons] at hq
    have k := hp p (by simp)
    rw [partLines, List.map_append, readVotes_append, ih _ (fun q hq => hp q (by simp [hq])) (by omega),
      List.map_cons, List.flatMap_cons]
    congr 1
    rw [← k.votes, ← itemLines_read G C pub verify p.items quads (by omega) k.le]
    unfold contestLines
    have h1 : readVotes ((contestCheck (emplaceFrom S b p.desc) p.desc.desc.objectId
        (p.desc.desc.getSelections S).length p.desc.desc.numberElected
        p.desc.desc.votesAllowed).map Line.text) = [] := by
      unfold contestCheck
      dsimp only
      split
      · decide +kernel
      · split
        · decide +kernel
        · split
          · decide +kernel
          · generalize (if p.desc.desc.votesAllowed = 0 then p.desc.desc.numberElected
              else p.desc.desc.votesAllowed) = k
            split
            · decide +kernel
            · rfl
    have h2 : ∀ n k, readVotes ((countWarning n k).map Line.text) = [] := by
      intro n k
      unfold countWarning
      split
      · decide +kernel
      · rfl
    have h3 : Silent (constStart ++ (if verify then constValid else [])) := by
      refine .append (.cons (by decide +kernel) .nil) ?_
      cases verify
      · exact .nil
      · exact constValid_silent
    rw [List.append_assoc, List.map_append, readVotes_append, h3.read, List.map_append, readVotes_append,
      h2, List.map_append, readVotes_append, List.map_append, readVotes_append, h1,
      (contestDesc_silent G C p.desc.desc p.hash).read]
    simp

/-- C104 does not hold at the level trace if precomputed values are used: the console names the function
that proves that a selection is not marked, or is marked.  All the votes of the ballot can be read from
it, in the order of the contests and selections, with those of the placeholders. -/
theorem C104_precomputed_violated (b : PBallot) (m : IManifest) (ctx : Context) (seed : ℕ)
    (nonce : Option ℕ) (t : ℕ) (verify : Bool) (w w' : World) (e : CBallot)
    (l : List Line) (ds : List ContestDescP) (hds : m.getContestsFor S b.styleId = .ok ds)
    (hgood : GoodContests ds)
    (hq : (ds.map (fun d => d.desc.selections.length + d.placeholders.length)).sum ≤ w.pre.quads.length)
    (h : encryptBallot G C S b m ctx seed nonce t verify w = (.ok e, w', l)) :
    readVotes (shown .trace l) = ds.flatMap (fun d => contestVotes S (emplaceFrom S b d) d) := by
  obtain ⟨parts, h1, h2, -, -, rfl⟩ := ballot_ok G C S b m ctx seed nonce t verify w w' e l ds
    hds hgood h
  have hlen : parts.map (fun p => p.items.length) =
      ds.map (fun d => d.desc.selections.length + d.placeholders.length) := by
    rw [← h1, List.map_map]
    apply List.map_congr_left
    intro p hp
    have := congrArg List.length (h2 p hp).descs
    rw [List.length_map, List.length_append] at this
    rw [this]
    exact congrArg₂ _ (S.perm _ _).length_eq (S.perm _ _).length_eq
  have hh : Silent (ballotHead m.manifestHash seed t) := by
    refine .cons (by decide +kernel) (.cons ?_ (.cons ?_ (.cons ?_ .nil))) <;>
      exact head_valued _ _ 'e' "ncryptBallot".toList (by decide +kernel) (by decide) _ _
  have he : Silent (ballotEnd S verify e) := by
    unfold ballotEnd
    cases verify with
    | false => exact .cons (by decide +kernel) .nil
    | true =>
      refine .append (Silent.flatMap _ _ (fun _ _ => .append (Silent.flatMap _ _ (fun _ _ =>
        proofValid_silent)) constValid_silent)) (.cons (by decide +kernel) .nil)
  rw [shown_all, List.map_append, List.map_append, readVotes_append, readVotes_append, hh.read, he.read,
    partLines_read G C S ctx.pub verify b parts _ h2 (by rw [hlen]; exact hq), h1]
  simp

theorem flatMap_inj {α : Type} (l : List α) (f g : α → List ℕ) (hl : ∀ a ∈ l, (f a).length = (g a).length)
    (h : l.flatMap f = l.flatMap g) : ∀ a ∈ l, f a = g a := by
  induction l with
  | nil => simp
  | cons a l ih =>
    rw [List.flatMap_cons, List.flatMap_cons] at h
    obtain ⟨h1, h2⟩ := List.append_inj h (hl a (by simp))
    intro x hx
    rcases List.mem_cons.1 hx with rfl | hx
    · exact h1
    · exact ih (fun y hy => hl y (by simp [hy])) h2 x hx

/-- Two ballots without overvotes whose consoles agree, even if the rest of their lines is ignored, have
the same votes. -/
theorem C104_readable_violated (b b' : PBallot) (m : IManifest) (ctx ctx' : Context) (seed seed' : ℕ)
    (nonce nonce' : Option ℕ) (t t' : ℕ) (verify verify' : Bool) (w w1 w' w1' : World) (e e' : CBallot)
    (l l' : List Line) (ds : List ContestDescP) (hds : m.getContestsFor S b.styleId = .ok ds)
    (hst : b'.styleId = b.styleId) (hgood : GoodContests ds) (hb : Bounded b ds) (hb' : Bounded b' ds)
    (ho : ∀ d ∈ ds, ¬ OvervotedIn S b d) (ho' : ∀ d ∈ ds, ¬ OvervotedIn S b' d)
    (hq : (ds.map (fun d => d.desc.selections.length + d.placeholders.length)).sum ≤ w.pre.quads.length)
    (hq' : (ds.map (fun d => d.desc.selections.length + d.placeholders.length)).sum ≤
      w'.pre.quads.length)
    (h : encryptBallot G C S b m ctx seed nonce t verify w = (.ok e, w1, l))
    (h' : encryptBallot G C S b' m ctx' seed' nonce' t' verify' w' = (.ok e', w1', l'))
    (heq : readVotes (shown .trace l) = readVotes (shown .trace l')) :
    ∀ d ∈ ds, ∀ sd ∈ d.desc.selections,
      (emplaceFrom S b d).voteFor sd.objectId = (emplaceFrom S b' d).voteFor sd.objectId := by
  rw [C104_precomputed_violated G C S b m ctx seed nonce t verify w w1 e l ds hds hgood hq h,
    C104_precomputed_violated G C S b' m ctx' seed' nonce' t' verify' w' w1' e' l' ds
      (by rw [hst]; exact hds) hgood hq' h'] at heq
  intro d hd sd hsd
  have k := flatMap_inj ds _ _ (by
    intro d _
    simp [contestVotes, realVotes, placeholderVotes_length]) heq d hd
  have e1 : isOver S (emplaceFrom S b d) d = false := by
    have := (isOver_iff S b ds hb d hd).not.2 (ho d hd)
    simpa using this
  have e2 : isOver S (emplaceFrom S b' d) d = false := by
    have := (isOver_iff S b' ds hb' d hd).not.2 (ho' d hd)
    simpa using this
  unfold contestVotes at k
  rw [e1, e2] at k
  have k2 := (List.append_inj k (by simp [realVotes])).1
  unfold realVotes at k2
  have := List.map_inj_left.1 k2 sd ((S.perm _ _).mem_iff.2 hsd)
  simpa using this

/-! ## The hypotheses are met -/

/-- Precomputed values for all selections of the example ballot. -/
def quadsWorld (K : ℕ) : World :=
  { plainWorld with pre := { plainWorld.pre with
      quads := List.replicate 10 ⟨genTriple .std K 1, genTriple .std K 1, genQuadruple .std K 1 1⟩ } }

/-- The encryption of the example ballot has a log, with and without precomputed values. -/
theorem log_example (S : StdSort) (K : ℕ) (hK : Residue .std K) (h ch t : ℕ) (nonce : Option ℕ) (w : World)
    (hw : w.Ok .std K) :
    ∃ e w' l, encryptBallot .std (constCrypto 5) S exampleBallot (exampleIM h) (exampleContext K h) ch
      nonce t false w = (.ok e, w', l) := by
  obtain ⟨e, w', h1⟩ := encryptBallot_example S K hK h ch t nonce w hw
  rw [← run_encryptBallot] at h1
  obtain ⟨l, hl⟩ := exists_log _ _ _ _ h1
  exact ⟨e, w', l, hl⟩

theorem quadsWorld_ok (K : ℕ) (hK : K < 2 ^ 4096) : (quadsWorld K).Ok .std K := by
  have h1 : 1 < Params.std.q := by decide +kernel
  refine ⟨fun _ => std_q_gt7, by simp [quadsWorld, plainWorld], ?_⟩
  intro e he
  rw [List.eq_of_mem_replicate he]
  exact ⟨genTriple_forKey _ C54_std_valid K 1 hK h1, genTriple_forKey _ C54_std_valid K 1 hK h1,
    genQuadruple_forKey _ C54_std_valid K 1 1 hK h1 h1⟩

theorem example_normal (S : StdSort) : emplaceFrom S exampleBallot exampleContestP2 =
      ⟨"c2".toList, [⟨"s1".toList, 0, false, []⟩, ⟨"s2".toList, 0, false, []⟩]⟩ ∧
    emplaceFrom S exampleBallot exampleContestP =
      ⟨"c".toList, [⟨"s1".toList, 0, false, []⟩, ⟨"s2".toList, 1, false, []⟩]⟩ := by
  have h1 : exampleContestP.desc.getSelections S = exampleContest.selections := by
    refine sort_of_sorted S _ _ ?_ ?_ <;> decide +kernel
  have h2 : exampleContestP2.desc.getSelections S = exampleContest.selections := by
    refine sort_of_sorted S _ _ ?_ ?_ <;> decide +kernel
  constructor
  · unfold emplaceFrom emplaceContest contestFrom
    simp only [h2]
    decide +kernel
  · unfold emplaceFrom emplaceContest contestFrom
    simp only [h1]
    decide +kernel

/-- No contest of the example ballot is overvoted, and there are enough precomputed values. -/
example (S : StdSort) : Bounded exampleBallot [exampleContestP2, exampleContestP] ∧
    plainWorld.pre.quads = [] ∧
    (∀ d ∈ [exampleContestP2, exampleContestP], ¬ OvervotedIn S exampleBallot d) ∧
    ([exampleContestP2, exampleContestP].map (fun d => d.desc.selections.length +
      d.placeholders.length)).sum ≤ (quadsWorld (gPowP .std 2)).pre.quads.length := by
  refine ⟨⟨by decide +kernel, by decide +kernel⟩, rfl, ?_, ?_⟩
  · intro d hd
    unfold OvervotedIn PContest.Overvoted
    rcases List.mem_cons.1 hd with rfl | hd
    · rw [(example_normal S).1]
      decide +kernel
    · rw [List.mem_singleton.1 hd, (example_normal S).2]
      decide +kernel
  · have : (quadsWorld (gPowP .std 2)).pre.quads.length = 10 := by simp [quadsWorld]
    rw [this]
    decide +kernel

/-- An overvoted ballot: both selections of a contest with one seat. -/
def overvotedBallot : PBallot :=
  { exampleBallot with
    contests := [⟨"c".toList, [⟨"s1".toList, 1, false, []⟩, ⟨"s2".toList, 1, false, []⟩]⟩] }

example (S : StdSort) : OvervotedIn S overvotedBallot exampleContestP := by
  have h1 : exampleContestP.desc.getSelections S = exampleContest.selections := by
    refine sort_of_sorted S _ _ ?_ ?_ <;> decide +kernel
  have e : emplaceFrom S overvotedBallot exampleContestP =
      ⟨"c".toList, [⟨"s1".toList, 1, false, []⟩, ⟨"s2".toList, 1, false, []⟩]⟩ := by
    unfold emplaceFrom emplaceContest contestFrom
    simp only [h1]
    decide +kernel
  unfold OvervotedIn PContest.Overvoted
  rw [e]
  decide +kernel

/-- A contest with two votes, and both for the first selection. -/
example (C : Crypto) (S : StdSort) : ∃ (d : ContestDesc) (c : PContest) (sd : SelectionDesc) (rest : List SelectionDesc)
    (s : PSelection) (hash : ℕ), c.isValid d.objectId (d.getSelections S).length d.numberElected d.votesAllowed true = .success ∧
      d.hash .std C = .ok hash ∧ d.getSelections S = sd :: rest ∧
      c.selections.find? (fun s => s.objectId = sd.objectId) = some s ∧ 1 < s.vote := by
  have h1 : ContestDesc.getSelections S { exampleContest with numberElected := 2, votesAllowed := 2 } = exampleContest.selections := by
    refine sort_of_sorted S _ _ ?_ ?_ <;> decide +kernel
  refine ⟨{ exampleContest with numberElected := 2, votesAllowed := 2 }, ⟨"c".toList, [⟨"s1".toList, 2, false, []⟩]⟩, _, _, ⟨"s1".toList, 2, false, []⟩, _,
    ?_, rfl, h1, ?_, ?_⟩
  · rw [h1]
    decide +kernel
  · decide +kernel
  · decide +kernel

/-- The votes that the console gives away for the example ballot: those of the contest `c2` (both
selections 0, its placeholder 1) and those of `c` (0 and 1, its placeholder 0). -/
example (S : StdSort) : [exampleContestP2, exampleContestP].flatMap (fun d =>
    contestVotes S (emplaceFrom S exampleBallot d) d) = [0, 0, 1, 0, 1, 0] := by
  have h1 : exampleContestP.desc.getSelections S = exampleContest.selections := by
    refine sort_of_sorted S _ _ ?_ ?_ <;> decide +kernel
  have h2 : exampleContestP2.desc.getSelections S = exampleContest.selections := by
    refine sort_of_sorted S _ _ ?_ ?_ <;> decide +kernel
  have h3 : ∀ d : ContestDescP, (d.getPlaceholders S).length = d.placeholders.length :=
    fun d => (S.perm _ _).length_eq
  simp only [List.flatMap_cons, List.flatMap_nil, (example_normal S).1, (example_normal S).2, contestVotes,
    realVotes, isOver, h1, h2, h3]
  decide +kernel

end EG.Log
