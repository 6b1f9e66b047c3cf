import Verif.Props.Compact

/-!
# C39: compact encryption succeeds; precomputed values make compact ballots unusable
-/

namespace EG

variable (G : Params) (C : Crypto) (S : StdSort)

theorem cloneQ_lt (v : ℕ) (h : v < G.q) : cloneQ G v = .ok v := by
  rw [cloneQ, mkQ_eq, if_neg (by omega)]

/-- C39: compact encryption succeeds whenever encryption does. -/
theorem C39_compact_total (hG : G.Valid) (b : PBallot) (m : IManifest) (ctx : Context) (seed t n : ℕ)
    (verify : Bool) (ds : List ContestDescP)
    (hds : m.getContestsFor S b.styleId = .ok ds)
    (hinj : ∀ x ∈ ds, ∀ y ∈ ds, x.desc.objectId = y.desc.objectId → x = y)
    (hseed : seed < G.q) (hn : n < G.q) (w w' : World) (e : CBallot)
    (h : encryptBallot G C S b m ctx seed (some n) t verify w = (.ok e, w')) :
    ∃ c, encryptCompactBallot G C S b m ctx seed (some n) t verify w = (.ok c, w') ∧
      ∃ nb, emplaceBallot S b m = .ok nb ∧
        c = ⟨compressPlain nb, .unknown, seed, e.ballotCode, e.timestamp, n⟩ := by
  obtain ⟨n', w1, w2, h1, -, -, -, -, h6, -, h8, h9⟩ := encryptBallot_steps G C S _ _ _ _ _ _ _ _ _ _ h
  simp only [nonceOr, M.ret, Prod.mk.injEq, Res.ok.injEq] at h1
  obtain ⟨rfl, -⟩ := h1
  have hst : ∃ st, m.getBallotStyle b.styleId = some st := by
    rcases hst : m.getBallotStyle b.styleId with _ | st
    · rw [encryptBallot, hst] at h
      simp [M.raise] at h
    · exact ⟨st, rfl⟩
  obtain ⟨st, hst⟩ := hst
  have hid : st.objectId = b.styleId := by
    have := List.find?_some hst
    simpa using this
  have hb : emplaceBallot S b m = .ok { b with contests := ds.map (emplaceFrom S b) } := by
    rw [emplaceBallot, hst]
    dsimp only
    rw [hid, hds]
    rfl
  unfold encryptCompactBallot
  rw [hb, M.bind_apply_ok (M.lift (Res.ok _)) _ w w _ rfl,
    M.bind_apply_ok _ _ w w' e
      (by rw [encryptBallot_normalized G C S b _ m ctx seed _ t verify ds hds hinj hb]; exact h)]
  unfold compressCipher
  rw [h6]
  dsimp only
  rw [cloneQ_lt G _ (h8 ▸ hseed), cloneQ_lt G _ (by rw [h9]; exact hashElems_lt hG _),
    cloneQ_lt G _ hn]
  exact ⟨_, rfl, _, rfl, by rw [h8]⟩

/-- C39: a ballot without nonce (for example one that was read without nonces) is refused. -/
theorem C39_no_nonce (b : PBallot) (c : CBallot) (h : c.nonce = none) :
    compressCipher G b c = .throw .invalidArgument := by
  rw [compressCipher, h]

/-- C39, in every environment: expanding a compact ballot encrypts the voter's ballot again, with the
stored nonce and time and with verification, and succeeds exactly if the code comes out the same. -/
theorem C39_expand_iff (b nb : PBallot) (m : IManifest) (ctx : Context) (seed code t n : ℕ)
    (state : BallotBoxState) (ds : List ContestDescP)
    (hds : m.getContestsFor S b.styleId = .ok ds)
    (hinj : ∀ x ∈ ds, ∀ y ∈ ds, x.desc.objectId = y.desc.objectId → x = y)
    (hnb : emplaceBallot S b m = .ok nb) (hn : n < G.q) (u u' : World) (e : CBallot) :
    expandCipher G C S ⟨compressPlain nb, state, seed, code, t, n⟩ m ctx u = (.ok e, u') ↔
      encryptBallot G C S b m ctx seed (some n) t true u = (.ok e, u') ∧ e.ballotCode = code := by
  unfold expandCipher
  dsimp only
  rw [C39_plaintext S b nb m ds hds hnb, cloneQ_lt G n hn,
    M.bind_apply_ok (M.lift (Res.ok nb.unmark)) _ u u _ rfl,
    M.bind_apply_ok (M.lift (Res.ok n)) _ u u _ rfl, encryptBallot_unmark,
    encryptBallot_normalized G C S b nb m ctx seed _ _ _ ds hds hinj hnb, M.bind_eq_ok]
  constructor
  · rintro ⟨e', u1, h1, h2⟩
    split at h2
    · simp [M.raise] at h2
    · rename_i hc
      simp only [M.ret, Prod.mk.injEq, Res.ok.injEq] at h2
      obtain ⟨rfl, rfl⟩ := h2
      exact ⟨h1, not_not.1 hc⟩
  · rintro ⟨h1, h2⟩
    exact ⟨e, u', h1, by rw [if_neg (not_not.2 h2)]; rfl⟩

/-- The hypotheses of `C39_compact_total`, and with empty buffers those of `C39_ciphertext_partial`, are
met: the example ballot, with two contests, is encrypted for every key. -/
theorem C39_example (S : StdSort) (K : ℕ) (hK : Residue .std K) (h ch t : ℕ) (hch : ch < Params.std.q)
    (n : ℕ) (hn : n < Params.std.q) (w : World) (hw : w.Ok .std K) :
    ∃ c w', encryptCompactBallot .std (constCrypto 5) S exampleBallot (exampleIM h) (exampleContext K h) ch
      (some n) t false w = (.ok c, w') := by
  obtain ⟨e, w', he⟩ := encryptBallot_example S K hK h ch t (some n) w hw
  obtain ⟨c, hc, -⟩ := C39_compact_total .std (constCrypto 5) S C54_std_valid exampleBallot (exampleIM h)
    (exampleContext K h) ch t n false [exampleContestP2, exampleContestP] (exampleIM_contests S h)
    (by decide +kernel) hch hn w w' e he
  exact ⟨c, w', hc⟩

example : ∀ d ∈ [exampleContestP2, exampleContestP],
    ((d.desc.selections ++ d.placeholders).map (·.seq)).Nodup := by decide +kernel

example : plainWorld.Empty := ⟨rfl, rfl⟩

/-! ## Precomputed values -/

/-- The nonce of a selection was derived by hashing. -/
def CSelection.Derived (s : CSelection) : Prop := ∃ xs, s.nonce = some (hashElems G C xs)

theorem derived_selection (s : PSelection) (d : SelectionDesc) (pub ext seed : ℕ) (p v : Bool) :
    Agree (fun x _ => x.Derived G C) (encryptSelection G C s d pub ext seed p v)
      (encryptSelection G C s d pub ext seed p v) := by
  unfold encryptSelection
  split
  · exact Agree.raise_left
  have core : Agree (fun x _ => x.Derived G C) (encryptSelectionCore G C s d pub ext seed p)
      (encryptSelectionCore G C s d pub ext seed p) := by
    unfold encryptSelectionCore
    dsimp only
    refine Agree.quad.bind ?_
    rintro _ _ ⟨rfl, rfl⟩
    refine Agree.lift_same.bind ?_
    rintro c _ rfl
    unfold CSelection.make
    refine Agree.bind (R := fun _ _ => True) ?_ (fun π π' _ => Agree.ret
      ⟨[.q (hashElems G C [.q (d.hash G C), .q seed]), .u64 d.seq], rfl⟩)
    unfold disjMakeM
    split
    · exact Agree.raise_left
    · exact Agree.rand.bind (fun _ _ _ => Agree.rand.bind (fun _ _ _ => Agree.rand.bind
        (fun _ _ _ => Agree.lift (fun _ _ _ _ => trivial))))
  refine core.bind (fun a b hab => ?_)
  intro w u w' u' x y hw hu hx hy
  have key : ∀ (v : Bool) (k : Bool) (a : CSelection) (w w' : World) (x : CSelection),
      (if !v then M.ret a else if k then M.ret a else M.raise .runtimeError : M CSelection) w =
        (.ok x, w') → M.ret a w = (.ok x, w') := by
    intro v k a w w' x hx
    cases v <;> cases k <;> first | exact hx | simp [M.raise] at hx
  exact Agree.ret (R := fun x _ => x.Derived G C) hab w u w' u' x y hw hu (key _ _ _ _ _ _ hx)
    (key _ _ _ _ _ _ hy)

theorem derived_real (pub ext n : ℕ) (v over : Bool) (l : List PSelection)
    (ds : List SelectionDesc) (count : ℕ) :
    Agree (fun x _ => ∀ s ∈ x.1, s.Derived G C) (encryptReal G C pub ext n v over l ds count)
      (encryptReal G C pub ext n v over l ds count) := by
  induction ds generalizing count with
  | nil => exact Agree.ret (by simp)
  | cons d ds ih =>
    unfold encryptReal
    cases l.find? (fun s => s.objectId = d.objectId) with
    | none => exact Agree.raise_left
    | some s =>
      dsimp only
      refine (derived_selection G C _ d pub ext n false v).bind (fun e e' he => ?_)
      refine (ih _).bind (fun r r' hr => Agree.ret ?_)
      intro s hs
      rcases List.mem_cons.1 hs with rfl | hs
      · exact he
      · exact hr s hs

theorem derived_placeholders (pub ext n : ℕ) (v over : Bool) (k : ℕ)
    (ds : List SelectionDesc) (count : ℕ) :
    Agree (fun x _ => ∀ s ∈ x, s.Derived G C) (encryptPlaceholders G C pub ext n v over k ds count)
      (encryptPlaceholders G C pub ext n v over k ds count) := by
  induction ds generalizing count with
  | nil => exact Agree.ret (by simp)
  | cons d ds ih =>
    unfold encryptPlaceholders
    dsimp only
    refine (derived_selection G C _ d pub ext n true v).bind (fun e e' he => ?_)
    refine (ih _).bind (fun r r' hr => Agree.ret ?_)
    intro s hs
    rcases List.mem_cons.1 hs with rfl | hs
    · exact he
    · exact hr s hs

theorem contestMake_selections (id : Str) (seq dh pub ext ps k : ℕ) (n : Option ℕ)
    (x : Option HashedCiphertext) (l : List CSelection) (w w' : World) (e : CContest)
    (h : CContest.make G C S id seq dh l pub ext ps k n x w = (.ok e, w')) : e.selections = l := by
  unfold CContest.make at h
  simp only [M.bind_eq_ok, M.lift, M.getTriple, M.ret, Prod.mk.injEq, Res.ok.injEq] at h
  obtain ⟨ch, w5, ⟨hch, rfl⟩, acc, w6, ⟨hacc, rfl⟩, agg, w7, ⟨hagg, rfl⟩, t, w8, ⟨rfl, rfl⟩, π, w9,
    ⟨hπ, rfl⟩, rfl, rfl⟩ := h
  rfl

/-- The first steps of the encryption of a contest. -/
theorem encryptContest_parts (c : PContest) (m : IManifest) (d : ContestDescP) (pub ext seed : ℕ)
    (v : Bool) (w w' : World) (e : CContest)
    (h : encryptContest G C S c m d pub ext seed v w = (.ok e, w')) :
    ∃ n over l rs w1 k count ps w2,
      encryptReal G C pub ext n v over l (d.desc.getSelections S) 0 w = (.ok rs, w1) ∧
      encryptPlaceholders G C pub ext n v over k (d.getPlaceholders S) count w1 = (.ok ps, w2) ∧
      e.selections = rs.1 ++ ps := by
  unfold encryptContest at h
  dsimp only at h
  split at h
  · simp [M.raise] at h
  rw [M.bind_eq_ok] at h
  obtain ⟨dh, w0, h0, h⟩ := h
  simp only [M.lift, Prod.mk.injEq] at h0
  obtain ⟨hdh, rfl⟩ := h0
  rw [M.bind_eq_ok] at h
  obtain ⟨rs, w1, h1, h⟩ := h
  rw [M.bind_eq_ok] at h
  obtain ⟨ps, w2, h2, h⟩ := h
  rw [M.bind_eq_ok] at h
  obtain ⟨x, w3, h3, h⟩ := h
  rw [M.bind_eq_ok] at h
  obtain ⟨e', w4, h4, h⟩ := h
  have hs := contestMake_selections G C S _ _ _ _ _ _ _ _ _ _ _ _ _ h4
  have he : e = e' := by
    split at h
    · simp only [M.ret, Prod.mk.injEq, Res.ok.injEq] at h
      exact h.1.symm
    · rw [M.bind_eq_ok] at h
      obtain ⟨b, w5, h5, h⟩ := h
      split at h
      · simp only [M.ret, Prod.mk.injEq, Res.ok.injEq] at h
        exact h.1.symm
      · simp [M.raise] at h
  subst he
  exact ⟨_, _, _, rs, w1, _, _, ps, w2, h1, h2, hs⟩

/-- Without precomputed values all nonces of a contest are derived. -/
theorem derived_contest (c : PContest) (m : IManifest) (d : ContestDescP) (pub ext seed : ℕ)
    (v : Bool) (w w' : World) (e : CContest) (hw : w.Empty)
    (h : encryptContest G C S c m d pub ext seed v w = (.ok e, w')) :
    ∀ s ∈ e.selections, s.Derived G C := by
  obtain ⟨n, over, l, rs, w1, k, count, ps, w2, h1, h2, h3⟩ := encryptContest_parts G C S _ _ _ _ _ _ _ _ _ _ h
  obtain ⟨a, hw1, -⟩ := derived_real G C _ _ _ _ _ _ _ _ w w w1 w1 rs rs hw hw h1 h1
  obtain ⟨b, -, -⟩ := derived_placeholders G C _ _ _ _ _ _ _ _ w1 w1 w2 w2 ps ps hw1 hw1 h2 h2
  rw [h3]
  intro s hs
  rcases List.mem_append.1 hs with hs | hs
  · exact a s hs
  · exact b s hs

/-- The first selection takes the first precomputed value. -/
theorem quad_contest (c : PContest) (m : IManifest) (d : ContestDescP) (pub ext seed : ℕ)
    (v : Bool) (w w' : World) (e : CContest) (t : TwoTriplesQuad) (ts : List TwoTriplesQuad)
    (sd : SelectionDesc) (sds : List SelectionDesc) (hs : d.desc.getSelections S = sd :: sds)
    (hw : w.pre.quads = t :: ts)
    (h : encryptContest G C S c m d pub ext seed v w = (.ok e, w')) :
    ∃ s ∈ e.selections, s.ciphertext.pad = t.triple1.gToExp := by
  obtain ⟨n, over, l, rs, w1, k, count, ps, w2, h1, h2, h3⟩ := encryptContest_parts G C S _ _ _ _ _ _ _ _ _ _ h
  rw [hs] at h1
  unfold encryptReal at h1
  cases hf : l.find? (fun s => s.objectId = sd.objectId) with
  | none => rw [hf] at h1; simp [M.raise] at h1
  | some s0 =>
  rw [hf] at h1
  dsimp only at h1
  rw [M.bind_eq_ok] at h1
  obtain ⟨x, wx, hx, h1⟩ := h1
  rw [M.bind_eq_ok] at h1
  obtain ⟨r, wr, hr, h1⟩ := h1
  simp only [M.ret, Prod.mk.injEq, Res.ok.injEq] at h1
  obtain ⟨rfl, rfl⟩ := h1
  refine ⟨x, by rw [h3]; simp, ?_⟩
  generalize (if over = true then _ else s0) = s1 at hx
  unfold encryptSelection at hx
  split at hx
  · simp [M.raise] at hx
  rw [M.bind_eq_ok] at hx
  obtain ⟨y, wy, hy, hx⟩ := hx
  have hxy : x = y := by
    split at hx
    · simp only [M.ret, Prod.mk.injEq, Res.ok.injEq] at hx
      exact hx.1.symm
    · split at hx
      · simp only [M.ret, Prod.mk.injEq, Res.ok.injEq] at hx
        exact hx.1.symm
      · simp [M.raise] at hx
  subst hxy
  unfold encryptSelectionCore at hy
  rw [M.bind_eq_ok] at hy
  obtain ⟨pre, w5, h5, hy⟩ := hy
  simp only [M.getQuad, PreState.getQuad, hw, Prod.mk.injEq, Res.ok.injEq] at h5
  obtain ⟨rfl, rfl⟩ := h5
  dsimp only at hy
  simp only [M.lift, Prod.mk.injEq] at hy
  obtain ⟨hy, -⟩ := hy
  unfold CSelection.makePrecomputed at hy
  rw [Res.bind_eq_ok] at hy
  obtain ⟨π, -, hy⟩ := hy
  rw [Res.ok.injEq] at hy
  subst hy
  rfl

/-- A ballot style with a single contest. -/
theorem encryptContests_one (b : PBallot) (m : IManifest) (ctx : Context) (seed : ℕ) (v : Bool)
    (d : ContestDescP) (hds : m.getContestsFor S b.styleId = .ok [d]) (w w' : World) (es : List CContest)
    (h : encryptContests G C S b m ctx seed v w = (.ok es, w')) :
    ∃ c e, es = [e] ∧ encryptContest G C S c m d ctx.pub ctx.extHash seed v w = (.ok e, w') := by
  unfold encryptContests at h
  rw [M.bind_eq_ok] at h
  obtain ⟨nb, w1, h1, h⟩ := h
  simp only [M.lift, Prod.mk.injEq] at h1
  obtain ⟨h1, rfl⟩ := h1
  cases hst : m.getBallotStyle b.styleId with
  | none => rw [hst] at h; simp [M.lift] at h
  | some style =>
    have hid : style.objectId = b.styleId := by
      have := List.find?_some hst
      simpa using this
    rw [hst] at h
    dsimp only at h
    rw [hid, hds, M.bind_eq_ok] at h
    obtain ⟨ds, w2, h2, h⟩ := h
    simp only [M.lift, Prod.mk.injEq, Res.ok.injEq] at h2
    obtain ⟨rfl, rfl⟩ := h2
    unfold M.forEach at h
    rw [M.bind_eq_ok] at h
    obtain ⟨e, w3, h3, h⟩ := h
    unfold M.forEach at h
    rw [M.bind_eq_ok] at h
    obtain ⟨r, w4, h4, h⟩ := h
    simp only [M.ret, Prod.mk.injEq, Res.ok.injEq] at h4 h
    obtain ⟨rfl, rfl⟩ := h4
    obtain ⟨rfl, rfl⟩ := h
    cases hf : nb.contests.find? (fun c => c.objectId = d.desc.objectId) with
    | none => rw [hf] at h3; simp [M.raise] at h3
    | some c =>
      rw [hf] at h3
      exact ⟨c, e, rfl, h3⟩

/-! ### A hash function that notices one element -/

/-- The number `g` and the number 6 in hexadecimal. -/
def marks : List Str := [toHexP Params.std.g, toHexQ 6]

/-- A hash function with the value 6 if one of the hashed texts is a mark, and 5 otherwise. -/
def markCrypto : Crypto where
  sha256 s := if (s.splitOn '|').any (fun x => marks.contains x) then 6 else 5
  sha256_lt s := by split <;> norm_num
  hmac _ _ := List.replicate 32 0
  hmac_length _ _ := List.length_replicate

theorem splitOn_hashInput (ss : List Str) (h : ∀ s ∈ ss, '|' ∉ s) :
    (hashInput ss).splitOn '|' = [] :: ss ++ [[]] := by
  have key : ∀ l : List Str, ['|'].intercalate (l ++ [[]]) = l.flatMap (fun s => s ++ ['|']) := by
    intro l
    induction l with
    | nil => rfl
    | cons x l ih =>
      rw [List.cons_append, List.intercalate_cons_of_ne_nil (by simp), ih]
      simp
  have : hashInput ss = ['|'].intercalate ([] :: ss ++ [[]]) := by
    rw [key]
    rfl
  rw [this, List.splitOn_intercalate _ _ (by simp)]
  intro l hl
  simp only [List.cons_append, List.mem_cons, List.mem_append, List.not_mem_nil, or_false] at hl
  rcases hl with rfl | hl | rfl
  · simp
  · exact h l hl
  · simp

/-- One of the elements is rendered as a mark. -/
def Marked (xs : List HElem) : Bool :=
  xs.any (fun x => marks.contains (x.render .std markCrypto))

theorem std_add5 : addModQ .std 5 0 = 5 := by decide +kernel

theorem std_add6 : addModQ .std 6 0 = 6 := by decide +kernel

theorem hashElems_mark (xs : List HElem) (hne : xs ≠ []) (h : ∀ x ∈ xs, x.Plain) :
    hashElems .std markCrypto xs = if Marked xs then 6 else 5 := by
  have hm : marks.contains ([] : Str) = false := by decide +kernel
  have : markCrypto.sha256 (hashInput (xs.map (HElem.render .std markCrypto))) =
      if Marked xs then 6 else 5 := by
    unfold markCrypto
    dsimp only
    rw [splitOn_hashInput]
    · simp only [List.cons_append, List.any_cons, List.any_append, List.any_nil, hm, Bool.false_or,
        Bool.or_false, List.any_map]
      rfl
    · intro s hs
      obtain ⟨x, hx, rfl⟩ := List.mem_map.1 hs
      exact elem_no_delim _ _ x (h x hx)
  unfold hashElems digestQ
  rw [if_neg (by simpa using hne), this]
  split
  · exact std_add6
  · exact std_add5

theorem hashElems_56 (xs : List HElem) : hashElems .std markCrypto xs = 5 ∨
    hashElems .std markCrypto xs = 6 := by
  have : ∀ s, addModQ .std (markCrypto.sha256 s) 0 = 5 ∨ addModQ .std (markCrypto.sha256 s) 0 = 6 := by
    intro s
    unfold markCrypto
    dsimp only
    split
    · exact .inr std_add6
    · exact .inl std_add5
  unfold hashElems digestQ
  split <;> exact this _

/-! ### A small ballot -/

/-- One contest with one selection. -/
def tinyContest : ContestDescP :=
  { desc := .make7 "c".toList "d".toList 1 .one_of_m 1 "n".toList [⟨"s".toList, "a".toList, 1⟩]
    placeholders := [placeholderFrom "c".toList 2] }

def tinyIM : IManifest :=
  { gpUnits := [], candidates := [], contests := [tinyContest]
    styles := [⟨"y".toList, ["d".toList], [], []⟩], manifestHash := 5 }

def tinyBallot : PBallot := ⟨"b".toList, "y".toList, [⟨"c".toList, [⟨"s".toList, 1, false, []⟩]⟩]⟩

theorem genTriple_g (K e : ℕ) : (genTriple G K e).gToExp = gPowP G e := rfl

/-- One precomputed value for the key, with the exponents 1. -/
def quadWorld (K : ℕ) : World :=
  { plainWorld with pre := { plainWorld.pre with
      quads := [⟨genTriple .std K 1, genTriple .std K 1, genQuadruple .std K 1 1⟩] } }

theorem tinyIM_contests (S : StdSort) : tinyIM.getContestsFor S "y".toList = .ok [tinyContest] := by
  have e : tinyIM.getBallotStyle "y".toList = some ⟨"y".toList, ["d".toList], [], []⟩ := by
    decide +kernel
  rw [IManifest.getContestsFor, e]
  have e2 : contestsOfUnits tinyIM.contests ["d".toList] = [tinyContest] := by decide +kernel
  have e3 : S.sort (fun c : ContestDescP => c.desc.seq) [tinyContest] = [tinyContest] := by
    refine sort_of_sorted S _ _ ?_ ?_ <;> decide +kernel
  change Res.ok (S.sort _ (contestsOfUnits tinyIM.contests ["d".toList])) = _
  rw [e2, e3]

theorem tiny_good : GoodContests [tinyContest] := by
  refine ⟨?_, ?_, ?_, ?_⟩ <;> decide +kernel

theorem quadWorld_ok (K : ℕ) (hK : K < 2 ^ 4096) : (quadWorld K).Ok .std K := by
  have h1 : 1 < Params.std.q := by decide +kernel
  refine ⟨fun _ => std_q_gt7, by simp [quadWorld, plainWorld], ?_⟩
  intro e he
  simp only [quadWorld, List.mem_singleton] at he
  subst he
  exact ⟨genTriple_forKey _ C54_std_valid K 1 hK h1, genTriple_forKey _ C54_std_valid K 1 hK h1,
    genQuadruple_forKey _ C54_std_valid K 1 1 hK h1 h1⟩

theorem tiny_hash : tinyContest.desc.hash .std markCrypto = .ok 5 := by
  decide +kernel

/-- The small ballot can be encrypted in every environment. -/
theorem tiny_total (S : StdSort) (K : ℕ) (hK : Residue .std K) (w : World) (hw : w.Ok .std K) :
    ∃ e w', encryptBallot .std markCrypto S tinyBallot tinyIM (exampleContext K 5) 5 (some 5) 1 false w =
      (.ok e, w') := by
  refine C35_ballot_total .std markCrypto S C54_std_valid (exampleContext K 5) tinyBallot tinyIM 5 (some 5) 1
    w [tinyContest] hK hw (tinyIM_contests S) tiny_good (by simp) (by decide +kernel) (by decide +kernel)
    (by decide +kernel) (fun _ => 5) ?_ ?_
  · intro d hd
    rw [List.mem_singleton.1 hd]
    exact tiny_hash
  · intro d _ sd _
    rw [selectionNonce]
    rcases hashElems_56 [.q (hashElems .std markCrypto [.q (sd.hash .std markCrypto), .q (hashElems .std markCrypto
      [.q (hashElems .std markCrypto [.q 5, .q (hashElems .std markCrypto [.q tinyIM.manifestHash,
        .str tinyBallot.objectId, .q ((some 5).getD (w.rng 0))])]), .u64 d.desc.seq])]), .u64 sd.seq] with h | h <;>
    · rw [h]; norm_num

theorem hexQ_marks (v : ℕ) (hv : v = 5 ∨ v = 6) : marks.contains (toHexQ v) = decide (v = 6) := by
  rcases hv with rfl | rfl <;> decide +kernel

theorem hexP_marks (v : ℕ) (hv : v < 2 ^ 4096) :
    marks.contains (toHexP v) = decide (v = Params.std.g ∨ v = 6) := by
  have e6 : toHexQ 6 = toHexP 6 := by decide +kernel
  have hg : Params.std.g < 2 ^ 4096 := by decide +kernel
  have a : toHexP v = toHexP Params.std.g ↔ v = Params.std.g :=
    ⟨toHexP_inj _ _ hv hg, fun h => by rw [h]⟩
  have b : toHexP v = toHexP 6 ↔ v = 6 :=
    ⟨toHexP_inj _ _ hv (by decide +kernel), fun h => by rw [h]⟩
  unfold marks
  rw [e6, Bool.eq_iff_iff, decide_eq_true_iff, List.contains_iff_mem]
  simp only [List.mem_cons, List.not_mem_nil, or_false, a, b]

theorem plain_q (v : ℕ) (hv : v = 5 ∨ v = 6) : (HElem.q v).Plain := by
  change v < 2 ^ 256
  rcases hv with rfl | rfl <;> norm_num

/-- Hash of an id, of 5 and of numbers 5 and 6. -/
theorem mark_up (id : Str) (hid : Str.Plain id) (hm : marks.contains ((HElem.str id).render .std markCrypto) = false)
    (l : List ℕ) (hl : ∀ x ∈ l, x = 5 ∨ x = 6) :
    hashElems .std markCrypto (.str id :: .q 5 :: l.map .q) = if 6 ∈ l then 6 else 5 := by
  rw [hashElems_mark _ (by simp)]
  · have : Marked (.str id :: .q 5 :: l.map .q) = decide (6 ∈ l) := by
      unfold Marked
      rw [List.any_cons, hm, List.any_cons]
      have h5 : marks.contains ((HElem.q 5).render .std markCrypto) = false := hexQ_marks 5 (.inl rfl)
      rw [h5, List.any_map, Bool.false_or, Bool.false_or]
      clear hm hid h5
      induction l with
      | nil => rfl
      | cons x l ih =>
        rw [List.any_cons, ih (fun y hy => hl y (by simp [hy]))]
        have : marks.contains ((HElem.q x).render .std markCrypto) = decide (x = 6) :=
          hexQ_marks x (hl x (by simp))
        simp only [Function.comp, this, List.mem_cons, eq_comm (a := (6 : ℕ))]
        by_cases h : x = 6 <;> simp [h]
    rw [this]
    simp
  · intro x hx
    rcases List.mem_cons.1 hx with rfl | hx
    · exact hid
    rcases List.mem_cons.1 hx with rfl | hx
    · exact plain_q 5 (.inl rfl)
    obtain ⟨y, hy, rfl⟩ := List.mem_map.1 hx
    exact plain_q y (hl y hy)

/-- The number `g` or 6 occurs in a ciphertext. -/
def Ciphertext.Marked (c : Ciphertext) : Prop :=
  (c.pad = Params.std.g ∨ c.pad = 6) ∨ (c.data = Params.std.g ∨ c.data = 6)

instance (c : Ciphertext) : Decidable c.Marked := by unfold Ciphertext.Marked; infer_instance

/-- The hash of an encrypted selection of the small ballot shows whether `g` occurs in it. -/
theorem tiny_selection (K ext vote : ℕ) (d : SelectionDesc) (p : Bool) (e : CSelection)
    (hd : d ∈ tinyContest.desc.selections ++ tinyContest.placeholders)
    (h : EncryptsVote .std markCrypto K ext vote d p e) :
    e.cryptoHash = if e.ciphertext.Marked then 6 else 5 := by
  obtain ⟨n, -, -, hp, hdt, -⟩ := h.encryption
  have hp' := lt_trans hp C54_std_valid.p_lt
  have hd' := lt_trans hdt C54_std_valid.p_lt
  have hc : hashElems .std markCrypto [.p e.ciphertext.pad, .p e.ciphertext.data] =
      if e.ciphertext.Marked then 6 else 5 := by
    rw [hashElems_mark _ (by simp)]
    · have : EG.Marked [.p e.ciphertext.pad, .p e.ciphertext.data] = decide e.ciphertext.Marked := by
        have a := hexP_marks _ hp'
        have b := hexP_marks _ hd'
        unfold EG.Marked
        rw [List.any_cons, List.any_cons, List.any_nil, Bool.or_false]
        refine (congrArg₂ _ a b).trans ?_
        rw [← Bool.decide_or]
        rfl
      rw [this]
      simp
    · intro x hx
      simp only [List.mem_cons, List.not_mem_nil, or_false] at hx
      rcases hx with rfl | rfl
      · exact hp'
      · exact hd'
  have hdesc : ∀ d ∈ tinyContest.desc.selections ++ tinyContest.placeholders,
      d.hash .std markCrypto = 5 ∧ (d.objectId ≠ nullString ∧ '|' ∉ d.objectId) ∧
      marks.contains ((HElem.str d.objectId).render .std markCrypto) = false := by
    decide +kernel
  obtain ⟨d1, d2, d3⟩ := hdesc d hd
  rw [h.hash, d1, hc]
  have := mark_up d.objectId d2 d3 [if e.ciphertext.Marked then 6 else 5]
    (by intro x hx; rw [List.mem_singleton.1 hx]; split <;> simp)
  rw [List.map_singleton] at this
  rw [this]
  split <;> simp

theorem encryptsVote_all (K ext : ℕ) (S : StdSort) (m : IManifest) (seed : ℕ) (c : PContest) (d : ContestDescP)
    (over : Bool) (e : CContest) (h : ContestFacts G C S m K ext seed c d over e) :
    ∀ s ∈ e.selections, ∃ vote sd p, sd ∈ d.desc.selections ++ d.placeholders ∧
      EncryptsVote G C K ext vote sd p s := by
  obtain ⟨rs, ps, e1, h1, h2⟩ := h.selections
  rw [e1]
  intro s hs
  rcases List.mem_append.1 hs with hs | hs
  · obtain ⟨sd, hsd, hv⟩ := forall₂_mem_right h1 s hs
    exact ⟨_, sd, _, List.mem_append_left _ ((mem_sort _ _ _ _).1 hsd), hv⟩
  · obtain ⟨sd, hsd, hv⟩ := forall₂_mem_right h2 s hs
    exact ⟨_, sd.1, _, List.mem_append_right _ ((mem_sort _ _ _ _).1 (List.of_mem_zip hsd).1), hv⟩

/-- The code of the encrypted small ballot shows whether `g` occurs in it. -/
theorem tiny_code (S : StdSort) (K : ℕ) (hK : Residue .std K) (t : ℕ) (ht : t = 1) (v : Bool) (w w' : World) (hw : w.Ok .std K)
    (e : CBallot)
    (h : encryptBallot .std markCrypto S tinyBallot tinyIM (exampleContext K 5) 5 (some 5) t v w = (.ok e, w')) :
    ∃ c x w2, e.contests = [x] ∧
      encryptContest .std markCrypto S c tinyIM tinyContest K 3
        (nonceSeedOf .std markCrypto 5 "b".toList 5) v w = (.ok x, w2) ∧
      e.ballotCode = if ∃ s ∈ x.selections, s.ciphertext.Marked then 6 else 5 := by
  have htime := encryptBallot_time .std markCrypto S _ _ _ _ _ _ _ _ _ _ (by omega) h
  obtain ⟨n, w1, w2, h1, h2, -, -, -, -, h7, -, h9⟩ := encryptBallot_steps .std markCrypto S _ _ _ _ _ _ _ _ _ _ h
  simp only [nonceOr, M.ret, Prod.mk.injEq, Res.ok.injEq] at h1
  obtain ⟨rfl, rfl⟩ := h1
  obtain ⟨c, x, hx, hrun⟩ := encryptContests_one .std markCrypto S _ _ _ _ _ _ (tinyIM_contests S) _ _ _ h2
  refine ⟨c, x, w2, hx, hrun, ?_⟩
  obtain ⟨over, -, facts, -⟩ := encryptContest_spec .std markCrypto S C54_std_valid K 3 _ c tinyIM tinyContest v
    _ _ x hK hw (by decide +kernel) hrun
  have hdesc : x.descHash = 5 := by
    have := facts.desc
    rw [tiny_hash, Res.ok.injEq] at this
    exact this.symm
  have hsel : ∀ s ∈ x.selections, s.cryptoHash = if s.ciphertext.Marked then 6 else 5 := by
    intro s hs
    obtain ⟨vote, sd, p, hsd, hv⟩ := encryptsVote_all _ _ _ _ _ _ _ _ _ _ _ facts s hs
    exact tiny_selection _ _ _ _ _ _ hsd hv
  have h56 : ∀ (P : Prop) [Decidable P], (if P then 6 else 5 : ℕ) = 5 ∨ (if P then 6 else 5 : ℕ) = 6 := by
    intro P _; by_cases h : P <;> simp [h]
  have hcontest : x.cryptoHash = if ∃ s ∈ x.selections, s.ciphertext.Marked then 6 else 5 := by
    have em : (S.sort CSelection.seq x.selections).map (fun s => HElem.q s.cryptoHash) =
        ((S.sort CSelection.seq x.selections).map (·.cryptoHash)).map .q := by simp [Function.comp_def]
    rw [facts.hash, hdesc, em, mark_up _ (by unfold Str.Plain; decide +kernel) (by decide +kernel)]
    · congr 1
      rw [eq_iff_iff, List.mem_map]
      constructor
      · rintro ⟨s, hs, h6⟩
        have hs := (mem_sort _ _ _ _).1 hs
        rw [hsel s hs] at h6
        refine ⟨s, hs, ?_⟩
        by_contra hh
        rw [if_neg hh] at h6
        omega
      · rintro ⟨s, hs, hm⟩
        exact ⟨s, (mem_sort _ _ _ _).2 hs, by rw [hsel s hs, if_pos hm]⟩
    · intro y hy
      obtain ⟨s, hs, rfl⟩ := List.mem_map.1 hy
      rw [hsel s ((mem_sort _ _ _ _).1 hs)]
      exact h56 _
  have hballot : e.cryptoHash = if ∃ s ∈ x.selections, s.ciphertext.Marked then 6 else 5 := by
    rw [h7, hx]
    have := mark_up "b".toList (by unfold Str.Plain; decide +kernel) (by decide +kernel) [x.cryptoHash]
      (by intro y hy; rw [List.mem_singleton.1 hy, hcontest]; exact h56 _)
    refine this.trans ?_
    rw [hcontest]
    split <;> simp
  rw [h9, htime, ht, hballot]
  by_cases hm : ∃ s ∈ x.selections, s.ciphertext.Marked
  · rw [if_pos hm]; decide +kernel
  · rw [if_neg hm]; decide +kernel

theorem tiny_numbers : ∀ n ∈ [5, 6], ∀ v ∈ [0, 1],
    let g := Params.std.g
    let p := Params.std.p
    g ^ n % p ≠ g ∧ g ^ n % p ≠ 6 ∧ g ^ v * (g ^ 2 % p) ^ n % p ≠ g ∧ g ^ v * (g ^ 2 % p) ^ n % p ≠ 6 := by
  decide +kernel

/-- C39 is violated: a compact ballot that was encrypted with a precomputed value cannot be expanded
again when nothing is precomputed.  The voter's ballot, given as votes and nonce, is lost. -/
theorem C39_precomputed_violated (S : StdSort) : ∃ (C : Crypto) (b : PBallot) (m : IManifest)
    (ctx : Context) (w w' : World) (c : CompactCipher),
    w.Ok .std ctx.pub ∧
    encryptCompactBallot .std C S b m ctx 5 (some 5) 1 false w = (.ok c, w') ∧
    ∀ u u' e, u.Ok .std ctx.pub → u.Empty → expandCipher .std C S c m ctx u ≠ (.ok e, u') := by
  obtain ⟨K, hKe⟩ : ∃ K, K = gPowP .std 2 := ⟨_, rfl⟩
  have hK : Residue .std K := by rw [hKe]; exact residue_gPowP C54_std_valid 2 (by norm_num)
  have hKv : K = Params.std.g ^ 2 % Params.std.p := by
    rw [hKe]; exact gPowP_eq C54_std_valid 2 (lt_512_of_lt (by norm_num))
  have hw := quadWorld_ok K (hK.lt C54_std_valid)
  obtain ⟨e, w', he⟩ := tiny_total S K hK _ hw
  obtain ⟨cc, hc, nb, hnb, hcc⟩ := C39_compact_total .std markCrypto S C54_std_valid tinyBallot tinyIM
    (exampleContext K 5) 5 1 5 false [tinyContest] (tinyIM_contests S) (by decide +kernel) (by decide +kernel)
    (by decide +kernel) _ w' e he
  refine ⟨markCrypto, tinyBallot, tinyIM, exampleContext K 5, quadWorld K, w', cc, hw, hc, ?_⟩
  -- the code of the compact ballot is 6
  have h6 : cc.ballotCode = 6 := by
    obtain ⟨c, x, w2, hx, hrun, hcd⟩ := tiny_code S K hK 1 rfl false _ w' hw e he
    rw [hcc]
    change e.ballotCode = 6
    rw [hcd, if_pos]
    obtain ⟨s, hs, hp⟩ := quad_contest .std markCrypto S c tinyIM tinyContest K 3 _ false _ w2 x
      ⟨genTriple .std K 1, genTriple .std K 1, genQuadruple .std K 1 1⟩ [] ⟨"s".toList, "a".toList, 1⟩ []
      (by refine sort_of_sorted S _ _ ?_ ?_ <;> decide +kernel) rfl hrun
    refine ⟨s, hs, .inl (.inl ?_)⟩
    rw [hp, genTriple_g, gPowP_eq C54_std_valid 1 (lt_512_of_lt (by norm_num))]
    decide +kernel
  intro u u' e' hu hempty hexp
  have het : e.timestamp = 1 := encryptBallot_time .std markCrypto S _ _ _ _ _ _ _ _ _ _ (by omega) he
  rw [hcc, C39_expand_iff .std markCrypto S tinyBallot nb tinyIM _ _ _ _ _ _ [tinyContest] (tinyIM_contests S)
    (by decide +kernel) hnb (by decide +kernel)] at hexp
  obtain ⟨hrun', hcode'⟩ := hexp
  obtain ⟨c, x, w2, hx, hrun, hcd⟩ := tiny_code S K hK _ het true _ _ hu e' hrun'
  have hne : e'.ballotCode = 6 := by rw [hcode', ← h6, hcc]
  rw [hcd, if_neg] at hne
  · omega
  rintro ⟨s, hs, hm⟩
  obtain ⟨over, -, facts, -⟩ := encryptContest_spec .std markCrypto S C54_std_valid K 3 _ c tinyIM tinyContest true
    _ _ x hK hu (by decide +kernel) hrun
  obtain ⟨vote, sd, p, hsd, hv⟩ := encryptsVote_all _ _ _ _ _ _ _ _ _ _ _ facts s hs
  obtain ⟨n, -, hn, k1, k2, k3, k4⟩ := hv.encryption
  obtain ⟨xs, hxs⟩ := derived_contest .std markCrypto S c tinyIM tinyContest K 3 _ true _ _ x hempty hrun s hs
  have hn56 : n ∈ [5, 6] := by
    rw [hn, Option.some.injEq] at hxs
    rw [hxs]
    rcases hashElems_56 xs with h | h <;> simp [h]
  have hv01 : vote ∈ [0, 1] := by
    have := hv.vote_le
    interval_cases vote <;> simp
  obtain ⟨a1, a2, a3, a4⟩ := tiny_numbers n hn56 vote hv01
  rw [Nat.ModEq, Nat.mod_eq_of_lt k1] at k3
  rw [Nat.ModEq, Nat.mod_eq_of_lt k2, hKv] at k4
  unfold Ciphertext.Marked at hm
  rw [k3, k4] at hm
  rcases hm with (hm | hm) | (hm | hm)
  · exact a1 hm
  · exact a2 hm
  · exact a3 hm
  · exact a4 hm

end EG
