import Verif.Props.CompactTotal
import Verif.Props.Secrecy

/-!
# C111: no nonce is used twice

The first part of a ciphertext, its pad, is the generator to the power of the nonce, so two ciphertexts of the record
share a nonce exactly if they have the same pad.
-/

namespace EG.NonceUse

variable (G : Params) (C : Crypto) (S : StdSort)

/-! ## Where nonces are used -/

/-- What a nonce is used for within a contest: a selection (real or placeholder), or the extended data. -/
inductive Item
  | selection (descHash seq : ℕ)
  | extended
  deriving DecidableEq

/-- A place in the record of an election where a nonce is used. -/
structure Place where
  manifestHash : ℕ
  ballotId : Str
  ballotNonce : ℕ
  contestHash : ℕ
  contestSeq : ℕ
  item : Item
  deriving DecidableEq

/-- What is hashed for the nonce of a place, from the ballot to the item; each line uses the hash of the one
before. -/
def Place.ballotInput (u : Place) : List HElem := [.q u.manifestHash, .str u.ballotId, .q u.ballotNonce]

def Place.contestSeedInput (u : Place) : List HElem := [.q u.contestHash, .q (hashElems G C u.ballotInput)]

def Place.contestInput (u : Place) : List HElem :=
  [.q (hashElems G C (u.contestSeedInput G C)), .u64 u.contestSeq]

def Place.itemSeedInput (u : Place) : List HElem :=
  match u.item with
  | .selection h _ => [.q h, .q (hashElems G C (u.contestInput G C))]
  | .extended => [.q (hashElems G C (u.contestInput G C)), .str "constant-extended-data".toList]

def Place.itemInput (u : Place) : List HElem :=
  match u.item with
  | .selection _ s => [.q (hashElems G C (u.itemSeedInput G C)), .u64 s]
  | .extended => [.q (hashElems G C (u.itemSeedInput G C)), .u64 0]

/-- The nonce of a place. -/
def Place.nonce (u : Place) : ℕ := hashElems G C (u.itemInput G C)

/-- The strings hashed for the nonce of a place. -/
def Place.strings (u : Place) : List (List Char) :=
  hashQueries G C u.ballotInput ++ hashQueries G C (u.contestSeedInput G C) ++ hashQueries G C (u.contestInput G C) ++
    hashQueries G C (u.itemSeedInput G C) ++ hashQueries G C (u.itemInput G C)

/-- The places of a contest of an encrypted ballot. -/
def contestPlaces (manifestHash : ℕ) (ballotId : Str) (n : ℕ) (c : CContest) : List Place :=
  c.selections.map (fun s => ⟨manifestHash, ballotId, n, c.descHash, c.seq, .selection s.descHash s.seq⟩) ++
    [⟨manifestHash, ballotId, n, c.descHash, c.seq, .extended⟩]

/-- The places of an encrypted ballot. -/
def places (e : CBallot) : List Place :=
  match e.nonce with
  | none => []
  | some n => e.contests.flatMap (contestPlaces e.manifestHash e.objectId n)

/-- The pads of a contest: those of the selections and that of the extended data. -/
def contestPads (c : CContest) : List ℕ :=
  c.selections.map (·.ciphertext.pad) ++ c.extended.toList.map (·.pad)

/-- The pads of an encrypted ballot. -/
def pads (e : CBallot) : List ℕ := e.contests.flatMap contestPads

/-! ## The pads of a ballot -/

/-- The nonce of a selection, from that of the contest. -/
def selNonce (cn h s : ℕ) : ℕ := hashElems G C [.q (hashElems G C [.q h, .q cn]), .u64 s]

/-- What matters here of a selection, and what it must be. -/
def facts (s : CSelection) : ℕ × ℕ × ℕ := (s.descHash, s.seq, s.ciphertext.pad)

def wanted (cn : ℕ) (d : SelectionDesc) : ℕ × ℕ × ℕ :=
  (d.hash G C, d.seq, G.g ^ selNonce G C cn (d.hash G C) d.seq % G.p)

variable {G} {C} {S}

theorem gPow_hash (hG : G.Valid) (xs : List HElem) : gPowP G (hashElems G C xs) = G.g ^ hashElems G C xs % G.p :=
  gPowP_eq hG _ (lt_512_of_lt (hashElems_lt256 hG xs))

theorem selection_facts (hG : G.Valid) {s : PSelection} {d : SelectionDesc} {pub ext cn : ℕ} {p v : Bool} {w w' : World}
    {e : CSelection} (hw : w.Empty) (h : encryptSelection G C s d pub ext cn p v w = (.ok e, w')) :
    facts e = wanted G C cn d ∧ w'.Empty := by
  have hE : w'.Empty := (derived_selection G C s d pub ext cn p v w w w' w' e e hw hw h h).2.1
  refine ⟨?_, hE⟩
  unfold encryptSelection at h
  split at h
  · simp [M.raise] at h
  rw [M.bind_eq_ok] at h
  obtain ⟨y, wy, hy, hx⟩ := h
  have hxy : e = y := by
    split at hx
    · simp only [M.ret, Prod.mk.injEq, Res.ok.injEq] at hx
      exact hx.1.symm
    · split at hx
      · simp only [M.ret, Prod.mk.injEq, Res.ok.injEq] at hx
        exact hx.1.symm
      · simp [M.raise] at hx
  subst hxy
  unfold encryptSelectionCore at hy
  rw [M.bind_eq_ok] at hy
  obtain ⟨pre, w5, h5, hy⟩ := hy
  simp only [M.getQuad, PreState.getQuad, hw.2, Prod.mk.injEq, Res.ok.injEq] at h5
  obtain ⟨rfl, rfl⟩ := h5
  dsimp only at hy
  rw [M.bind_eq_ok] at hy
  obtain ⟨c, w6, h6, hy⟩ := hy
  simp only [M.lift, Prod.mk.injEq] at h6
  obtain ⟨h6, rfl⟩ := h6
  unfold CSelection.make at hy
  rw [M.bind_eq_ok] at hy
  obtain ⟨π, w7, -, hy⟩ := hy
  simp only [M.ret, Prod.mk.injEq, Res.ok.injEq] at hy
  obtain ⟨rfl, -⟩ := hy
  unfold elgamalEncrypt at h6
  split at h6
  · simp at h6
  · simp only [Res.ok.injEq] at h6
    subst h6
    simp only [facts, wanted, Prod.mk.injEq, true_and]
    exact gPow_hash hG [.q (hashElems G C [.q (d.hash G C), .q cn]), .u64 d.seq]

theorem real_facts (hG : G.Valid) {pub ext cn : ℕ} {v over : Bool} {l : List PSelection} (ds : List SelectionDesc) :
    ∀ {count : ℕ} {w w' : World} {r : List CSelection × ℕ}, w.Empty →
      encryptReal G C pub ext cn v over l ds count w = (.ok r, w') →
      r.1.map facts = ds.map (wanted G C cn) ∧ w'.Empty := by
  induction ds with
  | nil =>
    intro count w w' r hw h
    simp only [encryptReal, M.ret, Prod.mk.injEq, Res.ok.injEq] at h
    obtain ⟨rfl, rfl⟩ := h
    exact ⟨rfl, hw⟩
  | cons d ds ih =>
    intro count w w' r hw h
    unfold encryptReal at h
    cases hf : l.find? (fun s => s.objectId = d.objectId) with
    | none => rw [hf] at h; simp [M.raise] at h
    | some s =>
      rw [hf] at h
      dsimp only at h
      rw [M.bind_eq_ok] at h
      obtain ⟨e, w1, h1, h⟩ := h
      rw [M.bind_eq_ok] at h
      obtain ⟨r', w2, h2, h⟩ := h
      simp only [M.ret, Prod.mk.injEq, Res.ok.injEq] at h
      obtain ⟨rfl, rfl⟩ := h
      obtain ⟨a, b⟩ := selection_facts hG hw h1
      obtain ⟨a', b'⟩ := ih b h2
      exact ⟨by simp [a, a'], b'⟩

theorem placeholder_facts (hG : G.Valid) {pub ext cn k : ℕ} {v over : Bool} (ds : List SelectionDesc) :
    ∀ {count : ℕ} {w w' : World} {r : List CSelection}, w.Empty →
      encryptPlaceholders G C pub ext cn v over k ds count w = (.ok r, w') →
      r.map facts = ds.map (wanted G C cn) ∧ w'.Empty := by
  induction ds with
  | nil =>
    intro count w w' r hw h
    simp only [encryptPlaceholders, M.ret, Prod.mk.injEq, Res.ok.injEq] at h
    obtain ⟨rfl, rfl⟩ := h
    exact ⟨rfl, hw⟩
  | cons d ds ih =>
    intro count w w' r hw h
    unfold encryptPlaceholders at h
    dsimp only at h
    rw [M.bind_eq_ok] at h
    obtain ⟨e, w1, h1, h⟩ := h
    rw [M.bind_eq_ok] at h
    obtain ⟨r', w2, h2, h⟩ := h
    simp only [M.ret, Prod.mk.injEq, Res.ok.injEq] at h
    obtain ⟨rfl, rfl⟩ := h
    obtain ⟨a, b⟩ := selection_facts hG hw h1
    obtain ⟨a', b'⟩ := ih b h2
    exact ⟨by simp [a, a'], b'⟩

theorem extended_pad (hG : G.Valid) {data : Str} {cn pub ext : ℕ} {w w' : World} {x : HashedCiphertext} (hw : w.Empty)
    (h : encryptExtended G C data cn pub ext w = (.ok x, w')) :
    x.pad = G.g ^ hashElems G C [.q (hashElems G C [.q cn, .str "constant-extended-data".toList]), .u64 0] % G.p ∧
      w'.Empty := by
  unfold encryptExtended at h
  simp only [M.bind_eq_ok, M.getTriple, PreState.getTriple, hw.1, M.lift, Prod.mk.injEq, Res.ok.injEq] at h
  obtain ⟨t, w1, ⟨rfl, rfl⟩, hx, rfl⟩ := h
  refine ⟨?_, hw⟩
  unfold hashedEncrypt at hx
  simp only [Option.map_none, Res.bind_eq_ok, Res.ok.injEq] at hx
  obtain ⟨pt, -, data', -, rfl⟩ := hx
  exact gPow_hash hG [.q (hashElems G C [.q cn, .str "constant-extended-data".toList]), .u64 0]

/-- What the encryption of a contest does with nonces. -/
structure ContestNonces (G : Params) (C : Crypto) (S : StdSort) (d : ContestDescP) (seed : ℕ) (e : CContest) : Prop where
  desc : d.desc.hash G C = .ok e.descHash
  seq : e.seq = d.desc.seq
  selections : e.selections.map facts = (d.desc.getSelections S ++ d.getPlaceholders S).map
    (wanted G C (hashElems G C [.q (hashElems G C [.q e.descHash, .q seed]), .u64 e.seq]))
  extended : ∃ x, e.extended = some x ∧ x.pad = G.g ^ hashElems G C [.q (hashElems G C
    [.q (hashElems G C [.q (hashElems G C [.q e.descHash, .q seed]), .u64 e.seq]),
      .str "constant-extended-data".toList]), .u64 0] % G.p

theorem contest_nonces (hG : G.Valid) {c : PContest} {m : IManifest} {d : ContestDescP} {pub ext seed : ℕ}
    {v : Bool} {w w' : World} {e : CContest} (hw : w.Empty)
    (h : encryptContest G C S c m d pub ext seed v w = (.ok e, w')) :
    ContestNonces G C S d seed e ∧ w'.Empty := by
  unfold encryptContest at h
  dsimp only at h
  split at h
  · simp [M.raise] at h
  rw [M.bind_eq_ok] at h
  obtain ⟨dh, w0, h0, h⟩ := h
  simp only [M.lift, Prod.mk.injEq] at h0
  obtain ⟨hdh, rfl⟩ := h0
  rw [M.bind_eq_ok] at h
  obtain ⟨rs, w1, h1, h⟩ := h
  rw [M.bind_eq_ok] at h
  obtain ⟨ps, w2, h2, h⟩ := h
  rw [M.bind_eq_ok] at h
  obtain ⟨x, w3, h3, h⟩ := h
  rw [M.bind_eq_ok] at h
  obtain ⟨e', w4, h4, h⟩ := h
  obtain ⟨a1, b1⟩ := real_facts hG _ hw h1
  obtain ⟨a2, b2⟩ := placeholder_facts hG _ b1 h2
  obtain ⟨a3, b3⟩ := extended_pad hG b2 h3
  have he : e = e' ∧ w' = w4 := by
    split at h
    · simp only [M.ret, Prod.mk.injEq, Res.ok.injEq] at h
      exact ⟨h.1.symm, h.2.symm⟩
    · rw [M.bind_eq_ok] at h
      obtain ⟨b, w5, h5, h⟩ := h
      simp only [M.lift, Prod.mk.injEq] at h5
      obtain ⟨-, rfl⟩ := h5
      split at h
      · simp only [M.ret, Prod.mk.injEq, Res.ok.injEq] at h
        exact ⟨h.1.symm, h.2.symm⟩
      · simp [M.raise] at h
  obtain ⟨rfl, rfl⟩ := he
  unfold CContest.make at h4
  simp only [M.bind_eq_ok, M.lift, M.getTriple, PreState.getTriple, M.ret, Prod.mk.injEq, Res.ok.injEq] at h4
  obtain ⟨ch, w5, ⟨hch, rfl⟩, acc, w6, ⟨hacc, rfl⟩, agg, w7, ⟨hagg, rfl⟩, t, w8, ⟨rfl, rfl⟩, π, w9,
    ⟨hπ, rfl⟩, rfl, rfl⟩ := h4
  refine ⟨⟨hdh, rfl, ?_, x, rfl, a3⟩, by rw [b3.1]; exact b3⟩
  dsimp only
  rw [List.map_append, a1, a2, List.map_append]
  rfl

theorem ballot_nonces (hG : G.Valid) {b : PBallot} {m : IManifest} {ctx : Context} {seed : ℕ} {nonce : Option ℕ} {t : ℕ}
    {v : Bool} {w w' : World} {e : CBallot} (hw : w.Empty)
    (h : encryptBallot G C S b m ctx seed nonce t v w = (.ok e, w')) :
    ∃ n ds, e.nonce = some n ∧ (∀ x ∈ nonce, n = x) ∧ (nonce = none → n = w.rng 0) ∧
      e.objectId = b.objectId ∧ e.manifestHash = m.manifestHash ∧
      m.getContestsFor S b.styleId = .ok ds ∧
      List.Forall₂ (fun d c => ContestNonces G C S d (hashElems G C [.q m.manifestHash, .str b.objectId, .q n]) c)
        ds e.contests := by
  obtain ⟨n, w1, w2, h1, h2, h3, h4, h5, h6, -⟩ := encryptBallot_steps G C S _ _ _ _ _ _ _ _ _ _ h
  have hn : (∀ x ∈ nonce, n = x) ∧ (nonce = none → n = w.rng 0) ∧ w1.Empty := by
    cases nonce with
    | none =>
      simp only [nonceOr, M.rand, Prod.mk.injEq, Res.ok.injEq] at h1
      obtain ⟨rfl, rfl⟩ := h1
      exact ⟨by simp, fun _ => rfl, hw⟩
    | some x =>
      simp only [nonceOr, M.ret, Prod.mk.injEq, Res.ok.injEq] at h1
      obtain ⟨rfl, rfl⟩ := h1
      exact ⟨by simp, by simp, hw⟩
  unfold encryptContests at h2
  rw [M.bind_eq_ok] at h2
  obtain ⟨nb, w3, h7, h2⟩ := h2
  simp only [M.lift, Prod.mk.injEq] at h7
  obtain ⟨h7, rfl⟩ := h7
  cases hst : m.getBallotStyle b.styleId with
  | none => rw [hst] at h2; simp [M.lift] at h2
  | some style =>
    have hid : style.objectId = b.styleId := by
      have := List.find?_some hst
      simpa using this
    rw [hst] at h2
    dsimp only at h2
    rw [hid, M.bind_eq_ok] at h2
    obtain ⟨ds, w4, h8, h2⟩ := h2
    simp only [M.lift, Prod.mk.injEq] at h8
    obtain ⟨h8, rfl⟩ := h8
    refine ⟨n, ds, h6, hn.1, hn.2.1, h3, h5, h8, ?_⟩
    refine (forEach_spec _ World.Empty _ ds ?_ w1 w2 e.contests hn.2.2 h2).1
    intro d hd w w' c hw hf
    cases hc : nb.contests.find? (fun c => c.objectId = d.desc.objectId) with
    | none => rw [hc] at hf; simp [M.raise] at hf
    | some pc =>
      rw [hc] at hf
      exact contest_nonces hG hw hf

theorem forall₂_right {α β : Type} {R : α → β → Prop} {l : List α} {m : List β} (h : List.Forall₂ R l m) {y : β}
    (hy : y ∈ m) : ∃ x ∈ l, R x y := by
  induction h with
  | nil => simp at hy
  | cons h _ ih =>
    rcases List.mem_cons.1 hy with rfl | hy
    · exact ⟨_, by simp, h⟩
    · obtain ⟨x, hx, hr⟩ := ih hy
      exact ⟨x, by simp [hx], hr⟩

/-- The pads of a contest are those of its places. -/
theorem contest_pads {d : ContestDescP} {mh n : ℕ} {id : Str} {c : CContest}
    (h : ContestNonces G C S d (hashElems G C [.q mh, .str id, .q n]) c) :
    contestPads c = (contestPlaces mh id n c).map (fun u => G.g ^ u.nonce G C % G.p) := by
  obtain ⟨x, hx, hp⟩ := h.extended
  unfold contestPads contestPlaces
  rw [hx, List.map_append]
  congr 1
  · rw [List.map_map]
    refine List.map_congr_left (fun s hs => ?_)
    have hm : facts s ∈ c.selections.map facts := List.mem_map_of_mem hs
    rw [h.selections] at hm
    obtain ⟨sd, -, hsd⟩ := List.mem_map.1 hm
    simp only [facts, wanted, Prod.mk.injEq] at hsd
    obtain ⟨e1, e2, e3⟩ := hsd
    rw [← e3, e1, e2]
    rfl
  · simp [hp]
    rfl

/-- C111.  Without precomputed values, the pad of every ciphertext of an encrypted ballot is the generator to the power
of a nonce that depends only on the place: on the manifest, the ballot's id and nonce, the descriptions of the contest
and of the selection and their sequence numbers. -/
theorem C111_pads (hG : G.Valid) {b : PBallot} {m : IManifest} {ctx : Context} {seed : ℕ} {nonce : Option ℕ} {t : ℕ}
    {v : Bool} {w w' : World} {e : CBallot} (hw : w.Empty)
    (h : encryptBallot G C S b m ctx seed nonce t v w = (.ok e, w')) :
    pads e = (places e).map (fun u => G.g ^ u.nonce G C % G.p) := by
  obtain ⟨n, ds, h1, -, -, h2, h3, -, h4⟩ := ballot_nonces hG hw h
  unfold pads places
  rw [h1, h2, h3]
  dsimp only
  rw [List.map_flatMap]
  refine List.flatMap_congr (fun c hc => ?_)
  obtain ⟨d, -, hd⟩ := forall₂_right h4 hc
  exact contest_pads hd


/-! ## Different places have different nonces -/

/-- The numbers of a place are exponents and the ballot's id is not the text that stands for an empty one. -/
structure Place.Proper (u : Place) : Prop where
  manifestHash : u.manifestHash < 2 ^ 256
  ballotId : u.ballotId ≠ "null".toList
  ballotNonce : u.ballotNonce < 2 ^ 256
  contestHash : u.contestHash < 2 ^ 256
  item : ∀ h s, u.item = .selection h s → h < 2 ^ 256

theorem hash_eq {xs ys : List HElem} {strings : List (List Char)} (hc : NoCollision G C strings)
    (hx : ∀ s ∈ hashQueries G C xs, s ∈ strings) (hy : ∀ s ∈ hashQueries G C ys, s ∈ strings)
    (hxn : xs ≠ []) (hyn : ys ≠ []) (h : hashElems G C xs = hashElems G C ys) :
    hashInput (xs.map (HElem.render G C)) = hashInput (ys.map (HElem.render G C)) := by
  have e1 : xs.isEmpty = false := by cases xs <;> simp_all
  have e2 : ys.isEmpty = false := by cases ys <;> simp_all
  refine hc _ (hx _ ?_) _ (hy _ ?_) ?_
  · simp [hashQueries, e1]
  · simp [hashQueries, e2]
  · simpa [hashElems, e1, e2] using h

theorem two_eq {a b c d : List Char} (ha : '|' ∉ a) (hb : '|' ∉ b) (hc : '|' ∉ c) (hd : '|' ∉ d)
    (h : hashInput [a, b] = hashInput [c, d]) : a = c ∧ b = d := by
  have := hashInput_inj [a, b] [c, d] (by simp [ha, hb]) (by simp [hc, hd]) h
  simpa using this

theorem q_no_delim (v : ℕ) : '|' ∉ (HElem.q v).render G C := (toHexQ_no_delim v).1

theorem decimal_ne_null (k : ℕ) : decimal k ≠ nullString := by
  intro hk
  have : 'n' ∈ decimal k := by rw [hk]; decide
  unfold decimal at this
  rw [List.mem_map] at this
  obtain ⟨d, hd, he⟩ := this
  have hch : ∀ d : Fin 10, Char.ofNat (48 + d.val) ≠ 'n' := by decide +kernel
  exact hch ⟨d, Nat.digits_lt_base (by norm_num) (List.mem_reverse.1 hd)⟩ he

theorem u64_no_delim (k : ℕ) : '|' ∉ (HElem.u64 k).render G C := by
  change '|' ∉ HAtom.render (.u64 k)
  rw [HAtom.render]
  split
  · exact decimal_no_delim k
  · decide

theorem u64_inj {i j : ℕ} (h : (HElem.u64 i).render G C = (HElem.u64 j).render G C) : i = j := by
  change HAtom.render (.u64 i) = HAtom.render (.u64 j) at h
  simp only [HAtom.render] at h
  by_cases hi : i = 0 <;> by_cases hj : j = 0
  · omega
  · rw [if_neg (by omega), if_pos hj] at h
    exact absurd h.symm (decimal_ne_null j)
  · rw [if_pos hi, if_neg (by omega)] at h
    exact absurd h (decimal_ne_null i)
  · rw [if_pos hi, if_pos hj] at h
    exact decimal_inj _ _ h

theorem qu_eq {a b i j : ℕ} (ha : a < 2 ^ 256) (hb : b < 2 ^ 256)
    (h : hashInput ([HElem.q a, .u64 i].map (HElem.render G C)) = hashInput ([HElem.q b, .u64 j].map (HElem.render G C))) :
    a = b ∧ i = j := by
  obtain ⟨h1, h2⟩ := two_eq (q_no_delim a) (u64_no_delim i) (q_no_delim b) (u64_no_delim j) h
  exact ⟨toHexQ_inj _ _ ha hb h1, u64_inj h2⟩

theorem qq_eq {a b c d : ℕ} (ha : a < 2 ^ 256) (hb : b < 2 ^ 256) (hc : c < 2 ^ 256) (hd : d < 2 ^ 256)
    (h : hashInput ([HElem.q a, .q b].map (HElem.render G C)) = hashInput ([HElem.q c, .q d].map (HElem.render G C))) :
    a = c ∧ b = d := by
  obtain ⟨h1, h2⟩ := two_eq (q_no_delim a) (q_no_delim b) (q_no_delim c) (q_no_delim d) h
  exact ⟨toHexQ_inj _ _ ha hc h1, toHexQ_inj _ _ hb hd h2⟩

theorem header_render : (HElem.str "constant-extended-data".toList).render G C = "constant-extended-data".toList := rfl

theorem header_no_delim : '|' ∉ (HElem.str "constant-extended-data".toList).render G C := by
  rw [header_render]; decide

theorem qs_eq {a b : ℕ} (ha : a < 2 ^ 256) (hb : b < 2 ^ 256)
    (h : hashInput ([HElem.q a, .str "constant-extended-data".toList].map (HElem.render G C)) =
      hashInput ([HElem.q b, .str "constant-extended-data".toList].map (HElem.render G C))) : a = b :=
  toHexQ_inj _ _ ha hb (two_eq (q_no_delim a) header_no_delim (q_no_delim b) header_no_delim h).1

theorem qq_ne_qs {a b c : ℕ}
    (h : hashInput ([HElem.q a, .q b].map (HElem.render G C)) =
      hashInput ([HElem.q c, .str "constant-extended-data".toList].map (HElem.render G C))) : False := by
  have h2 := (two_eq (q_no_delim a) (q_no_delim b) (q_no_delim c) header_no_delim h).2
  rw [header_render] at h2
  have h3 : 'n' ∉ toHexQ b := (toHexQ_no_delim b).2
  rw [show (HElem.q b).render G C = toHexQ b from rfl] at h2
  rw [h2] at h3
  revert h3
  decide

theorem qsq_eq {a b c d : ℕ} {s t : Str} (ha : a < 2 ^ 256) (hb : b < 2 ^ 256) (hc : c < 2 ^ 256) (hd : d < 2 ^ 256)
    (hs : s ≠ "null".toList) (ht : t ≠ "null".toList)
    (h : hashInput ([HElem.q a, .str s, .q b].map (HElem.render G C)) =
      hashInput ([HElem.q c, .str t, .q d].map (HElem.render G C))) : a = c ∧ s = t ∧ b = d := by
  have h' : toHexQ a ++ ('|' :: (HAtom.render (.str s) ++ ('|' :: (toHexQ b ++ ['|'])))) =
      toHexQ c ++ ('|' :: (HAtom.render (.str t) ++ ('|' :: (toHexQ d ++ ['|'])))) := by
    simpa [hashInput, HElem.render, HElem.q, HElem.str, HAtom.render] using h
  obtain ⟨h1, h2⟩ := split_delim _ _ _ _ (toHexQ_no_delim a).1 (toHexQ_no_delim c).1 h'
  have h3 := congrArg List.reverse h2
  simp only [List.reverse_append, List.reverse_cons, List.reverse_nil, List.nil_append, List.append_assoc,
    List.cons_append, List.cons.injEq, true_and] at h3
  obtain ⟨h5, h6⟩ := split_delim _ _ _ _ (by simpa using (toHexQ_no_delim b).1) (by simpa using (toHexQ_no_delim d).1) h3
  have h7 : toHexQ b = toHexQ d := by simpa using h5
  have h4 : HAtom.render (.str s) = HAtom.render (.str t) := by simpa using h6
  refine ⟨toHexQ_inj _ _ ha hc h1, ?_, toHexQ_inj _ _ hb hd h7⟩
  have hn : nullString = "null".toList := rfl
  simp only [HAtom.render, hn] at h4
  cases s with
  | nil =>
    cases t with
    | nil => rfl
    | cons y t => exact absurd h4.symm ht
  | cons x s =>
    cases t with
    | nil => exact absurd h4 hs
    | cons y t => exact h4

/-- C111.  Different places have different nonces, unless two of the strings hashed for them have the same hash. -/
theorem C111_places (hG : G.Valid) {u v : Place} (hu : u.Proper) (hv : v.Proper)
    (hc : NoCollision G C (u.strings G C ++ v.strings G C)) (h : u.nonce G C = v.nonce G C) : u = v := by
  have lt := fun xs => hashElems_lt256 (C := C) hG xs
  have step : ∀ {xs ys : List HElem}, (∀ s ∈ hashQueries G C xs, s ∈ u.strings G C) →
      (∀ s ∈ hashQueries G C ys, s ∈ v.strings G C) → xs ≠ [] → ys ≠ [] → hashElems G C xs = hashElems G C ys →
      hashInput (xs.map (HElem.render G C)) = hashInput (ys.map (HElem.render G C)) := fun hx hy hxn hyn h =>
    hash_eq hc (fun s hs => List.mem_append_left _ (hx s hs)) (fun s hs => List.mem_append_right _ (hy s hs)) hxn hyn h
  have m1 : ∀ w : Place, ∀ s ∈ hashQueries G C w.ballotInput, s ∈ w.strings G C := by
    intro w s hs; simp only [Place.strings, List.mem_append]; tauto
  have m2 : ∀ w : Place, ∀ s ∈ hashQueries G C (w.contestSeedInput G C), s ∈ w.strings G C := by
    intro w s hs; simp only [Place.strings, List.mem_append]; tauto
  have m3 : ∀ w : Place, ∀ s ∈ hashQueries G C (w.contestInput G C), s ∈ w.strings G C := by
    intro w s hs; simp only [Place.strings, List.mem_append]; tauto
  have m4 : ∀ w : Place, ∀ s ∈ hashQueries G C (w.itemSeedInput G C), s ∈ w.strings G C := by
    intro w s hs; simp only [Place.strings, List.mem_append]; tauto
  have m5 : ∀ w : Place, ∀ s ∈ hashQueries G C (w.itemInput G C), s ∈ w.strings G C := by
    intro w s hs; simp only [Place.strings, List.mem_append]; tauto
  have n4 : ∀ w : Place, w.itemSeedInput G C ≠ [] := by
    intro w; unfold Place.itemSeedInput; split <;> simp
  have n5 : ∀ w : Place, w.itemInput G C ≠ [] := by
    intro w; unfold Place.itemInput; split <;> simp
  have s5 := step (m5 u) (m5 v) (n5 u) (n5 v) h
  -- the contests
  have up : hashElems G C (u.contestInput G C) = hashElems G C (v.contestInput G C) →
      u.manifestHash = v.manifestHash ∧ u.ballotId = v.ballotId ∧ u.ballotNonce = v.ballotNonce ∧
        u.contestHash = v.contestHash ∧ u.contestSeq = v.contestSeq := by
    intro h3
    obtain ⟨k1, k2⟩ := qu_eq (lt _) (lt _) (step (m3 u) (m3 v) (by simp) (by simp) h3)
    obtain ⟨k3, k4⟩ := qq_eq hu.contestHash (lt _) hv.contestHash (lt _)
      (step (m2 u) (m2 v) (by simp) (by simp) k1)
    obtain ⟨k5, k6, k7⟩ := qsq_eq hu.manifestHash hu.ballotNonce hv.manifestHash hv.ballotNonce hu.ballotId hv.ballotId
      (step (m1 u) (m1 v) (by simp) (by simp) k4)
    exact ⟨k5, k6, k7, k3, k2⟩
  have s4 : hashElems G C (u.itemSeedInput G C) = hashElems G C (v.itemSeedInput G C) →
      hashInput ((u.itemSeedInput G C).map (HElem.render G C)) = hashInput ((v.itemSeedInput G C).map (HElem.render G C)) :=
    fun h => step (m4 u) (m4 v) (n4 u) (n4 v) h
  have fin : hashElems G C (u.contestInput G C) = hashElems G C (v.contestInput G C) → u.item = v.item → u = v := by
    intro h3 hi
    obtain ⟨k1, k2, k3, k4, k5⟩ := up h3
    cases u; cases v
    simp_all
  rcases hui : u.item with ⟨a, i⟩ | _ <;> rcases hvi : v.item with ⟨b, j⟩ | _
  · have e1 : u.itemInput G C = [.q (hashElems G C (u.itemSeedInput G C)), .u64 i] := by simp [Place.itemInput, hui]
    have e2 : v.itemInput G C = [.q (hashElems G C (v.itemSeedInput G C)), .u64 j] := by simp [Place.itemInput, hvi]
    rw [e1, e2] at s5
    obtain ⟨k1, rfl⟩ := qu_eq (lt _) (lt _) s5
    have k2 := s4 k1
    rw [show u.itemSeedInput G C = [.q a, .q (hashElems G C (u.contestInput G C))] by simp [Place.itemSeedInput, hui],
      show v.itemSeedInput G C = [.q b, .q (hashElems G C (v.contestInput G C))] by simp [Place.itemSeedInput, hvi]] at k2
    obtain ⟨rfl, k3⟩ := qq_eq (hu.item _ _ hui) (lt _) (hv.item _ _ hvi) (lt _) k2
    exact fin k3 (by rw [hui, hvi])
  · have e1 : u.itemInput G C = [.q (hashElems G C (u.itemSeedInput G C)), .u64 i] := by simp [Place.itemInput, hui]
    have e2 : v.itemInput G C = [.q (hashElems G C (v.itemSeedInput G C)), .u64 0] := by simp [Place.itemInput, hvi]
    rw [e1, e2] at s5
    obtain ⟨k1, rfl⟩ := qu_eq (lt _) (lt _) s5
    have k2 := s4 k1
    rw [show u.itemSeedInput G C = [.q a, .q (hashElems G C (u.contestInput G C))] by simp [Place.itemSeedInput, hui],
      show v.itemSeedInput G C = [.q (hashElems G C (v.contestInput G C)), .str "constant-extended-data".toList] by
        simp [Place.itemSeedInput, hvi]] at k2
    exact (qq_ne_qs k2).elim
  · have e1 : u.itemInput G C = [.q (hashElems G C (u.itemSeedInput G C)), .u64 0] := by simp [Place.itemInput, hui]
    have e2 : v.itemInput G C = [.q (hashElems G C (v.itemSeedInput G C)), .u64 j] := by simp [Place.itemInput, hvi]
    rw [e1, e2] at s5
    obtain ⟨k1, rfl⟩ := qu_eq (lt _) (lt _) s5
    have k2 := s4 k1
    rw [show u.itemSeedInput G C = [.q (hashElems G C (u.contestInput G C)), .str "constant-extended-data".toList] by
        simp [Place.itemSeedInput, hui],
      show v.itemSeedInput G C = [.q b, .q (hashElems G C (v.contestInput G C))] by simp [Place.itemSeedInput, hvi]] at k2
    exact (qq_ne_qs k2.symm).elim
  · have e1 : u.itemInput G C = [.q (hashElems G C (u.itemSeedInput G C)), .u64 0] := by simp [Place.itemInput, hui]
    have e2 : v.itemInput G C = [.q (hashElems G C (v.itemSeedInput G C)), .u64 0] := by simp [Place.itemInput, hvi]
    rw [e1, e2] at s5
    obtain ⟨k1, -⟩ := qu_eq (lt _) (lt _) s5
    have k2 := s4 k1
    rw [show u.itemSeedInput G C = [.q (hashElems G C (u.contestInput G C)), .str "constant-extended-data".toList] by
        simp [Place.itemSeedInput, hui],
      show v.itemSeedInput G C = [.q (hashElems G C (v.contestInput G C)), .str "constant-extended-data".toList] by
        simp [Place.itemSeedInput, hvi]] at k2
    exact fin (qs_eq (lt _) (lt _) k2) (by rw [hui, hvi])

/-! ## The ballots of an election -/

variable (G C S) in
/-- The ballot was encrypted for the manifest, with any votes, nonce and environment but without precomputed values. -/
def Encrypted (m : IManifest) (e : CBallot) : Prop :=
  ∃ b ctx seed nonce t v w w', World.Empty w ∧ encryptBallot G C S b m ctx seed nonce t v w = (.ok e, w')

theorem contest_hash_lt (hG : G.Valid) {c : ContestDesc} {h : ℕ} (hh : c.hash G C = .ok h) : h < 2 ^ 256 := by
  unfold ContestDesc.hash at hh
  dsimp only at hh
  rw [Res.bind_eq_ok] at hh
  obtain ⟨v, -, hh⟩ := hh
  split at hh
  · split at hh
    · rw [Res.ok.injEq] at hh
      rw [← hh]
      exact hashElems_lt256 hG _
    · simp at hh
  · rw [Res.ok.injEq] at hh
    rw [← hh]
    exact hashElems_lt256 hG _

theorem mem_contestPlaces {mh n : ℕ} {id : Str} {c : CContest} {u : Place} (h : u ∈ contestPlaces mh id n c) :
    u.manifestHash = mh ∧ u.ballotId = id ∧ u.ballotNonce = n ∧ u.contestHash = c.descHash ∧ u.contestSeq = c.seq ∧
      ∀ a i, u.item = .selection a i → ∃ s ∈ c.selections, s.descHash = a := by
  unfold contestPlaces at h
  rcases List.mem_append.1 h with h | h
  · obtain ⟨s, hs, rfl⟩ := List.mem_map.1 h
    refine ⟨rfl, rfl, rfl, rfl, rfl, fun a i hi => ⟨s, hs, ?_⟩⟩
    simp only [Item.selection.injEq] at hi
    exact hi.1
  · rw [List.mem_singleton] at h
    subst h
    exact ⟨rfl, rfl, rfl, rfl, rfl, fun a i hi => by simp at hi⟩

theorem g_inj (hG : G.Valid) {a b : ℕ} (ha : a < G.q) (hb : b < G.q) (h : G.g ^ a % G.p = G.g ^ b % G.p) : a = b := by
  have h1 : a % G.q = b % G.q := by
    refine (g_pow_eq_iff hG a b).1 ?_
    have : G.g ^ a ≡ G.g ^ b [MOD G.p] := h
    rw [modEq_cast] at this
    simpa using this
  rwa [Nat.mod_eq_of_lt ha, Nat.mod_eq_of_lt hb] at h1

theorem forall₂_map {α β γ : Type} {R : α → β → Prop} {l : List α} {m : List β} {f : α → γ} {g : β → γ}
    (h : List.Forall₂ R l m) (hr : ∀ x y, R x y → g y = f x) : m.map g = l.map f := by
  induction h with
  | nil => rfl
  | cons h _ ih => simp [hr _ _ h, ih]

/-- C111.  Take all ballots encrypted for an election without precomputed values.  If no two of them have both the same
id and the same nonce, then no two of their ciphertexts (of selections, placeholders and extended data) have the same
pad, unless two of the strings hashed have the same hash. -/
theorem C111_distinct (hG : G.Valid) (m : IManifest) (hm : m.manifestHash < 2 ^ 256)
    (hs : ∀ id ds, m.getContestsFor S id = .ok ds → (ds.map (·.desc.seq)).Nodup ∧
      ∀ d ∈ ds, ((d.desc.selections ++ d.placeholders).map (·.seq)).Nodup)
    (es : List CBallot) (he : ∀ e ∈ es, Encrypted G C S m e) (hid : ∀ e ∈ es, e.objectId ≠ "null".toList)
    (hn : ∀ e ∈ es, ∀ n, e.nonce = some n → n < 2 ^ 256)
    (hd : es.Pairwise (fun e f => ¬ (e.objectId = f.objectId ∧ e.nonce = f.nonce)))
    (hc : NoCollision G C ((es.flatMap places).flatMap (Place.strings G C))) : (es.flatMap pads).Nodup := by
  have info : ∀ e ∈ es, ∃ n ds, e.nonce = some n ∧ e.manifestHash = m.manifestHash ∧
      (ds.map (fun d : ContestDescP => d.desc.seq)).Nodup ∧
      (∀ d ∈ ds, ((d.desc.selections ++ d.placeholders).map (·.seq)).Nodup) ∧ ∃ sd,
      List.Forall₂ (fun d c => ContestNonces G C S d sd c) ds e.contests := by
    intro e hem
    obtain ⟨b, ctx, seed, nonce, t, v, w, w', hw, h⟩ := he e hem
    obtain ⟨n, ds, h1, -, -, -, h3, h4, h5⟩ := ballot_nonces hG hw h
    exact ⟨n, ds, h1, h3, (hs _ _ h4).1, (hs _ _ h4).2, _, h5⟩
  have hp : es.flatMap pads = (es.flatMap places).map (fun u => G.g ^ u.nonce G C % G.p) := by
    rw [List.map_flatMap]
    refine List.flatMap_congr (fun e hem => ?_)
    obtain ⟨b, ctx, seed, nonce, t, v, w, w', hw, h⟩ := he e hem
    exact C111_pads hG hw h
  have proper : ∀ u ∈ es.flatMap places, u.Proper ∧ ∃ e ∈ es, u ∈ places e ∧ u.ballotId = e.objectId ∧
      e.nonce = some u.ballotNonce := by
    intro u hu
    obtain ⟨e, hem, hue⟩ := List.mem_flatMap.1 hu
    obtain ⟨n, ds, h1, h2, h3, h4, sd, h5⟩ := info e hem
    have hue' := hue
    unfold places at hue
    rw [h1] at hue
    obtain ⟨c, hcm, huc⟩ := List.mem_flatMap.1 hue
    obtain ⟨k1, k2, k3, k4, k5, k6⟩ := mem_contestPlaces huc
    obtain ⟨d, hdm, hdc⟩ := forall₂_right h5 hcm
    refine ⟨⟨by rw [k1, h2]; exact hm, by rw [k2]; exact hid e hem, by rw [k3]; exact hn e hem n h1,
      by rw [k4]; exact contest_hash_lt hG hdc.desc, ?_⟩, e, hem, hue', k2, by rw [h1, k3]⟩
    intro a i hi
    obtain ⟨s, hsm, rfl⟩ := k6 a i hi
    have hf : facts s ∈ c.selections.map facts := List.mem_map_of_mem hsm
    rw [hdc.selections] at hf
    obtain ⟨x, -, hx⟩ := List.mem_map.1 hf
    simp only [facts, wanted, Prod.mk.injEq] at hx
    rw [← hx.1]
    exact hashElems_lt256 hG _
  rw [hp]
  refine List.Nodup.map_on ?_ ?_
  · intro u hu v hv huv
    have h1 := g_inj hG (hashElems_lt hG _) (hashElems_lt hG _) huv
    refine C111_places hG (proper u hu).1 (proper v hv).1 ?_ h1
    intro s hsm t htm
    refine hc s ?_ t ?_
    · rcases List.mem_append.1 hsm with h | h
      · exact List.mem_flatMap.2 ⟨u, hu, h⟩
      · exact List.mem_flatMap.2 ⟨v, hv, h⟩
    · rcases List.mem_append.1 htm with h | h
      · exact List.mem_flatMap.2 ⟨u, hu, h⟩
      · exact List.mem_flatMap.2 ⟨v, hv, h⟩
  · rw [List.nodup_flatMap]
    constructor
    · intro e hem
      obtain ⟨n, ds, h1, h2, h3, h4, sd, h5⟩ := info e hem
      unfold places
      rw [h1]
      dsimp only
      rw [List.nodup_flatMap]
      constructor
      · intro c hcm
        obtain ⟨d, hdm, hdc⟩ := forall₂_right h5 hcm
        unfold contestPlaces
        rw [List.nodup_append]
        refine ⟨?_, by simp, ?_⟩
        · have hq : (c.selections.map (·.seq)).Nodup := by
            have e1 := congrArg (List.map (fun x : ℕ × ℕ × ℕ => x.2.1)) hdc.selections
            rw [List.map_map, List.map_map] at e1
            have e2 : c.selections.map (·.seq) = (d.desc.getSelections S ++ d.getPlaceholders S).map (·.seq) := e1
            rw [e2]
            refine (List.Perm.nodup_iff ?_).2 (h4 d hdm)
            exact ((S.perm _ _).append (S.perm _ _)).map _
          refine List.Nodup.of_map (fun u : Place => match u.item with | .selection _ s => s | .extended => 0) ?_
          rw [List.map_map]
          exact hq
        · intro u hu v hv huv
          obtain ⟨s, -, rfl⟩ := List.mem_map.1 hu
          rw [List.mem_singleton.1 hv] at huv
          simp at huv
      · have hq : (e.contests.map (·.seq)).Nodup := by
          rw [forall₂_map (f := fun d : ContestDescP => d.desc.seq) h5 (fun d c hdc => hdc.seq)]
          exact h3
        have hq' := List.pairwise_map.1 hq
        refine hq'.imp ?_
        intro c c' hcc u hu hu'
        exact hcc ((mem_contestPlaces hu).2.2.2.2.1.symm.trans (mem_contestPlaces hu').2.2.2.2.1)
    · refine List.Pairwise.imp_of_mem ?_ hd
      intro e f hem hfm hef u hu hu'
      obtain ⟨n, -, h1, -⟩ := info e hem
      obtain ⟨n', -, h1', -⟩ := info f hfm
      unfold places at hu hu'
      rw [h1] at hu
      rw [h1'] at hu'
      obtain ⟨c, -, hc1⟩ := List.mem_flatMap.1 hu
      obtain ⟨c', -, hc2⟩ := List.mem_flatMap.1 hu'
      obtain ⟨-, k2, k3, -⟩ := mem_contestPlaces hc1
      obtain ⟨-, k2', k3', -⟩ := mem_contestPlaces hc2
      exact hef ⟨k2.symm.trans k2', by rw [h1, h1', ← k3, ← k3']⟩

/-- C111, limit.  A nonce may be given twice for ballots of the same id and style: nothing notices it, whatever the
votes are, and all pads of the second ballot are those of the first, so with `C110_reuse` the ciphertexts show which
votes are equal. -/
theorem C111_reuse (hG : G.Valid) {b b' : PBallot} {m : IManifest} {ctx ctx' : Context} {seed seed' n : ℕ}
    {t t' : ℕ} {v v' : Bool} {w w' u u' : World} {e e' : CBallot} (hw : w.Empty) (hu : u.Empty)
    (hid : b.objectId = b'.objectId) (hst : b.styleId = b'.styleId)
    (h : encryptBallot G C S b m ctx seed (some n) t v w = (.ok e, w'))
    (h' : encryptBallot G C S b' m ctx' seed' (some n) t' v' u = (.ok e', u')) : pads e = pads e' := by
  obtain ⟨n1, ds, -, h1, -, -, -, h2, h3⟩ := ballot_nonces hG hw h
  obtain ⟨n2, ds', -, h1', -, -, -, h2', h3'⟩ := ballot_nonces hG hu h'
  rw [h1 n rfl] at h3
  rw [h1' n rfl, ← hid] at h3'
  rw [← hst, h2, Res.ok.injEq] at h2'
  subst h2'
  unfold pads
  generalize e.contests = l at h3
  generalize e'.contests = l' at h3'
  clear h h' h2
  induction ds generalizing l l' with
  | nil => cases h3; cases h3'; rfl
  | cons d ds ih =>
    cases h3 with
    | @cons _ c _ l a b =>
    cases h3' with
    | @cons _ c' _ l' a' b' =>
      rw [List.flatMap_cons, List.flatMap_cons, ih l b l' b']
      congr 1
      have e1 : c.descHash = c'.descHash := by
        have := a.desc
        rw [a'.desc, Res.ok.injEq] at this
        exact this.symm
      have e2 : c.seq = c'.seq := by rw [a.seq, a'.seq]
      have e3 := a.selections
      rw [e1, e2, ← a'.selections] at e3
      have e4 := congrArg (List.map (fun x : ℕ × ℕ × ℕ => x.2.2)) e3
      rw [List.map_map, List.map_map] at e4
      obtain ⟨x, hx, hxp⟩ := a.extended
      obtain ⟨x', hx', hxp'⟩ := a'.extended
      rw [e1, e2, ← hxp'] at hxp
      unfold contestPads
      rw [hx, hx']
      simp only [Option.toList_some, List.map_cons, List.map_nil, hxp]
      congr 1

/-! ## An example -/

/-- A simple hash function: the characters as digits of a number, reduced. -/
def polyCrypto : Crypto where
  sha256 s := s.foldl (fun a c => (a * 1000003 + c.toNat + 1) % 2 ^ 255) 7
  sha256_lt s := by
    have : ∀ (l : List Char) (a : ℕ), a < 2 ^ 255 →
        l.foldl (fun a c => (a * 1000003 + c.toNat + 1) % 2 ^ 255) a < 2 ^ 255 := by
      intro l
      induction l with
      | nil => intro a ha; exact ha
      | cons c l ih => intro a _; exact ih _ (Nat.mod_lt _ (by norm_num))
    exact lt_trans (this s 7 (by norm_num)) (by norm_num)
  hmac := fun _ _ => List.replicate 32 0
  hmac_length := fun _ _ => List.length_replicate

def exampleHash (d : ContestDescP) : ℕ :=
  match d.desc.hash .std polyCrypto with
  | .ok h => h
  | _ => 0

theorem exampleHash_eq : ∀ d ∈ [exampleContestP2, exampleContestP], d.desc.hash .std polyCrypto = .ok (exampleHash d) := by
  decide +kernel

/-- The places of a contest, from its description. -/
def descPlaces (n : ℕ) (d : ContestDescP) : List Place :=
  (d.desc.selections ++ d.placeholders).map (fun sd => ⟨6, "ballot".toList, n, exampleHash d, d.desc.seq,
    .selection (sd.hash .std polyCrypto) sd.seq⟩) ++ [⟨6, "ballot".toList, n, exampleHash d, d.desc.seq, .extended⟩]

def examplePlaces (n : ℕ) : List Place := [exampleContestP2, exampleContestP].flatMap (descPlaces n)

theorem example_strings : NoCollision .std polyCrypto
    ((examplePlaces 8 ++ examplePlaces 9).flatMap (Place.strings .std polyCrypto)) := by
  unfold NoCollision
  decide +kernel

theorem example_run (S : StdSort) (K : ℕ) (hK : Residue .std K) (n : ℕ) (hn : n = 8 ∨ n = 9) : ∃ e w', encryptBallot .std polyCrypto S exampleBallot
    (exampleIM 6) (exampleContext K 6) 4 (some n) 5 false plainWorld = (.ok e, w') := by
  refine C35_ballot_total .std polyCrypto S C54_std_valid (exampleContext K 6) exampleBallot
    (exampleIM 6) 4 (some n) 5 plainWorld [exampleContestP2, exampleContestP]
    hK (plainWorld_ok _ std_q_gt7 _)
    (exampleIM_contests S 6) exampleIM_good.1 (by simp) (by decide +kernel) (by decide +kernel)
    (by decide +kernel) exampleHash exampleHash_eq ?_
  rw [Option.getD_some]
  change ∀ d ∈ [exampleContestP2, exampleContestP], ∀ sd ∈ d.desc.selections ++ d.placeholders,
    selectionNonce .std polyCrypto (hashElems .std polyCrypto [.q (hashElems .std polyCrypto [.q (exampleHash d),
      .q (hashElems .std polyCrypto [.q 6, .str "ballot".toList, .q n])]), .u64 d.desc.seq]) sd ≠ 0
  rcases hn with rfl | rfl <;> decide +kernel

theorem example_places (S : StdSort) (K : ℕ) (n : ℕ) {w' : World} {e : CBallot} (h : encryptBallot .std polyCrypto S exampleBallot
    (exampleIM 6) (exampleContext K 6) 4 (some n) 5 false plainWorld = (.ok e, w')) :
    places e = examplePlaces n ∧ e.objectId = "ballot".toList ∧ e.nonce = some n := by
  obtain ⟨n', ds, h1, h2, -, h3, h4, h5, h6⟩ := ballot_nonces C54_std_valid ⟨rfl, rfl⟩ h
  have := h2 n rfl
  subst this
  refine ⟨?_, h3, h1⟩
  have h7 := exampleIM_contests S 6
  change (exampleIM 6).getContestsFor S exampleBallot.styleId = _ at h7
  rw [h7, Res.ok.injEq] at h5
  subst h5
  have one : ∀ d ∈ [exampleContestP2, exampleContestP], ∀ c sd, ContestNonces .std polyCrypto S d sd c →
      contestPlaces e.manifestHash e.objectId n' c = descPlaces n' d := by
    intro d hd c sd hc
    have e1 : c.descHash = exampleHash d := by
      have := hc.desc
      rw [exampleHash_eq d hd, Res.ok.injEq] at this
      exact this.symm
    have e2 : d.desc.getSelections S ++ d.getPlaceholders S = d.desc.selections ++ d.placeholders := by
      unfold ContestDesc.getSelections ContestDescP.getPlaceholders
      simp only [List.mem_cons, List.not_mem_nil, or_false] at hd
      rcases hd with rfl | rfl
      · congr 1 <;> refine sort_of_sorted S _ _ ?_ ?_ <;> decide +kernel
      · congr 1 <;> refine sort_of_sorted S _ _ ?_ ?_ <;> decide +kernel
    have e3 := hc.selections
    rw [e2] at e3
    have e4 := congrArg (List.map (fun x : ℕ × ℕ × ℕ =>
      (⟨6, "ballot".toList, n', exampleHash d, d.desc.seq, .selection x.1 x.2.1⟩ : Place))) e3
    rw [List.map_map, List.map_map] at e4
    unfold contestPlaces descPlaces
    rw [e1, hc.seq, h4, h3]
    congr 1
  unfold places examplePlaces
  rw [h1]
  dsimp only
  generalize e.contests = l at h6
  cases h6 with
  | cons a h6 =>
  cases h6 with
  | cons b h6 =>
  cases h6
  rw [List.flatMap_cons, List.flatMap_cons, List.flatMap_cons, List.flatMap_cons, one _ (by simp) _ _ a,
    one _ (by simp) _ _ b]
  rfl

/-- The hypotheses of `C111_distinct` are met: a ballot encrypted twice, with different nonces, has no pad in common;
and those of `C111_reuse`. -/
theorem C111_example (S : StdSort) (K : ℕ) (hK : Residue .std K) : ∃ e e' w w',
    encryptBallot .std polyCrypto S exampleBallot (exampleIM 6) (exampleContext K 6) 4 (some 8) 5 false
      plainWorld = (.ok e, w) ∧
    encryptBallot .std polyCrypto S exampleBallot (exampleIM 6) (exampleContext K 6) 4 (some 9) 5 false
      plainWorld = (.ok e', w') ∧
    (pads e ++ pads e').Nodup ∧ (pads e).length = 8 := by
  obtain ⟨e, w, h⟩ := example_run S K hK 8 (Or.inl rfl)
  obtain ⟨e', w', h'⟩ := example_run S K hK 9 (Or.inr rfl)
  obtain ⟨p1, i1, n1⟩ := example_places S K 8 h
  obtain ⟨p2, i2, n2⟩ := example_places S K 9 h'
  refine ⟨e, e', w, w', h, h', ?_, ?_⟩
  · have := C111_distinct (C := polyCrypto) (S := S) C54_std_valid (exampleIM 6) (by decide +kernel) ?_ [e, e'] ?_ ?_ ?_ ?_ ?_
    · simpa using this
    · intro id ds hds
      by_cases hid : id = "style".toList
      · subst hid
        rw [exampleIM_contests, Res.ok.injEq] at hds
        subst hds
        decide +kernel
      · have : (exampleIM 6).getBallotStyle id = none := by
          change exampleManifest.styles.find? (fun s => s.objectId = id) = none
          rw [List.find?_eq_none]
          intro s hs
          have : ∀ s ∈ exampleManifest.styles, s.objectId = "style".toList := by decide +kernel
          rw [this s hs]
          simpa using fun h => hid h.symm
        rw [IManifest.getContestsFor, this] at hds
        simp at hds
    · intro x hx
      simp only [List.mem_cons, List.not_mem_nil, or_false] at hx
      rcases hx with rfl | rfl
      · exact ⟨_, _, _, _, _, _, _, _, ⟨rfl, rfl⟩, h⟩
      · exact ⟨_, _, _, _, _, _, _, _, ⟨rfl, rfl⟩, h'⟩
    · intro x hx
      simp only [List.mem_cons, List.not_mem_nil, or_false] at hx
      rcases hx with rfl | rfl
      · rw [i1]; decide
      · rw [i2]; decide
    · intro x hx n hn
      simp only [List.mem_cons, List.not_mem_nil, or_false] at hx
      rcases hx with rfl | rfl
      · rw [n1] at hn; cases hn; norm_num
      · rw [n2] at hn; cases hn; norm_num
    · simp [n1, n2]
    · have := example_strings
      simpa [p1, p2] using this
  · rw [C111_pads C54_std_valid ⟨rfl, rfl⟩ h, List.length_map, p1]
    decide +kernel

example : Residue .std (gPowP .std 2) := residue_gPowP C54_std_valid 2 (by norm_num)

end EG.NonceUse
