import Verif.Props.Encrypt
import Verif.Props.HashedElGamal

/-!
# C35: encryption succeeds; C59: extended data of contests
-/

namespace EG

variable (G : Params) (C : Crypto) (S : StdSort)

/-! ## Success of the parts -/

theorem padMessage_510 (message : List UInt8) :
    ∃ pt, padMessage message bytes512 true = .ok pt ∧ pt.length = 32 * 16 := by
  unfold padMessage
  rw [if_pos (by decide)]
  by_cases h : message.length > bytes512
  · rw [if_pos ⟨rfl, h⟩]
    refine ⟨_, rfl, ?_⟩
    have : bytes512 = 510 := rfl
    simp [be16, List.length_take]
    omega
  · rw [if_neg (by simp [h]), if_neg h]
    refine ⟨_, rfl, ?_⟩
    have : bytes512 = 510 := rfl
    rw [Nat.mod_eq_of_lt (by omega)]
    simp [be16]
    omega

theorem hashedEncrypt_510 (triple : Option (ℕ × ℕ)) (message : List UInt8) (nonce pub seed : ℕ) :
    ∃ x, hashedEncrypt G C triple message nonce pub seed bytes512 true = .ok x := by
  obtain ⟨pt, hp, hl⟩ := padMessage_510 message
  exact ⟨_, hashedEncrypt_eq G C triple message pt nonce pub seed bytes512 _ _ 16 true hp hl
    (by rw [hl]; norm_num) rfl rfl⟩

theorem encryptExtended_total (K ext nonce : ℕ) (data : Str) (w : World) :
    ∃ x, encryptExtended G C data nonce K ext w =
      (.ok x, { w with pre := w.pre.getTriple.2 }) := by
  obtain ⟨x, hx⟩ := hashedEncrypt_510 G C
    (w.pre.getTriple.1.map (fun t => (t.gToExp, t.pubkeyToExp))) data.bytes
    ((Nonces.makeWith G C nonce (.str extendedDataHeader)).get G C 0).1 K ext
  refine ⟨x, ?_⟩
  unfold encryptExtended
  rw [M.bind_apply_ok M.getTriple _ w { w with pre := w.pre.getTriple.2 } w.pre.getTriple.1 rfl]
  rw [M.lift, hx]

/-- The nonce of a selection, derived from the nonce of its contest. -/
def selectionNonce (contestNonce : ℕ) (sd : SelectionDesc) : ℕ :=
  hashElems G C [.q (hashElems G C [.q (sd.hash G C), .q contestNonce]), .u64 sd.seq]

theorem encryptReal_total (hG : G.Valid) (K ext seed : ℕ) (over : Bool) (hK : Residue G K)
    (normalized : List PSelection) (f : SelectionDesc → PSelection) (hfid : ∀ d, (f d).objectId = d.objectId)
    (ds : List SelectionDesc) :
    (∀ d ∈ ds, normalized.find? (fun s => s.objectId = d.objectId) = some (f d)) →
    (over = false → ∀ d ∈ ds, (f d).vote ≤ 1) →
    (∀ d ∈ ds, selectionNonce G C seed d ≠ 0) →
    ∀ (count : ℕ) (w : World), w.Ok G K →
      ∃ es cnt w', encryptReal G C K ext seed false over normalized ds count w = (.ok (es, cnt), w') := by
  induction ds with
  | nil =>
    intro _ _ _ count w _
    exact ⟨_, _, _, rfl⟩
  | cons d ds ih =>
    intro hf hv hn count w hw
    rw [encryptReal, hf d (by simp)]
    dsimp only
    generalize hs : (if over = true then (⟨(f d).objectId, 0, false, []⟩ : PSelection) else f d) = s
    have hsid : s.objectId = d.objectId := by
      rw [← hs]; split <;> exact hfid d
    have hsv : s.vote ≤ 1 := by
      rw [← hs]
      split
      · simp
      · rename_i ho
        exact hv (by simpa using ho) d (by simp)
    obtain ⟨e, w1, h1⟩ := C35_selection_total G C hG K ext seed s d false w hK hw hsid hsv
      (Or.inr (hn d (by simp)))
    obtain ⟨-, -, -, hw1, -⟩ := C35_selection G C hG K ext seed s d false false w w1 e hK hw h1
    obtain ⟨es, cnt, w2, h2⟩ := ih (fun d' hd' => hf d' (by simp [hd']))
      (fun ho d' hd' => hv ho d' (by simp [hd'])) (fun d' hd' => hn d' (by simp [hd']))
      ((count + s.vote) % 2 ^ 64) w1 hw1
    rw [M.bind_apply_ok _ _ w w1 e h1, M.bind_apply_ok _ _ w1 w2 (es, cnt) h2]
    exact ⟨_, _, _, rfl⟩

theorem encryptPlaceholders_total (hG : G.Valid) (K ext seed : ℕ) (over : Bool)
    (hK : Residue G K) (elected : ℕ) (ds : List SelectionDesc) :
    (∀ d ∈ ds, selectionNonce G C seed d ≠ 0) →
    ∀ (count : ℕ) (w : World), w.Ok G K →
      ∃ es w', encryptPlaceholders G C K ext seed false over elected ds count w = (.ok es, w') := by
  induction ds with
  | nil =>
    intro _ count w _
    exact ⟨_, _, rfl⟩
  | cons d ds ih =>
    intro hn count w hw
    rw [encryptPlaceholders]
    obtain ⟨e, w1, h1⟩ := C35_selection_total G C hG K ext seed
      (selectionFrom d true (over || decide (count < elected))) d true w hK hw rfl
      (by unfold selectionFrom; dsimp only; split <;> omega) (Or.inr (hn d (by simp)))
    obtain ⟨-, -, -, hw1, -⟩ := C35_selection G C hG K ext seed _ d true false w w1 e hK hw h1
    obtain ⟨es, w2, h2⟩ := ih (fun d' hd' => hn d' (by simp [hd'])) (if over then count
      else if count < elected then (count + 1) % 2 ^ 64 else count) w1 hw1
    rw [M.bind_apply_ok _ _ w w1 e h1, M.bind_apply_ok _ _ w1 w2 es h2]
    exact ⟨_, _, rfl⟩

theorem isValid_ok_iff (c : PContest) (id : Str) (n e a : ℕ) :
    (c.isValid id n e a true = .success ∨ c.isValid id n e a true = .overvote) ↔
      c.objectId = id ∧ c.selections.length ≤ n := by
  unfold PContest.isValid
  by_cases h1 : c.objectId = id
  · rw [if_neg (by simpa using h1)]
    by_cases h2 : c.selections.length > n
    · rw [if_pos h2]
      simp [h1]
      omega
    · rw [if_neg h2]
      have : c.selections.length ≤ n := by omega
      simp only [h1, this, and_self, iff_true]
      split
      · simp
      · split <;> simp <;> omega
  · rw [if_pos h1]
    simp [h1]

theorem constMake_ok (hG : G.Valid) (triple : Option Triple) (m : Ciphertext) (N K seed h L : ℕ)
    (hN : N < 2 ^ 256) (ht : ∀ t ∈ triple, Triple.ForKey G K t) :
    ∃ π, constMake G C triple m N K seed h L = .ok π := by
  have hq := hG.q_lt
  have hu : (triple.elim ((Nonces.makeWith G C seed (.str constHeader)).get G C 0).1 Triple.exp) <
      2 ^ 256 := by
    cases triple with
    | none => exact lt_trans (nonce_lt (C := C) hG _ 0) hq
    | some t => exact lt_trans (ht t rfl).1 hq
  unfold constMake
  dsimp only
  unfold constChallenge
  rw [aPlusBc_eq hG _ _ _ hu (hashElems_lt256 hG _) hN]
  exact ⟨_, rfl⟩

/-- C35: without verification, encryption of a contest succeeds if the contest matches the
description, each first entry for a selection is 0 or 1 unless the contest is overvoted, the
description can be hashed and lists a selection or placeholder, and no derived nonce is zero. -/
theorem C35_contest_total (hG : G.Valid) (K ext seed dh : ℕ) (c : PContest) (m : IManifest)
    (d : ContestDescP) (w : World) (hK : Residue G K) (hw : w.Ok G K)
    (hel : d.desc.numberElected < 2 ^ 64) (hid : c.objectId = d.desc.objectId)
    (hlen : c.selections.length ≤ d.desc.selections.length)
    (ht : c.total < 2 ^ 64)
    (hv : c.Overvoted d.desc.numberElected d.desc.votesAllowed ∨
      ∀ sd ∈ d.desc.selections, c.voteFor sd.objectId ≤ 1)
    (hdh : d.desc.hash G C = .ok dh) (hne : d.desc.selections ++ d.placeholders ≠ [])
    (hn : ∀ sd ∈ d.desc.selections ++ d.placeholders, selectionNonce G C
      (hashElems G C [.q (hashElems G C [.q dh, .q seed]), .u64 d.desc.seq]) sd ≠ 0) :
    ∃ e w', encryptContest G C S c m d K ext seed false w = (.ok e, w') := by
  have hlen' : (d.desc.getSelections S).length = d.desc.selections.length := by
    simp [ContestDesc.getSelections]
  have hlenp : (d.getPlaceholders S).length = d.placeholders.length := by
    simp [ContestDescP.getPlaceholders]
  have hmem : ∀ sd, sd ∈ d.desc.getSelections S ↔ sd ∈ d.desc.selections := by
    intro sd; simp [ContestDesc.getSelections]
  have hmemp : ∀ sd, sd ∈ d.getPlaceholders S ↔ sd ∈ d.placeholders := by
    intro sd; simp [ContestDescP.getPlaceholders]
  unfold encryptContest
  rw [hlen']
  have hcheck := (isValid_ok_iff c d.desc.objectId d.desc.selections.length d.desc.numberElected
    d.desc.votesAllowed).2 ⟨hid, hlen⟩
  have hover := (C31_classification_partial c d.desc.objectId d.desc.selections.length
    d.desc.numberElected d.desc.votesAllowed true ht).2.1
  generalize c.isValid d.desc.objectId d.desc.selections.length d.desc.numberElected
    d.desc.votesAllowed true = check at hcheck hover
  have hover' : decide (check = .overvote) = false → ∀ sd ∈ d.desc.selections, c.voteFor sd.objectId ≤ 1 := by
    intro ho
    rcases hv with hv | hv
    · exact absurd (hover.2 ⟨hid, hlen, hv, rfl⟩) (by simpa using ho)
    · exact hv
  dsimp only
  rw [if_neg (by rcases hcheck with rfl | rfl <;> simp)]
  rw [M.bind_apply_ok (M.lift _) _ w w dh (by rw [M.lift, hdh])]
  generalize decide (check = .overvote) = over at hover'
  change ∀ sd ∈ _, selectionNonce G C ((Nonces.makeWith G C dh (.q seed)).get G C d.desc.seq).1 sd ≠ 0 at hn
  generalize ((Nonces.makeWith G C dh (.q seed)).get G C d.desc.seq).1 = cn at hn
  obtain ⟨rs, cnt, w1, h1⟩ := encryptReal_total G C hG K ext cn over hK
    (emplaceContest S c d.desc).selections (emplaceSelection c) (emplaceSelection_id c)
    (d.desc.getSelections S) (fun sd hsd => find_emplace S c d.desc sd hsd)
    (fun ho sd hsd => by rw [emplaceSelection_vote]; exact hover' ho sd ((hmem sd).1 hsd))
    (fun sd hsd => hn sd (by simp [(hmem sd).1 hsd])) 0 w hw
  obtain ⟨a1, a2, -, -⟩ := encryptReal_spec G C hG K ext cn false over hK _ (emplaceSelection c)
    (d.desc.getSelections S) (fun sd hsd => find_emplace S c d.desc sd hsd) 0 w w1 rs cnt hw h1
  rw [M.bind_apply_ok _ _ w w1 (rs, cnt) h1]
  obtain ⟨ps, w2, h2⟩ := encryptPlaceholders_total G C hG K ext cn over hK d.desc.numberElected
    (d.getPlaceholders S) (fun sd hsd => hn sd (by simp [(hmemp sd).1 hsd])) cnt w1 a1
  obtain ⟨b1, b2, -⟩ := encryptPlaceholders_spec G C hG K ext cn false over hK _ hel
    (d.getPlaceholders S) cnt w1 w2 ps a1 h2
  rw [M.bind_apply_ok _ _ w1 w2 ps h2]
  obtain ⟨x, h3⟩ := encryptExtended_total G C K ext cn (overvoteAndWriteIns S m c check) w2
  have hw3 := (encryptExtended_ok G C K ext _ _ w2 _ x b1 hG h3).1
  rw [M.bind_apply_ok _ _ w2 _ x h3]
  generalize ({ w2 with pre := w2.pre.getTriple.2 } : World) = w3 at hw3
  have enc := List.rel_append (R := CSelection.Encrypts G K)
    (forall₂_encrypts G C K ext false _ _ _ _ a2)
    (forall₂_encrypts G C K ext true (fun dv : SelectionDesc × ℕ => dv.2) (·.1) _ _ b2)
  have hrp : rs ++ ps ≠ [] := by
    intro h0
    have e1 := a2.length_eq
    have e2 := b2.length_eq
    rw [List.length_zip, placeholderVotes_length, hlenp, Nat.min_self] at e2
    have e3 : (rs ++ ps).length = 0 := by rw [h0]; rfl
    rw [List.length_append, ← e1, ← e2, hlen', ← List.length_append] at e3
    exact hne (List.length_eq_zero_iff.1 e3)
  obtain ⟨acc, N, k1, k2, k3, -⟩ := accumulate_spec G hG K hK _ _ (S.sort CSelection.seq (rs ++ ps))
    enc hrp (S.perm _ _)
  obtain ⟨t1, t2⟩ := hw3.getTriple
  obtain ⟨π, hπ⟩ := constMake_ok G C hG w3.pre.getTriple.1 acc N K
    (((Nonces.makeWith G C dh (.q seed)).get G C d.desc.seq).2.next G C).1 ext d.desc.numberElected
    (lt_trans k3 hG.q_lt) t1
  have hch : ∃ ch, contestHash G C c.objectId (S.sort CSelection.seq (rs ++ ps)) dh = .ok ch := by
    unfold contestHash
    rw [if_neg]
    · exact ⟨_, rfl⟩
    · intro h0
      have hp := S.perm CSelection.seq (rs ++ ps)
      rw [List.isEmpty_iff.1 h0] at hp
      exact hrp hp.symm.eq_nil
  obtain ⟨ch, hch⟩ := hch
  have hmake : ∃ e w', CContest.make G C S c.objectId d.desc.seq dh (rs ++ ps) K ext
      (((Nonces.makeWith G C dh (.q seed)).get G C d.desc.seq).2.next G C).1 d.desc.numberElected
      (some cn) (some x) w3 = (.ok e, w') := by
    unfold CContest.make
    rw [M.bind_apply_ok (M.lift _) _ w3 w3 ch (by rw [M.lift, hch]),
      M.bind_apply_ok (M.lift _) _ w3 w3 acc (by rw [M.lift, k1]),
      M.bind_apply_ok (M.lift _) _ w3 w3 N (by rw [M.lift, k2]),
      M.bind_apply_ok M.getTriple _ w3 _ _ rfl,
      M.bind_apply_ok (M.lift _) _ _ { w3 with pre := w3.pre.getTriple.2 } π (by rw [M.lift, hπ])]
    exact ⟨_, _, rfl⟩
  obtain ⟨e, w4, he⟩ := hmake
  rw [M.bind_apply_ok _ _ w3 w4 e he]
  exact ⟨_, _, rfl⟩

/-! An undervoted and an overvoted contest, with the standard parameters and an empty buffer. -/

/-- An environment with empty buffers in which `rand_q` always returns 7. -/
def plainWorld : World :=
  { pre := { max := 10, populateOk := true, triples := [], quads := [] }
    rng := fun _ => 7, clock := fun n => 1000 + n }

theorem plainWorld_ok (hq : 7 < G.q) (K : ℕ) : plainWorld.Ok G K :=
  ⟨fun _ => hq, by simp [plainWorld], by simp [plainWorld]⟩

theorem std_q_gt7 : 7 < Params.std.q := by decide +kernel

theorem exampleContest_hash (d : ContestDescP) (hd : d.desc.title = none)
    (hv : d.desc.variation = .one_of_m) :
    d.desc.hash .std (constCrypto 5) = .ok (addModQ .std (5 % 2 ^ 256) 0) := by
  unfold ContestDesc.hash
  rw [hv, hd]
  change Res.ok (hashElems _ _ _) = _
  rw [hashElems_const]

theorem std_const5 : addModQ .std (5 % 2 ^ 256) 0 ≠ 0 := by decide +kernel

/-- The hypotheses of `C32_totals`, `C33_votes`, `C35_contest_total` and `C35_contest` are met, by an
overvoted contest (both selections marked for one seat) and by one with no mark. -/
theorem encryptContest_example (S : StdSort) (m : IManifest) (votes : List PSelection)
    (hv : votes = [⟨"s1".toList, 1, false, []⟩, ⟨"s2".toList, 1, false, []⟩] ∨ votes = []) :
    ∃ e w', encryptContest .std (constCrypto 5) S ⟨"c".toList, votes⟩ m exampleContestP
      (gPowP .std 2) 3 4 false plainWorld = (.ok e, w') := by
  refine C35_contest_total .std (constCrypto 5) S C54_std_valid _ _ _ _ _ m exampleContestP plainWorld
    (residue_gPowP C54_std_valid 2 (by norm_num)) (plainWorld_ok _ std_q_gt7 _)
    (by decide +kernel) rfl ?_ ?_ ?_ (exampleContest_hash _ rfl rfl) (by simp [exampleContestP]) ?_
  · rcases hv with rfl | rfl <;> decide +kernel
  · rcases hv with rfl | rfl <;> decide +kernel
  · rcases hv with rfl | rfl
    · left; left; decide +kernel
    · right; decide +kernel
  · intro sd _
    rw [selectionNonce, hashElems_const]
    exact std_const5

example : (exampleContestP.desc.selections.map (·.objectId)).Nodup ∧
    exampleContestP.placeholders.length = exampleContestP.desc.numberElected ∧
    exampleContestP.desc.numberElected < 2 ^ 64 := by decide +kernel

/-! ## C59 extended data -/

theorem keyFromSecret_eq (s : ℕ) (hs2 : 2 ≤ s) : keyFromSecret G s = .ok ⟨s, gPowP G s⟩ := by
  unfold keyFromSecret
  rw [if_neg]
  rw [elemLt_iff]
  omega

/-- Direct hashed encryption with truncation: the holder of the secret reads the first 510 bytes. -/
theorem hashed_take (hG : G.Valid) (message : List UInt8) (s n seed : ℕ) (hs : s < 2 ^ 256) (hs2 : 2 ≤ s)
    (hn : n < 2 ^ 256) (x : HashedCiphertext)
    (h : hashedEncrypt G C none message n (gPowP G s) seed bytes512 true = .ok x) :
    hashedDecrypt G C x s seed true = .ok (message.take 510) := by
  rcases Nat.lt_or_ge 510 message.length with hl | hl
  · obtain ⟨k, c, h1, h2, -, h4⟩ := C16_truncation G C hG message s n seed bytes512 hs hs2 hn
      (by decide) (by decide) hl
    rw [keyFromSecret_eq G s hs2, Res.ok.injEq] at h1
    subst h1
    rw [h, Res.ok.injEq] at h2
    subst h2
    exact h4
  · obtain ⟨k, c, h1, h2, -, h4⟩ := C15_bytes512 G C hG message s n seed true hs hs2 hn hl
    rw [keyFromSecret_eq G s hs2, Res.ok.injEq] at h1
    subst h1
    rw [h, Res.ok.injEq] at h2
    subst h2
    rw [List.take_of_length_le hl]
    exact h4

/-- C59: the holder of the secret key reads from the extended data of an encrypted contest the first
510 bytes of the JSON text about overvote and write-ins, with or without precomputed values. -/
theorem C59_first_510_bytes (hG : G.Valid) (s ext seed : ℕ) (c : PContest) (m : IManifest)
    (d : ContestDescP) (verify : Bool) (w w' : World) (e : CContest) (hs : s < 2 ^ 256) (hs2 : 2 ≤ s)
    (hw : w.Ok G (gPowP G s)) (hel : d.desc.numberElected < 2 ^ 64) (ht : c.total < 2 ^ 64)
    (h : encryptContest G C S c m d (gPowP G s) ext seed verify w = (.ok e, w')) :
    ∃ x, e.extended = some x ∧
      (c.Overvoted d.desc.numberElected d.desc.votesAllowed →
        hashedDecrypt G C x s ext true =
          .ok ((overvoteAndWriteIns S m c .overvote).bytes.take 510)) ∧
      (¬ c.Overvoted d.desc.numberElected d.desc.votesAllowed →
        hashedDecrypt G C x s ext true =
          .ok ((overvoteAndWriteIns S m c .success).bytes.take 510)) := by
  have hK := residue_gPowP hG s hs
  obtain ⟨over, hcheck, facts, -, -⟩ := encryptContest_spec G C S hG _ ext seed c m d verify w w' e hK hw
    hel h
  obtain ⟨x, triple, n, hx, hn, htr, henc⟩ := facts.extended
  refine ⟨x, hx, ?_⟩
  have key : hashedDecrypt G C x s ext true =
      .ok ((overvoteAndWriteIns S m c (if over then .overvote else .success)).bytes.take 510) := by
    cases triple with
    | none => exact hashed_take G C hG _ s n ext hs hs2 (lt_trans hn hG.q_lt) x henc
    | some t =>
      obtain ⟨lt, e1, e2⟩ := htr t rfl
      have lt' := lt_512_of_lt (lt_trans lt hG.q_lt)
      rw [Option.map_some, e1, e2, ← gPowP_eq hG _ lt', ← powModP_eq hG _ _ (hK.lt hG) lt',
        C18_triple_partial] at henc
      exact hashed_take G C hG _ s t.exp ext hs hs2 (lt_trans lt hG.q_lt) x henc
  obtain ⟨k1, k2, -, -⟩ := C31_classification_partial c d.desc.objectId d.desc.selections.length
    d.desc.numberElected d.desc.votesAllowed true ht
  cases over
  · have := (k1.1 hcheck).2.2
    exact ⟨fun ho => absurd ho this, fun _ => key⟩
  · have := (k2.1 hcheck).2.2.1
    exact ⟨fun _ => key, fun ho => absurd this ho⟩

/-- C59, partial: a text of at most 510 bytes is recovered completely. -/
theorem C59_recovered_partial (hG : G.Valid) (s ext seed : ℕ) (c : PContest) (m : IManifest)
    (d : ContestDescP) (verify : Bool) (w w' : World) (e : CContest) (hs : s < 2 ^ 256) (hs2 : 2 ≤ s)
    (hw : w.Ok G (gPowP G s)) (hel : d.desc.numberElected < 2 ^ 64) (ht : c.total < 2 ^ 64)
    (hover : ¬ c.Overvoted d.desc.numberElected d.desc.votesAllowed)
    (hlen : (overvoteAndWriteIns S m c .success).bytes.length ≤ 510)
    (h : encryptContest G C S c m d (gPowP G s) ext seed verify w = (.ok e, w')) :
    ∃ x, e.extended = some x ∧
      hashedDecrypt G C x s ext true = .ok (overvoteAndWriteIns S m c .success).bytes := by
  obtain ⟨x, hx, -, h2⟩ := C59_first_510_bytes G C S hG s ext seed c m d verify w w' e hs hs2 hw hel ht h
  have := h2 hover
  rw [List.take_of_length_le hlen] at this
  exact ⟨x, hx, this⟩

/-- A contest with a write-in candidate. -/
def writeInIM : IManifest :=
  { gpUnits := [], candidates := [⟨"a".toList, none, [], [], true⟩, ⟨"b".toList, none, [], [], false⟩]
    contests := [exampleContestP], styles := [], manifestHash := 1 }

def writeInContest (text : Str) : PContest :=
  { objectId := "c".toList, selections := [⟨"s1".toList, 1, false, text⟩] }

theorem writeIn_text (S : StdSort) (text : Str) :
    overvoteAndWriteIns S writeInIM (writeInContest text) .success =
      "{\"write_ins\":{\"s1\":".toList ++ dumpStr text ++ "}}".toList := by
  have h1 : writeInIM.getContests S = [exampleContestP] := by
    refine sort_of_sorted S _ _ ?_ ?_ <;> simp [writeInIM]
  have h2 : exampleContestP.desc.getSelections S = exampleContest.selections := by
    refine sort_of_sorted S _ _ ?_ ?_ <;> decide +kernel
  have h3 : manifestSelections S writeInIM "c".toList = exampleContest.selections := by
    unfold manifestSelections
    rw [h1, List.foldl_cons, List.foldl_nil, h2]
    rfl
  have h4 : writeInsOf S writeInIM (writeInContest text) = [("s1".toList, text)] := by
    unfold writeInsOf
    simp only [writeInContest, h3]
    rfl
  unfold overvoteAndWriteIns
  rw [h4]
  simp [dumpObj, dumpMember, joinComma]
  rfl

/-- The text for a short write-in, and the text for an overvote. -/
example (S : StdSort) : overvoteAndWriteIns S writeInIM (writeInContest "Ada".toList) .success =
    "{\"write_ins\":{\"s1\":\"Ada\"}}".toList := by
  rw [writeIn_text]; rfl

example (S : StdSort) : overvoteAndWriteIns S writeInIM overvotedContest .overvote =
    "{\"error\":\"overvote\",\"error_data\":[\"a\",\"b\"]}".toList := by
  have h1 : writeInIM.getContests S = [exampleContestP] := by
    refine sort_of_sorted S _ _ ?_ ?_ <;> simp [writeInIM]
  have h2 : exampleContestP.desc.getSelections S = exampleContest.selections := by
    refine sort_of_sorted S _ _ ?_ ?_ <;> decide +kernel
  have h3 : manifestSelections S writeInIM "c".toList = exampleContest.selections := by
    unfold manifestSelections
    rw [h1, List.foldl_cons, List.foldl_nil, h2]
    rfl
  have h4 : writeInsOf S writeInIM overvotedContest = [] := by
    unfold writeInsOf
    simp only [overvotedContest, h3]
    rfl
  unfold overvoteAndWriteIns
  rw [h4]
  rfl

def longText (c : Char) : Str := List.replicate 500 'x' ++ [c]

theorem longText_ne : longText 'a' ≠ longText 'b' := by decide +kernel

theorem longText_prefix (S : StdSort) :
    (overvoteAndWriteIns S writeInIM (writeInContest (longText 'b')) .success).bytes.take 510 =
      (overvoteAndWriteIns S writeInIM (writeInContest (longText 'a')) .success).bytes.take 510 := by
  rw [writeIn_text, writeIn_text]
  decide +kernel

/-- C59 is violated: long write-ins are cut off without notice.  There are two different write-ins such
that, for all keys, seeds and environments, the holder of the secret key reads the same from the two
encrypted contests. -/
theorem C59_violated (hG : G.Valid) :
    ∃ t t' : Str, t ≠ t' ∧ ∀ (S : StdSort) (s ext ext' seed seed' : ℕ) (verify : Bool)
      (w w' v v' : World) (e e' : CContest), s < 2 ^ 256 → 2 ≤ s → w.Ok G (gPowP G s) →
      v.Ok G (gPowP G s) →
      encryptContest G C S (writeInContest t) writeInIM exampleContestP (gPowP G s) ext seed verify w =
        (.ok e, w') →
      encryptContest G C S (writeInContest t') writeInIM exampleContestP (gPowP G s) ext' seed' verify v =
        (.ok e', v') →
      ∃ x x' text, e.extended = some x ∧ e'.extended = some x' ∧
        hashedDecrypt G C x s ext true = .ok text ∧ hashedDecrypt G C x' s ext' true = .ok text := by
  refine ⟨longText 'a', longText 'b', longText_ne, ?_⟩
  intro S s ext ext' seed seed' verify w w' v v' e e' hs hs2 hw hv h h'
  have tot : ∀ t, (writeInContest t).total = 1 := fun t => rfl
  have over : ∀ t, ¬ (writeInContest t).Overvoted exampleContestP.desc.numberElected
      exampleContestP.desc.votesAllowed := by
    intro t ho
    rcases ho with ho | ho
    · have : (writeInContest t).marked = 1 := by simp [PContest.marked, writeInContest]
      rw [this] at ho
      exact absurd ho (by decide +kernel)
    · rw [tot] at ho
      exact absurd ho (by decide +kernel)
  obtain ⟨x, hx, -, k⟩ := C59_first_510_bytes G C S hG s ext seed _ _ _ verify w w' e hs hs2 hw
    (by decide +kernel) (by rw [tot]; norm_num) h
  obtain ⟨x', hx', -, k'⟩ := C59_first_510_bytes G C S hG s ext' seed' _ _ _ verify v v' e' hs hs2 hv
    (by decide +kernel) (by rw [tot]; norm_num) h'
  refine ⟨x, x', _, hx, hx', k (over _), ?_⟩
  rw [k' (over _), longText_prefix]

end EG
