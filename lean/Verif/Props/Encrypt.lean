import Verif.Spec.Encrypt
import Verif.Props.BallotHash

/-!
# C32, C33, C35: encryption of selections and contests
-/

namespace EG

variable (G : Params) (C : Crypto) (S : StdSort)

theorem World.Ok.getQuad {G : Params} {K : ℕ} {w : World} (h : w.Ok G K) :
    (∀ e ∈ w.pre.getQuad.1, e.ForKey G K) ∧ World.Ok G K { w with pre := w.pre.getQuad.2 } := by
  unfold PreState.getQuad
  rcases hq : w.pre.quads with _ | ⟨x, xs⟩
  · simp only [Option.mem_def, reduceCtorEq, IsEmpty.forall_iff, implies_true, true_and]
    exact ⟨h.rng, h.triples, h.quads⟩
  · simp only [Option.mem_def, Option.some.injEq, forall_eq']
    have hx := h.quads
    rw [hq] at hx
    exact ⟨hx x (by simp), h.rng, h.triples, fun e he => hx e (by simp [he])⟩

theorem World.Ok.getTriple {G : Params} {K : ℕ} {w : World} (h : w.Ok G K) :
    (∀ e ∈ w.pre.getTriple.1, e.ForKey G K) ∧ World.Ok G K { w with pre := w.pre.getTriple.2 } := by
  unfold PreState.getTriple
  rcases hq : w.pre.triples with _ | ⟨x, xs⟩
  · simp only [Option.mem_def, reduceCtorEq, IsEmpty.forall_iff, implies_true, true_and]
    exact ⟨h.rng, h.triples, h.quads⟩
  · simp only [Option.mem_def, Option.some.injEq, forall_eq']
    have hx := h.triples
    rw [hq] at hx
    exact ⟨hx x (by simp), h.rng, fun e he => hx e (by simp [he]), h.quads⟩

theorem World.Ok.rand {G : Params} {K : ℕ} {w : World} (h : w.Ok G K) :
    World.Ok G K { w with rng := fun n => w.rng (n + 1) } := ⟨fun _ => h.rng _, h.triples, h.quads⟩

theorem World.Ok.clock {G : Params} {K : ℕ} {w : World} (h : w.Ok G K) (f : ℕ → ℕ) :
    World.Ok G K { w with clock := f } := ⟨h.rng, h.triples, h.quads⟩

/-! ## Selections -/

theorem selection_isValid_of (K ext vote : ℕ) (d : SelectionDesc) (ph : Bool)
    (e : CSelection) (h : EncryptsVote G C K ext vote d ph e) :
    e.isValid G C (d.hash G C) K ext = true ↔ ∀ π ∈ e.proof, π.zeroChallenge ≠ 0 ∧ π.oneChallenge ≠ 0 ∧
      π.zeroResponse ≠ 0 ∧ π.oneResponse ≠ 0 := by
  obtain ⟨π, hπ, hacc⟩ := h.proof
  have hh : e.cryptoHash = selectionHash G C e.objectId (d.hash G C) e.ciphertext := by
    rw [h.hash, h.id]; rfl
  rw [CSelection.isValid, if_neg (by simp [h.desc]), if_neg (by simpa using hh), hπ]
  simp only [Option.mem_some_iff, forall_eq']
  exact hacc

theorem encryptSelectionCore_spec (hG : G.Valid) (K ext seed : ℕ) (s : PSelection)
    (d : SelectionDesc) (ph : Bool) (w w' : World) (e : CSelection) (hK : Residue G K)
    (hw : w.Ok G K) (hv : s.isValid d.objectId = true)
    (h : encryptSelectionCore G C s d K ext seed ph w = (.ok e, w')) :
    EncryptsVote G C K ext s.vote d ph e ∧ w'.Ok G K := by
  have hid : s.objectId = d.objectId := by
    unfold PSelection.isValid at hv; split at hv <;> simp_all
  have hvote : s.vote < 2 := by
    unfold PSelection.isValid at hv
    split at hv
    · simp at hv
    · split at hv
      · simp at hv
      · omega
  unfold encryptSelectionCore at h
  rw [M.bind_eq_ok] at h
  obtain ⟨pre, w1, h1, h2⟩ := h
  simp only [M.getQuad, Prod.mk.injEq, Res.ok.injEq] at h1
  obtain ⟨rfl, rfl⟩ := h1
  obtain ⟨hquad, hw1⟩ := hw.getQuad
  rcases hp : w.pre.getQuad.1 with _ | t
  · rw [hp] at h2
    dsimp only at h2
    rw [M.bind_eq_ok] at h2
    obtain ⟨c, w2, h3, h4⟩ := h2
    simp only [M.lift, Prod.mk.injEq] at h3
    obtain ⟨h3, rfl⟩ := h3
    have hn := nonce_lt (C := C) hG (Nonces.makeWith G C (d.hash G C) (.q seed)) d.seq
    generalize hnn : ((Nonces.makeWith G C (d.hash G C) (.q seed)).get G C d.seq).1 = n at h3 h4 hn
    have hn0 : n ≠ 0 := by
      intro h0
      simp [elgamalEncrypt, h0] at h3
    have hn256 := lt_trans hn hG.q_lt
    obtain ⟨c', hc', henc⟩ := encrypt_isEncryption G hG s.vote n K hvote hn256 hn0 (hK.lt hG)
    rw [hc', Res.ok.injEq] at h3
    subst h3
    unfold CSelection.make disjMakeM at h4
    rw [if_neg (by omega)] at h4
    simp only [M.bind_eq_ok, M.rand, M.lift, M.ret, Prod.mk.injEq, Res.ok.injEq] at h4
    obtain ⟨π, w3, ⟨u, w4, ⟨rfl, rfl⟩, v, w5, ⟨rfl, rfl⟩, x, w6, ⟨rfl, rfl⟩, hπ, rfl⟩, rfl, rfl⟩ := h4
    obtain ⟨π', hπ', hgood⟩ := C19_randomised G C hG K s.vote n ext s.vote _ _ _ c' hK henc hn256 hvote
      (hw1.rng 0) (hw1.rand.rng 0) (hw1.rand.rand.rng 0)
    have hππ := Res.ok.inj (hπ.symm.trans hπ')
    subst hππ
    refine ⟨⟨hid, rfl, rfl, rfl, by omega, ?_, ⟨n, hn, rfl, henc⟩, π, rfl, ?_⟩, hw1.rand.rand.rand⟩
    · rw [← hid]; rfl
    · exact hgood.1 (Nat.mod_eq_of_lt (by have := hG.q_gt; omega))
  · rw [hp] at h2
    have ht := hquad t hp
    have e1 : t.triple1.gToExp = gPowP G t.triple1.exp := by
      rw [ht.1.2.1, gPowP_eq hG _ (lt_512_of_lt (lt_trans ht.1.1 hG.q_lt))]
    have e2 : t.triple1.pubkeyToExp = powModP G K t.triple1.exp := by
      rw [ht.1.2.2, powModP_eq hG K _ (hK.lt hG) (lt_512_of_lt (lt_trans ht.1.1 hG.q_lt))]
    simp only [M.lift, CSelection.makePrecomputed, Prod.mk.injEq, Res.bind_eq_ok, Res.ok.injEq] at h2
    obtain ⟨⟨π, hπ, rfl⟩, rfl⟩ := h2
    rw [e1, e2] at hπ ⊢
    have henc := C14_precomputed_isEncryption G hG s.vote t.triple1.exp K hvote
      (lt_trans ht.1.1 hG.q_lt) (hK.lt hG)
    obtain ⟨π', hπ', hgood⟩ := C19_precomputed G C hG K s.vote ext s.vote _ t hK ht henc hvote
    have hππ := Res.ok.inj (hπ.symm.trans hπ')
    subst hππ
    refine ⟨⟨hid, rfl, rfl, rfl, by omega, ?_, ⟨_, ht.1.1, rfl, henc⟩, π, rfl, ?_⟩, hw1⟩
    · rw [← hid]; rfl
    · exact hgood.1 (Nat.mod_eq_of_lt (by have := hG.q_gt; omega))

/-- C35: what `encryptSelection` returns is an encryption of the vote with a proof that is accepted
unless a challenge or response is zero; with verification it is valid. -/
theorem C35_selection (hG : G.Valid) (K ext seed : ℕ) (s : PSelection)
    (d : SelectionDesc) (ph verify : Bool) (w w' : World) (e : CSelection) (hK : Residue G K)
    (hw : w.Ok G K) (h : encryptSelection G C s d K ext seed ph verify w = (.ok e, w')) :
    s.objectId = d.objectId ∧ s.vote ≤ 1 ∧ EncryptsVote G C K ext s.vote d ph e ∧ w'.Ok G K ∧
      (verify = true → e.isValid G C (d.hash G C) K ext = true) := by
  unfold encryptSelection at h
  by_cases hv : s.isValid d.objectId = true
  · have hid : s.objectId = d.objectId := by
      unfold PSelection.isValid at hv; split at hv <;> simp_all
    rw [if_neg (by simp [hv]), M.bind_eq_ok] at h
    obtain ⟨e', w1, h1, h2⟩ := h
    obtain ⟨k1, k2⟩ := encryptSelectionCore_spec G C hG K ext seed s d ph w w1 e' hK hw hv h1
    cases verify with
    | false =>
      simp only [Bool.not_false, if_true, M.ret, Prod.mk.injEq, Res.ok.injEq] at h2
      obtain ⟨rfl, rfl⟩ := h2
      exact ⟨hid, k1.vote_le, k1, k2, by simp⟩
    | true =>
      simp only [Bool.not_true, Bool.false_eq_true, if_false] at h2
      split at h2
      · rename_i hval
        simp only [M.ret, Prod.mk.injEq, Res.ok.injEq] at h2
        obtain ⟨rfl, rfl⟩ := h2
        exact ⟨hid, k1.vote_le, k1, k2, fun _ => hval⟩
      · simp [M.raise] at h2
  · rw [if_pos (by simpa using hv)] at h
    simp [M.raise] at h

/-- C35: a selection for another description or with a vote above 1 is refused. -/
theorem C35_selection_refused (K ext seed : ℕ) (s : PSelection) (d : SelectionDesc)
    (ph verify : Bool) (w : World) (h : s.objectId ≠ d.objectId ∨ 1 < s.vote) :
    encryptSelection G C s d K ext seed ph verify w = (.throw .invalidArgument, w) := by
  have : s.isValid d.objectId = false := by
    unfold PSelection.isValid
    rcases h with h | h
    · rw [if_pos h]
    · by_cases hi : s.objectId = d.objectId <;> simp [hi, h]
  simp [encryptSelection, this, M.raise]

/-- C35: without verification, the encryption of a valid selection succeeds, unless no precomputed entry
is left and the derived nonce is zero. -/
theorem C35_selection_total (hG : G.Valid) (K ext seed : ℕ) (s : PSelection)
    (d : SelectionDesc) (ph : Bool) (w : World) (hK : Residue G K) (hw : w.Ok G K)
    (hid : s.objectId = d.objectId) (hvote : s.vote ≤ 1)
    (hn : w.pre.quads ≠ [] ∨
      hashElems G C [.q (hashElems G C [.q (d.hash G C), .q seed]), .u64 d.seq] ≠ 0) :
    ∃ e w', encryptSelection G C s d K ext seed ph false w = (.ok e, w') := by
  have hv : s.isValid d.objectId = true := by
    simp [PSelection.isValid, hid]; omega
  have key : ∃ e w', encryptSelectionCore G C s d K ext seed ph w = (.ok e, w') := by
    obtain ⟨hquad, hw1⟩ := hw.getQuad
    unfold encryptSelectionCore
    rw [M.bind_apply_ok M.getQuad _ w { w with pre := w.pre.getQuad.2 } w.pre.getQuad.1 rfl]
    rcases hp : w.pre.getQuad.1 with _ | t
    · have hq : w.pre.quads = [] := by
        unfold PreState.getQuad at hp
        rcases hq : w.pre.quads with _ | ⟨x, xs⟩
        · rfl
        · simp [hq] at hp
      have hn0 := hn.resolve_left (by simp [hq])
      have hlt := nonce_lt (C := C) hG (Nonces.makeWith G C (d.hash G C) (.q seed)) d.seq
      have hn0' : ((Nonces.makeWith G C (d.hash G C) (.q seed)).get G C d.seq).1 ≠ 0 := hn0
      generalize ((Nonces.makeWith G C (d.hash G C) (.q seed)).get G C d.seq).1 = n at hlt hn0'
      have hn256 := lt_trans hlt hG.q_lt
      obtain ⟨c, hc, henc⟩ := encrypt_isEncryption G hG s.vote n K (by omega) hn256 hn0' (hK.lt hG)
      generalize hw2 : ({ w with pre := w.pre.getQuad.2 } : World) = w2 at hw1
      obtain ⟨π, hπ, -⟩ := C19_randomised G C hG K s.vote n ext s.vote (w2.rng 0) (w2.rng 1) (w2.rng 2)
        c hK henc hn256 (by omega) (hw1.rng 0) (hw1.rng 1) (hw1.rng 2)
      have hmake : disjMakeM G C c n K ext s.vote w2 =
          (.ok π, { w2 with rng := fun n => w2.rng (n + 1 + 1 + 1) }) := by
        unfold disjMakeM
        rw [if_neg (by omega)]
        change M.lift (disjMake G C c n K ext s.vote (w2.rng 0) (w2.rng 1) (w2.rng 2)) _ = _
        rw [hπ]
        rfl
      dsimp only
      rw [M.bind_apply_ok (M.lift _) _ w2 w2 c (by rw [M.lift, hc]), CSelection.make,
        M.bind_apply_ok _ _ w2 _ π hmake]
      exact ⟨_, _, rfl⟩
    · have ht := hquad t hp
      have e1 : t.triple1.gToExp = gPowP G t.triple1.exp := by
        rw [ht.1.2.1, gPowP_eq hG _ (lt_512_of_lt (lt_trans ht.1.1 hG.q_lt))]
      have e2 : t.triple1.pubkeyToExp = powModP G K t.triple1.exp := by
        rw [ht.1.2.2, powModP_eq hG K _ (hK.lt hG) (lt_512_of_lt (lt_trans ht.1.1 hG.q_lt))]
      have henc := C14_precomputed_isEncryption G hG s.vote t.triple1.exp K (by omega)
        (lt_trans ht.1.1 hG.q_lt) (hK.lt hG)
      obtain ⟨π, hπ, -⟩ := C19_precomputed G C hG K s.vote ext s.vote _ t hK ht henc (by omega)
      dsimp only
      rw [M.lift, CSelection.makePrecomputed, e1, e2, hπ]
      exact ⟨_, _, rfl⟩
  obtain ⟨e, w', h⟩ := key
  refine ⟨e, w', ?_⟩
  unfold encryptSelection
  rw [if_neg (by simp [hv]), M.bind_eq_ok]
  exact ⟨e, w', h, rfl⟩

/-! ## Loops -/

theorem encryptReal_spec (hG : G.Valid) (K ext seed : ℕ) (verify over : Bool) (hK : Residue G K)
    (normalized : List PSelection) (f : SelectionDesc → PSelection) (ds : List SelectionDesc) :
    (∀ d ∈ ds, normalized.find? (fun s => s.objectId = d.objectId) = some (f d)) →
    ∀ (count : ℕ) (w w' : World) (es : List CSelection) (cnt : ℕ), w.Ok G K →
      encryptReal G C K ext seed verify over normalized ds count w = (.ok (es, cnt), w') →
      w'.Ok G K ∧
      List.Forall₂ (fun d e => EncryptsVote G C K ext (if over then 0 else (f d).vote) d false e) ds es ∧
      (count < 2 ^ 64 →
        cnt = (count + (ds.map (fun d => if over then 0 else (f d).vote)).sum) % 2 ^ 64) ∧
      (verify = true → ∀ e ∈ es, e.isValid G C e.descHash K ext = true) := by
  induction ds with
  | nil =>
    intro _ count w w' es cnt hw h
    simp only [encryptReal, M.ret, Prod.mk.injEq, Res.ok.injEq] at h
    obtain ⟨⟨rfl, rfl⟩, rfl⟩ := h
    refine ⟨hw, .nil, ?_, by simp⟩
    intro hc
    simp only [List.map_nil, List.sum_nil, Nat.add_zero]
    exact (Nat.mod_eq_of_lt hc).symm
  | cons d ds ih =>
    intro hf count w w' es cnt hw h
    rw [encryptReal, hf d (by simp)] at h
    dsimp only at h
    rw [M.bind_eq_ok] at h
    obtain ⟨e, w1, h1, h2⟩ := h
    rw [M.bind_eq_ok] at h2
    obtain ⟨⟨es', cnt'⟩, w2, h3, h4⟩ := h2
    simp only [M.ret, Prod.mk.injEq, Res.ok.injEq] at h4
    obtain ⟨⟨rfl, rfl⟩, rfl⟩ := h4
    obtain ⟨-, -, k1, k2, k3⟩ := C35_selection G C hG K ext seed _ d false verify w w1 e hK hw h1
    obtain ⟨j1, j2, j3, j4⟩ := ih (fun d' hd' => hf d' (by simp [hd'])) _ _ _ _ _ k2 h3
    have ev : (if over = true then (⟨(f d).objectId, 0, false, []⟩ : PSelection) else f d).vote =
        if over then 0 else (f d).vote := by
      split <;> rfl
    rw [ev] at k1 j3
    refine ⟨j1, .cons k1 j2, ?_, ?_⟩
    · intro _
      rw [j3 (Nat.mod_lt _ (by norm_num)), List.map_cons, List.sum_cons, Nat.mod_add_mod, Nat.add_assoc]
    · intro hv e' he'
      rcases List.mem_cons.1 he' with rfl | he'
      · rw [k1.desc]; exact k3 hv
      · exact j4 hv e' he'

/-- The votes given to placeholders: as many as needed to reach the number of seats; all on
overvote. -/
def placeholderVotes (over : Bool) (elected total n : ℕ) : List ℕ :=
  (List.range n).map (fun i => if over = true ∨ total + i < elected then 1 else 0)

theorem placeholderVotes_succ (over : Bool) (elected total n : ℕ) :
    placeholderVotes over elected total (n + 1) =
      (if over = true ∨ total < elected then 1 else 0) ::
        placeholderVotes over elected (if over then total else if total < elected then total + 1
          else total) n := by
  unfold placeholderVotes
  rw [List.range_succ_eq_map, List.map_cons, List.map_map]
  congr 1
  apply List.map_congr_left
  intro i _
  simp only [Function.comp_apply]
  congr 1
  cases over
  · by_cases h : total < elected
    · simp [h]; omega
    · simp [h]; omega
  · simp

theorem placeholderVotes_sum (elected total n : ℕ) (h : total ≤ elected) :
    (placeholderVotes false elected total n).sum = min n (elected - total) := by
  induction n generalizing total with
  | zero => simp [placeholderVotes]
  | succ n ih =>
    rw [placeholderVotes_succ]
    simp only [Bool.false_eq_true, false_or, if_false, List.sum_cons]
    split
    · rw [ih _ (by omega)]; omega
    · rw [ih _ h]; omega

theorem placeholderVotes_over (elected total n : ℕ) :
    placeholderVotes true elected total n = List.replicate n 1 := by
  simp [placeholderVotes]

theorem placeholderVotes_length (over : Bool) (elected total n : ℕ) :
    (placeholderVotes over elected total n).length = n := by simp [placeholderVotes]

theorem placeholderVotes_le (over : Bool) (elected total n : ℕ) :
    ∀ v ∈ placeholderVotes over elected total n, v ≤ 1 := by
  intro v hv
  obtain ⟨i, -, rfl⟩ := List.mem_map.1 hv
  split <;> omega

theorem encryptPlaceholders_spec (hG : G.Valid) (K ext seed : ℕ) (verify over : Bool)
    (hK : Residue G K) (elected : ℕ) (hel : elected < 2 ^ 64) (ds : List SelectionDesc) :
    ∀ (count : ℕ) (w w' : World) (es : List CSelection), w.Ok G K →
      encryptPlaceholders G C K ext seed verify over elected ds count w = (.ok es, w') →
      w'.Ok G K ∧
      List.Forall₂ (fun dv e => EncryptsVote G C K ext dv.2 dv.1 true e)
        (ds.zip (placeholderVotes over elected count ds.length)) es ∧
      (verify = true → ∀ e ∈ es, e.isValid G C e.descHash K ext = true) := by
  induction ds with
  | nil =>
    intro count w w' es hw h
    simp only [encryptPlaceholders, M.ret, Prod.mk.injEq, Res.ok.injEq] at h
    obtain ⟨rfl, rfl⟩ := h
    exact ⟨hw, .nil, by simp⟩
  | cons d ds ih =>
    intro count w w' es hw h
    rw [encryptPlaceholders] at h
    rw [M.bind_eq_ok] at h
    obtain ⟨e, w1, h1, h2⟩ := h
    rw [M.bind_eq_ok] at h2
    obtain ⟨es', w2, h3, h4⟩ := h2
    simp only [M.ret, Prod.mk.injEq, Res.ok.injEq] at h4
    obtain ⟨rfl, rfl⟩ := h4
    obtain ⟨-, -, k1, k2, k3⟩ := C35_selection G C hG K ext seed _ d true verify w w1 e hK hw h1
    obtain ⟨j1, j2, j3⟩ := ih _ _ _ _ k2 h3
    have ev : (selectionFrom d true (over || decide (count < elected))).vote =
        if over = true ∨ count < elected then 1 else 0 := by
      simp [selectionFrom]
    have ec : (if over = true then count else if count < elected then (count + 1) % 2 ^ 64 else count) =
        (if over = true then count else if count < elected then count + 1 else count) := by
      split
      · rfl
      · split
        · rw [Nat.mod_eq_of_lt (by omega)]
        · rfl
    rw [ev] at k1
    rw [ec] at j2
    refine ⟨j1, ?_, ?_⟩
    · rw [List.length_cons, placeholderVotes_succ, List.zip_cons_cons]
      exact .cons k1 j2
    · intro hv e' he'
      rcases List.mem_cons.1 he' with rfl | he'
      · rw [k1.desc]; exact k3 hv
      · exact j3 hv e' he'

/-! ## Totals -/

theorem IsEncryption.mod {G : Params} (hG : G.Valid) {K x n : ℕ} {m : Ciphertext} (hK : Residue G K)
    (h : IsEncryption G K x n m) : IsEncryption G K x (n % G.q) m := by
  obtain ⟨h1, h2, h3, h4⟩ := h
  refine ⟨h1, h2, ?_, ?_⟩
  · rw [modEq_cast] at h3 ⊢
    push_cast at h3 ⊢
    rw [h3]
    exact pow_congr (g_pow_q hG) (Nat.mod_mod _ _).symm
  · rw [modEq_cast] at h4 ⊢
    push_cast at h4 ⊢
    rw [h4, pow_congr (hK.pow_q hG) (Nat.mod_mod n G.q)]

/-- The selection encrypts the vote, with the nonce it carries. -/
def CSelection.Encrypts (K : ℕ) (v : ℕ) (s : CSelection) : Prop :=
  ∃ n, n < G.q ∧ s.nonce = some n ∧ IsEncryption G K v n s.ciphertext

theorem encrypts_triples (K : ℕ) (votes : List ℕ) (es : List CSelection)
    (h : List.Forall₂ (CSelection.Encrypts G K) votes es) :
    ∃ xs : List (ℕ × ℕ × Ciphertext), xs.map (·.1) = votes ∧ xs.map (·.2.2) = es.map (·.ciphertext) ∧
      xs.map (fun x => some x.2.1) = es.map (·.nonce) ∧
      ∀ x ∈ xs, x.2.1 < G.q ∧ IsEncryption G K x.1 x.2.1 x.2.2 := by
  induction h with
  | nil => exact ⟨[], rfl, rfl, rfl, by simp⟩
  | @cons v s vs es h _ ih =>
    obtain ⟨n, h1, h2, h3⟩ := h
    obtain ⟨xs, k1, k2, k3, k4⟩ := ih
    refine ⟨(v, n, s.ciphertext) :: xs, by simp [k1], by simp [k2], by simp [k3, h2], ?_⟩
    intro x hx
    rcases List.mem_cons.1 hx with rfl | hx
    · exact ⟨h1, h3⟩
    · exact k4 x hx

/-- The nonces of a list of selections, all present. -/
theorem nonces_ok (l : List CSelection) (ns : List ℕ) (h : l.map (·.nonce) = ns.map some) :
    mapRes CSelection.nonceOf l = .ok ns := by
  rw [mapRes_eq_ok]
  induction l generalizing ns with
  | nil =>
    cases ns with
    | nil => exact .nil
    | cons => simp at h
  | cons s l ih =>
    cases ns with
    | nil => simp at h
    | cons n ns =>
      simp only [List.map_cons, List.cons.injEq] at h
      exact .cons (by rw [CSelection.nonceOf, h.1]) (ih ns h.2)

theorem accumulate_spec (hG : G.Valid) (K : ℕ) (hK : Residue G K) (votes : List ℕ)
    (es sorted : List CSelection) (h : List.Forall₂ (CSelection.Encrypts G K) votes es) (hne : es ≠ [])
    (hp : sorted.Perm es) :
    ∃ acc N, accumulate G sorted = .ok acc ∧ aggregateNonce G sorted = .ok N ∧ N < G.q ∧
      IsEncryption G K votes.sum N acc := by
  obtain ⟨xs, k1, k2, k3, k4⟩ := encrypts_triples G K votes es h
  have hxs : xs ≠ [] := by
    intro h0
    subst h0
    simp at k2
    exact hne k2
  obtain ⟨t, ht, henc⟩ := C12_add_encrypts_sum G hG K xs hxs (fun x hx => (k4 x hx).2)
  have hsn : ∃ ns : List ℕ, sorted.map (·.nonce) = ns.map some ∧ ns.Perm (xs.map (·.2.1)) := by
    have hperm : (sorted.map (·.nonce)).Perm ((xs.map (·.2.1)).map some) := by
      rw [List.map_map]
      exact (hp.map _).trans (by rw [← k3]; rfl)
    exact ⟨sorted.map (fun s => s.nonce.getD 0), by
      rw [List.map_map]
      apply List.map_congr_left
      intro s hs
      have : s.nonce ∈ (xs.map (·.2.1)).map some :=
        hperm.mem_iff.1 (List.mem_map.2 ⟨s, hs, rfl⟩)
      obtain ⟨n, -, hn⟩ := List.mem_map.1 this
      simp [← hn], by
      have := hperm.map (fun o : Option ℕ => o.getD 0)
      simpa [List.map_map, Function.comp_def] using this⟩
  obtain ⟨ns, hns, hnp⟩ := hsn
  have hagg : aggregateNonce G sorted = .ok ((xs.map (·.2.1)).sum % G.q) := by
    unfold aggregateNonce
    rw [nonces_ok sorted ns hns, Res.bind_ok, C01_add_mod_q_vector G hG, if_neg, hnp.sum_eq]
    · intro h0
      rw [h0] at hnp
      have := hnp.symm.eq_nil
      simp at this
      exact hxs this
    · intro x hx
      obtain ⟨y, hy, rfl⟩ := List.mem_map.1 (hnp.mem_iff.1 hx)
      exact le_of_lt (k4 y hy).1
  refine ⟨t, _, ?_, hagg, Nat.mod_lt _ (by have := hG.q_gt; omega), ?_⟩
  · unfold accumulate
    rw [C12_add_perm G hG _ _ (hp.map _), ← k2, ht]
    intro c hc
    have hc' := ((hp.map (·.ciphertext)).mem_iff.1 hc)
    rw [← k2] at hc'
    obtain ⟨x, hx, rfl⟩ := List.mem_map.1 hc'
    have := (k4 x hx).2
    exact ⟨lt_trans this.1 hG.p_lt, lt_trans this.2.1 hG.p_lt⟩
  · rw [← k1]
    exact henc.mod hG hK

/-! ## Contests -/

/-- The votes the encryption uses for the real selections. -/
def realVotes (S : StdSort) (c : PContest) (d : ContestDescP) (over : Bool) : List ℕ :=
  (d.desc.getSelections S).map (fun sd => if over then 0 else c.voteFor sd.objectId)

theorem forall₂_mem_right {α β : Type} {R : α → β → Prop} {l : List α} {m : List β}
    (h : List.Forall₂ R l m) : ∀ b ∈ m, ∃ a ∈ l, R a b := by
  induction h with
  | nil => simp
  | cons hab _ ih =>
    intro b hb
    rcases List.mem_cons.1 hb with rfl | hb
    · exact ⟨_, by simp, hab⟩
    · obtain ⟨a, ha, hr⟩ := ih b hb
      exact ⟨a, by simp [ha], hr⟩

theorem forall₂_mem_left {α β : Type} {R : α → β → Prop} {l : List α} {m : List β}
    (h : List.Forall₂ R l m) : ∀ a ∈ l, ∃ b ∈ m, R a b := forall₂_mem_right h.flip

theorem emplaceSelection_vote (c : PContest) (sd : SelectionDesc) :
    (emplaceSelection c sd).vote = c.voteFor sd.objectId := by
  unfold emplaceSelection PContest.voteFor
  split <;> rename_i h <;> simp [h, selectionFrom]

theorem encryptExtended_ok (K ext nonce : ℕ) (data : Str) (w w' : World)
    (x : HashedCiphertext) (hw : w.Ok G K)
    (hG : G.Valid) (h : encryptExtended G C data nonce K ext w = (.ok x, w')) : w'.Ok G K ∧
      ∃ (triple : Option Triple) (n : ℕ), n < G.q ∧ (∀ t ∈ triple, Triple.ForKey G K t) ∧
        hashedEncrypt G C (triple.map (fun t => (t.gToExp, t.pubkeyToExp))) data.bytes n K ext bytes512
          true = .ok x := by
  unfold encryptExtended at h
  simp only [M.bind_eq_ok, M.getTriple, M.lift, Prod.mk.injEq, Res.ok.injEq] at h
  obtain ⟨t, w1, ⟨rfl, rfl⟩, hx, rfl⟩ := h
  exact ⟨hw.getTriple.2, _, _, nonce_lt (C := C) hG _ _, hw.getTriple.1, hx⟩

/-- Everything `encryptContest` guarantees about its result. -/
structure ContestFacts (m : IManifest) (K ext seed : ℕ) (c : PContest) (d : ContestDescP) (over : Bool) (e : CContest) :
    Prop where
  id : e.objectId = d.desc.objectId
  cid : c.objectId = d.desc.objectId
  seq : e.seq = d.desc.seq
  desc : d.desc.hash G C = .ok e.descHash
  hash : e.cryptoHash = hashElems G C (.str d.desc.objectId :: .q e.descHash ::
    (S.sort CSelection.seq e.selections).map (fun s => .q s.cryptoHash))
  nonce : e.nonce = some (hashElems G C [.q (hashElems G C [.q e.descHash, .q seed]), .u64 d.desc.seq])
  nonempty : e.selections ≠ []
  selections : ∃ rs ps, e.selections = rs ++ ps ∧
    List.Forall₂ (fun sd s => EncryptsVote G C K ext (if over then 0 else c.voteFor sd.objectId) sd false s)
      (d.desc.getSelections S) rs ∧
    List.Forall₂ (fun dv s => EncryptsVote G C K ext dv.2 dv.1 true s)
      ((d.getPlaceholders S).zip (placeholderVotes over d.desc.numberElected
        ((realVotes S c d over).sum % 2 ^ 64) d.placeholders.length)) ps
  total : ∃ N triple seed, N < G.q ∧
    IsEncryption G K ((realVotes S c d over).sum + (placeholderVotes over d.desc.numberElected
      ((realVotes S c d over).sum % 2 ^ 64) d.placeholders.length).sum) N e.accumulation ∧
    accumulate G (e.getSelections S) = .ok e.accumulation ∧
    (∀ t ∈ triple, Triple.ForKey G K t) ∧
    ∃ π, constMake G C triple e.accumulation N K seed ext d.desc.numberElected = .ok π ∧
      e.proof = some π
  extended : ∃ (x : HashedCiphertext) (triple : Option Triple) (nonce : ℕ), e.extended = some x ∧ nonce < G.q ∧ (∀ t ∈ triple, Triple.ForKey G K t) ∧
    hashedEncrypt G C (triple.map (fun t => (t.gToExp, t.pubkeyToExp)))
      (overvoteAndWriteIns S m c (if over then .overvote else .success)).bytes nonce K ext bytes512 true =
        .ok x

theorem forall₂_encrypts (K ext : ℕ) (ph : Bool) {α : Type} (vote : α → ℕ) (sd : α → SelectionDesc)
    (l : List α) (es : List CSelection)
    (h : List.Forall₂ (fun a s => EncryptsVote G C K ext (vote a) (sd a) ph s) l es) :
    List.Forall₂ (CSelection.Encrypts G K) (l.map vote) es := by
  rw [List.forall₂_map_left_iff]
  exact h.imp (fun a s ha => ha.encryption)

theorem zip_map_snd {α β : Type} (l : List α) (m : List β) (h : m.length = l.length) :
    (l.zip m).map (·.2) = m := by
  rw [List.map_snd_zip]
  omega

theorem encryptContest_spec (hG : G.Valid) (K ext seed : ℕ) (c : PContest) (m : IManifest)
    (d : ContestDescP) (verify : Bool) (w w' : World) (e : CContest) (hK : Residue G K)
    (hw : w.Ok G K) (hel : d.desc.numberElected < 2 ^ 64)
    (h : encryptContest G C S c m d K ext seed verify w = (.ok e, w')) :
    ∃ over : Bool,
      c.isValid d.desc.objectId d.desc.selections.length d.desc.numberElected d.desc.votesAllowed true =
        (if over then .overvote else .success) ∧
      ContestFacts G C S m K ext seed c d over e ∧ w'.Ok G K ∧
      (verify = true → e.isValid G C S e.descHash K ext = .ok true ∧
        ∀ s ∈ e.selections, s.isValid G C s.descHash K ext = true) := by
  have hlen : (d.desc.getSelections S).length = d.desc.selections.length := by
    simp [ContestDesc.getSelections]
  have hlenp : (d.getPlaceholders S).length = d.placeholders.length := by
    simp [ContestDescP.getPlaceholders]
  unfold encryptContest at h
  rw [hlen] at h
  generalize hcheck : c.isValid d.desc.objectId d.desc.selections.length d.desc.numberElected
    d.desc.votesAllowed true = check at h
  have hcid : check = .success ∨ check = .overvote → c.objectId = d.desc.objectId := by
    intro hc
    by_contra hne
    unfold PContest.isValid at hcheck
    rw [if_pos hne] at hcheck
    subst hcheck
    simp at hc
  dsimp only at h
  split at h
  · simp [M.raise] at h
  rename_i hcond
  have hcond' : check = .success ∨ check = .overvote := by
    by_contra hh
    push Not at hh
    exact hcond hh
  have hid := hcid hcond'
  refine ⟨decide (check = .overvote), by rcases hcond' with rfl | rfl <;> rfl, ?_⟩
  have hover : check = if decide (check = .overvote) then .overvote else .success := by
    rcases hcond' with rfl | rfl <;> rfl
  generalize decide (check = .overvote) = over at h hover ⊢
  rw [M.bind_eq_ok] at h
  obtain ⟨dh, w0, h0, h⟩ := h
  simp only [M.lift, Prod.mk.injEq] at h0
  obtain ⟨hdh, rfl⟩ := h0
  rw [M.bind_eq_ok] at h
  obtain ⟨⟨rs, cnt⟩, w1, h1, h⟩ := h
  rw [M.bind_eq_ok] at h
  obtain ⟨ps, w2, h2, h⟩ := h
  rw [M.bind_eq_ok] at h
  obtain ⟨x, w3, h3, h⟩ := h
  rw [M.bind_eq_ok] at h
  obtain ⟨e', w4, h4, h⟩ := h
  obtain ⟨a1, a2, a3, a4⟩ := encryptReal_spec G C hG K ext _ verify over hK _ (emplaceSelection c)
    (d.desc.getSelections S) (fun sd hsd => find_emplace S c d.desc sd hsd) 0 w w1 rs cnt hw h1
  have a3' := a3 (by norm_num)
  simp only [emplaceSelection_vote, Nat.zero_add] at a2 a3'
  change cnt = (realVotes S c d over).sum % 2 ^ 64 at a3'
  obtain ⟨b1, b2, b3⟩ := encryptPlaceholders_spec G C hG K ext _ verify over hK _ hel
    (d.getPlaceholders S) _ w1 w2 ps a1 h2
  rw [a3', hlenp] at b2
  obtain ⟨hw3, tr, xn, hxn, htr, hx⟩ := encryptExtended_ok G C K ext _ _ w2 w3 x b1 hG h3
  have enc := List.rel_append (R := CSelection.Encrypts G K)
    (forall₂_encrypts G C K ext false _ _ _ _ a2) (forall₂_encrypts G C K ext true (fun dv : SelectionDesc × ℕ => dv.2) (·.1) _ _ b2)
  rw [zip_map_snd _ _ (by rw [placeholderVotes_length, hlenp])] at enc
  unfold CContest.make at h4
  simp only [M.bind_eq_ok, M.lift, M.getTriple, M.ret, Prod.mk.injEq, Res.ok.injEq] at h4
  obtain ⟨ch, w5, ⟨hch, rfl⟩, acc, w6, ⟨hacc, rfl⟩, agg, w7, ⟨hagg, rfl⟩, t, w8, ⟨rfl, rfl⟩, π, w9,
    ⟨hπ, rfl⟩, rfl, rfl⟩ := h4
  have hne : rs ++ ps ≠ [] := by
    intro h0
    rw [h0] at hch
    have : S.sort CSelection.seq ([] : List CSelection) = [] := (S.perm _ _).eq_nil
    rw [this] at hch
    simp [contestHash] at hch
  have hch' : ch = hashElems G C (.str d.desc.objectId :: .q dh ::
      (S.sort CSelection.seq (rs ++ ps)).map (fun s => .q s.cryptoHash)) := by
    unfold contestHash at hch
    split at hch
    · simp at hch
    · rw [← hid]; exact (Res.ok.inj hch).symm
  obtain ⟨acc', N, k1, k2, k3, k4⟩ := accumulate_spec G hG K hK _ _ (S.sort CSelection.seq (rs ++ ps))
    enc hne (S.perm _ _)
  rw [hacc, Res.ok.injEq] at k1
  rw [hagg, Res.ok.injEq] at k2
  subst k1 k2
  obtain ⟨t1, t2⟩ := hw3.getTriple
  have facts : ContestFacts G C S m K ext seed c d over
      { objectId := c.objectId, seq := d.desc.seq, descHash := dh, selections := rs ++ ps
        nonce := some ((Nonces.makeWith G C dh (.q seed)).get G C d.desc.seq).1
        accumulation := acc, cryptoHash := ch, proof := some π, extended := some x } := by
    refine ⟨hid, hid, rfl, hdh, hch', rfl, hne, ⟨rs, ps, rfl, a2, b2⟩, ?_, x, tr, xn, rfl, hxn, htr, ?_⟩
    swap
    · rw [← hover]; exact hx
    refine ⟨agg, _, _, k3, ?_, hacc, t1, π, hπ, rfl⟩
    rw [List.sum_append] at k4
    exact k4
  cases verify with
  | false =>
    simp only [Bool.not_false, if_true, M.ret, Prod.mk.injEq, Res.ok.injEq] at h
    obtain ⟨rfl, rfl⟩ := h
    exact ⟨facts, t2, by simp⟩
  | true =>
    simp only [Bool.not_true, Bool.false_eq_true, if_false, M.bind_eq_ok, M.lift, Prod.mk.injEq] at h
    obtain ⟨v, w5, ⟨hv, rfl⟩, h⟩ := h
    cases v with
    | false => simp [M.raise] at h
    | true =>
      simp only [if_true, M.ret, Prod.mk.injEq, Res.ok.injEq] at h
      obtain ⟨rfl, rfl⟩ := h
      refine ⟨facts, t2, fun _ => ⟨hv, ?_⟩⟩
      intro s hs
      rcases List.mem_append.1 hs with hs | hs
      · exact a4 rfl s hs
      · exact b3 rfl s hs

/-! ## C33 -/

/-- The plaintext a selection must carry. -/
def EncryptsAs (K v : ℕ) (s : CSelection) : Prop := ∃ n, n < G.q ∧ IsEncryption G K v n s.ciphertext

/-- C33: the result lists the encryptions of the real selections in the order of the description, then
those of the placeholders.  On overvote every real selection encrypts 0 and every placeholder 1,
otherwise every real selection encrypts what the voter entered first for it, or 0. -/
theorem C33_votes (hG : G.Valid) (K ext seed : ℕ) (c : PContest) (m : IManifest)
    (d : ContestDescP) (verify : Bool) (w w' : World) (e : CContest) (hK : Residue G K)
    (hw : w.Ok G K) (hel : d.desc.numberElected < 2 ^ 64) (ht : c.total < 2 ^ 64)
    (h : encryptContest G C S c m d K ext seed verify w = (.ok e, w')) :
    ∃ rs ps, e.selections = rs ++ ps ∧
      List.Forall₂ (fun sd s => s.objectId = sd.objectId ∧ s.seq = sd.seq ∧ s.isPlaceholder = false ∧
        (c.Overvoted d.desc.numberElected d.desc.votesAllowed → EncryptsAs G K 0 s) ∧
        (¬ c.Overvoted d.desc.numberElected d.desc.votesAllowed →
          (∀ t, IsFirst (fun t : PSelection => t.objectId = sd.objectId) c.selections t →
            EncryptsAs G K t.vote s) ∧
          ((∀ t ∈ c.selections, t.objectId ≠ sd.objectId) → EncryptsAs G K 0 s)))
        (S.sort SelectionDesc.seq d.desc.selections) rs ∧
      List.Forall₂ (fun sd s => s.objectId = sd.objectId ∧ s.seq = sd.seq ∧ s.isPlaceholder = true ∧
        (c.Overvoted d.desc.numberElected d.desc.votesAllowed → EncryptsAs G K 1 s))
        (S.sort SelectionDesc.seq d.placeholders) ps := by
  obtain ⟨over, hcheck, facts, -, -⟩ := encryptContest_spec G C S hG K ext seed c m d verify w w' e hK hw
    hel h
  obtain ⟨rs, ps, h1, h2, h3⟩ := facts.selections
  obtain ⟨k1, k2, -, -⟩ := C31_classification_partial c d.desc.objectId d.desc.selections.length
    d.desc.numberElected d.desc.votesAllowed true ht
  have hover : over = true ↔ c.Overvoted d.desc.numberElected d.desc.votesAllowed := by
    cases over
    · have := (k1.1 hcheck).2.2
      simp [this]
    · have := (k2.1 hcheck).2.2.1
      simp [this]
  refine ⟨rs, ps, h1, ?_, ?_⟩
  · refine h2.imp (fun sd s hs => ⟨hs.id, hs.seq, hs.placeholder, ?_, ?_⟩)
    · intro ho
      obtain ⟨n, hn, -, henc⟩ := hs.encryption
      rw [if_pos (hover.2 ho)] at henc
      exact ⟨n, hn, henc⟩
    · intro ho
      obtain ⟨n, hn, -, henc⟩ := hs.encryption
      rw [if_neg (fun hh => ho (hover.1 hh))] at henc
      unfold PContest.voteFor at henc
      cases hf : c.selections.find? (fun s => s.objectId = sd.objectId) with
      | some t =>
        rw [hf] at henc
        have hfirst := isFirst_of_find _ _ _ hf
        refine ⟨fun t' ht' => ?_, fun hall => ?_⟩
        · rw [isFirst_unique _ _ _ _ ht' hfirst]
          exact ⟨n, hn, henc⟩
        · obtain ⟨b, a, hl, hp, -⟩ := hfirst
          exact absurd hp (hall t (by rw [hl]; simp))
      | none =>
        rw [hf] at henc
        refine ⟨fun t' ht' => ?_, fun _ => ⟨n, hn, henc⟩⟩
        obtain ⟨b, a, hl, hp, -⟩ := ht'
        have := List.find?_eq_none.1 hf t' (by rw [hl]; simp)
        simp [hp] at this
  · cases over with
    | true =>
      rw [placeholderVotes_over] at h3
      have hl : (d.getPlaceholders S).length = d.placeholders.length := by
        simp [ContestDescP.getPlaceholders]
      rw [← hl] at h3
      change List.Forall₂ _ (d.getPlaceholders S) ps
      generalize d.getPlaceholders S = l at h3
      clear hl h2 h1
      induction l generalizing ps with
      | nil =>
        simp only [List.zip_nil_left, List.forall₂_nil_left_iff] at h3
        subst h3
        exact .nil
      | cons sd l ih =>
        rw [List.length_cons, List.replicate_succ, List.zip_cons_cons] at h3
        obtain ⟨s, ps', hs, h4, rfl⟩ := List.forall₂_cons_left_iff.1 h3
        obtain ⟨n, hn, -, henc⟩ := hs.encryption
        exact .cons ⟨hs.id, hs.seq, hs.placeholder, fun _ => ⟨n, hn, henc⟩⟩ (ih _ h4)
    | false =>
      have hno : ¬ c.Overvoted d.desc.numberElected d.desc.votesAllowed :=
        fun ho => absurd (hover.2 ho) (by simp)
      have hl : (d.getPlaceholders S).length = d.placeholders.length := by
        simp [ContestDescP.getPlaceholders]
      have h4 := (List.forall₂_map_left_iff (f := fun dv : SelectionDesc × ℕ => dv.1)
        (R := fun sd s => s.objectId = sd.objectId ∧ s.seq = sd.seq ∧ s.isPlaceholder = true ∧
        (c.Overvoted d.desc.numberElected d.desc.votesAllowed → EncryptsAs G K 1 s))).2
        (h3.imp (fun dv s hs => ⟨hs.id, hs.seq, hs.placeholder, fun ho => absurd ho hno⟩))
      rw [List.map_fst_zip (by rw [placeholderVotes_length, hl])] at h4
      exact h4

/-- C33: the holder of the secret key reads exactly these votes. -/
theorem C33_decrypt (hG : G.Valid) (K s v : ℕ) (e : CSelection) (hs : s < 2 ^ 256)
    (hK : K ≡ G.g ^ s [MOD G.p]) (hv : v ≤ 1) (h : EncryptsAs G K v e) :
    decrypt G e.ciphertext s = v := by
  obtain ⟨n, -, henc⟩ := h
  rw [decrypt_encryption G hG s K v n _ hs hK henc]
  have := hG.q_gt
  rcases Nat.le_one_iff_eq_zero_or_eq_one.1 hv with rfl | rfl
  · simp
  · rw [Nat.mod_eq_of_lt (by omega)]; simp

/-! ## C32 -/

theorem sum_le_one_hit {α : Type} [DecidableEq α] (l : List α) (hn : l.Nodup) (x : α) (v : ℕ)
    (f : α → ℕ) :
    (l.map (fun a => if x = a then v else f a)).sum ≤ v + (l.map f).sum := by
  induction l with
  | nil => simp
  | cons a l ih =>
    rw [List.nodup_cons] at hn
    simp only [List.map_cons, List.sum_cons]
    by_cases hx : x = a
    · subst hx
      have : l.map (fun a => if x = a then v else f a) = l.map f := by
        apply List.map_congr_left
        intro b hb
        rw [if_neg]
        rintro rfl
        exact hn.1 hb
      rw [this, if_pos rfl]
      omega
    · rw [if_neg hx]
      have := ih hn.2
      omega

/-- Distinct ids cannot collect more marks than there are marked entries. -/
theorem votes_le_marked (sels : List PSelection) (id : Str) (ids : List Str) (hn : ids.Nodup) :
    (ids.map (fun i => min 1 (PContest.voteFor ⟨id, sels⟩ i))).sum ≤ PContest.marked ⟨id, sels⟩ := by
  induction sels with
  | nil => simp [PContest.voteFor, PContest.marked]
  | cons s sels ih =>
    have h1 : ∀ i, min 1 (PContest.voteFor ⟨id, s :: sels⟩ i) =
        if s.objectId = i then min 1 s.vote else min 1 (PContest.voteFor ⟨id, sels⟩ i) := by
      intro i
      unfold PContest.voteFor
      by_cases hs : s.objectId = i
      · rw [List.find?_cons_of_pos (by simpa using hs), if_pos hs]
      · rw [List.find?_cons_of_neg (by simpa using hs), if_neg hs]
    simp only [h1]
    refine le_trans (sum_le_one_hit ids hn s.objectId _ _) ?_
    have h2 : PContest.marked ⟨id, s :: sels⟩ = min 1 s.vote + PContest.marked ⟨id, sels⟩ := by
      unfold PContest.marked
      by_cases hv : s.vote = 0
      · simp [hv]
      · simp [hv]; omega
    rw [h2]
    omega

theorem success_marked (c : PContest) (id : Str) (n e a : ℕ) (sup : Bool)
    (h : c.isValid id n e a sup = .success) : c.marked ≤ e := by
  unfold PContest.isValid at h
  rw [countVotes_eq] at h
  split at h
  · simp at h
  split at h
  · simp at h
  simp only [Nat.zero_add] at h
  split at h
  · split at h <;> simp at h
  · rename_i hh
    unfold PContest.marked
    omega

theorem contest_votes_sum (m : IManifest) (K ext seed : ℕ) (c : PContest)
    (d : ContestDescP) (over : Bool) (e : CContest) (hel : d.desc.numberElected < 2 ^ 64)
    (hcheck : c.isValid d.desc.objectId d.desc.selections.length d.desc.numberElected
      d.desc.votesAllowed true = (if over then .overvote else .success))
    (facts : ContestFacts G C S m K ext seed c d over e)
    (hn : (d.desc.selections.map (·.objectId)).Nodup)
    (hp : d.placeholders.length = d.desc.numberElected) :
    (realVotes S c d over).sum + (placeholderVotes over d.desc.numberElected
      ((realVotes S c d over).sum % 2 ^ 64) d.placeholders.length).sum = d.desc.numberElected := by
  cases over with
  | true =>
    rw [placeholderVotes_over, hp]
    simp [realVotes]
  | false =>
    obtain ⟨rs, ps, -, h2, -⟩ := facts.selections
    have hn' : ((d.desc.getSelections S).map (·.objectId)).Nodup :=
      ((S.perm SelectionDesc.seq d.desc.selections).map _).nodup_iff.2 hn
    have hle : (realVotes S c d false).sum ≤ d.desc.numberElected := by
      refine le_trans ?_ (success_marked c _ _ _ _ _ hcheck)
      have := votes_le_marked c.selections c.objectId _ hn'
      refine le_trans (le_of_eq ?_) this
      unfold realVotes
      rw [List.map_map]
      congr 1
      apply List.map_congr_left
      intro sd hsd
      have : c.voteFor sd.objectId ≤ 1 := by
        obtain ⟨s, -, hs⟩ := forall₂_mem_left h2 sd hsd
        exact hs.vote_le
      change c.voteFor sd.objectId = min 1 (c.voteFor sd.objectId)
      omega
    rw [Nat.mod_eq_of_lt (by omega), placeholderVotes_sum _ _ _ hle, hp]
    omega

/-- C32: with distinct selection ids and as many placeholders as seats, every selection and placeholder
encrypts 0 or 1, these votes add up to the number of seats, and this is what the accumulated
ciphertext encrypts. -/
theorem C32_totals (hG : G.Valid) (K ext seed : ℕ) (c : PContest) (m : IManifest)
    (d : ContestDescP) (verify : Bool) (w w' : World) (e : CContest) (hK : Residue G K)
    (hw : w.Ok G K) (hel : d.desc.numberElected < 2 ^ 64)
    (hn : (d.desc.selections.map (·.objectId)).Nodup)
    (hp : d.placeholders.length = d.desc.numberElected)
    (h : encryptContest G C S c m d K ext seed verify w = (.ok e, w')) :
    ∃ votes : List ℕ, List.Forall₂ (EncryptsAs G K) votes e.selections ∧ (∀ v ∈ votes, v ≤ 1) ∧
      votes.sum = d.desc.numberElected ∧
      votes.length = d.desc.selections.length + d.desc.numberElected ∧
      ∃ N, N < G.q ∧ IsEncryption G K d.desc.numberElected N e.accumulation := by
  obtain ⟨over, hcheck, facts, -, -⟩ := encryptContest_spec G C S hG K ext seed c m d verify w w' e hK hw
    hel h
  have hsum := contest_votes_sum G C S m K ext seed c d over e hel hcheck facts hn hp
  obtain ⟨rs, ps, h1, h2, h3⟩ := facts.selections
  have enc := List.rel_append (R := CSelection.Encrypts G K)
    (forall₂_encrypts G C K ext false _ _ _ _ h2)
    (forall₂_encrypts G C K ext true (fun dv : SelectionDesc × ℕ => dv.2) (·.1) _ _ h3)
  rw [zip_map_snd _ _ (by rw [placeholderVotes_length]; simp [ContestDescP.getPlaceholders])] at enc
  change List.Forall₂ _ (_ ++ _) (rs ++ ps) at enc
  rw [← h1] at enc
  refine ⟨_, enc.imp (fun v s => fun ⟨n, a, _, b⟩ => ⟨n, a, b⟩), ?_, ?_, ?_, ?_⟩
  · intro v hv
    rcases List.mem_append.1 hv with hv | hv
    · obtain ⟨sd, hsd, rfl⟩ := List.mem_map.1 hv
      obtain ⟨s, -, hs⟩ := forall₂_mem_left h2 sd hsd
      exact hs.vote_le
    · exact placeholderVotes_le _ _ _ _ v hv
  · rw [List.sum_append]
    exact hsum
  · simp [placeholderVotes_length, ContestDesc.getSelections, hp]
  · obtain ⟨N, triple, seed', hN, henc, -⟩ := facts.total
    rw [hsum] at henc
    exact ⟨N, hN, henc⟩

/-! ## C35 for contests -/

/-- C35: the check of a freshly encrypted contest never throws, and it succeeds exactly if challenge
and response of its proof are not zero; with verification the result is valid, and so are its
selections. -/
theorem C35_contest (hG : G.Valid) (hL : G.Large) (K ext seed : ℕ) (c : PContest) (m : IManifest)
    (d : ContestDescP) (verify : Bool) (w w' : World) (e : CContest) (hK : Residue G K)
    (hw : w.Ok G K) (hel : d.desc.numberElected < 2 ^ 64)
    (hn : (d.desc.selections.map (·.objectId)).Nodup)
    (hp : d.placeholders.length = d.desc.numberElected)
    (h : encryptContest G C S c m d K ext seed verify w = (.ok e, w')) :
    d.desc.hash G C = .ok e.descHash ∧ w'.Ok G K ∧
    (∃ π, e.proof = some π ∧ π.constant = d.desc.numberElected ∧
      (e.isValid G C S e.descHash K ext = .ok true ↔ π.challenge ≠ 0 ∧ π.response ≠ 0) ∧
      (e.isValid G C S e.descHash K ext = .ok false ↔ π.challenge = 0 ∨ π.response = 0)) ∧
    (∀ s ∈ e.selections, s.isValid G C s.descHash K ext = true ↔ ∀ π ∈ s.proof, π.zeroChallenge ≠ 0 ∧
      π.oneChallenge ≠ 0 ∧ π.zeroResponse ≠ 0 ∧ π.oneResponse ≠ 0) ∧
    (verify = true → e.isValid G C S e.descHash K ext = .ok true ∧
      ∀ s ∈ e.selections, s.isValid G C s.descHash K ext = true) := by
  obtain ⟨over, hcheck, facts, hw', hver⟩ := encryptContest_spec G C S hG K ext seed c m d verify w w' e
    hK hw hel h
  have hsum := contest_votes_sum G C S m K ext seed c d over e hel hcheck facts hn hp
  refine ⟨facts.desc, hw', ?_, ?_, hver⟩
  · obtain ⟨N, triple, seed', hN, henc, hacc, ht, π, hπ, hproof⟩ := facts.total
    rw [hsum] at henc
    obtain ⟨π', hπ', good⟩ := C21_completeness G C hG hL triple K _ N ext d.desc.numberElected seed' _ hK
      henc (lt_trans hN hG.q_lt) hel ht
    rw [hπ, Res.ok.injEq] at hπ'
    subst hπ'
    have hval : ∀ v, e.isValid G C S e.descHash K ext = .ok v ↔
        π.isValid G C e.accumulation K ext = .ok v := by
      intro v
      unfold CContest.isValid contestHash
      have hne : (e.getSelections S).isEmpty = false := by
        have := facts.nonempty
        rw [List.isEmpty_eq_false_iff]
        intro h0
        have hp := S.perm CSelection.seq e.selections
        rw [CContest.getSelections] at h0
        rw [h0] at hp
        exact this hp.symm.eq_nil
      rw [hne]
      simp only [Bool.false_eq_true, if_false, Res.bind_ok, hacc, hproof, decide_true, Bool.true_and]
      rw [Res.bind_eq_ok]
      have hh : e.cryptoHash = hashElems G C (.str e.objectId :: .q e.descHash ::
          (e.getSelections S).map (fun s => .q s.cryptoHash)) := by
        rw [facts.hash, facts.id]; rfl
      rw [← hh]
      simp
    have hmod : d.desc.numberElected % G.q = d.desc.numberElected :=
      Nat.mod_eq_of_lt (lt_of_lt_of_le hel hL.q_ge)
    have g1 := good.1 hmod
    refine ⟨π, hproof, good.2.2.1, by rw [hval]; exact g1, ?_⟩
    rw [hval]
    obtain ⟨b, hb, -⟩ : ∃ b, π.isValid G C e.accumulation K ext = .ok b ∧ True := by
      unfold ConstProof.isValid
      rw [good.2.2.1, (C07_uint64 G _ hel).2, if_pos (le_trans (le_of_lt hel) hL.q_ge)]
      exact ⟨_, rfl, trivial⟩
    rw [hb] at g1 ⊢
    cases b
    · simp only [Res.ok.injEq, Bool.false_eq_true, false_iff, not_and_or, not_not, true_iff] at g1 ⊢
      exact g1
    · simp only [Res.ok.injEq, true_iff, Bool.true_eq_false, false_iff, not_or] at g1 ⊢
      exact g1
  · obtain ⟨rs, ps, h1, h2, h3⟩ := facts.selections
    rw [h1]
    intro s hs
    have key : ∃ v sd ph, EncryptsVote G C K ext v sd ph s := by
      rcases List.mem_append.1 hs with hs | hs
      · obtain ⟨a, -, ha⟩ := forall₂_mem_right h2 s hs
        exact ⟨_, _, _, ha⟩
      · obtain ⟨a, -, ha⟩ := forall₂_mem_right h3 s hs
        exact ⟨_, _, _, ha⟩
    obtain ⟨v, sd, ph, hs⟩ := key
    rw [hs.desc]
    exact selection_isValid_of G C K ext v sd ph s hs

end EG
