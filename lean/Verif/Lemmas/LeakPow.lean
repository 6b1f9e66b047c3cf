import Verif.Lemmas.LeakExp

/-!
# What the observations of `pow_mod_p` tell about the exponent
-/

namespace EG.Leak

open Limbs

/-! ## Digits -/

theorem mod_pow16 {B B' m : ℕ} (h : ∀ i < m, B / 16 ^ i % 16 = B' / 16 ^ i % 16) : B % 16 ^ m = B' % 16 ^ m := by
  induction m with
  | zero => simp [Nat.mod_one]
  | succ m ih =>
    rw [Nat.mod_pow_succ, Nat.mod_pow_succ, ih (fun i hi => h i (by omega)), h m (by omega)]

theorem mod_pow2 {B B' m : ℕ} (h : ∀ i < m, B / 2 ^ i % 2 = B' / 2 ^ i % 2) : B % 2 ^ m = B' % 2 ^ m := by
  induction m with
  | zero => simp [Nat.mod_one]
  | succ m ih =>
    rw [Nat.mod_pow_succ, Nat.mod_pow_succ, ih (fun i hi => h i (by omega)), h m (by omega)]

theorem window_digit {b b' : Arr} {len j : ℕ} (h : 4 * j / 64 < b.length) (h' : 4 * j / 64 < b'.length)
    (he : Limbs.getWindow b len (4 * j) = Limbs.getWindow b' len (4 * j)) :
    val b / 16 ^ j % 16 = val b' / 16 ^ j % 16 := by
  have h1 := congrArg UInt64.toNat he
  rw [Limbs.getWindow_val b len (4 * j) h (by omega), Limbs.getWindow_val b' len (4 * j) h' (by omega),
    Hacl.window4_eq, Hacl.window4_eq] at h1
  have e : (2 : ℕ) ^ (4 * j) = 16 ^ j := by rw [pow_mul]; norm_num
  simpa [e] using h1

variable (c : Ctx) {a a' : Arr}


/-- The observations of the variable-time exponentiation determine the exponent. -/
theorem modExpVartime_leaks (ha : Len a a') (k : ℕ) {b b' : Arr} (hb : k ≤ 64 * b.length) (hb' : k ≤ 64 * b'.length)
    {T T' : List Event} (h : (modExpVartime c a k b).trace ++ T = (modExpVartime c a' k b').trace ++ T') :
    val b % 2 ^ k = val b' % 2 ^ k := by
  unfold modExpVartime at h
  have h := cancel h rfl
  by_cases hk : k < 200
  · have e : (cond (decide (k < 200))).val = true := by simpa using hk
    rw [e, if_pos rfl, if_pos rfl] at h
    have h1 := expBinary_leaks c ha k b b' h
    refine mod_pow2 fun i hi => ?_
    have := h1 i hi
    have g := Limbs.getBit_val b i (by omega)
    have g' := Limbs.getBit_val b' i (by omega)
    rw [← UInt64.toNat_inj, ← UInt64.toNat_inj] at this
    simp only [g, g'] at this
    have m := Nat.mod_lt (val b / 2 ^ i) (show 0 < 2 by norm_num)
    have m' := Nat.mod_lt (val b' / 2 ^ i) (show 0 < 2 by norm_num)
    have z : (0 : UInt64).toNat = 0 := rfl
    rw [z] at this
    omega
  · have e : (cond (decide (k < 200))).val = false := by simpa using hk
    rw [e] at h
    obtain ⟨h1, h2⟩ := expWindow_leaks c ha k b b' h
    have h3 : ∀ j < (k + 3) / 4, val b / 16 ^ j % 16 = val b' / 16 ^ j % 16 := by
      intro j hj
      refine window_digit (len := bLen k) (by omega) (by omega) ?_
      by_cases hjk : j < k / 4
      · have := h1 (k / 4 - 1 - j) (by omega)
        rwa [show k - k % 4 - 4 * (k / 4 - 1 - j) - 4 = 4 * j by omega] at this
      · have := h2 (by omega)
        rwa [show k / 4 * 4 = 4 * j by omega] at this
    have h4 := mod_pow16 h3
    have hd : 2 ^ k ∣ 16 ^ ((k + 3) / 4) := by
      rw [show (16 : ℕ) = 2 ^ 4 by norm_num, ← pow_mul]
      exact pow_dvd_pow 2 (by omega)
    rw [← Nat.mod_mod_of_dvd (val b) hd, h4, Nat.mod_mod_of_dvd _ hd]

/-- The comparison that ends at the first difference. -/
theorem elemEq_leaks (i : ℕ) {z : Arr} (ha : Len a a') {T T' : List Event}
    (h : (elemEq i a z).trace ++ T = (elemEq i a' z).trace ++ T') :
    (elemEq i a z).val = (elemEq i a' z).val ∧ T = T' := by
  induction a generalizing i a' z with
  | nil =>
    cases a' with
    | nil => exact ⟨rfl, h⟩
    | cons x a' => cases ha
  | cons x a ih =>
    cases a' with
    | nil => cases ha
    | cons x' a' =>
      cases z with
      | nil => exact ⟨rfl, h⟩
      | cons y z =>
        have ha' : Len a a' := by simpa [Len] using ha
        rw [elemEq, elemEq] at h ⊢
        have h := cancel h rfl
        have h := parts h
        have h0 := (List.cons.inj h).1
        injection h0 with h0
        have h := (List.cons.inj h).2
        rw [val_bind, val_bind, val_bind, val_bind]
        rw [show (cond (x != y)).val = (x != y) from rfl, show (cond (x' != y)).val = (x' != y) from rfl, h0] at h ⊢
        by_cases hb : (x' != y) = true
        · rw [if_pos hb, if_pos hb] at h ⊢
          exact ⟨rfl, h⟩
        · rw [if_neg hb, if_neg hb] at h ⊢
          exact ih (i + 1) ha' h

theorem lutLoop_leaks (rows : List (List Arr)) (hr : ∀ row ∈ rows, row.length = 256) (i : ℕ)
    {bytes bytes' : List UInt8} (hb : bytes.length = rows.length) (hb' : bytes'.length = rows.length)
    {acc acc' : Arr} (ha : Len acc acc') {T T' : List Event}
    (h : (lutLoop c i rows bytes acc).trace ++ T = (lutLoop c i rows bytes' acc').trace ++ T') : bytes = bytes' := by
  induction rows generalizing i bytes bytes' acc acc' with
  | nil =>
    rw [List.length_nil, List.length_eq_zero_iff] at hb hb'
    rw [hb, hb']
  | cons row rows ih =>
    cases bytes with
    | nil => cases hb
    | cons s bytes =>
      cases bytes' with
      | nil => cases hb'
      | cons s' bytes' =>
        have hr' : ∀ row ∈ rows, row.length = 256 := fun r hh => hr r (by simp [hh])
        have hl := hr row (by simp)
        have hb1 : bytes.length = rows.length := by simpa using hb
        have hb1' : bytes'.length = rows.length := by simpa using hb'
        rw [lutLoop, lutLoop] at h
        have h := cancel h rfl
        have h := parts h
        have h0 := (List.cons.inj h).1
        injection h0 with h0
        have h := (List.cons.inj h).2
        rw [show (cond (decide (s = 0))).val = decide (s = 0) from rfl,
          show (cond (decide (s' = 0))).val = decide (s' = 0) from rfl, h0] at h
        by_cases hs' : s' = 0
        · have hs : s = 0 := by simpa [hs'] using h0
          rw [if_pos (by simpa using hs'), if_pos (by simpa using hs')] at h
          rw [hs, hs', ih hr' (i + 1) hb1 hb1' ha h]
        · rw [if_neg (by simpa using hs'), if_neg (by simpa using hs')] at h
          have h := parts h
          have h1 := (List.cons.inj h).1
          injection h1 with _ h1
          have h := (List.cons.inj h).2
          have hs : s = s' := UInt8.toNat_inj.1 (by omega)
          subst hs
          have hx : row[s.toNat]? = some (row[s.toNat]'(by rw [hl]; exact s.toNat_lt)) :=
            List.getElem?_eq_getElem _
          rw [hx] at h
          dsimp only at h
          have hm := fieldMul_same c ha (b := row[s.toNat]'(by rw [hl]; exact s.toNat_lt)) rfl
          have h := cancel h hm.1
          rw [ih hr' (i + 1) hb1 hb1' hm.2 h]

theorem genRow_length (rb : Arr) (n : ℕ) (r : Arr) : (Limbs.genRow c rb n r).1.length = n := by
  induction n generalizing r with
  | zero => rfl
  | succ n ih => simp [Limbs.genRow, ih]

theorem genRows_length (n : ℕ) (rb r : Arr) :
    (Limbs.genRows c n rb r).length = n ∧ ∀ row ∈ Limbs.genRows c n rb r, row.length = 256 := by
  induction n generalizing rb r with
  | zero => simp [Limbs.genRows]
  | succ n ih =>
    obtain ⟨h1, h2⟩ := ih (Limbs.genRow c rb 255 r).2 (Limbs.genRow c rb 255 r).2
    refine ⟨by simp [Limbs.genRows, h1], ?_⟩
    intro row hrow
    simp only [Limbs.genRows, List.mem_cons] at hrow
    rcases hrow with rfl | hrow
    · simp [genRow_length]
    · exact h2 row hrow

theorem lutPow_leaks (base : Arr) {e e' : Arr} (he : e.length = 4) (he' : e'.length = 4)
    {T T' : List Event} (h : (lutPow c (Limbs.genLut c base) e).trace ++ T =
      (lutPow c (Limbs.genLut c base) e').trace ++ T') : e = e' := by
  unfold lutPow at h
  have h := cancel h (by rw [he, he'])
  have h := parts h
  obtain ⟨t1, t2⟩ := toBytesBE_val e
  obtain ⟨t1', t2'⟩ := toBytesBE_val e'
  obtain ⟨g1, g2⟩ := genRows_length c 32 (Limbs.toMont c base) (Limbs.toMont c base)
  have h2 := lutLoop_leaks c (Limbs.genLut c base).1 g2 0 (by rw [List.length_reverse, t1, he]; exact g1.symm)
    (by rw [List.length_reverse, t1', he']; exact g1.symm) rfl h
  have h3 := List.reverse_injective h2
  exact val_inj _ _ (by rw [he, he']) (by rw [← t2, ← t2', h3])

theorem powModPP_leaks (P : PArrs) (base : Arr) {e e' : Arr} (he : e.length = 64) (he' : e'.length = 64)
    {T T' : List Event} (h : (powModPP P base e).trace ++ T = (powModPP P base e').trace ++ T') :
    val e % 2 ^ 512 = val e' % 2 ^ 512 := by
  have hz := elemEq_zeros e
  have hz' := elemEq_zeros e'
  rw [he] at hz
  rw [he'] at hz'
  unfold powModPP at h
  have h := parts h
  have h := parts h
  obtain ⟨h1, h2⟩ := elemEq_leaks 0 (z := zeros 64) (he.trans he'.symm) h
  rw [val_bind, val_bind, h1] at h2
  have h3 := (List.cons.inj h2).2
  rw [elemEq_val, elemEq_val, hz, hz'] at h1
  rw [elemEq_val, hz'] at h3
  by_cases h0 : val e' = 0
  · have : val e = 0 := by simpa [h0] using h1
    rw [h0, this]
  · rw [show (cond (decide (val e' = 0))).val = decide (val e' = 0) from rfl] at h3
    change (if decide (val e' = 0) = true then _ else _ : L Arr).trace ++ T =
      (if decide (val e' = 0) = true then _ else _ : L Arr).trace ++ T' at h3
    rw [if_neg (by simpa using h0), if_neg (by simpa using h0)] at h3
    exact modExpVartime_leaks _ rfl 512 (by omega) (by omega) h3

theorem powModP_leaks (P : PArrs) (fixed : Bool) (base : Arr) {e e' : Arr} (he : e.length = 4) (he' : e'.length = 4)
    {T T' : List Event} (h : (powModP P fixed base e).trace ++ T = (powModP P fixed base e').trace ++ T') :
    e = e' := by
  have hz := elemEq_zeros e
  have hz' := elemEq_zeros e'
  rw [he] at hz
  rw [he'] at hz'
  unfold powModP at h
  have h := parts h
  have h := parts h
  obtain ⟨h1, h2⟩ := elemEq_leaks 0 (z := zeros 4) (he.trans he'.symm) h
  rw [val_bind, val_bind, h1] at h2
  have h3 := (List.cons.inj h2).2
  rw [elemEq_val, elemEq_val, hz, hz'] at h1
  rw [elemEq_val, hz'] at h3
  apply val_inj _ _ (he.trans he'.symm)
  by_cases h0 : val e' = 0
  · have : val e = 0 := by simpa [h0] using h1
    rw [h0, this]
  · change (if decide (val e' = 0) = true then _ else _ : L (Res Arr)).trace ++ T =
      (if decide (val e' = 0) = true then _ else _ : L (Res Arr)).trace ++ T' at h3
    rw [if_neg (by simpa using h0), if_neg (by simpa using h0)] at h3
    have h4 := cancel h3 rfl
    cases fixed with
    | true =>
      rw [show (cond true).val = true from rfl, if_pos rfl, if_pos rfl] at h4
      rw [lutPow_leaks _ base he he' h4]
    | false =>
      change (powModPP P base (e ++ zeros 60) >>= _).trace ++ T =
        (powModPP P base (e' ++ zeros 60) >>= _).trace ++ T' at h4
      have h5 := parts h4
      have h6 := powModPP_leaks P base (by simp [zeros, he]) (by simp [zeros, he']) h5
      have hlt := val_lt e
      have hlt' := val_lt e'
      rw [he] at hlt
      rw [he'] at hlt'
      rwa [val_pad, val_pad, Nat.mod_eq_of_lt (lt_512_of_lt hlt), Nat.mod_eq_of_lt (lt_512_of_lt hlt')] at h6

/-- The observations of the encryption determine the nonce and the vote. -/
theorem encrypt_leaks {P : PArrs} {G : Params} (hP : P.Denotes G) (hG : G.Valid) (fg fk : Bool) {pub : Arr}
    (hpub : pub.length = 64) {m m' : UInt64} {n n' : Arr} (hn : n.length = 4) (hn' : n'.length = 4)
    (h0' : val n' ≠ 0)
    (h : (encrypt P fg fk m n pub).trace = (encrypt P fg fk m' n' pub).trace) : n = n' ∧ (m = 1 ↔ m' = 1) := by
  have hz := elemEq_zeros n
  have hz' := elemEq_zeros n'
  rw [hn] at hz
  rw [hn'] at hz'
  have h : (encrypt P fg fk m n pub).trace ++ [] = (encrypt P fg fk m' n' pub).trace ++ [] := by rw [h]
  unfold encrypt at h
  have h := parts h
  have h := parts h
  obtain ⟨h1, h2⟩ := elemEq_leaks 0 (z := zeros 4) (hn.trans hn'.symm) h
  rw [val_bind, val_bind, h1] at h2
  have h3 := (List.cons.inj h2).2
  rw [elemEq_val, hz'] at h3
  change (if decide (val n' = 0) = true then _ else _ : L (Res (Arr × Arr))).trace ++ [] =
    (if decide (val n' = 0) = true then _ else _ : L (Res (Arr × Arr))).trace ++ [] at h3
  rw [if_neg (by simpa using h0'), if_neg (by simpa using h0')] at h3
  have h4 := parts h3
  obtain rfl := powModP_leaks P fg P.g hn hn' h4
  have h5 := cancel h3 rfl
  have h6 := cancel h5 rfl
  obtain ⟨x, x1, -⟩ := Limbs.powModP_val hP hG fg P.g n hP.glen hn
  obtain ⟨y, y1, -⟩ := Limbs.powModP_val hP hG fk pub n hpub hn
  rw [powModP_val, powModP_val, x1, y1] at h6
  have h7 := (List.cons.inj (parts h6)).1
  injection h7 with h7
  exact ⟨rfl, by simpa using h7⟩

/-- The result of the encryption. -/
theorem encrypt_val {P : PArrs} {G : Params} (hP : P.Denotes G) (hG : G.Valid) (fg fk : Bool) {pub n : Arr}
    (hpub : pub.length = 64) (hn : n.length = 4) (m : UInt64) (h0 : val n ≠ 0) :
    ∃ a b, (encrypt P fg fk m n pub).val = .ok (a, b) ∧ a.length = 64 ∧ b.length = 64 ∧
      val a = G.g ^ val n % G.p ∧
      val b = (if m = 1 then G.g * (val pub ^ val n % G.p) % G.p else val pub ^ val n % G.p) := by
  have hz := elemEq_zeros n
  rw [hn] at hz
  obtain ⟨x, x1, x2, x3⟩ := Limbs.powModP_val hP hG fg P.g n hP.glen hn
  obtain ⟨y, y1, y2, y3⟩ := Limbs.powModP_val hP hG fk pub n hpub hn
  have hgl := hP.glen
  have hpl := hP.plen
  unfold encrypt
  simp only [val_bind, elemEq_val, val_cond, val_ite, powModP_val, hz, h0, x1, y1, decide_false]
  by_cases hm : m = 1
  · simp only [hm, decide_true, if_true, Bool.false_eq_true, if_false]
    obtain ⟨m1, m2⟩ := C67_mul P.g y (by omega)
    obtain ⟨r1, r2⟩ := C68_mod_precomp P.p (Limbs.mulFull P.g y) (hP.oddP hG) (by omega) (by omega)
    refine ⟨x, _, rfl, x2, ?_, by rw [x3, hP.g_eq], ?_⟩
    · unfold mulModP
      rw [val_bind, modPrecomp_val, mulFull_val, r1, hpl]
    · unfold mulModP
      rw [val_bind, modPrecomp_val, mulFull_val, r2, m2, y3, hP.g_eq, hP.p_eq]
  · simp only [hm, decide_false, Bool.false_eq_true, if_false]
    exact ⟨x, y, rfl, x2, y2, by rw [x3, hP.g_eq], y3⟩

end EG.Leak
