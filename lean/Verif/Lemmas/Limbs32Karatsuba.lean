import Verif.Lemmas.Limbs32

/-!
# Limb loops with 32-bit limbs: Karatsuba multiplication
-/

namespace EG.Limbs32

theorem add_spec (a b : Arr) (h : a.length = b.length) :
    (add a b).1.length = a.length ∧ (add a b).2.toNat ≤ 1 ∧
      val (add a b).1 + 2 ^ (32 * a.length) * (add a b).2.toNat = val a + val b := by
  have := addLoop_spec 0 a b (by decide) h
  simpa [add] using this

theorem sub_spec (a b : Arr) (h : a.length = b.length) :
    (sub a b).1.length = a.length ∧ (sub a b).2.toNat ≤ 1 ∧
      val (sub a b).1 + val b = val a + 2 ^ (32 * a.length) * (sub a b).2.toNat := by
  have := subLoop_spec 0 a b (by decide) h
  simpa [sub] using this

theorem mask_zero : (0 : UInt32) - 0 = 0 := by decide

theorem mask_one : (0 : UInt32) - 1 = 0xFFFFFFFF := by decide

theorem absDiff_spec (x y : Arr) (h : x.length = y.length) :
    (absDiff x y).1.length = x.length ∧
      (((absDiff x y).2 = 0 ∧ val (absDiff x y).1 + val y = val x) ∨
        ((absDiff x y).2 = 1 ∧ val (absDiff x y).1 + val x = val y)) := by
  obtain ⟨d1, d2, d3⟩ := sub_spec x y h
  obtain ⟨e1, e2, e3⟩ := sub_spec y x h.symm
  have hx := val_lt x
  have hy := val_lt y
  have hd := val_lt (sub x y).1
  have he := val_lt (sub y x).1
  rw [d1] at hd
  rw [e1] at he
  unfold absDiff
  dsimp only
  rw [h] at d3 hd hx
  rcases bit_cases _ d2 with h0 | h0
  · rw [h0, mask_zero, selectArr_zero _ _ (by omega)]
    refine ⟨d1, Or.inl ⟨rfl, ?_⟩⟩
    rw [h0] at d3
    simpa using d3
  · rw [h0, mask_one, selectArr_ones _ _ (by omega)]
    refine ⟨by omega, Or.inr ⟨rfl, ?_⟩⟩
    rw [h0] at d3
    have e1' : (1 : UInt32).toNat = 1 := rfl
    rw [e1'] at d3
    have hlt : val x < val y := by
      generalize 2 ^ (32 * y.length) = P at *
      omega
    have h00 : (sub y x).2.toNat = 0 := by
      rcases Nat.le_one_iff_eq_zero_or_eq_one.1 e2 with hh | hh
      · exact hh
      · rw [hh] at e3
        generalize 2 ^ (32 * y.length) = P at *
        omega
    rw [h00] at e3
    simpa using e3

theorem addLimb_spec (r : Arr) (c : UInt32) :
    (addLimb r c).length = r.length ∧ val (addLimb r c) = (val r + c.toNat) % 2 ^ (32 * r.length) := by
  cases r with
  | nil => simp [addLimb, val, Nat.mod_one]
  | cons x r =>
    obtain ⟨h1, h2⟩ := addCarry_spec 0 x c (by decide)
    obtain ⟨a1, a2, a3⟩ := addLoop_spec (addCarry 0 x c).2 r (List.replicate r.length 0) h2 (by simp)
    unfold addLimb
    dsimp only
    refine ⟨by simp [a1], ?_⟩
    rw [val_replicate] at a3
    have hl := val_lt ((addCarry 0 x c).1 :: (addLoop (addCarry 0 x c).2 r (List.replicate r.length 0)).1)
    rw [List.length_cons, a1] at hl
    rw [List.length_cons]
    have e : val (x :: r) + c.toNat =
        val ((addCarry 0 x c).1 :: (addLoop (addCarry 0 x c).2 r (List.replicate r.length 0)).1) +
          2 ^ (32 * (r.length + 1)) * (addLoop (addCarry 0 x c).2 r (List.replicate r.length 0)).2.toNat := by
      rw [val, val, show 32 * (r.length + 1) = 32 + 32 * r.length by ring, pow_add]
      have e0 : (0 : UInt32).toNat = 0 := rfl
      rw [e0] at h1
      generalize 2 ^ (32 * r.length) = P at *
      generalize (addLoop (addCarry 0 x c).2 r (List.replicate r.length 0)) = s at *
      nlinarith
    rw [e, Nat.add_mul_mod_self_left, Nat.mod_eq_of_lt hl]

theorem combine_spec (h : ℕ) (res t45 : Arr) (c5 : UInt32) (hl : h + t45.length ≤ res.length)
    (hc : c5.toNat < 2 ^ 32 - 1) :
    (combine h res t45 c5).length = res.length ∧
      val (combine h res t45 c5) =
        (val res + 2 ^ (32 * h) * (val t45 + 2 ^ (32 * t45.length) * c5.toNat)) % 2 ^ (32 * res.length) := by
  obtain ⟨lo, mid, hi, hr, h1, h2, h3⟩ := split3 res h t45.length hl
  obtain ⟨a1, a2, a3⟩ := add_spec mid t45 h2
  unfold combine
  dsimp only
  rw [hr, window_mid lo mid hi h _ h1 h2]
  generalize add mid t45 = s at *
  rw [splice_mid lo mid hi s.1 h h1 (by omega)]
  have hd : (lo ++ s.1 ++ hi).drop (h + t45.length) = hi := by
    rw [List.drop_left' (by simp; omega)]
  rw [hd]
  obtain ⟨b1, b2⟩ := addLimb_spec hi (c5 + s.2)
  have hsp : splice (lo ++ s.1 ++ hi) (h + t45.length) (addLimb hi (c5 + s.2)) =
      lo ++ s.1 ++ addLimb hi (c5 + s.2) := by
    have := splice_mid (lo ++ s.1) hi [] (addLimb hi (c5 + s.2)) (h + t45.length) (by simp; omega) b1.symm
    simpa using this
  rw [hsp]
  refine ⟨by simp [b1]; omega, ?_⟩
  have hcs : (c5 + s.2).toNat = c5.toNat + s.2.toNat := by
    rw [UInt32.toNat_add]; omega
  rw [hcs] at b2
  rw [val_append, val_append, val_append, val_append, List.length_append, List.length_append,
    List.length_append, List.length_append, a1, h2, h1, b2]
  rw [h2] at a3
  have hls : val lo + 2 ^ (32 * h) * val s.1 < 2 ^ (32 * (h + t45.length)) := by
    have := val_lt (lo ++ s.1)
    rw [val_append, List.length_append, h1, a1, h2] at this
    exact this
  have hpow : 2 ^ (32 * (h + t45.length + hi.length)) =
      2 ^ (32 * (h + t45.length)) * 2 ^ (32 * hi.length) := by
    rw [← pow_add]; congr 1; ring
  rw [hpow]
  have hPQ : 2 ^ (32 * (h + t45.length)) = 2 ^ (32 * h) * 2 ^ (32 * t45.length) := by
    rw [← pow_add]; congr 1; ring
  have e : val lo + 2 ^ (32 * h) * val mid + 2 ^ (32 * (h + t45.length)) * val hi +
      2 ^ (32 * h) * (val t45 + 2 ^ (32 * t45.length) * c5.toNat) =
      val lo + 2 ^ (32 * h) * val s.1 +
        2 ^ (32 * (h + t45.length)) * (val hi + (c5.toNat + s.2.toNat)) := by
    rw [hPQ]
    linear_combination (2 ^ (32 * h)) * (-a3)
  rw [e, Nat.mod_mul, Nat.add_mul_mod_self_left, Nat.mod_eq_of_lt hls,
    Nat.add_mul_div_left _ _ (Nat.two_pow_pos _), Nat.div_eq_of_lt hls, Nat.zero_add]

/-- The limb above the middle part: `m = r01 + r23 - t23` or `m = r01 + r23 + t23`. -/
theorem middle_sub (t01 t23 : Arr) (c2 : UInt32) (m : ℕ) (hl : t01.length = t23.length)
    (hc : c2.toNat ≤ 1) (hm : m + val t23 = val t01 + 2 ^ (32 * t01.length) * c2.toNat) :
    val (sub t01 t23).1 + 2 ^ (32 * t01.length) * (c2 - (sub t01 t23).2).toNat = m ∧
      (c2 - (sub t01 t23).2).toNat ≤ 1 := by
  obtain ⟨s1, s2, s3⟩ := sub_spec t01 t23 hl
  have hlt := val_lt (sub t01 t23).1
  rw [s1] at hlt
  have e1 : (1 : UInt32).toNat = 1 := rfl
  have e0 : (0 : UInt32).toNat = 0 := rfl
  generalize 2 ^ (32 * t01.length) = P at *
  rcases bit_cases _ hc with h | h <;> rcases bit_cases _ s2 with h' | h' <;> rw [h, h'] <;>
    rw [h] at hm <;> rw [h'] at s3
  · rw [e0] at hm s3
    rw [mask_zero, e0]; omega
  · rw [e0] at hm
    rw [e1] at s3
    omega
  · rw [e1] at hm
    rw [e0] at s3
    rw [show (1 : UInt32) - 0 = 1 by decide, e1]; omega
  · rw [e1] at hm s3
    rw [show (1 : UInt32) - 1 = 0 by decide, e0]; omega

theorem middle_add (t01 t23 : Arr) (c2 : UInt32) (m : ℕ) (hl : t01.length = t23.length)
    (hc : c2.toNat ≤ 1) (hm : m = val t23 + val t01 + 2 ^ (32 * t01.length) * c2.toNat) :
    val (add t01 t23).1 + 2 ^ (32 * t01.length) * (c2 + (add t01 t23).2).toNat = m ∧
      (c2 + (add t01 t23).2).toNat ≤ 2 := by
  obtain ⟨s1, s2, s3⟩ := add_spec t01 t23 hl
  have e : (c2 + (add t01 t23).2).toNat = c2.toNat + (add t01 t23).2.toNat := by
    rw [UInt32.toNat_add]; omega
  rw [e, Nat.mul_add]
  omega

theorem val_halves (a : Arr) (h : ℕ) (hl : h ≤ a.length) :
    val a = val (a.take h) + 2 ^ (32 * h) * val (a.drop h) := by
  conv_lhs => rw [← List.take_append_drop h a]
  rw [val_append, List.length_take, Nat.min_eq_left hl]

theorem prod_lt (a b : Arr) (n : ℕ) (h : a.length + b.length = n) :
    val a * val b < 2 ^ (32 * n) := by
  rw [← h, Nat.mul_add, pow_add]
  exact Nat.mul_lt_mul'' (val_lt a) (val_lt b)

theorem karatsubaMul_spec (fuel : ℕ) (a b : Arr) (hab : a.length = b.length) :
    (karatsubaMul fuel a b).length = a.length + b.length ∧
      val (karatsubaMul fuel a b) = val a * val b := by
  induction fuel generalizing a b with
  | zero => exact mul_spec a b
  | succ fuel ih =>
    rw [karatsubaMul]
    split_ifs with hs
    · exact mul_spec a b
    · dsimp only
      obtain ⟨h, hh⟩ : ∃ h, a.length = h + h := ⟨a.length / 2, by omega⟩
      have hdiv : a.length / 2 = h := by omega
      rw [hdiv]
      have hb := hab ▸ hh
      have la0 : (a.take h).length = h := by rw [List.length_take]; omega
      have la1 : (a.drop h).length = h := by rw [List.length_drop]; omega
      have lb0 : (b.take h).length = h := by rw [List.length_take]; omega
      have lb1 : (b.drop h).length = h := by rw [List.length_drop]; omega
      have va := val_halves a h (by omega)
      have vb := val_halves b h (by omega)
      generalize a.take h = a0 at *
      generalize a.drop h = a1 at *
      generalize b.take h = b0 at *
      generalize b.drop h = b1 at *
      obtain ⟨x1, x2⟩ := absDiff_spec a0 a1 (by omega)
      obtain ⟨y1, y2⟩ := absDiff_spec b0 b1 (by omega)
      generalize absDiff a0 a1 = t0 at *
      generalize absDiff b0 b1 = t1 at *
      obtain ⟨p1, p2⟩ := ih t0.1 t1.1 (by omega)
      obtain ⟨q1, q2⟩ := ih a0 b0 (by omega)
      obtain ⟨r1, r2⟩ := ih a1 b1 (by omega)
      generalize karatsubaMul fuel t0.1 t1.1 = t23 at *
      generalize karatsubaMul fuel a0 b0 = r01 at *
      generalize karatsubaMul fuel a1 b1 = r23 at *
      obtain ⟨s1, s2, s3⟩ := add_spec r01 r23 (by omega)
      generalize add r01 r23 = t01 at *
      have hlt : val a * val b < 2 ^ (32 * (r01 ++ r23).length) :=
        prod_lt a b _ (by rw [List.length_append]; omega)
      have hP2 : 2 ^ (32 * r01.length) = 2 ^ (32 * h) * 2 ^ (32 * h) := by
        rw [← pow_add]; congr 1; omega
      have e0 : (0 : UInt32) ^^^ 0 = 0 := by decide
      have e1 : (1 : UInt32) ^^^ 1 = 0 := by decide
      have e2 : (0 : UInt32) ^^^ 1 = 1 := by decide
      have e3 : (1 : UInt32) ^^^ 0 = 1 := by decide
      -- what remains once the middle part is known
      have fin : ∀ (t : Arr) (c5 : UInt32), t.length = h + h → c5.toNat ≤ 2 →
          val t + 2 ^ (32 * t01.1.length) * c5.toNat = val a0 * val b1 + val a1 * val b0 →
          (combine h (r01 ++ r23) t c5).length = a.length + b.length ∧
            val (combine h (r01 ++ r23) t c5) = val a * val b := by
        intro t c5 ht hc5 hv
        obtain ⟨c1, c2⟩ := combine_spec h (r01 ++ r23) t c5 (by rw [List.length_append]; omega) (by omega)
        refine ⟨by rw [c1, List.length_append]; omega, ?_⟩
        rw [c2]
        have hlen : t.length = t01.1.length := by omega
        rw [hlen, hv, val_append]
        have e : val r01 + 2 ^ (32 * r01.length) * val r23 +
            2 ^ (32 * h) * (val a0 * val b1 + val a1 * val b0) = val a * val b := by
          rw [hP2, q2, r2, va, vb]; ring
        rw [e, Nat.mod_eq_of_lt hlt]
      have hsum : val t01.1 + 2 ^ (32 * t01.1.length) * t01.2.toNat = val a0 * val b0 + val a1 * val b1 := by
        rw [s1, s3, q2, r2]
      -- the product of the differences has the opposite sign, or the same
      have hsame : t0.2 ^^^ t1.2 = 0 →
          val a0 * val b1 + val a1 * val b0 + val t23 = val a0 * val b0 + val a1 * val b1 := by
        intro hx
        rw [p2]
        rcases x2 with ⟨z, x2⟩ | ⟨z, x2⟩ <;> rcases y2 with ⟨z', y2⟩ | ⟨z', y2⟩ <;> rw [z, z'] at hx
        · rw [← x2, ← y2]; ring
        · exact absurd hx (by decide)
        · exact absurd hx (by decide)
        · rw [← x2, ← y2]; ring
      have hdiff : t0.2 ^^^ t1.2 = 1 →
          val a0 * val b1 + val a1 * val b0 = val t23 + (val a0 * val b0 + val a1 * val b1) := by
        intro hx
        rw [p2]
        rcases x2 with ⟨z, x2⟩ | ⟨z, x2⟩ <;> rcases y2 with ⟨z', y2⟩ | ⟨z', y2⟩ <;> rw [z, z'] at hx
        · exact absurd hx (by decide)
        · rw [← x2, ← y2]; ring
        · rw [← x2, ← y2]; ring
        · exact absurd hx (by decide)
      have hsgn : t0.2 ^^^ t1.2 = 0 ∨ t0.2 ^^^ t1.2 = 1 := by
        rcases x2 with ⟨z, _⟩ | ⟨z, _⟩ <;> rcases y2 with ⟨z', _⟩ | ⟨z', _⟩ <;> rw [z, z'] <;> decide
      obtain ⟨u1, u2, -⟩ := sub_spec t01.1 t23 (by omega)
      obtain ⟨w1, w2, -⟩ := add_spec t01.1 t23 (by omega)
      rcases hsgn with hg | hg
      · obtain ⟨m1, m2⟩ := middle_sub t01.1 t23 t01.2 (val a0 * val b1 + val a1 * val b0) (by omega) s2
          (by rw [hsum, hsame hg])
        rw [hg, mask_zero, selectArr_zero _ _ (by omega), select_zero]
        exact fin _ _ (by omega) (by omega) m1
      · obtain ⟨m1, m2⟩ := middle_add t01.1 t23 t01.2 (val a0 * val b1 + val a1 * val b0) (by omega) s2
          (by rw [hdiff hg, ← hsum]; ring)
        rw [hg, mask_one, selectArr_ones _ _ (by omega), select_ones]
        exact fin _ _ (by omega) m2 m1

theorem karatsubaSqr_spec (fuel : ℕ) (a : Arr) :
    (karatsubaSqr fuel a).length = a.length + a.length ∧
      val (karatsubaSqr fuel a) = val a * val a := by
  induction fuel generalizing a with
  | zero => exact sqr_spec a
  | succ fuel ih =>
    rw [karatsubaSqr]
    split_ifs with hs
    · exact sqr_spec a
    · dsimp only
      obtain ⟨h, hh⟩ : ∃ h, a.length = h + h := ⟨a.length / 2, by omega⟩
      have hdiv : a.length / 2 = h := by omega
      rw [hdiv]
      have la0 : (a.take h).length = h := by rw [List.length_take]; omega
      have la1 : (a.drop h).length = h := by rw [List.length_drop]; omega
      have va := val_halves a h (by omega)
      generalize a.take h = a0 at *
      generalize a.drop h = a1 at *
      obtain ⟨x1, x2⟩ := absDiff_spec a0 a1 (by omega)
      generalize absDiff a0 a1 = t0 at *
      obtain ⟨p1, p2⟩ := ih t0.1
      obtain ⟨q1, q2⟩ := ih a0
      obtain ⟨r1, r2⟩ := ih a1
      generalize karatsubaSqr fuel t0.1 = t23 at *
      generalize karatsubaSqr fuel a0 = r01 at *
      generalize karatsubaSqr fuel a1 = r23 at *
      obtain ⟨s1, s2, s3⟩ := add_spec r01 r23 (by omega)
      generalize add r01 r23 = t01 at *
      have hlt : val a * val a < 2 ^ (32 * (r01 ++ r23).length) :=
        prod_lt a a _ (by rw [List.length_append]; omega)
      have hP2 : 2 ^ (32 * r01.length) = 2 ^ (32 * h) * 2 ^ (32 * h) := by
        rw [← pow_add]; congr 1; omega
      have hsum : val t01.1 + 2 ^ (32 * t01.1.length) * t01.2.toNat = val a0 * val a0 + val a1 * val a1 := by
        rw [s1, s3, q2, r2]
      have hsame : 2 * (val a0 * val a1) + val t23 = val a0 * val a0 + val a1 * val a1 := by
        rw [p2]
        rcases x2 with ⟨z, x2⟩ | ⟨z, x2⟩
        · rw [← x2]; ring
        · rw [← x2]; ring
      obtain ⟨u1, u2, -⟩ := sub_spec t01.1 t23 (by omega)
      obtain ⟨m1, m2⟩ := middle_sub t01.1 t23 t01.2 (2 * (val a0 * val a1)) (by omega) s2
        (by rw [hsum, hsame])
      obtain ⟨c1, c2⟩ := combine_spec h (r01 ++ r23) (sub t01.1 t23).1 (t01.2 - (sub t01.1 t23).2)
        (by rw [List.length_append]; omega) (by omega)
      refine ⟨by rw [c1, List.length_append]; omega, ?_⟩
      rw [c2, u1, m1, val_append]
      have e : val r01 + 2 ^ (32 * r01.length) * val r23 + 2 ^ (32 * h) * (2 * (val a0 * val a1)) =
          val a * val a := by
        rw [hP2, q2, r2, va]; ring
      rw [e, Nat.mod_eq_of_lt hlt]

end EG.Limbs32
