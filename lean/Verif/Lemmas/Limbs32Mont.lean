import Verif.Lemmas.Limbs32Karatsuba
import Verif.Lemmas.Hacl32

/-!
# Limb loops with 32-bit limbs: Montgomery reduction and modular addition compute what `Model/Hacl32.lean` says
-/

namespace EG.Limbs32

theorem getD_val (c : Arr) (i : ℕ) (h : i < c.length) :
    (c.getD i 0).toNat = val c / 2 ^ (32 * i) % 2 ^ 32 := by
  have h1 := val_halves c i h.le
  have hd : c.drop i = c.getD i 0 :: c.drop (i + 1) := by
    rw [List.getD_eq_getElem?_getD, List.getElem?_eq_getElem h]
    exact (List.drop_eq_getElem_cons h)
  have hlt : val (c.take i) < 2 ^ (32 * i) := by
    have := val_lt (c.take i)
    rwa [List.length_take, Nat.min_eq_left h.le] at this
  rw [h1, Nat.add_mul_div_left _ _ (Nat.two_pow_pos _), Nat.div_eq_of_lt hlt, Nat.zero_add, hd, val,
    Nat.add_mul_mod_self_left, Nat.mod_eq_of_lt (UInt32.toNat_lt _)]

theorem pow_split (a b : ℕ) : 2 ^ (32 * (a + b)) = 2 ^ (32 * a) * 2 ^ (32 * b) := by
  rw [Nat.mul_add, pow_add]

theorem splice_one (lo hi : Arr) (x y : UInt32) (i : ℕ) (h : lo.length = i) :
    splice (lo ++ [x] ++ hi) i [y] = lo ++ [y] ++ hi := splice_mid lo [x] hi [y] i h rfl

theorem redcStep_spec (n c : Arr) (nInv cc : UInt32) (i : ℕ) (hc : c.length = n.length + n.length)
    (hi : i < n.length) (hcc : cc.toNat ≤ 1) :
    (redcStep n nInv (c, cc) i).1.length = n.length + n.length ∧
      (redcStep n nInv (c, cc) i).2.toNat ≤ 1 ∧
      val (redcStep n nInv (c, cc) i).1 +
          2 ^ (32 * (n.length + (i + 1))) * (redcStep n nInv (c, cc) i).2.toNat =
        val c + 2 ^ (32 * (n.length + i)) * cc.toNat +
          2 ^ (32 * i) * (val n * (nInv * c.getD i 0).toNat) := by
  obtain ⟨lo, mid, hi', hr, h1, h2, h3⟩ := split3 c i n.length (by omega)
  obtain ⟨x, hi'', hx⟩ : ∃ x hi'', hi' = x :: hi'' := by
    cases hi' with
    | nil => simp at h3; omega
    | cons x t => exact ⟨x, t, rfl⟩
  unfold redcStep
  dsimp only
  generalize nInv * c.getD i 0 = qj
  rw [hr, window_mid lo mid hi' i _ h1 h2]
  obtain ⟨m1, m2⟩ := mulRow_spec qj 0 n mid h2.symm
  generalize mulRow qj 0 n mid = row at *
  rw [splice_mid lo mid hi' row.1 i h1 (by omega)]
  have hg : (lo ++ row.1 ++ hi').getD (n.length + i) 0 = x := by
    rw [hx, List.getD_eq_getElem?_getD, List.getElem?_append_right (by simp; omega)]
    have : n.length + i - (lo ++ row.1).length = 0 := by simp; omega
    rw [this]; rfl
  rw [hg]
  obtain ⟨s1, s2⟩ := addCarry_spec cc row.2 x hcc
  generalize addCarry cc row.2 x = s at *
  have hsp : splice (lo ++ row.1 ++ hi') (n.length + i) [s.1] = lo ++ row.1 ++ [s.1] ++ hi'' := by
    have := splice_one (lo ++ row.1) hi'' x s.1 (n.length + i) (by simp; omega)
    rw [hx]
    simpa using this
  rw [hsp]
  have hlen := hc
  rw [hr, hx] at hlen
  simp only [List.length_append, List.length_cons] at hlen
  refine ⟨by simp; omega, s2, ?_⟩
  rw [hx]
  have e0 : (0 : UInt32).toNat = 0 := rfl
  rw [e0] at m2
  have hcons : val (x :: hi'') = x.toNat + 2 ^ 32 * val hi'' := rfl
  rw [val_append, val_append, val_append, val_append, val_append, val_singleton, hcons]
  simp only [List.length_append, List.length_cons, List.length_nil, m1, h1, h2]
  have p0 : 2 ^ (32 * 1) = 2 ^ 32 := rfl
  rw [pow_split n.length (i + 1), pow_split i 1, pow_split n.length i, pow_split (i + n.length) (0 + 1),
    pow_split i n.length, Nat.zero_add, p0]
  generalize 2 ^ (32 * i) = P at *
  generalize 2 ^ (32 * n.length) = Q at *
  linear_combination P * m2 + P * Q * s1

open Hacl32 (R iter)

theorem iter_succ {α : Type} (f : α → α) (j : ℕ) (x : α) : iter f (j + 1) x = f (iter f j x) := by
  induction j generalizing x with
  | zero => rfl
  | succ j ih => rw [iter, ih (f x), iter]

theorem foldl_const_iter {α : Type} (f : α → α) (j : ℕ) (x : α) :
    (List.range j).foldl (fun r _ => f r) x = iter f j x := by
  induction j with
  | zero => rfl
  | succ j ih => rw [List.range_succ, List.foldl_append, ih, iter_succ]; rfl

theorem redc_fold (n c : Arr) (nInv : UInt32) (hc : c.length = n.length + n.length) (j : ℕ)
    (hj : j ≤ n.length) :
    ((List.range j).foldl (redcStep n nInv) (c, 0)).1.length = n.length + n.length ∧
      ((List.range j).foldl (redcStep n nInv) (c, 0)).2.toNat ≤ 1 ∧
      (val ((List.range j).foldl (redcStep n nInv) (c, 0)).1 +
          2 ^ (32 * (n.length + j)) * ((List.range j).foldl (redcStep n nInv) (c, 0)).2.toNat) /
            2 ^ (32 * j) =
        iter (Hacl32.redcStep (val n) nInv.toNat) j (val c) := by
  induction j with
  | zero => exact ⟨hc, by simp, by simp [iter]⟩
  | succ j ih =>
    obtain ⟨i1, i2, i3⟩ := ih (by omega)
    rw [List.range_succ, List.foldl_append, List.foldl_cons, List.foldl_nil, iter_succ, ← i3]
    generalize (List.range j).foldl (redcStep n nInv) (c, 0) = st at *
    obtain ⟨s1, s2, s3⟩ := redcStep_spec n st.1 nInv st.2 j i1 (by omega) i2
    refine ⟨s1, s2, ?_⟩
    rw [s3]
    unfold Hacl32.redcStep
    have hg := getD_val st.1 j (by omega)
    have hpn : 2 ^ (32 * (n.length + j)) = 2 ^ (32 * j) * (2 ^ 32 * 2 ^ (32 * (n.length - 1))) := by
      rw [← pow_add, ← pow_add]; congr 1; omega
    have hP : 0 < 2 ^ (32 * j) := Nat.two_pow_pos _
    have hq : (val st.1 + 2 ^ (32 * (n.length + j)) * st.2.toNat) / 2 ^ (32 * j) % 2 ^ 32 =
        (st.1.getD j 0).toNat := by
      rw [hpn, hg, Nat.mul_assoc, Nat.add_mul_div_left _ _ hP, Nat.mul_assoc, Nat.add_mul_mod_self_left]
    rw [hq, UInt32.toNat_mul, Nat.add_mul_div_left _ _ hP |>.symm, Nat.div_div_eq_div_mul, ← pow_add,
      show 32 * j + 32 = 32 * (j + 1) by ring, Nat.mul_comm (val n)]

theorem redcLoop_spec (n c : Arr) (nInv : UInt32) (hc : c.length = n.length + n.length) :
    (redcLoop n nInv c).1.length = n.length ∧ (redcLoop n nInv c).2.toNat ≤ 1 ∧
      val (redcLoop n nInv c).1 + R n.length * (redcLoop n nInv c).2.toNat =
        Hacl32.redcLoop n.length (val n) nInv.toNat (val c) := by
  obtain ⟨h1, h2, h3⟩ := redc_fold n c nInv hc n.length le_rfl
  unfold redcLoop
  dsimp only
  unfold Hacl32.redcLoop
  rw [← h3]
  generalize (List.range n.length).foldl (redcStep n nInv) (c, 0) = st at *
  refine ⟨by rw [List.length_drop]; omega, h2, ?_⟩
  have hv := val_halves st.1 n.length (by omega)
  have hlt := val_lt (st.1.take n.length)
  rw [List.length_take, Nat.min_eq_left (by omega)] at hlt
  rw [hv]
  have p : 2 ^ (32 * (n.length + n.length)) = 2 ^ (32 * n.length) * 2 ^ (32 * n.length) := by
    rw [← pow_add]; congr 1; ring
  rw [p, Nat.add_assoc, Nat.mul_assoc, ← Nat.mul_add, Nat.add_mul_div_left _ _ (Nat.two_pow_pos _),
    Nat.div_eq_of_lt hlt, Nat.zero_add]
  rfl

/-- What the final subtraction leaves, if the number is below `2 n`. -/
theorem condSub_spec (n r : Arr) (c0 : UInt32) (hr : r.length = n.length) (hc : c0.toNat ≤ 1)
    (ht : val r + R n.length * c0.toNat < 2 * val n) :
    (selectArr (c0 - (sub r n).2) r (sub r n).1).length = n.length ∧
      val (selectArr (c0 - (sub r n).2) r (sub r n).1) =
        (val r + R n.length * c0.toNat) % val n := by
  obtain ⟨s1, s2, s3⟩ := sub_spec r n hr
  have hn := val_lt n
  have hrl := val_lt r
  have hsl := val_lt (sub r n).1
  rw [s1] at hsl
  rw [hr] at s3 hsl hrl s1
  have e1 : (1 : UInt32).toNat = 1 := rfl
  have e0 : (0 : UInt32).toNat = 0 := rfl
  unfold R at *
  generalize 2 ^ (32 * n.length) = P at *
  rcases bit_cases _ hc with h | h <;> rcases bit_cases _ s2 with h' | h' <;> rw [h, h'] <;>
    rw [h] at ht <;> rw [h'] at s3
  · rw [e0] at ht s3
    rw [mask_zero, e0, selectArr_zero _ _ (by omega)]
    refine ⟨s1, ?_⟩
    rw [Nat.mul_zero, Nat.add_zero, Nat.mod_eq_sub_mod (by omega), Nat.mod_eq_of_lt (by omega)]
    omega
  · rw [e1] at s3
    rw [mask_one, e0, selectArr_ones _ _ (by omega)]
    refine ⟨hr, ?_⟩
    rw [Nat.mul_zero, Nat.add_zero, Nat.mod_eq_of_lt (by omega)]
  · rw [e1] at ht
    rw [e0] at s3
    omega
  · rw [e1] at ht s3
    rw [show (1 : UInt32) - 1 = 0 by decide, e1, selectArr_zero _ _ (by omega)]
    refine ⟨s1, ?_⟩
    rw [Nat.mod_eq_sub_mod (by omega), Nat.mod_eq_of_lt (by omega)]
    omega

theorem reduction_val (n c : Arr) (nInv : UInt32) (hc : c.length = n.length + n.length)
    (hn : Hacl32.GoodMod n.length (val n)) (hmu : (nInv.toNat * (val n % 2 ^ 32) + 1) % 2 ^ 32 = 0)
    (hb : val c ≤ val n * R n.length) :
    (reduction n nInv c).length = n.length ∧
      val (reduction n nInv c) = Hacl32.reduction n.length (val n) nInv.toNat (val c) := by
  obtain ⟨h1, h2, h3⟩ := redcLoop_spec n c nInv hc
  have hlt : Hacl32.redcLoop n.length (val n) nInv.toNat (val c) < 2 * val n := by
    obtain ⟨m, hm, h⟩ := Hacl32.redcLoop_spec n.length (val n) nInv.toNat (val c) hmu
    have hn0 : 0 < val n := by have := hn.gt; omega
    have : Hacl32.redcLoop n.length (val n) nInv.toNat (val c) * R n.length < 2 * val n * R n.length := by
      rw [h]
      have : m * val n < R n.length * val n := Nat.mul_lt_mul_of_pos_right hm hn0
      nlinarith
    exact Nat.lt_of_mul_lt_mul_right this
  obtain ⟨c1, c2⟩ := condSub_spec n (redcLoop n nInv c).1 (redcLoop n nInv c).2 h1 h2 (by omega)
  unfold reduction
  dsimp only
  refine ⟨c1, ?_⟩
  rw [c2, h3, Hacl32.reduction, Hacl32.condSub_eq _ _ _ hn.lt hlt]

theorem areduction_val (n c : Arr) (nInv : UInt32) (hc : c.length = n.length + n.length) :
    (areduction n nInv c).length = n.length ∧
      val (areduction n nInv c) = Hacl32.areduction n.length (val n) nInv.toNat (val c) := by
  obtain ⟨h1, h2, h3⟩ := redcLoop_spec n c nInv hc
  unfold areduction Hacl32.areduction
  dsimp only
  rw [← h3]
  generalize redcLoop n nInv c = r at *
  obtain ⟨s1, s2, s3⟩ := sub_spec r.1 n h1
  have hrl := val_lt r.1
  have hsl := val_lt (sub r.1 n).1
  have hn := val_lt n
  rw [h1] at hrl
  rw [s1, h1] at hsl
  rw [h1] at s3
  have e1 : (1 : UInt32).toNat = 1 := rfl
  have e0 : (0 : UInt32).toNat = 0 := rfl
  have hP := Nat.two_pow_pos (32 * n.length)
  unfold Hacl32.sub R
  generalize 2 ^ (32 * n.length) = P at *
  rcases bit_cases _ h2 with h | h
  · rw [h, mask_zero, e0, selectArr_zero _ _ (by omega), Nat.mul_zero, Nat.add_zero,
      Nat.mod_eq_of_lt hrl, Nat.div_eq_of_lt hrl, if_pos rfl]
    exact ⟨h1, rfl⟩
  · rw [h, mask_one, e1, selectArr_ones _ _ (by omega), Nat.mul_one, Nat.add_mod_right,
      Nat.mod_eq_of_lt hrl, Nat.add_div_right _ hP, if_neg (Nat.succ_ne_zero _)]
    refine ⟨by omega, ?_⟩
    dsimp only
    rcases Nat.le_one_iff_eq_zero_or_eq_one.1 s2 with hs | hs
    · rw [hs] at s3
      rw [show val r.1 + P - val n = val (sub r.1 n).1 + P by omega, Nat.add_mod_right,
        Nat.mod_eq_of_lt hsl]
    · rw [hs] at s3
      rw [show val r.1 + P - val n = val (sub r.1 n).1 by omega, Nat.mod_eq_of_lt hsl]

theorem addMod_spec (n a b : Arr) (ha : a.length = n.length) (hb : b.length = n.length)
    (hlt : val a + val b < 2 * val n) :
    (addMod n a b).length = n.length ∧ val (addMod n a b) = (val a + val b) % val n := by
  obtain ⟨a1, a2, a3⟩ := add_spec a b (by omega)
  rw [ha] at a1 a3
  obtain ⟨c1, c2⟩ := condSub_spec n (add a b).1 (add a b).2 a1 a2 (by unfold R; omega)
  unfold addMod
  dsimp only
  refine ⟨c1, ?_⟩
  rw [c2]
  unfold R
  rw [a3]

theorem subMod_spec (n a b : Arr) (ha : a.length = n.length) (hb : b.length = n.length)
    (han : val a < val n) (hbn : val b < val n) :
    (subMod n a b).length = n.length ∧ val (subMod n a b) = (val a + (val n - val b)) % val n := by
  obtain ⟨s1, s2, s3⟩ := sub_spec a b (by omega)
  rw [ha] at s1 s3
  obtain ⟨a1, a2, a3⟩ := add_spec (sub a b).1 n s1
  have h1 := val_lt n
  have h2 := val_lt (sub a b).1
  have h3 := val_lt (add (sub a b).1 n).1
  rw [a1, s1] at h3
  rw [s1] at a3 h2 a1
  have e1 : (1 : UInt32).toNat = 1 := rfl
  have e0 : (0 : UInt32).toNat = 0 := rfl
  unfold subMod
  dsimp only
  generalize 2 ^ (32 * n.length) = P at *
  rcases bit_cases _ s2 with h | h
  · rw [h, mask_zero, selectArr_zero _ _ (by omega)]
    rw [h, e0] at s3
    refine ⟨s1, ?_⟩
    rw [show val a + (val n - val b) = val (sub a b).1 + val n by omega, Nat.add_mod_right,
      Nat.mod_eq_of_lt (by omega)]
  · rw [h, mask_one, selectArr_ones _ _ (by omega)]
    rw [h, e1] at s3
    refine ⟨a1, ?_⟩
    rw [Nat.mod_eq_of_lt (a := val a + (val n - val b)) (by omega)]
    rcases Nat.le_one_iff_eq_zero_or_eq_one.1 a2 with hs | hs
    · rw [hs] at a3; omega
    · rw [hs] at a3; omega

end EG.Limbs32
