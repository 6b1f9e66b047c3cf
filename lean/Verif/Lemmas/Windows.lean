import Verif.Model.Windows
import Verif.Lemmas.Limbs32Val
import Verif.Lemmas.LimbsGroup

/-!
# The two views of an array of limbs
-/

namespace EG.Win

open Limbs (Arr)

theorem split_nil : split [] = [] := rfl

theorem split_cons (x : UInt64) (a : Arr) : split (x :: a) = x.toUInt32 :: (x >>> 32).toUInt32 :: split a := rfl

theorem split_length (a : Arr) : (split a).length = 2 * a.length := by
  induction a with
  | nil => rfl
  | cons x a ih => rw [split_cons, List.length_cons, List.length_cons, List.length_cons, ih]; omega

theorem halves_val (x : UInt64) : x.toUInt32.toNat + 2 ^ 32 * (x >>> 32).toUInt32.toNat = x.toNat := by
  have hx := x.toNat_lt
  have e : (32 : UInt64).toNat % 64 = 32 := by decide
  rw [UInt64.toNat_toUInt32, UInt64.toNat_toUInt32, UInt64.toNat_shiftRight, e, Nat.shiftRight_eq_div_pow]
  omega

theorem split_val (a : Arr) : Limbs32.val (split a) = Limbs.val a := by
  induction a with
  | nil => rfl
  | cons x a ih =>
    rw [split_cons, Limbs32.val, Limbs32.val, Limbs.val, ih, ← halves_val x]
    ring

theorem join_val1 (lo hi : UInt32) :
    (lo.toUInt64 ||| hi.toUInt64 <<< 32).toNat = lo.toNat + 2 ^ 32 * hi.toNat := by
  have h1 := lo.toNat_lt
  have h2 := hi.toNat_lt
  have e : (32 : UInt64).toNat % 64 = 32 := by decide
  rw [UInt64.toNat_or, UInt64.toNat_shiftLeft, UInt32.toNat_toUInt64, UInt32.toNat_toUInt64, e,
    Nat.mod_eq_of_lt (by rw [Nat.shiftLeft_eq]; omega), Nat.or_comm, Nat.shiftLeft_eq, Nat.mul_comm hi.toNat,
    ← Nat.two_pow_add_eq_or_of_lt h1]
  omega

theorem join_spec (k : ℕ) : ∀ b : Limbs32.Arr, b.length = 2 * k →
    (join b).length = k ∧ Limbs.val (join b) = Limbs32.val b := by
  induction k with
  | zero =>
    intro b hb
    rw [List.length_eq_zero_iff.1 (by omega : b.length = 0)]
    exact ⟨rfl, rfl⟩
  | succ k ih =>
    intro b hb
    match b, hb with
    | lo :: hi :: r, hb =>
      obtain ⟨h1, h2⟩ := ih r (by simp only [List.length_cons] at hb; omega)
      refine ⟨by rw [join, List.length_cons, h1], ?_⟩
      rw [join, Limbs.val, Limbs32.val, Limbs32.val, h2, join_val1]
      ring

/-- Two arrays of the same memory size and the same value are the same memory. -/
theorem join_eq (b : Limbs32.Arr) (a : Arr) (hl : b.length = 2 * a.length)
    (hv : Limbs32.val b = Limbs.val a) : join b = a := by
  obtain ⟨h1, h2⟩ := join_spec a.length b hl
  exact Limbs.val_inj _ _ h1 (h2.trans hv)

theorem join_split (a : Arr) : join (split a) = a := join_eq _ _ (split_length a) (split_val a)

theorem split_take (a : Arr) (k : ℕ) : (split a).take (2 * k) = split (a.take k) := by
  induction a generalizing k with
  | nil => simp [split_nil]
  | cons x a ih =>
    cases k with
    | zero => rfl
    | succ k =>
      rw [split_cons, show 2 * (k + 1) = 2 * k + 1 + 1 by ring, List.take_succ_cons, List.take_succ_cons,
        List.take_succ_cons, split_cons, ih]

theorem bits_eq (n : ℕ) : 2 ^ (32 * (2 * n)) = 2 ^ (64 * n) := by
  congr 1; ring

theorem R_eq (n : ℕ) : Hacl32.R (2 * n) = Hacl.R n := bits_eq n

theorem toUInt64_eq (c : UInt32) (d : UInt64) (h : c.toNat = d.toNat) : c.toUInt64 = d :=
  UInt64.toNat_inj.1 (by rw [UInt32.toNat_toUInt64, h])

theorem oddMod_split (n : Arr) : Limbs32.OddMod (split n) ↔ Limbs.OddMod n := by
  unfold Limbs32.OddMod Limbs.OddMod
  rw [split_val]

theorem ctx32 {n : Arr} (hn : Limbs.OddMod n) (hl : n.length ≤ 2 ^ 23) :
    (Limbs32.ctxInit (split n)).Good :=
  ((oddMod_split n).2 hn).ctx (by rw [split_length]; omega)

/-! ## Reduction to Montgomery form and back -/

/-- What `reduction` computes does not depend on the width of the limbs. -/
theorem reduction_eq (k n mu mu' c : ℕ) (hn : Hacl.GoodMod k n)
    (h1 : (mu * (n % 2 ^ 64) + 1) % 2 ^ 64 = 0) (h2 : (mu' * (n % 2 ^ 32) + 1) % 2 ^ 32 = 0)
    (hc : c ≤ n * Hacl.R k) :
    Hacl32.reduction (2 * k) n mu' c = Hacl.reduction k n mu c := by
  have hn' : Hacl32.GoodMod (2 * k) n := ⟨hn.odd, hn.gt, by rw [R_eq]; exact hn.lt⟩
  obtain ⟨a1, a2⟩ := Hacl.reduction_spec k n mu c hn h1 hc
  obtain ⟨b1, b2⟩ := Hacl32.reduction_spec (2 * k) n mu' c hn' h2 (by rw [R_eq]; exact hc)
  rw [R_eq] at b2
  have hu := Hacl.R_unit hn
  have := hu.mul_right_cancel (b2.trans a2.symm)
  have h := (ZMod.natCast_eq_natCast_iff' _ _ _).1 this
  rwa [Nat.mod_eq_of_lt a1, Nat.mod_eq_of_lt b1] at h

theorem toMont_same {n : Arr} (hn : Limbs.OddMod n) (hl : n.length ≤ 2 ^ 23) (a : Arr)
    (ha : a.length = n.length) : windows.toMont n a = unix.toMont n a := by
  have hg := hn.ctx (by omega : n.length ≤ 2 ^ 24)
  have hg' := ctx32 hn hl
  obtain ⟨a1, a2⟩ := Limbs.toMont_val (Limbs.ctxInit n) hg a ha
  obtain ⟨b1, b2⟩ := Limbs32.toMont_val (Limbs32.ctxInit (split n)) hg' (split a)
    (by rw [split_length, ha]; exact (split_length n).symm)
  have e1 : (Limbs.ctxInit n).n = n := rfl
  have e2 : (Limbs32.ctxInit (split n)).n = split n := rfl
  rw [e1] at a1 a2
  rw [e2] at b1 b2
  have hr : Limbs32.val (Limbs32.ctxInit (split n)).r2 = Limbs.val (Limbs.ctxInit n).r2 := by
    have h1 := hg.good.r2
    have h2 := hg'.good.r2
    have h1' : Limbs.val (Limbs.ctxInit n).r2 = Hacl.R n.length * Hacl.R n.length % Limbs.val n := h1
    have h2' : Limbs32.val (Limbs32.ctxInit (split n)).r2 =
      Hacl32.R (split n).length * Hacl32.R (split n).length % Limbs32.val (split n) := h2
    rw [h1', h2', split_length, R_eq, split_val]
  have hlt : Limbs.val (Limbs.ctxInit n).r2 < Limbs.val n := Hacl.r2_lt hg.good
  have hal := Limbs.val_lt a
  rw [ha] at hal
  refine join_eq _ _ ?_ ?_
  · show (Limbs32.toMont _ _).length = 2 * (Limbs.toMont _ _).length
    rw [a1, b1, split_length]
  · show Limbs32.val (Limbs32.toMont _ _) = Limbs.val (Limbs.toMont _ _)
    have m2 : ((Limbs32.ctxInit (split n)).mu.toNat * (Limbs32.val (split n) % 2 ^ 32) + 1) % 2 ^ 32 = 0 :=
      hg'.good.mu
    rw [split_val] at m2
    rw [a2, b2, split_length, split_val, split_val, hr]
    exact reduction_eq _ _ _ _ _ hn.good hg.good.mu m2
      (by rw [Nat.mul_comm]; exact Nat.mul_le_mul hlt.le hal.le)

theorem fromMont_same {n : Arr} (hn : Limbs.OddMod n) (hl : n.length ≤ 2 ^ 23) (a : Arr)
    (ha : a.length = n.length) : windows.fromMont n a = unix.fromMont n a := by
  have hg := hn.ctx (by omega : n.length ≤ 2 ^ 24)
  have hg' := ctx32 hn hl
  obtain ⟨a1, a2⟩ := Limbs.fromMont_val (Limbs.ctxInit n) hg a ha
  obtain ⟨b1, b2⟩ := Limbs32.fromMont_val (Limbs32.ctxInit (split n)) hg' (split a)
    (by rw [split_length, ha]; exact (split_length n).symm)
  have e1 : (Limbs.ctxInit n).n = n := rfl
  have e2 : (Limbs32.ctxInit (split n)).n = split n := rfl
  rw [e1] at a1 a2
  rw [e2] at b1 b2
  have hal := Limbs.val_lt a
  rw [ha] at hal
  refine join_eq _ _ ?_ ?_
  · show (Limbs32.fromMont _ _).length = 2 * (Limbs.fromMont _ _).length
    rw [a1, b1, split_length]
  · show Limbs32.val (Limbs32.fromMont _ _) = Limbs.val (Limbs.fromMont _ _)
    have m2 : ((Limbs32.ctxInit (split n)).mu.toNat * (Limbs32.val (split n) % 2 ^ 32) + 1) % 2 ^ 32 = 0 :=
      hg'.good.mu
    rw [split_val] at m2
    rw [a2, b2, split_length, split_val, split_val]
    refine reduction_eq _ _ _ _ _ hn.good hg.good.mu m2 ?_
    have := hn.2
    unfold Hacl.R
    calc Limbs.val a ≤ 1 * 2 ^ (64 * n.length) := by omega
      _ ≤ _ := Nat.mul_le_mul_right _ (by omega)

theorem montMul_same {n : Arr} (hn : Limbs.OddMod n) (hl : n.length ≤ 2 ^ 23) (a b : Arr)
    (ha : a.length = n.length) (hb : b.length = n.length)
    (hab : Limbs.val a * Limbs.val b ≤ Limbs.val n * 2 ^ (64 * n.length)) :
    windows.montMul n a b = unix.montMul n a b := by
  have hg := hn.ctx (by omega : n.length ≤ 2 ^ 24)
  have hg' := ctx32 hn hl
  obtain ⟨m1, m2⟩ := Limbs.mulFull_spec a b (by omega)
  obtain ⟨w1, w2⟩ := Limbs32.mulFull_spec (split a) (split b) (by rw [split_length, split_length]; omega)
  rw [split_length, split_length] at w1
  rw [split_val, split_val] at w2
  have gm2 : ((Limbs32.ctxInit (split n)).mu.toNat * (Limbs32.val (split n) % 2 ^ 32) + 1) % 2 ^ 32 = 0 :=
    hg'.good.mu
  obtain ⟨r1, r2⟩ := Limbs.reduction_val n (Limbs.mulFull a b) (Limbs.ctxInit n).mu (by omega) hn.good
    hg.good.mu (by rw [m2]; exact hab)
  obtain ⟨s1, s2⟩ := Limbs32.reduction_val (split n) (Limbs32.mulFull (split a) (split b))
    (Limbs32.ctxInit (split n)).mu (by rw [w1, split_length]; omega) ((oddMod_split n).2 hn).good
    gm2 (by rw [w2, split_val, split_length, R_eq]; exact hab)
  refine join_eq _ _ ?_ ?_
  · show (Limbs32.reduction _ _ _).length = 2 * (Limbs.reduction _ _ _).length
    refine s1.trans ?_
    rw [split_length]
    exact congrArg (2 * ·) r1.symm
  · show Limbs32.val (Limbs32.reduction _ _ _) = Limbs.val (Limbs.reduction _ _ _)
    refine s2.trans (Eq.trans ?_ r2.symm)
    rw [split_val] at gm2
    rw [split_length, split_val, w2, m2]
    exact reduction_eq _ _ _ _ _ hn.good hg.good.mu gm2 hab

end EG.Win
