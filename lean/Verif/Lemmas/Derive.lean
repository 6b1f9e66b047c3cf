import Verif.Spec.Oracle
import Verif.Spec.Freq
import Mathlib.Data.Fintype.BigOperators
import Mathlib.Algebra.BigOperators.Ring.Finset
import Mathlib.Algebra.Order.BigOperators.Group.Finset
import Mathlib.Logic.Function.Basic
import Mathlib.Algebra.Group.Action.Defs
import Mathlib.Algebra.Module.NatInt
import Mathlib.Logic.Equiv.Prod
import Mathlib.SetTheory.Cardinal.Finite
import Mathlib.Algebra.Order.Field.Rat
import Mathlib.Algebra.Order.Field.Basic
import Mathlib.Tactic.FieldSimp
import Mathlib.Tactic.Linarith

/-!
# Values computed from a random function, and fresh ones

Answers of a function at places that depend on other answers: over all functions they can be exchanged for fresh values,
except where two of the places coincide or one of them is asked for elsewhere.
-/

namespace EG.Derive

open Classical

variable {ι X A : Type} [Fintype ι] [Fintype X] [Fintype A] [DecidableEq ι] [DecidableEq X]

/-- Over all functions: overwriting the values at different places meets each function with the new values equally
often. -/
theorem sum_extend (x : ι → X) (hx : Function.Injective x) (v : ι → A) (f : (X → A) → ℕ) :
    ∑ O, f (Function.extend x v O) =
      Fintype.card (ι → A) * ∑ O ∈ Finset.univ.filter (fun O : X → A => ∀ i, O (x i) = v i), f O := by
  have h1 : Fintype.card (ι → A) * ∑ O ∈ Finset.univ.filter (fun O : X → A => ∀ i, O (x i) = v i), f O =
      ∑ p ∈ Finset.univ.filter (fun O : X → A => ∀ i, O (x i) = v i) ×ˢ (Finset.univ : Finset (ι → A)), f p.1 := by
    rw [Finset.sum_product, Finset.mul_sum]
    refine Finset.sum_congr rfl fun O _ => ?_
    dsimp only
    rw [Finset.sum_const, Finset.card_univ, smul_eq_mul]
  rw [h1]
  refine Finset.sum_nbij' (fun O => (Function.extend x v O, O ∘ x)) (fun p => Function.extend x p.2 p.1) ?_ ?_ ?_ ?_ ?_
  · intro O _
    simp only [Finset.mem_product, Finset.mem_filter, Finset.mem_univ, true_and, and_true]
    exact fun i => hx.extend_apply _ _ _
  · intro p _
    exact Finset.mem_univ _
  · intro O _
    funext s
    by_cases h : ∃ i, x i = s
    · obtain ⟨i, rfl⟩ := h
      rw [hx.extend_apply]
      rfl
    · dsimp only
      rw [Function.extend_apply' _ _ _ h, Function.extend_apply' _ _ _ h]
  · rintro ⟨O, z⟩ hp
    simp only [Finset.mem_product, Finset.mem_filter, Finset.mem_univ, true_and, and_true] at hp
    refine Prod.ext ?_ ?_
    · funext s
      by_cases h : ∃ i, x i = s
      · obtain ⟨i, rfl⟩ := h
        dsimp only
        rw [hx.extend_apply, hp i]
      · dsimp only
        rw [Function.extend_apply' _ _ _ h, Function.extend_apply' _ _ _ h]
    · funext i
      exact hx.extend_apply _ _ _
  · intro O _
    rfl

/-- The values that a function gives, over all functions for which the places are different, are exchanged for fresh
ones that are written into the function. -/
theorem exchange (str : (ι → A) → ι → X) (V : (X → A) → ι → A)
    (hV : ∀ O v, (∀ i, O (str v i) = v i) ↔ v = V O) (F : (X → A) → (ι → A) → ℕ) :
    Fintype.card (ι → A) * ∑ O, (if Function.Injective (str (V O)) then F O (V O) else 0) =
      ∑ v, if Function.Injective (str v) then ∑ O, F (Function.extend (str v) v O) v else 0 := by
  have h1 : ∀ v, (if Function.Injective (str v) then ∑ O, F (Function.extend (str v) v O) v else 0) =
      Fintype.card (ι → A) * ∑ O, if v = V O then (if Function.Injective (str v) then F O v else 0) else 0 := by
    intro v
    split
    · rename_i hi
      rw [sum_extend (str v) hi v (fun O => F O v), Finset.sum_filter]
      congr 1
      refine Finset.sum_congr rfl fun O _ => ?_
      rw [if_congr (hV O v) rfl rfl]
    · simp
  rw [Finset.sum_congr rfl fun v _ => h1 v, ← Finset.mul_sum, Finset.sum_comm]
  congr 1
  refine Finset.sum_congr rfl fun O _ => ?_
  rw [Finset.sum_ite_eq' Finset.univ (V O), if_pos (Finset.mem_univ _)]

theorem exchange_bound (str : (ι → A) → ι → X) (V : (X → A) → ι → A)
    (hV : ∀ O v, (∀ i, O (str v i) = v i) ↔ v = V O) (F : (X → A) → (ι → A) → ℕ) (hF : ∀ O v, F O v ≤ 1)
    (bad : (X → A) → (ι → A) → Prop)
    (hb : ∀ O v, Function.Injective (str v) → ¬ bad O v → F (Function.extend (str v) v O) v = F O v) :
    (Fintype.card (ι → A) * ∑ O, F O (V O) ≤ ∑ v, ∑ O, F O v +
      ∑ v, ∑ O, if ¬ Function.Injective (str v) ∨ bad O v then 1 else 0) ∧
    ∑ v, ∑ O, F O v ≤ Fintype.card (ι → A) * ∑ O, F O (V O) +
      ∑ v, ∑ O, if ¬ Function.Injective (str v) ∨ bad O v then 1 else 0 := by
  have split : ∑ O, F O (V O) = ∑ O, (if Function.Injective (str (V O)) then F O (V O) else 0) +
      ∑ O, (if Function.Injective (str (V O)) then 0 else F O (V O)) := by
    rw [← Finset.sum_add_distrib]
    refine Finset.sum_congr rfl fun O _ => ?_
    split <;> simp
  have e1 := exchange str V hV F
  have e2 := exchange str V hV (fun _ _ => 1)
  -- the functions for which places coincide
  have e3 : Fintype.card (ι → A) * ∑ O, (if Function.Injective (str (V O)) then 0 else 1) =
      ∑ v, if Function.Injective (str v) then 0 else ∑ _O : X → A, 1 := by
    have t1 : Fintype.card (ι → A) * ∑ O : X → A, (if Function.Injective (str (V O)) then 1 else 0) +
        Fintype.card (ι → A) * ∑ O, (if Function.Injective (str (V O)) then 0 else 1) =
        Fintype.card (ι → A) * Fintype.card (X → A) := by
      rw [← Nat.mul_add, ← Finset.sum_add_distrib]
      congr 1
      rw [← Finset.card_univ, Finset.card_eq_sum_ones]
      refine Finset.sum_congr rfl fun O _ => ?_
      split <;> simp
    have t2 : (∑ v, if Function.Injective (str v) then ∑ _O : X → A, 1 else 0) +
        (∑ v, if Function.Injective (str v) then 0 else ∑ _O : X → A, 1) =
        Fintype.card (ι → A) * Fintype.card (X → A) := by
      rw [← Finset.sum_add_distrib]
      have : ∀ v, ((if Function.Injective (str v) then ∑ _O : X → A, 1 else 0) +
        (if Function.Injective (str v) then 0 else ∑ _O : X → A, 1)) = Fintype.card (X → A) := by
        intro v
        split <;> simp
      rw [Finset.sum_congr rfl fun v _ => this v, Finset.sum_const, Finset.card_univ, smul_eq_mul]
    omega
  have e4 : Fintype.card (ι → A) * ∑ O, (if Function.Injective (str (V O)) then 0 else F O (V O)) ≤
      ∑ v, if Function.Injective (str v) then 0 else ∑ _O : X → A, 1 := by
    rw [← e3]
    refine Nat.mul_le_mul_left _ (Finset.sum_le_sum fun O _ => ?_)
    split
    · exact le_refl _
    · exact hF _ _
  constructor
  · rw [split, Nat.mul_add, e1]
    refine (Nat.add_le_add_left e4 _).trans ?_
    rw [← Finset.sum_add_distrib, ← Finset.sum_add_distrib]
    refine Finset.sum_le_sum fun v _ => ?_
    by_cases hi : Function.Injective (str v)
    · rw [if_pos hi, if_pos hi, Nat.add_zero, ← Finset.sum_add_distrib]
      refine Finset.sum_le_sum fun O _ => ?_
      by_cases h : bad O v
      · rw [if_pos (Or.inr h)]
        exact (hF _ _).trans (Nat.le_add_left _ _)
      · rw [hb O v hi h]
        exact Nat.le_add_right _ _
    · rw [if_neg hi, if_neg hi, Nat.zero_add]
      refine le_trans ?_ (Nat.le_add_left _ _)
      refine Finset.sum_le_sum fun O _ => ?_
      rw [if_pos (Or.inl hi)]
  · rw [split, Nat.mul_add, e1]
    refine le_trans ?_ (Nat.add_le_add_right (Nat.le_add_right _ _) _)
    rw [← Finset.sum_add_distrib]
    refine Finset.sum_le_sum fun v _ => ?_
    by_cases hi : Function.Injective (str v)
    · rw [if_pos hi, ← Finset.sum_add_distrib]
      refine Finset.sum_le_sum fun O _ => ?_
      by_cases h : bad O v
      · rw [if_pos (Or.inr h)]
        exact (hF _ _).trans (Nat.le_add_left _ _)
      · rw [hb O v hi h]
        exact Nat.le_add_right _ _
    · rw [if_neg hi, Nat.zero_add]
      refine Finset.sum_le_sum fun O _ => ?_
      rw [if_pos (Or.inl hi)]
      exact hF _ _

/-- If at most `β` values of one coordinate are bad, whatever the others are, then a part of `β` in the number of
values is bad. -/
theorem count_coord (j : ι) (P : (ι → A) → Prop) (β : ℕ)
    (h : ∀ v, (Finset.univ.filter (fun y => P (Function.update v j y))).card ≤ β) :
    (∑ v, if P v then 1 else 0) * Fintype.card A ≤ β * Fintype.card (ι → A) := by
  have h1 : (∑ v : ι → A, if P v then 1 else 0) * Fintype.card A =
      ∑ p : (ι → A) × A, if P p.1 then 1 else 0 := by
    rw [Fintype.sum_prod_type, Finset.sum_mul]
    refine Finset.sum_congr rfl fun v _ => ?_
    by_cases hP : P v <;> simp [hP]
  have h2 : ∑ p : (ι → A) × A, (if P p.1 then 1 else 0) =
      ∑ p : (ι → A) × A, if P (Function.update p.1 j p.2) then 1 else 0 := by
    refine Finset.sum_nbij' (fun p => (Function.update p.1 j p.2, p.1 j)) (fun p => (Function.update p.1 j p.2, p.1 j))
      (fun _ _ => Finset.mem_univ _) (fun _ _ => Finset.mem_univ _) ?_ ?_ ?_
    · rintro ⟨v, y⟩ _; simp
    · rintro ⟨v, y⟩ _; simp
    · rintro ⟨v, y⟩ _; simp
  rw [h1, h2, Fintype.sum_prod_type, Nat.mul_comm, ← Finset.card_univ, Finset.card_eq_sum_ones, Finset.sum_mul]
  refine Finset.sum_le_sum fun v _ => ?_
  rw [← Finset.card_filter, Nat.one_mul]
  exact h v

/-- A sum over functions on two kinds of places, if only one kind matters. -/
theorem sum_inr {κ : Type} [Fintype κ] [DecidableEq κ] (f : (κ → A) → ℕ) :
    ∑ v : ι ⊕ κ → A, f (v ∘ Sum.inr) = Fintype.card (ι → A) * ∑ y, f y := by
  rw [Fintype.sum_equiv (Equiv.sumArrowEquivProdArrow ι κ A) (fun v => f (v ∘ Sum.inr)) (fun p => f p.2) (fun _ => rfl),
    Fintype.sum_prod_type]
  dsimp only
  rw [Finset.sum_const, Finset.card_univ, smul_eq_mul]

/-- How many elements something holds for. -/
noncomputable def cnt {Ω : Type} [Fintype Ω] (P : Ω → Prop) : ℕ := ∑ n, if P n then 1 else 0

theorem cnt_eq {Ω : Type} [Fintype Ω] (P : Ω → Prop) [DecidablePred P] : cnt P = (Finset.univ.filter P).card := by
  rw [cnt, Finset.card_filter]
  exact Finset.sum_congr rfl fun n _ => by congr

theorem cnt_coord (j : ι) (P : (ι → A) → Prop) (β : ℕ) (h : ∀ v, cnt (fun y => P (Function.update v j y)) ≤ β) :
    cnt P * Fintype.card A ≤ β * Fintype.card (ι → A) := by
  refine count_coord j P β fun v => ?_
  rw [← cnt_eq]
  exact h v

theorem cnt_exists {κ Ω : Type} [Fintype κ] [Fintype Ω] (P : κ → Ω → Prop) (m β T : ℕ)
    (h : ∀ i, cnt (P i) * m ≤ β * T) : cnt (fun n => ∃ i, P i n) * m ≤ Fintype.card κ * β * T := by
  obtain ⟨Q, hQ⟩ : ∃ Q : Ω → Prop, Q = fun n => ∃ i, P i n := ⟨_, rfl⟩
  rw [← hQ]
  have h1 : ∑ n, (if Q n then 1 else 0) ≤ ∑ i, ∑ n, if P i n then 1 else 0 := by
    rw [Finset.sum_comm]
    refine Finset.sum_le_sum fun n _ => ?_
    by_cases hn : Q n
    · obtain ⟨i, hi⟩ := (congrFun hQ n).mp hn
      refine le_trans ?_ (Finset.single_le_sum (fun i _ => Nat.zero_le _) (Finset.mem_univ i))
      rw [if_pos hi, if_pos hn]
    · rw [if_neg hn]
      exact Nat.zero_le _
  refine (Nat.mul_le_mul_right m h1).trans ?_
  rw [Finset.sum_mul]
  refine (Finset.sum_le_sum fun i _ => h i).trans_eq ?_
  rw [Finset.sum_const, Finset.card_univ, smul_eq_mul, mul_assoc]

/-! ## Frequencies -/

theorem freq_prod {Ω Y : Type} [Fintype Ω] [Fintype Y] (P : Ω × Y → Prop) :
    freq P = ((∑ n, ∑ O, if P (n, O) then 1 else 0 : ℕ) : ℚ) / (Fintype.card Ω * Fintype.card Y) := by
  unfold freq
  rw [Nat.card_eq_fintype_card, Nat.card_eq_fintype_card, Fintype.card_subtype, Fintype.card_prod, Finset.card_filter,
    Fintype.sum_prod_type, Nat.cast_mul]

theorem exchange_freq {Ω Y A H Lf : Type} [Fintype Ω] [Fintype Y] [Fintype A] [Fintype H] [Fintype Lf] [Nonempty Ω]
    [Nonempty A] [DecidableEq Y] [DecidableEq H] [DecidableEq Lf] (str : Ω → (H ⊕ Lf → A) → H ⊕ Lf → Y) (V : Ω → (Y → A) → H ⊕ Lf → A)
    (hV : ∀ n O v, (∀ i, O (str n v i) = v i) ↔ v = V n O) (run : (Lf → A) → (Y → A) → Prop)
    (bad1 : Ω → (Y → A) → (Lf → A) → Prop) (bad2 : (Y → A) → (H ⊕ Lf → A) → Prop) (coll : (H ⊕ Lf → A) → Prop)
    (hb : ∀ n O v, Function.Injective (str n v) → ¬ bad1 n O (v ∘ Sum.inr) → ¬ bad2 O v →
      (run (v ∘ Sum.inr) (Function.extend (str n v) v O) ↔ run (v ∘ Sum.inr) O))
    (hi : ∀ n v, ¬ Function.Injective (str n v) → coll v) (M N β₁ β₂ β₃ : ℕ) (hM : 0 < M) (hN : 0 < N)
    (h1 : ∀ O y, cnt (fun n => bad1 n O y) * M ≤ β₁ * Fintype.card Ω)
    (h2 : ∀ O, cnt (bad2 O) * N ≤ β₂ * Fintype.card (H ⊕ Lf → A))
    (h3 : cnt coll * N ≤ β₃ * Fintype.card (H ⊕ Lf → A)) :
    |freq (fun p : Ω × (Y → A) => run (V p.1 p.2 ∘ Sum.inr) p.2) - freq (fun p : (Lf → A) × (Y → A) => run p.1 p.2)| ≤
      (β₁ : ℚ) / M + (β₂ + β₃) / N := by
  obtain ⟨Q, hQ⟩ : ∃ Q : Ω → (Y → A) → (H ⊕ Lf → A) → Prop, ∀ n O v,
      Q n O v ↔ ¬ Function.Injective (str n v) ∨ bad1 n O (v ∘ Sum.inr) ∨ bad2 O v := ⟨_, fun _ _ _ => Iff.rfl⟩
  have e := fun n => exchange_bound (str n) (V n) (hV n) (fun O v => if run (v ∘ Sum.inr) O then 1 else 0)
    (by intro O v; split <;> simp) (fun O v => bad1 n O (v ∘ Sum.inr) ∨ bad2 O v)
    (by
      intro O v hinj hbad
      rw [not_or] at hbad
      rw [if_congr (hb n O v hinj hbad.1 hbad.2) rfl rfl])
  have hq : ∀ n, (∑ v, ∑ O, if ¬ Function.Injective (str n v) ∨ bad1 n O (v ∘ Sum.inr) ∨ bad2 O v then 1 else 0) =
      ∑ v, ∑ O, if Q n O v then 1 else 0 := fun n =>
    Finset.sum_congr rfl fun v _ => Finset.sum_congr rfl fun O _ => if_congr (hQ n O v).symm rfl rfl
  replace e : ∀ n, (Fintype.card (H ⊕ Lf → A) * ∑ O : Y → A, (if run (V n O ∘ Sum.inr) O then 1 else 0) ≤
      ∑ v : H ⊕ Lf → A, ∑ O : Y → A, (if run (v ∘ Sum.inr) O then 1 else 0) + ∑ v : H ⊕ Lf → A, ∑ O : Y → A, if Q n O v then 1 else 0) ∧
      ∑ v : H ⊕ Lf → A, ∑ O : Y → A, (if run (v ∘ Sum.inr) O then 1 else 0) ≤
        Fintype.card (H ⊕ Lf → A) * ∑ O : Y → A, (if run (V n O ∘ Sum.inr) O then 1 else 0) +
        ∑ v : H ⊕ Lf → A, ∑ O : Y → A, if Q n O v then 1 else 0 := by
    intro n
    rw [← hq n]
    convert e n
  have hI : ∑ v : H ⊕ Lf → A, ∑ O : Y → A, (if run (v ∘ Sum.inr) O then 1 else 0) =
      Fintype.card (H → A) * ∑ y : Lf → A, ∑ O : Y → A, if run y O then 1 else 0 :=
    sum_inr (fun y => ∑ O : Y → A, if run y O then 1 else 0)
  rw [hI] at e
  set J := ∑ y : Lf → A, ∑ O : Y → A, if run y O then 1 else 0 with hJ
  set R := ∑ n : Ω, ∑ O : Y → A, if run (V n O ∘ Sum.inr) O then 1 else 0 with hR
  set Bn := ∑ n : Ω, ∑ v : H ⊕ Lf → A, ∑ O : Y → A, if Q n O v then 1 else 0 with hBn
  have s1 : Fintype.card (H ⊕ Lf → A) * R ≤ Fintype.card Ω * (Fintype.card (H → A) * J) + Bn := by
    rw [hR, hBn, Finset.mul_sum]
    refine (Finset.sum_le_sum fun n _ => (e n).1).trans_eq ?_
    rw [Finset.sum_add_distrib, Finset.sum_const, Finset.card_univ, smul_eq_mul]
  have s2 : Fintype.card Ω * (Fintype.card (H → A) * J) ≤ Fintype.card (H ⊕ Lf → A) * R + Bn := by
    have := Finset.sum_le_sum fun (n : Ω) (_ : n ∈ Finset.univ) => (e n).2
    rw [Finset.sum_add_distrib, Finset.sum_const, Finset.card_univ, smul_eq_mul, ← Finset.mul_sum] at this
    exact this
  have s3 : Bn ≤ (∑ n : Ω, ∑ v : H ⊕ Lf → A, ∑ O : Y → A, if coll v then 1 else 0) +
      (∑ n : Ω, ∑ v : H ⊕ Lf → A, ∑ O : Y → A, if bad1 n O (v ∘ Sum.inr) then 1 else 0) +
      ∑ n : Ω, ∑ v : H ⊕ Lf → A, ∑ O : Y → A, if bad2 O v then 1 else 0 := by
    rw [hBn]
    simp only [← Finset.sum_add_distrib]
    refine Finset.sum_le_sum fun n _ => Finset.sum_le_sum fun v _ => Finset.sum_le_sum fun O _ => ?_
    rw [if_congr (hQ n O v) rfl rfl]
    by_cases c1 : Function.Injective (str n v)
    · by_cases c2 : bad1 n O (v ∘ Sum.inr) <;> by_cases c3 : bad2 O v <;> simp [c1, c2, c3]
    · rw [if_pos (Or.inl c1), if_pos (hi n v c1)]
      omega
  set T := Fintype.card Ω * Fintype.card (H ⊕ Lf → A) * Fintype.card (Y → A) with hT
  have t3 : (∑ n : Ω, ∑ v : H ⊕ Lf → A, ∑ O : Y → A, if coll v then 1 else 0) * N ≤ β₃ * T := by
    have : (∑ n : Ω, ∑ v : H ⊕ Lf → A, ∑ O : Y → A, if coll v then 1 else 0 : ℕ) =
        Fintype.card Ω * (Fintype.card (Y → A) * ∑ v : H ⊕ Lf → A, if coll v then 1 else 0) := by
      rw [Finset.sum_const, Finset.card_univ, smul_eq_mul]
      refine congrArg _ ?_
      rw [Finset.mul_sum]
      refine Finset.sum_congr rfl fun v _ => ?_
      rw [Finset.sum_const, Finset.card_univ, smul_eq_mul]
    rw [this, hT]
    calc _ = Fintype.card Ω * Fintype.card (Y → A) * ((∑ v : H ⊕ Lf → A, if coll v then 1 else 0) * N) := by ring
      _ ≤ Fintype.card Ω * Fintype.card (Y → A) * (β₃ * Fintype.card (H ⊕ Lf → A)) := Nat.mul_le_mul_left _ h3
      _ = _ := by ring
  have t2 : (∑ n : Ω, ∑ v : H ⊕ Lf → A, ∑ O : Y → A, if bad2 O v then 1 else 0) * N ≤ β₂ * T := by
    rw [Finset.sum_const, Finset.card_univ, smul_eq_mul, Finset.sum_comm, mul_assoc, Finset.sum_mul, hT]
    calc _ ≤ Fintype.card Ω * ∑ O : Y → A, β₂ * Fintype.card (H ⊕ Lf → A) :=
          Nat.mul_le_mul_left _ (Finset.sum_le_sum fun O _ => h2 O)
      _ = _ := by rw [Finset.sum_const, Finset.card_univ, smul_eq_mul]; ring
  have t1 : (∑ n : Ω, ∑ v : H ⊕ Lf → A, ∑ O : Y → A, if bad1 n O (v ∘ Sum.inr) then 1 else 0) * M ≤ β₁ * T := by
    rw [Finset.sum_comm, Finset.sum_mul, hT]
    calc _ ≤ ∑ v : H ⊕ Lf → A, ∑ O : Y → A, β₁ * Fintype.card Ω := by
          refine Finset.sum_le_sum fun v _ => ?_
          rw [Finset.sum_comm, Finset.sum_mul]
          exact Finset.sum_le_sum fun O _ => h1 O _
      _ = _ := by
        rw [Finset.sum_const, Finset.sum_const, Finset.card_univ, Finset.card_univ, smul_eq_mul, smul_eq_mul]; ring
  have hc : Fintype.card (H ⊕ Lf → A) = Fintype.card (H → A) * Fintype.card (Lf → A) := by
    rw [Fintype.card_congr (Equiv.sumArrowEquivProdArrow H Lf A), Fintype.card_prod]
  have pΩ : (0 : ℚ) < Fintype.card Ω := by exact_mod_cast Fintype.card_pos
  have pH : (0 : ℚ) < Fintype.card (H → A) := by exact_mod_cast Fintype.card_pos
  have pL : (0 : ℚ) < Fintype.card (Lf → A) := by exact_mod_cast Fintype.card_pos
  have pY : (0 : ℚ) < Fintype.card (Y → A) := by exact_mod_cast Fintype.card_pos
  rw [freq_prod, freq_prod]
  change |((R : ℕ) : ℚ) / _ - ((J : ℕ) : ℚ) / _| ≤ _
  generalize (Fintype.card Ω) = cΩ at *
  rw [hc] at *
  generalize (Fintype.card (H → A)) = cH at *
  generalize (Fintype.card (Lf → A)) = cL at *
  generalize (Fintype.card (Y → A)) = cY at *
  generalize hS1 : (∑ n : Ω, ∑ v : H ⊕ Lf → A, ∑ O : Y → A, if bad1 n O (v ∘ Sum.inr) then 1 else 0) = S1 at *
  generalize hS2 : (∑ n : Ω, ∑ v : H ⊕ Lf → A, ∑ O : Y → A, if bad2 O v then 1 else 0) = S2 at *
  generalize hS3 : (∑ n : Ω, ∑ v : H ⊕ Lf → A, ∑ O : Y → A, if coll v then 1 else 0) = S3 at *
  clear_value T J R Bn
  clear hS1 hS2 hS3 e hI hJ hR hBn h1 h2 h3 hb hi hV
  have qM : (0 : ℚ) < M := by exact_mod_cast hM
  have qN : (0 : ℚ) < N := by exact_mod_cast hN
  have qT : (0 : ℚ) < T := by rw [hT]; push_cast; positivity
  have u1 : (S1 : ℚ) / T ≤ β₁ / M := by rw [div_le_div_iff₀ qT qM]; exact_mod_cast t1
  have u2 : (S2 : ℚ) / T ≤ β₂ / N := by rw [div_le_div_iff₀ qT qN]; exact_mod_cast t2
  have u3 : (S3 : ℚ) / T ≤ β₃ / N := by rw [div_le_div_iff₀ qT qN]; exact_mod_cast t3
  have ub : (Bn : ℚ) / T ≤ β₁ / M + (β₂ + β₃) / N := by
    have : (Bn : ℚ) / T ≤ ((S3 + S1 + S2 : ℕ) : ℚ) / T := div_le_div_of_nonneg_right (by exact_mod_cast s3) qT.le
    push_cast at this
    rw [add_div, add_div] at this
    rw [add_div]
    linarith
  refine le_trans ?_ ub
  have x1 : (R : ℚ) / (cΩ * cY) = (cH * cL * R) / T := by
    rw [hT]; push_cast; field_simp
  have x2 : (J : ℚ) / (cL * cY) = (cΩ * (cH * J)) / T := by
    rw [hT]; push_cast; field_simp
  rw [x1, x2, ← sub_div, abs_div, abs_of_pos qT]
  refine div_le_div_of_nonneg_right ?_ qT.le
  have v1 : ((cH * cL * R : ℕ) : ℚ) ≤ ((cΩ * (cH * J) + Bn : ℕ) : ℚ) := by exact_mod_cast s1
  have v2 : ((cΩ * (cH * J) : ℕ) : ℚ) ≤ ((cH * cL * R + Bn : ℕ) : ℚ) := by exact_mod_cast s2
  push_cast at v1 v2
  rw [abs_le]
  constructor <;> linarith

/-! ## Programs -/

variable {α : Type}

theorem run_congr {H H' : List Char → ℕ} : ∀ {n : ℕ} (P : Prog α n), (∀ s ∈ P.asked H, H s = H' s) →
    P.run H = P.run H'
  | _, .done _, _ => rfl
  | _, .ask s k, h => by
    have h1 : H s = H' s := h s (by simp [Prog.asked])
    rw [Prog.run, Prog.run, ← h1]
    exact run_congr (k (H s)) fun t ht => h t (by simp [Prog.asked, ht])

theorem asked_length {H : List Char → ℕ} : ∀ {n : ℕ} (P : Prog α n), (P.asked H).length ≤ n
  | _, .done _ => Nat.zero_le _
  | _, .ask s k => by
    rw [Prog.asked, List.length_cons]
    exact Nat.succ_le_succ (asked_length (k (H s)))

end EG.Derive
