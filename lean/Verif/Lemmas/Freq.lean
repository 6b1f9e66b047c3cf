import Verif.Lemmas.Derive
import Mathlib.Algebra.Order.Ring.Pow
import Mathlib.Algebra.BigOperators.Field

/-!
# Frequencies
-/

namespace EG

theorem freq_eq {α : Type} [Fintype α] (P : α → Prop) : freq P = (Derive.cnt P : ℚ) / Fintype.card α := by
  classical
  unfold freq
  rw [Nat.card_eq_fintype_card, Nat.card_eq_fintype_card, Fintype.card_subtype, Derive.cnt_eq]

theorem freq_equiv {α β : Type} (e : α ≃ β) (P : β → Prop) : freq (fun a => P (e a)) = freq P := by
  unfold freq
  rw [Nat.card_congr e, Nat.card_congr (e.subtypeEquiv (p := fun a => P (e a)) (q := P) fun _ => Iff.rfl)]

theorem cnt_prod {α β : Type} [Fintype α] [Fintype β] (P : α × β → Prop) :
    Derive.cnt P = ∑ a, Derive.cnt fun b => P (a, b) := by
  unfold Derive.cnt
  rw [Fintype.sum_prod_type]

/-- What differs little for each `a` differs little altogether. -/
theorem freq_average {α β γ : Type} [Fintype α] [Fintype β] [Fintype γ] [Nonempty α] (P : α × β → Prop) (Q : α × γ → Prop)
    (ε : ℚ) (h : ∀ a, |freq (fun b => P (a, b)) - freq (fun c => Q (a, c))| ≤ ε) : |freq P - freq Q| ≤ ε := by
  have ha : (0 : ℚ) < Fintype.card α := by exact_mod_cast Fintype.card_pos
  have key : ∀ {δ : Type} [Fintype δ] (R : α × δ → Prop),
      freq R = (∑ a, freq fun d => R (a, d)) / Fintype.card α := by
    intro δ _ R
    simp only [freq_eq]
    rw [cnt_prod, Fintype.card_prod, Nat.cast_mul, Nat.cast_sum, ← Finset.sum_div, div_div, mul_comm]
  rw [key P, key Q, ← sub_div, ← Finset.sum_sub_distrib, abs_div, abs_of_pos ha, div_le_iff₀ ha]
  refine (Finset.abs_sum_le_sum_abs _ _).trans ((Finset.sum_le_sum fun a _ => h a).trans_eq ?_)
  rw [Finset.sum_const, Finset.card_univ, nsmul_eq_mul, mul_comm]

/-- Leaving out a few elements changes little. -/
theorem freq_embed {α β : Type} [Fintype α] [Fintype β] [Nonempty α] (φ : α → β) (hφ : Function.Injective φ) (P : β → Prop) :
    |freq P - freq (fun a => P (φ a))| ≤ 1 - (Fintype.card α : ℚ) / Fintype.card β := by
  classical
  have hα : (0 : ℚ) < Fintype.card α := by exact_mod_cast Fintype.card_pos
  have hle : (Fintype.card α : ℚ) ≤ Fintype.card β := by exact_mod_cast Fintype.card_le_of_injective φ hφ
  have hβ : (0 : ℚ) < Fintype.card β := lt_of_lt_of_le hα hle
  have h1 : Derive.cnt (fun a => P (φ a)) ≤ Derive.cnt P := by
    rw [Derive.cnt_eq, Derive.cnt_eq]
    refine Finset.card_le_card_of_injOn φ ?_ hφ.injOn
    intro a ha
    simpa using ha
  have h2 : Derive.cnt P + Fintype.card α ≤ Derive.cnt (fun a => P (φ a)) + Fintype.card β := by
    have e : ∀ {γ : Type} [Fintype γ] (R : γ → Prop), Derive.cnt R + Derive.cnt (fun c => ¬ R c) = Fintype.card γ := by
      intro γ _ R
      rw [Derive.cnt_eq, Derive.cnt_eq, Finset.card_filter_add_card_filter_not, Finset.card_univ]
    have h3 : Derive.cnt (fun a => ¬ P (φ a)) ≤ Derive.cnt fun b => ¬ P b := by
      rw [Derive.cnt_eq, Derive.cnt_eq]
      refine Finset.card_le_card_of_injOn φ ?_ hφ.injOn
      intro a ha
      simpa using ha
    have := e P
    have := e fun a => P (φ a)
    omega
  have h4 : Derive.cnt (fun a => P (φ a)) ≤ Fintype.card α := by
    rw [Derive.cnt_eq]
    exact Finset.card_le_univ _
  rw [freq_eq, freq_eq]
  generalize Derive.cnt (fun a => P (φ a)) = x at *
  generalize Derive.cnt P = y at *
  have h1 : (x : ℚ) ≤ y := by exact_mod_cast h1
  have h2 : (y : ℚ) + Fintype.card α ≤ x + Fintype.card β := by exact_mod_cast h2
  have h4 : (x : ℚ) ≤ Fintype.card α := by exact_mod_cast h4
  have hx : (0 : ℚ) ≤ x := Nat.cast_nonneg _
  generalize (Fintype.card α : ℚ) = a at *
  generalize (Fintype.card β : ℚ) = b at *
  have h5 : (x : ℚ) / a ≤ 1 := (div_le_one hα).2 h4
  have h6 : (x : ℚ) / b ≤ y / b := div_le_div_of_nonneg_right h1 hβ.le
  have h7 : (y : ℚ) / b ≤ x / b + (1 - a / b) := by
    have : (y : ℚ) / b ≤ (x + b - a) / b := div_le_div_of_nonneg_right (by linarith) hβ.le
    rw [sub_div, add_div, div_self hβ.ne'] at this
    linarith
  have h8 : (x : ℚ) / b = x / a * (a / b) := by field_simp
  have h9 : (0 : ℚ) ≤ a / b := by positivity
  have h10 : a / b ≤ 1 := (div_le_one hβ).2 hle
  have h11 : 0 ≤ (x : ℚ) / a := by positivity
  rw [abs_le]
  constructor
  · nlinarith
  · nlinarith

/-- What is equally frequent for each `a` is equally frequent altogether. -/
theorem freq_congr {α β γ : Type} [Fintype α] [Fintype β] [Fintype γ] [Nonempty α] (P : α × β → Prop) (Q : α × γ → Prop)
    (h : ∀ a, freq (fun b => P (a, b)) = freq (fun c => Q (a, c))) : freq P = freq Q := by
  have := freq_average P Q 0 (fun a => by rw [h a, sub_self, abs_zero])
  exact sub_eq_zero.1 (abs_nonpos_iff.1 this)

/-- What does not depend on a draw. -/
theorem freq_forget {α β : Type} [Fintype α] [Fintype β] [Nonempty β] (P : α → Prop) :
    freq (fun p : α × β => P p.1) = freq P := by
  classical
  have hb : (Fintype.card β : ℚ) ≠ 0 := by exact_mod_cast Fintype.card_ne_zero
  rw [freq_eq, freq_eq, cnt_prod, Fintype.card_prod]
  have : ∀ a, (Derive.cnt fun _ : β => P a) = (Derive.cnt fun _ : Unit => P a) * Fintype.card β := by
    intro a
    unfold Derive.cnt
    rw [Finset.sum_const, Finset.sum_const, Finset.card_univ, Finset.card_univ, smul_eq_mul, smul_eq_mul, Fintype.card_unit,
      one_mul, mul_comm]
  simp only [this]
  rw [← Finset.sum_mul, Nat.cast_mul, Nat.cast_mul, mul_div_mul_right _ _ hb]
  simp only [Derive.cnt, Finset.univ_unique, Finset.sum_singleton]

theorem freq_mono {α : Type} [Fintype α] {P Q : α → Prop} (h : ∀ a, P a → Q a) : freq P ≤ freq Q := by
  classical
  rw [freq_eq, freq_eq, Derive.cnt_eq, Derive.cnt_eq]
  refine div_le_div_of_nonneg_right ?_ (Nat.cast_nonneg _)
  exact_mod_cast Finset.card_le_card (Finset.monotone_filter_right _ (fun a _ ha => h a ha))

/-- Leaving out what is rare changes little. -/
theorem freq_except {α : Type} [Fintype α] (P Q : α → Prop) : |freq P - freq (fun a => ¬ Q a ∧ P a)| ≤ freq Q := by
  classical
  have h1 := freq_mono (P := fun a => ¬ Q a ∧ P a) (Q := P) (fun a h => h.2)
  have h2 : freq P ≤ freq Q + freq (fun a => ¬ Q a ∧ P a) := by
    rw [freq_eq, freq_eq, freq_eq, ← add_div, Derive.cnt_eq, Derive.cnt_eq, Derive.cnt_eq]
    refine div_le_div_of_nonneg_right ?_ (Nat.cast_nonneg _)
    have : Finset.univ.filter P ⊆ Finset.univ.filter Q ∪ Finset.univ.filter (fun a => ¬ Q a ∧ P a) := by
      intro a ha
      rw [Finset.mem_union, Finset.mem_filter, Finset.mem_filter]
      by_cases hq : Q a
      · exact Or.inl ⟨Finset.mem_univ _, hq⟩
      · exact Or.inr ⟨Finset.mem_univ _, hq, (Finset.mem_filter.1 ha).2⟩
    exact_mod_cast (Finset.card_le_card this).trans (Finset.card_union_le _ _)
  rw [abs_le]
  constructor <;> linarith

end EG
