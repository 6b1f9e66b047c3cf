import Verif.Spec.Simulation
import Mathlib.Algebra.BigOperators.Ring.Finset

/-!
# Simulated proofs are distributed like proofs
-/

namespace EG.Sim

variable {X : Finset (List Char)} {P : Type}

theorem answer_self (O : X → Fin (2 ^ 256)) (x : X) (y : Fin (2 ^ 256)) : answer O x.1 y x = y := if_pos rfl

theorem answer_ne (O : X → Fin (2 ^ 256)) {x : X} {s : List Char} (y : Fin (2 ^ 256)) (h : s ≠ x.1) :
    answer O s y x = O x := if_neg (fun e => h e.symm)

theorem answer_answer (O : X → Fin (2 ^ 256)) (x : X) (y : Fin (2 ^ 256)) :
    answer (answer O x.1 y) x.1 (O x) = O := by
  funext z
  unfold answer
  by_cases h : z.1 = x.1
  · rw [if_pos h, Subtype.ext h]
  · rw [if_neg h, if_neg h]

/-- Choosing the answer at one string: the same as any function, times the answers forgotten. -/
theorem answer_sum (x : X) (H : (X → Fin (2 ^ 256)) → Fin (2 ^ 256) → ℤ) :
    ∑ O : X → Fin (2 ^ 256), ∑ y, H (answer O x.1 y) y = (2 ^ 256 : ℕ) * ∑ O : X → Fin (2 ^ 256), H O (O x) := by
  let e : ((X → Fin (2 ^ 256)) × Fin (2 ^ 256)) ≃ ((X → Fin (2 ^ 256)) × Fin (2 ^ 256)) :=
    { toFun := fun a => (answer a.1 x.1 a.2, a.1 x)
      invFun := fun a => (answer a.1 x.1 a.2, a.1 x)
      left_inv := fun a => Prod.ext (answer_answer _ _ _) (answer_self _ _ _)
      right_inv := fun a => Prod.ext (answer_answer _ _ _) (answer_self _ _ _) }
  rw [← Fintype.sum_prod_type' (fun (O : X → Fin (2 ^ 256)) y => H (answer O x.1 y) y)]
  have h : ∀ a : (X → Fin (2 ^ 256)) × Fin (2 ^ 256), H (answer a.1 x.1 a.2) a.2 =
      (fun b : (X → Fin (2 ^ 256)) × Fin (2 ^ 256) => H b.1 (b.1 x)) (e a) := by
    intro a
    show _ = H (answer a.1 x.1 a.2) (answer a.1 x.1 a.2 x)
    rw [answer_self]
  rw [Finset.sum_congr rfl (fun a _ => h a),
    Equiv.sum_comp e (fun b : (X → Fin (2 ^ 256)) × Fin (2 ^ 256) => H b.1 (b.1 x)), Fintype.sum_prod_type, Finset.mul_sum]
  refine Finset.sum_congr rfl (fun O _ => ?_)
  have := Finset.sum_const (s := (Finset.univ : Finset (Fin (2 ^ 256)))) (H O (O x))
  rw [Finset.card_univ, Fintype.card_fin, nsmul_eq_mul] at this
  exact this

/-- The answer at a string for which no simulator chooses it stays. -/
theorem untouched (x : X) : ∀ (ss : List (Simulator P)) (O : X → Fin (2 ^ 256))
    (F : Fin (2 ^ 256) → (X → Fin (2 ^ 256)) → List P → ℤ),
    (∀ s ∈ ss, ∀ y < 2 ^ 256, ∀ t ∈ s.dom, s.place y t ≠ x.1) →
    simulated ss O (fun O' l => F (O' x) O' l) = simulated ss O (fun O' l => F (O x) O' l)
  | [], O, F, _ => rfl
  | s :: ss, O, F, h => by
    simp only [simulated]
    refine Finset.sum_congr rfl (fun y _ => Finset.sum_congr rfl (fun t ht => ?_))
    have h1 := untouched x ss (answer O (s.place y t) y) (fun z O' l => F z O' (s.proof y t :: l))
      (fun s' hs' => h s' (List.mem_cons_of_mem _ hs'))
    rw [answer_ne _ _ (h s (by simp) y y.isLt t ht)] at h1
    exact h1

theorem simulated_eq (C : Crypto) : ∀ (ps : List (Prover P)) (ss : List (Simulator P))
    (F : (X → Fin (2 ^ 256)) → List P → ℤ),
    List.Forall₂ Simulates ps ss → ps.Pairwise Apart → (∀ p ∈ ps, ∀ t ∈ p.dom, p.place t ∈ X) →
    ∑ O, simulated ss O F = ((2 ^ 256) ^ ps.length : ℕ) * ∑ O, proofs (C.withOracle X O).sha256 ps (F O)
  | [], [], F, _, _, _ => by simp [simulated, proofs]
  | p :: ps, s :: ss, F, hs, hp, hX => by
    obtain ⟨hs1, hs2⟩ := List.forall₂_cons.1 hs
    obtain ⟨hp1, hp2⟩ := List.pairwise_cons.1 hp
    obtain ⟨φ, hφ⟩ := hs1
    have far : ∀ t ∈ p.dom, ∀ s' ∈ ss, ∀ y < 2 ^ 256, ∀ t' ∈ s'.dom, s'.place y t' ≠ p.place t := by
      intro t ht s' hs' y hy t' ht' e
      obtain ⟨p', hp', hsim⟩ : ∃ p' ∈ ps, Simulates p' s' := by
        clear hp hp1 hp2 hs hφ hX
        induction hs2 with
        | nil => cases hs'
        | @cons a b _ _ hab _ ih =>
          rcases List.mem_cons.1 hs' with h | h
          · exact ⟨a, by simp, h ▸ hab⟩
          · obtain ⟨p', h1, h2⟩ := ih h
            exact ⟨p', List.mem_cons_of_mem _ h1, h2⟩
      obtain ⟨ψ, hψ⟩ := hsim
      obtain ⟨hb, h1⟩ := hψ y hy
      obtain ⟨t0, ht0, rfl⟩ := hb.surjOn ht'
      exact hp1 p' hp' t ht t0 ht0 (e.symm.trans (h1 t0 ht0).1)
    have step : ∀ O : X → Fin (2 ^ 256), simulated (s :: ss) O F =
        ∑ t ∈ p.dom, ∑ y : Fin (2 ^ 256),
          simulated ss (answer O (p.place t) y) (fun O' l => F O' (p.proof t y :: l)) := by
      intro O
      rw [Finset.sum_comm]
      simp only [simulated]
      refine Finset.sum_congr rfl (fun y _ => ?_)
      obtain ⟨hb, h1⟩ := hφ y y.isLt
      refine (Finset.sum_nbij (φ y) (fun t ht => hb.mapsTo ht) hb.injOn hb.surjOn (fun t ht => ?_)).symm
      rw [(h1 t ht).1, (h1 t ht).2]
    rw [Finset.sum_congr rfl (fun O _ => step O), Finset.sum_comm]
    have inner : ∀ t ∈ p.dom, ∑ O : X → Fin (2 ^ 256), ∑ y : Fin (2 ^ 256),
          simulated ss (answer O (p.place t) y) (fun O' l => F O' (p.proof t y :: l)) =
        ((2 ^ 256) ^ (ps.length + 1) : ℕ) * ∑ O : X → Fin (2 ^ 256), proofs (C.withOracle X O).sha256 ps
          (fun l => F O (p.proof t ((C.withOracle X O).sha256 (p.place t)) :: l)) := by
      intro t ht
      have hx := hX p (by simp) t ht
      have hO : ∀ O : X → Fin (2 ^ 256), (C.withOracle X O).sha256 (p.place t) = O ⟨p.place t, hx⟩ := fun O => dif_pos hx
      simp only [hO]
      rw [answer_sum ⟨p.place t, hx⟩ (fun O y => simulated ss O (fun O' l => F O' (p.proof t y :: l)))]
      have h1 : ∀ O : X → Fin (2 ^ 256), simulated ss O (fun O' l => F O' (p.proof t (O ⟨p.place t, hx⟩) :: l)) =
          simulated ss O (fun O' l => F O' (p.proof t (O' ⟨p.place t, hx⟩) :: l)) := fun O =>
        (untouched ⟨p.place t, hx⟩ ss O (fun z O' l => F O' (p.proof t z :: l)) (far t ht)).symm
      rw [Finset.sum_congr rfl (fun O _ => h1 O),
        simulated_eq C ps ss (fun O' l => F O' (p.proof t (O' ⟨p.place t, hx⟩) :: l)) hs2 hp2
          (fun p' hp' => hX p' (List.mem_cons_of_mem _ hp'))]
      generalize (∑ O : X → Fin (2 ^ 256), proofs (C.withOracle X O).sha256 ps
        (fun l => F O (p.proof t (O ⟨p.place t, hx⟩) :: l))) = z
      push_cast
      ring
    rw [Finset.sum_congr rfl inner, ← Finset.mul_sum, Finset.sum_comm]
    rfl
  | [], _ :: _, _, h, _, _ => by cases h
  | _ :: _, [], _, h, _, _ => by cases h

end EG.Sim
