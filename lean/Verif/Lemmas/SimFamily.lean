import Verif.Lemmas.Freq
import Verif.Spec.Oracle

/-!
# Simulated proofs, for finite families
-/

namespace EG.Sim

variable {I : Type} {X : Finset (List Char)}

/-- The function with other answers at some strings. -/
noncomputable def answers (O : X → Fin (2 ^ 256)) (s : I → List Char) (y : I → Fin (2 ^ 256)) : X → Fin (2 ^ 256) :=
  fun x => open Classical in if h : ∃ i, s i = x.1 then y h.choose else O x

theorem answers_self (O : X → Fin (2 ^ 256)) {s : I → List Char} (hs : Function.Injective s) (y : I → Fin (2 ^ 256)) (x : X)
    (i : I) (h : s i = x.1) : answers O s y x = y i := by
  unfold answers
  have h' : ∃ i, s i = x.1 := ⟨i, h⟩
  rw [dif_pos h', hs (h'.choose_spec.trans h.symm)]

theorem answers_ne (O : X → Fin (2 ^ 256)) {s : I → List Char} (y : I → Fin (2 ^ 256)) (x : X)
    (h : ∀ i, s i ≠ x.1) : answers O s y x = O x := by
  unfold answers
  rw [dif_neg (fun h' => h _ h'.choose_spec)]

/-- Answers and function exchange. -/
noncomputable def exchange (x : I → X) (hx : Function.Injective fun i => (x i).1) :
    ((X → Fin (2 ^ 256)) × (I → Fin (2 ^ 256))) ≃ ((X → Fin (2 ^ 256)) × (I → Fin (2 ^ 256))) :=
  have h : ∀ a : (X → Fin (2 ^ 256)) × (I → Fin (2 ^ 256)),
      (answers (answers a.1 (fun i => (x i).1) a.2) (fun i => (x i).1) (fun i => a.1 (x i)),
        fun i => answers a.1 (fun i => (x i).1) a.2 (x i)) = a := by
    rintro ⟨O, y⟩
    refine Prod.ext (funext fun z => ?_) (funext fun i => answers_self O hx y _ i rfl)
    by_cases hz : ∃ i, (x i).1 = z.1
    · obtain ⟨i, hi⟩ := hz
      dsimp only
      rw [answers_self _ hx _ z i hi, Subtype.ext hi]
    · have hz' : ∀ i, (x i).1 ≠ z.1 := fun i hi => hz ⟨i, hi⟩
      dsimp only
      rw [answers_ne _ _ z hz', answers_ne _ _ z hz']
  { toFun := fun a => (answers a.1 (fun i => (x i).1) a.2, fun i => a.1 (x i))
    invFun := fun a => (answers a.1 (fun i => (x i).1) a.2, fun i => a.1 (x i))
    left_inv := h
    right_inv := h }

/-- Provers and simulators whose random numbers correspond: what is seen of the proofs and of the function is distributed
alike. -/
theorem family [Fintype I] [DecidableEq I] {T : I → Type} [∀ i, Fintype (T i)] [∀ i, Nonempty (T i)] {P : Type} (f : List Char → ℕ)
    (place : ∀ i, T i → List Char) (proof : ∀ i, T i → ℕ → P) (splace : ∀ i, ℕ → T i → List Char)
    (sproof : ∀ i, ℕ → T i → P) (φ : ∀ i, ℕ → T i ≃ T i)
    (h1 : ∀ i, ∀ y < 2 ^ 256, ∀ t, splace i y (φ i y t) = place i t)
    (h2 : ∀ i, ∀ y < 2 ^ 256, ∀ t, sproof i y (φ i y t) = proof i t y)
    (hX : ∀ i t, place i t ∈ X) (hinj : ∀ t : ∀ i, T i, Function.Injective fun i => place i (t i))
    (Q : (X → Fin (2 ^ 256)) → (I → P) → Prop) :
    freq (fun p : ((X → Fin (2 ^ 256)) × (I → Fin (2 ^ 256))) × (∀ i, T i) =>
        Q (answers p.1.1 (fun i => splace i (p.1.2 i) (p.2 i)) p.1.2) (fun i => sproof i (p.1.2 i) (p.2 i))) =
      freq (fun p : (X → Fin (2 ^ 256)) × (∀ i, T i) =>
        Q p.1 (fun i => proof i (p.2 i) (oracle f X p.1 (place i (p.2 i))))) := by
  let e1 : ((X → Fin (2 ^ 256)) × (I → Fin (2 ^ 256))) × (∀ i, T i) ≃
      ((X → Fin (2 ^ 256)) × (I → Fin (2 ^ 256))) × (∀ i, T i) :=
    { toFun := fun p => (p.1, fun i => φ i (p.1.2 i) (p.2 i))
      invFun := fun p => (p.1, fun i => (φ i (p.1.2 i)).symm (p.2 i))
      left_inv := fun p => by simp
      right_inv := fun p => by simp }
  rw [← freq_equiv e1]
  have s1 : ∀ p : ((X → Fin (2 ^ 256)) × (I → Fin (2 ^ 256))) × (∀ i, T i),
      (Q (answers (e1 p).1.1 (fun i => splace i ((e1 p).1.2 i) ((e1 p).2 i)) (e1 p).1.2)
        (fun i => sproof i ((e1 p).1.2 i) ((e1 p).2 i))) =
      Q (answers p.1.1 (fun i => place i (p.2 i)) p.1.2) (fun i => proof i (p.2 i) (p.1.2 i)) := by
    intro p
    have a1 : (fun i => splace i ((e1 p).1.2 i) ((e1 p).2 i)) = fun i => place i (p.2 i) :=
      funext fun i => h1 i _ (p.1.2 i).isLt _
    have a2 : (fun i => sproof i ((e1 p).1.2 i) ((e1 p).2 i)) = fun i => proof i (p.2 i) (p.1.2 i) :=
      funext fun i => h2 i _ (p.1.2 i).isLt _
    rw [a1, a2]
    rfl
  simp only [s1]
  have c1 := freq_equiv (Equiv.prodComm (∀ i, T i) ((X → Fin (2 ^ 256)) × (I → Fin (2 ^ 256))))
    (fun p => Q (answers p.1.1 (fun i => place i (p.2 i)) p.1.2) (fun i => proof i (p.2 i) (p.1.2 i)))
  have c2 := freq_equiv (Equiv.prodComm (∀ i, T i) (X → Fin (2 ^ 256)))
    (fun p => Q p.1 (fun i => proof i (p.2 i) (oracle f X p.1 (place i (p.2 i)))))
  rw [← c1, ← c2]
  refine freq_congr _ _ fun t => ?_
  dsimp only [Equiv.prodComm_apply, Prod.swap]
  let x : I → X := fun i => ⟨place i (t i), hX i (t i)⟩
  have hx : Function.Injective fun i => (x i).1 := hinj t
  have e := freq_equiv (exchange x hx) (fun p => Q p.1 (fun i => proof i (t i) (p.1 (x i))))
  have s2 : ∀ p : (X → Fin (2 ^ 256)) × (I → Fin (2 ^ 256)),
      Q ((exchange x hx) p).1 (fun i => proof i (t i) (((exchange x hx) p).1 (x i))) =
        Q (answers p.1 (fun i => place i (t i)) p.2) (fun i => proof i (t i) (p.2 i)) := by
    intro p
    have : ∀ i, ((exchange x hx) p).1 (x i) = p.2 i := fun i => answers_self p.1 hx p.2 _ i rfl
    simp only [this]
    rfl
  simp only [s2] at e
  rw [e, freq_forget (β := I → Fin (2 ^ 256)) (fun O : X → Fin (2 ^ 256) => Q O (fun i => proof i (t i) (O (x i))))]
  have s3 : ∀ O : X → Fin (2 ^ 256), ∀ i, oracle f X O (place i (t i)) = O (x i) := fun O i => dif_pos (hX i (t i))
  simp only [s3]

end EG.Sim
