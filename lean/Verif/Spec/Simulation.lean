import Verif.Spec.Oracle
import Mathlib.Data.Fintype.BigOperators

/-!
# Proofs with challenges from a random function, and their simulation

A prover asks the hash function for one string and answers; a simulator chooses the answer of the hash function itself.
-/

namespace EG.Sim

variable (P : Type)

/-- A prover: from its random numbers, the string for which it asks, and from the answer, the proof. -/
structure Prover where
  T : Type
  dom : Finset T
  place : T → List Char
  proof : T → ℕ → P

/-- A simulator: it chooses the answer, and from its random numbers the string which this becomes the answer for, and
the proof. -/
structure Simulator where
  T : Type
  dom : Finset T
  place : ℕ → T → List Char
  proof : ℕ → T → P

variable {P}

/-- What `f` gives for the proofs that are made with the hash function `H`, summed over the random numbers. -/
def proofs (H : List Char → ℕ) : List (Prover P) → (List P → ℤ) → ℤ
  | [], f => f []
  | p :: ps, f => ∑ t ∈ p.dom, proofs H ps (fun l => f (p.proof t (H (p.place t)) :: l))

/-- The function with another answer at one string. -/
def answer {X : Finset (List Char)} (O : X → Fin (2 ^ 256)) (s : List Char) (y : Fin (2 ^ 256)) : X → Fin (2 ^ 256) :=
  fun x => if x.1 = s then y else O x

/-- What `f` gives for the simulated proofs and the function with the answers that were chosen, summed over the answers
and the random numbers. -/
def simulated {X : Finset (List Char)} :
    List (Simulator P) → (X → Fin (2 ^ 256)) → ((X → Fin (2 ^ 256)) → List P → ℤ) → ℤ
  | [], O, f => f O []
  | s :: ss, O, f =>
    ∑ y : Fin (2 ^ 256), ∑ t ∈ s.dom, simulated ss (answer O (s.place y t) y) (fun O' l => f O' (s.proof y t :: l))

/-- For each answer, the random numbers correspond one to one, with the same string and the same proof. -/
def Simulates (p : Prover P) (s : Simulator P) : Prop :=
  ∃ φ : ℕ → p.T → s.T, ∀ y < 2 ^ 256, Set.BijOn (φ y) p.dom s.dom ∧
    ∀ t ∈ p.dom, s.place y (φ y t) = p.place t ∧ s.proof y (φ y t) = p.proof t y

/-- Two provers that never ask for the same string. -/
def Apart (p p' : Prover P) : Prop := ∀ t ∈ p.dom, ∀ t' ∈ p'.dom, p.place t ≠ p'.place t'

end EG.Sim
