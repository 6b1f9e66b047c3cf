import Verif.Model.CsCollect
import Mathlib.Data.List.Forall2
import Mathlib.Data.List.Nodup
import Mathlib.Order.Nat

/-!
# C102: what the constructors of C# that take arrays do to the objects given
-/

namespace EG.Cs

open EG.CApi

variable {V : Type}

/-- The object `i` of C# has a handle that was not used yet, with the pointer `p`. -/
def World.holds (w : World V) (k : Kind) (i p : ℕ) : Prop := w.wrap i = some { kind := k, ptr := some p }

theorem collected_guard {k : Kind} (hk : k ∈ collected) : guardOf k = .isClosed := by
  revert k
  decide

theorem World.dispose_holds {w : World V} {k : Kind} {i p : ℕ} (hk : k ∈ collected) (h : w.holds k i p) :
    w.dispose i = { w with wrap := Function.update w.wrap i none } := by
  have hg := collected_guard hk
  unfold World.holds at h
  unfold World.dispose
  rw [h]
  simp [Handle.acts, Handle.act, Handle.internalRelease, Handle.callsFree, hg]

theorem World.collect_holds {k : Kind} (hk : k ∈ collected) : ∀ {is ps : List ℕ} {w : World V}, is.Nodup →
    List.Forall₂ (w.holds k) is ps →
    w.collect is = ({ w with wrap := fun j => if j ∈ is then none else w.wrap j }, some (ps.map some)) := by
  intro is
  induction is with
  | nil =>
    intro ps w _ h
    cases h
    simp [World.collect]
  | cons i is ih =>
    intro ps w hn h
    cases h with
    | cons hi h =>
      rename_i p ps
      have hn' := List.nodup_cons.1 hn
      have hd := World.dispose_holds hk hi
      have h' : List.Forall₂ ((w.dispose i).holds k) is ps := by
        rw [hd]
        have aux : ∀ {l : List ℕ} {qs : List ℕ}, i ∉ l → List.Forall₂ (w.holds k) l qs →
            List.Forall₂ (World.holds { w with wrap := Function.update w.wrap i none } k) l qs := by
          intro l qs hl hq
          induction hq with
          | nil => exact .nil
          | cons ha _ ih =>
            rw [List.mem_cons, not_or] at hl
            refine .cons ?_ (ih hl.2)
            unfold World.holds at ha ⊢
            dsimp only
            rw [Function.update_of_ne (Ne.symm hl.1)]
            exact ha
        exact aux hn'.1 h
      have e := ih hn'.2 h'
      unfold World.holds at hi
      unfold World.collect
      rw [hi]
      dsimp only
      rw [e, hd]
      dsimp only
      congr 1
      congr 1
      funext j
      by_cases hj : j = i
      · subst hj
        simp
      · simp [hj]

theorem World.nativeNew_whole : ∀ {ps : List ℕ} {vs : List V} {w : World V}, ps.Nodup → (∀ p ∈ ps, p < w.next) →
    List.Forall₂ (fun p v => w.mem p = .whole v) ps vs →
    ∃ w' as, w.nativeNew (ps.map some) = .ok (w', as) ∧ w'.readAll as = .ok vs ∧ w'.wrap = w.wrap ∧
      w.next ≤ w'.next ∧ (∀ p ∈ ps, w'.mem p = .hollow) ∧ (∀ a < w.next, a ∉ ps → w'.mem a = w.mem a) ∧
      ∀ a ∈ as, w.next ≤ a ∧ a < w'.next := by
  intro ps
  induction ps with
  | nil =>
    intro vs w _ _ h
    cases h
    exact ⟨w, [], rfl, rfl, rfl, le_rfl, by simp, fun _ _ _ => rfl, by simp⟩
  | cons p ps ih =>
    intro vs w hn hlt h
    cases h with
    | cons hp h =>
      rename_i v vs
      have hn' := List.nodup_cons.1 hn
      have hpl : p < w.next := hlt p List.mem_cons_self
      set w1 : World V := { w with
        mem := Function.update (Function.update w.mem w.next (.whole v)) p .hollow
        next := w.next + 1 } with hw1
      have hm : ∀ q, q ≠ p → q ≠ w.next → w1.mem q = w.mem q := by
        intro q h1 h2
        rw [hw1]
        dsimp only
        rw [Function.update_of_ne h1, Function.update_of_ne h2]
      have h' : List.Forall₂ (fun q u => w1.mem q = .whole u) ps vs := by
        have aux : ∀ {l : List ℕ} {us : List V}, p ∉ l → (∀ q ∈ l, q < w.next) →
            List.Forall₂ (fun q u => w.mem q = .whole u) l us →
            List.Forall₂ (fun q u => w1.mem q = .whole u) l us := by
          intro l us h1 h2 h3
          induction h3 with
          | nil => exact .nil
          | cons ha _ ih =>
            rw [List.mem_cons, not_or] at h1
            refine .cons ?_ (ih h1.2 fun q hq => h2 q (List.mem_cons_of_mem _ hq))
            rw [hm _ (Ne.symm h1.1) (ne_of_lt (h2 _ List.mem_cons_self))]
            exact ha
        exact aux hn'.1 (fun q hq => hlt q (List.mem_cons_of_mem _ hq)) h
      obtain ⟨w', as, e1, e2, e3, e4, e5, e6, e7⟩ := ih (w := w1) hn'.2
        (fun q hq => Nat.lt_succ_of_lt (hlt q (List.mem_cons_of_mem _ hq))) h'
      have hnext : w1.next = w.next + 1 := rfl
      rw [hnext] at e4 e6 e7
      have hmem : w1.mem w.next = .whole v := by
        rw [hw1]
        dsimp only
        rw [Function.update_of_ne (ne_of_gt hpl), Function.update_self]
      have hfresh : w.next ∉ ps := fun hq => lt_irrefl _ (hlt _ (List.mem_cons_of_mem _ hq))
      refine ⟨w', w.next :: as, ?_, ?_, e3, by omega, ?_, ?_, ?_⟩
      · rw [List.map_cons]
        unfold World.nativeNew
        rw [hp]
        dsimp only
        rw [← hw1, e1]
        rfl
      · unfold World.readAll
        rw [e6 _ (by omega) hfresh, hmem]
        dsimp only
        rw [e2]
        rfl
      · intro q hq
        rcases List.mem_cons.1 hq with rfl | hq
        · rw [e6 q (by omega) hn'.1, hw1]
          dsimp only
          rw [Function.update_self]
        · exact e5 q hq
      · intro a ha hna
        rw [List.mem_cons, not_or] at hna
        rw [e6 a (by omega) hna.2, hm a hna.1 (ne_of_lt ha)]
      · intro a ha
        rcases List.mem_cons.1 ha with rfl | ha
        · omega
        · have := e7 a ha
          omega

/-- With different objects the constructor works: the new object has the values given, in their order. -/
theorem C102_new_partial {k : Kind} (hk : k ∈ collected) {w : World V} {is ps : List ℕ} {vs : List V} (hi : is.Nodup)
    (hp : ps.Nodup) (hlt : ∀ p ∈ ps, p < w.next) (h : List.Forall₂ (w.holds k) is ps)
    (hv : List.Forall₂ (fun p v => w.mem p = .whole v) ps vs) :
    ∃ w' as, w.construct is = .ok (w', some as) ∧ w'.readAll as = .ok vs := by
  obtain ⟨w', as, e1, e2, -⟩ := World.nativeNew_whole
    (w := { w with wrap := fun j => if j ∈ is then none else w.wrap j }) hp hlt hv
  refine ⟨w', as, ?_, e2⟩
  unfold World.construct
  rw [World.collect_holds hk hi h]
  dsimp only
  rw [e1]
  rfl

/-- The objects given cannot be used afterwards: another constructor that is given one of them first throws. -/
theorem C102_gone_violated {k : Kind} (hk : k ∈ collected) {w : World V} {is ps : List ℕ} {vs : List V} (hi : is.Nodup)
    (hp : ps.Nodup) (hlt : ∀ p ∈ ps, p < w.next) (h : List.Forall₂ (w.holds k) is ps)
    (hv : List.Forall₂ (fun p v => w.mem p = .whole v) ps vs) :
    ∃ w' as, w.construct is = .ok (w', some as) ∧ (∀ i ∈ is, w'.wrap i = none) ∧ (∀ p ∈ ps, w'.mem p = .hollow) ∧
      ∀ i ∈ is, ∀ js, w'.construct (i :: js) = .ok (w', none) := by
  obtain ⟨w', as, e1, -, e3, -, e5, -⟩ := World.nativeNew_whole
    (w := { w with wrap := fun j => if j ∈ is then none else w.wrap j }) hp hlt hv
  have hw : ∀ i ∈ is, w'.wrap i = none := by
    intro i h'
    rw [e3]
    dsimp only
    rw [if_pos h']
  refine ⟨w', as, ?_, hw, e5, ?_⟩
  · unfold World.construct
    rw [World.collect_holds hk hi h]
    dsimp only
    rw [e1]
    rfl
  · intro i h' js
    unfold World.construct World.collect
    rw [hw i h']

/-- The same object twice: an exception, and the object is lost with those before it. -/
theorem C102_twice_violated {k : Kind} (hk : k ∈ collected) {w : World V} {i p : ℕ} (h : w.holds k i p) (js : List ℕ) :
    ∃ w', w.construct (i :: i :: js) = .ok (w', none) ∧ w'.wrap i = none ∧ w'.mem = w.mem := by
  have hd := World.dispose_holds hk h
  have hn : (w.dispose i).wrap i = none := by
    rw [hd]
    dsimp only
    rw [Function.update_self]
  refine ⟨w.dispose i, ?_, hn, by rw [hd]⟩
  unfold World.holds at h
  unfold World.construct World.collect
  rw [h]
  dsimp only
  unfold World.collect
  rw [hn]
  rfl

theorem World.readAll_mem {w : World V} : ∀ {as : List ℕ} {vs : List V}, w.readAll as = .ok vs → ∀ {a}, a ∈ as →
    ∃ v ∈ vs, w.mem a = .whole v := by
  intro as
  induction as with
  | nil =>
    intro _ _ a ha
    cases ha
  | cons b as ih =>
    intro vs h a ha
    unfold World.readAll at h
    cases hb : w.mem b with
    | free => rw [hb] at h; cases h
    | hollow => rw [hb] at h; cases h
    | whole u =>
      rw [hb] at h
      dsimp only at h
      cases hr : w.readAll as with
      | ok r =>
        rw [hr] at h
        cases h
        rcases List.mem_cons.1 ha with rfl | ha
        · exact ⟨u, List.mem_cons_self, hb⟩
        · obtain ⟨v, h1, h2⟩ := ih hr ha
          exact ⟨v, List.mem_cons_of_mem _ h1, h2⟩
      | throw e => rw [hr] at h; cases h
      | ub => rw [hr] at h; cases h

/-- An element got from another object and given to a constructor is taken out of that object: reading it becomes
undefined. -/
theorem C102_stolen_violated {k : Kind} (hk : k ∈ collected) {w : World V} {as : List ℕ} {vs : List V} {a : ℕ}
    (hread : w.readAll as = .ok vs) (ha : a ∈ as) (hlt : a < w.next) (i : ℕ) :
    ∃ w' bs, ∃ v ∈ vs, (w.wrapAt i k a).construct [i] = .ok (w', some bs) ∧ w'.readAll bs = .ok [v] ∧
      w'.readAll as = .ub := by
  obtain ⟨v, hvs', hv⟩ := World.readAll_mem hread ha
  have hh : (w.wrapAt i k a).holds k i a := by
    unfold World.holds World.wrapAt
    dsimp only
    rw [Function.update_self]
  have hvs : List.Forall₂ (fun p u => (w.wrapAt i k a).mem p = .whole u) [a] [v] := .cons hv .nil
  obtain ⟨w', bs, e1, e2, -, -, e5, -⟩ := World.nativeNew_whole
    (w := { w.wrapAt i k a with wrap := fun j => if j ∈ [i] then none else (w.wrapAt i k a).wrap j })
    (List.nodup_singleton a) (by simpa [World.wrapAt] using hlt) hvs
  refine ⟨w', bs, v, hvs', ?_, e2, ?_⟩
  · unfold World.construct
    rw [World.collect_holds hk (List.nodup_singleton i) (.cons hh .nil)]
    dsimp only
    rw [e1]
    rfl
  · have hol := e5 a (List.mem_singleton.2 rfl)
    clear hread
    induction as with
    | nil => cases ha
    | cons b as ih =>
      unfold World.readAll
      rcases List.mem_cons.1 ha with rfl | ha
      · rw [hol]
      · rw [ih ha]
        cases w'.mem b <;> rfl

/-- Of the classes that wrap an object of the library, ballots do release it when disposed: an object that was taken by
reading their pointer first and disposing them then, as those constructors do, would be made from freed memory. -/
theorem C102_freed {k : Kind} (hk : k ∈ [Kind.plaintextBallot, .ciphertextBallot, .submittedBallot]) {w : World V} {i p : ℕ}
    (h : w.holds k i p) :
    (∀ a, (w.dispose i).mem a = if a = p then .free else w.mem a) ∧ (w.dispose i).readAll [p] = .ub ∧
      w.construct [i] = .ub := by
  have hg : guardOf k = .isFreed := by rw [guardOf, if_pos hk]
  unfold World.holds at h
  have hd : w.dispose i = { w with
      mem := fun a => if a = p then .free else w.mem a
      wrap := Function.update w.wrap i none } := by
    unfold World.dispose
    rw [h]
    simp [Handle.acts, Handle.act, Handle.internalRelease, Handle.callsFree, hg]
  refine ⟨fun a => by rw [hd], by rw [hd]; simp [World.readAll], ?_⟩
  simp [World.construct, World.collect, h, hd, World.nativeNew, Res.bind_ub]

/-! ## An example: two selections of a contest -/

/-- Two selections at 1 and 2 with the objects 10 and 20. -/
def exampleWorld : World ℕ :=
  ((⟨fun a => if a = 1 then .whole 71 else if a = 2 then .whole 72 else .free, 3, fun _ => none⟩ : World ℕ).wrapAt 10
    .selectionDescription 1).wrapAt 20 .selectionDescription 2

example : (∃ w' as, exampleWorld.construct [10, 20] = .ok (w', some as) ∧ w'.readAll as = .ok [71, 72]) ∧
    exampleWorld.readAll [1, 2] = .ok [71, 72] := by
  refine ⟨C102_new_partial (k := .selectionDescription) (ps := [1, 2]) (by decide) (by decide) (by decide)
    (by decide) ?_ ?_, by decide⟩
  · exact .cons (by unfold World.holds; decide) (.cons (by unfold World.holds; decide) .nil)
  · exact .cons (by decide) (.cons (by decide) .nil)

end EG.Cs
