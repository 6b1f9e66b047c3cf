import Verif.Model.PreRace
import Mathlib.Tactic.Cases

/-!
# Precompute buffers under concurrent calls: lemmas
-/

namespace EG.PreRace

variable {T : Type} [DecidableEq T] {G : Params}

/-- The thread holds the lock. -/
def Pc.inside : Pc → Bool
  | .initOk _ | .initMax _ | .popOk _ _ | .popQuad _ _ _ | .popT1 _ _ _ | .popT2 _ _ _
  | .quadTest | .quadPop | .tripleTest | .triplePop | .emptyTripleSize | .emptyTriples _
  | .emptyQuadSize | .emptyQuads _ | .unlock _ _ => true
  | _ => false

theorem start_inside (c : Call) : c.start.inside = false := by cases c <;> rfl

theorem locked_inside {p q : Pc} (h : p.locked = some q) : p.inside = false ∧ q.inside = true := by
  cases p <;> simp only [Pc.locked, reduceCtorEq, Option.some.injEq] at h <;> subst h <;> exact ⟨rfl, rfl⟩

theorem act_inside {p q : Pc} {d σ l σ'} (h : p.act G d σ = some (l, σ', q)) : q.inside = p.inside := by
  cases p <;> simp only [Pc.act, reduceCtorEq] at h
  case emptyTriples n => cases n <;> simp_all <;> (obtain ⟨-, -, rfl⟩ := h; rfl)
  case emptyQuads n => cases n <;> simp_all <;> (obtain ⟨-, -, rfl⟩ := h; rfl)
  all_goals (try split at h) <;>
    simp only [Option.some.injEq, Prod.mk.injEq, reduceCtorEq] at h <;>
    obtain ⟨-, -, rfl⟩ := h <;> rfl

/-- Exactly the owner of the lock is inside. -/
def LockInv (s : State T) : Prop := ∀ t, (s.pc t).inside = true ↔ s.owner = some t

theorem goto_pc_self (s : State T) (t : T) (p : Pc) : (s.goto t p).pc t = p := Function.update_self ..

theorem goto_pc_ne (s : State T) {t u : T} (p : Pc) (h : u ≠ t) : (s.goto t p).pc u = s.pc u :=
  Function.update_of_ne h ..

theorem goto_owner (s : State T) (t : T) (p : Pc) : (s.goto t p).owner = s.owner := rfl

theorem goto_mem (s : State T) (t : T) (p : Pc) : (s.goto t p).mem = s.mem := rfl

theorem lockInv_step {s s' : State T} {t l} (hi : LockInv s) (h : Step G s t l s') : LockInv s' := by
  intro u
  cases h with
  | call c h =>
    by_cases hu : u = t
    · subst hu
      have := hi u
      rw [h] at this
      rw [goto_pc_self, goto_owner, start_inside]
      exact this
    · rw [goto_pc_ne _ _ hu, goto_owner]; exact hi u
  | lock p h ho =>
    by_cases hu : u = t
    · subst hu
      rw [goto_pc_self, goto_owner, (locked_inside h).2]; simp
    · rw [goto_pc_ne _ _ hu, goto_owner]
      have := hi u
      simp only [ho, reduceCtorEq, iff_false] at this
      simp only [this, Bool.false_eq_true, false_iff, Option.some.injEq]
      exact fun e => hu e.symm
  | unlock loop out h =>
    by_cases hu : u = t
    · subst hu
      rw [goto_pc_self, goto_owner]
      cases loop <;> simp [afterUnlock, Pc.inside]
    · rw [goto_pc_ne _ _ hu, goto_owner]
      have ht := (hi t).1 (by rw [h]; rfl)
      have := hi u
      rw [ht] at this
      simp only [reduceCtorEq, iff_false]
      intro h'
      exact hu (Option.some.inj (this.1 h')).symm
  | act d _ σ p h =>
    by_cases hu : u = t
    · subst hu
      rw [goto_pc_self, goto_owner, act_inside h]; exact hi u
    · rw [goto_pc_ne _ _ hu, goto_owner]; exact hi u

theorem lockInv_reach {σ : PreState} {ls} {s : State T} (h : Reach G (State.start σ) ls s) :
    LockInv s := by
  induction h with
  | refl => intro t; simp [State.start, Pc.inside]
  | step _ hs ih => exact lockInv_step ih hs

/-! ## What the owner of the lock has still to do -/

/-- What the rest of the locked part does, after the operation has been committed. -/
def finish (G : Params) : Pc → PreState → PreState
  | .initMax n, σ => { σ with max := if n ≠ 0 then n else defaultPrecomputeSize }
  | .popQuad pub it d, σ => σ.iterate G pub it d
  | .popT1 pub _ d, σ =>
    { σ with triples := σ.triples ++ [genTriple G pub d.c1] ++ [genTriple G pub d.c2] }
  | .popT2 pub _ d, σ => { σ with triples := σ.triples ++ [genTriple G pub d.c2] }
  | .emptyTriples n, σ =>
    { σ with triples := σ.triples.drop n, quads := σ.quads.drop (popCount σ.quads.length) }
  | .emptyQuadSize, σ => { σ with quads := σ.quads.drop (popCount σ.quads.length) }
  | .emptyQuads n, σ => { σ with quads := σ.quads.drop n }
  | _, σ => σ

theorem finish_ok (p : Pc) (σ : PreState) (b : Bool) :
    finish G p { σ with populateOk := b } = { finish G p σ with populateOk := b } := by
  cases p <;> rfl

theorem finish_outside {p : Pc} (h : p.inside = false) (σ : PreState) : finish G p σ = σ := by
  cases p <;> first | rfl | cases h

theorem finish_locked {p q : Pc} (h : p.locked = some q) (σ : PreState) : finish G q σ = σ := by
  cases p <;> simp only [Pc.locked, reduceCtorEq, Option.some.injEq] at h <;> subst h <;> rfl

/-- What a label does to the members. -/
def after (G : Params) (σ : PreState) : Lab → PreState
  | .commit op _ => (σ.step G op).2
  | _ => σ

/-- The label says what the thread gets. -/
def Honest (G : Params) (σ : PreState) : Lab → Prop
  | .commit op out => (σ.step G op).1 = out
  | _ => True

theorem act_finish {p q : Pc} {d σ l σ'} (h : p.act G d σ = some (l, σ', q)) :
    finish G q σ' = after G (finish G p σ) l ∧ Honest G (finish G p σ) l := by
  cases p <;> simp only [Pc.act, reduceCtorEq] at h
  case emptyTriples n =>
    cases n <;> simp only [Option.some.injEq, Prod.mk.injEq] at h <;>
      obtain ⟨rfl, rfl, rfl⟩ := h <;> simp [finish, after, Honest]
  case emptyQuads n =>
    cases n <;> simp only [Option.some.injEq, Prod.mk.injEq] at h <;>
      obtain ⟨rfl, rfl, rfl⟩ := h <;> simp [finish, after, Honest]
  case quadTest =>
    split at h <;> simp only [Option.some.injEq, Prod.mk.injEq] at h <;> obtain ⟨rfl, rfl, rfl⟩ := h
    · rename_i hq; simp [finish, after, Honest, PreState.step, PreState.getQuad, hq]
    · simp [finish, after, Honest]
  case quadPop =>
    split at h <;> simp only [Option.some.injEq, Prod.mk.injEq, reduceCtorEq] at h
    rename_i hq
    obtain ⟨rfl, rfl, rfl⟩ := h
    simp [finish, after, Honest, PreState.step, PreState.getQuad, hq]
  case tripleTest =>
    split at h <;> simp only [Option.some.injEq, Prod.mk.injEq] at h <;> obtain ⟨rfl, rfl, rfl⟩ := h
    · rename_i hq; simp [finish, after, Honest, PreState.step, PreState.getTriple, hq]
    · simp [finish, after, Honest]
  case triplePop =>
    split at h <;> simp only [Option.some.injEq, Prod.mk.injEq, reduceCtorEq] at h
    rename_i hq
    obtain ⟨rfl, rfl, rfl⟩ := h
    simp [finish, after, Honest, PreState.step, PreState.getTriple, hq]
  case popOk pub it =>
    split at h <;> simp only [Option.some.injEq, Prod.mk.injEq] at h <;> obtain ⟨rfl, rfl, rfl⟩ := h <;>
      rename_i hq <;> simp [finish, after, Honest, PreState.step, hq]
  case popQuad pub it d =>
    simp only [Option.some.injEq, Prod.mk.injEq] at h
    obtain ⟨rfl, rfl, rfl⟩ := h
    split <;> rename_i hq <;> simp [finish, after, Honest, PreState.iterate, hq]
  case condMax =>
    simp only [Option.some.injEq, Prod.mk.injEq] at h
    obtain ⟨rfl, rfl, rfl⟩ := h
    split <;> simp [finish, after, Honest]
  case emptyTripleSize =>
    simp only [Option.some.injEq, Prod.mk.injEq] at h
    obtain ⟨rfl, rfl, rfl⟩ := h
    exact ⟨rfl, rfl⟩
  all_goals
    simp only [Option.some.injEq, Prod.mk.injEq] at h
    obtain ⟨rfl, rfl, rfl⟩ := h
    simp [finish, after, Honest, PreState.step, PreState.init, PreState.stop]

/-- Outside the lock only `stop_populate` writes. -/
theorem act_outside {p q : Pc} {d σ l σ'} (h : p.act G d σ = some (l, σ', q)) (hp : p.inside = false) :
    (l = .commit .stop {} ∧ σ' = { σ with populateOk := false }) ∨ (l = .tau ∧ σ' = σ) := by
  cases p <;> simp only [Pc.act, reduceCtorEq] at h <;> try cases hp
  all_goals
    simp only [Option.some.injEq, Prod.mk.injEq] at h
    obtain ⟨rfl, rfl, -⟩ := h
    simp

/-- The members as they will be when the lock is free. -/
def State.abs (G : Params) (s : State T) : PreState :=
  match s.owner with
  | none => s.mem
  | some t => finish G (s.pc t) s.mem

theorem abs_step {s s' : State T} {t l} (hi : LockInv s) (h : Step G s t l s') :
    s'.abs G = after G (s.abs G) l ∧ Honest G (s.abs G) l := by
  cases h with
  | call c h =>
    refine ⟨?_, trivial⟩
    unfold State.abs after
    rw [goto_owner]
    split
    · rfl
    · rename_i u hu
      have : u ≠ t := by
        rintro rfl
        have := (hi u).2 hu
        rw [h] at this; cases this
      rw [goto_pc_ne _ _ this, goto_mem]
  | lock p h ho =>
    refine ⟨?_, trivial⟩
    simp only [State.abs, goto_owner, goto_pc_self, goto_mem, ho, after]
    exact finish_locked h _
  | unlock loop out h =>
    refine ⟨?_, trivial⟩
    have ht := (hi t).1 (by rw [h]; rfl)
    simp only [State.abs, goto_owner, goto_mem, ht, h, after, finish]
  | act d _ σ p h =>
    by_cases hp : (s.pc t).inside = true
    · have ht := (hi t).1 hp
      have := act_finish h
      simp only [State.abs, goto_owner, goto_pc_self, goto_mem, ht]
      exact this
    · have hp : (s.pc t).inside = false := by simpa using hp
      rcases act_outside h hp with ⟨rfl, rfl⟩ | ⟨rfl, rfl⟩
      · refine ⟨?_, rfl⟩
        unfold State.abs after
        rw [goto_owner]
        simp only [PreState.step, PreState.stop]
        split
        · rename_i hu; simp only [hu]; rfl
        · rename_i u hu
          have hne : u ≠ t := by
            rintro rfl
            have := (hi u).2 hu
            rw [hp] at this; cases this
          have hu : s.owner = some u := hu
          rw [goto_pc_ne _ _ hne, goto_mem]
          exact finish_ok _ _ _
      · refine ⟨?_, trivial⟩
        unfold State.abs after
        rw [goto_owner]
        split
        · rename_i hu
          have hu : s.owner = none := hu
          simp only [hu]; rfl
        · rename_i u hu
          have hu : s.owner = some u := hu
          have hne : u ≠ t := by
            rintro rfl
            have := (hi u).2 hu
            rw [hp] at this; cases this
          rw [goto_pc_ne _ _ hne, goto_mem]
          simp only [hu]

end EG.PreRace
