import Verif.Lemmas.PreRace
import Verif.Spec.PreRace
import Verif.Props.Precompute
import Mathlib.Data.Fintype.Card
import Mathlib.Data.Fintype.Basic
import Mathlib.Algebra.Order.BigOperators.Group.Finset
import Mathlib.Algebra.BigOperators.Group.Finset.Basic

/-!
# C91: concurrent use of the precompute buffers
-/

namespace EG.PreRace

variable {T : Type} [DecidableEq T] {G : Params}

/-! ## Concurrent calls are atomic -/

theorem run_append (σ : PreState) (ops : List PreOp) (op : PreOp) :
    σ.run G (ops ++ [op]) =
      ((σ.run G ops).1 ++ [((σ.run G ops).2.step G op).1], ((σ.run G ops).2.step G op).2) := by
  induction ops generalizing σ with
  | nil => simp [PreState.run]
  | cons x xs ih => simp only [List.cons_append, PreState.run, ih]

/-- The commit of a label. -/
def Lab.done : Lab → List (PreOp × PreOut)
  | .commit op out => [(op, out)]
  | _ => []

omit [DecidableEq T] in
theorem commits_append (ls : List (T × Lab)) (t : T) (l : Lab) :
    commits (ls ++ [(t, l)]) = commits ls ++ l.done := by
  cases l <;> simp [commits, Lab.done]

/-- Every concurrent execution is a history of atomic operations: run one after the other in the order of
their commits they give the threads what they got, and the members are what they are when the lock is free. -/
theorem C91_linearizable {σ : PreState} {ls} {s : State T} (h : Reach G (State.start σ) ls s)
    (hf : s.owner = none) :
    σ.run G ((commits ls).map Prod.fst) = ((commits ls).map Prod.snd, s.mem) := by
  have key : σ.run G ((commits ls).map Prod.fst) = ((commits ls).map Prod.snd, s.abs G) := by
    clear hf
    induction h with
    | refl => rfl
    | @step ls s' s'' t l h hs ih =>
      obtain ⟨h1, h2⟩ := abs_step (lockInv_reach h) hs
      rw [commits_append]
      cases l with
      | commit op out =>
        simp only [Lab.done, List.map_append, List.map_cons, List.map_nil]
        rw [run_append, ih, h1]
        simp only [Honest] at h2
        simp only [h2, after]
      | call c => simpa [Lab.done] using ih.trans (by rw [h1]; rfl)
      | tau => simpa [Lab.done] using ih.trans (by rw [h1]; rfl)
  rw [key, State.abs, hf]

/-- What a call will return, once it is known. -/
def Pc.result : Pc → Option PreOut
  | .initMax _ | .emptyTriples _ | .emptyQuadSize | .emptyQuads _ => some {}
  | .unlock none out => some out
  | _ => none

theorem act_result {p q : Pc} {d σ l σ' o} (h : p.act G d σ = some (l, σ', q)) (hq : q.result = some o) :
    (∃ op, l = .commit op o) ∨ (l = .tau ∧ p.result = some o) := by
  cases p <;> simp only [Pc.act, reduceCtorEq] at h
  case emptyTriples n =>
    cases n <;> simp only [Option.some.injEq, Prod.mk.injEq] at h <;>
      obtain ⟨rfl, rfl, rfl⟩ := h <;> exact Or.inr ⟨rfl, hq⟩
  case emptyQuads n =>
    cases n <;> simp only [Option.some.injEq, Prod.mk.injEq] at h <;>
      obtain ⟨rfl, rfl, rfl⟩ := h <;> exact Or.inr ⟨rfl, hq⟩
  all_goals (try split at h) <;>
    simp only [Option.some.injEq, Prod.mk.injEq, reduceCtorEq] at h <;>
    obtain ⟨rfl, rfl, rfl⟩ := h <;>
    simp_all [Pc.result]

/-- A call returns what its operation gave it. -/
theorem C91_returned {σ : PreState} {ls} {s : State T} (h : Reach G (State.start σ) ls s) {t : T} {out}
    (hr : s.pc t = .unlock none out) : ∃ op, (commitsOf t ls).getLast? = some (op, out) := by
  have key : ∀ u o, (s.pc u).result = some o → ∃ op, (commitsOf u ls).getLast? = some (op, o) := by
    clear hr
    induction h with
    | refl => intro u o h; cases h
    | @step ls s' s'' t l h hs ih =>
      intro u o hu
      by_cases hut : u = t
      · subst hut
        have e : commitsOf u (ls ++ [(u, l)]) = commitsOf u ls ++ l.done := by
          have := commits_append (ls.filter fun x => x.1 = u) u l
          simpa [commitsOf, List.filter_append] using this
        rw [e]
        cases hs with
        | call c h => rw [goto_pc_self] at hu; cases c <;> cases hu
        | lock p h ho =>
          rw [goto_pc_self] at hu
          generalize s'.pc u = q at h
          cases q <;> simp only [Pc.locked, reduceCtorEq, Option.some.injEq] at h <;> subst h <;> cases hu
        | unlock loop out h =>
          rw [goto_pc_self] at hu
          cases loop <;> cases hu
        | act d _ σ p h =>
          rw [goto_pc_self] at hu
          rcases act_result h hu with ⟨op, rfl⟩ | ⟨rfl, hp⟩
          · exact ⟨op, by simp [Lab.done]⟩
          · obtain ⟨op, hop⟩ := ih u o hp
            exact ⟨op, by simpa [Lab.done] using hop⟩
      · have e : commitsOf u (ls ++ [(t, l)]) = commitsOf u ls := by
          have : t ≠ u := fun e => hut e.symm
          simp [commitsOf, List.filter_append, this]
        rw [e]
        refine ih u o ?_
        cases hs <;> rw [goto_pc_ne _ _ hut] at hu <;> exact hu
  exact key t out (by rw [hr]; rfl)

/-- So no value is handed out twice, whatever the interleaving: what the threads got followed by what is
in the queue is a subsequence of what was there at the start followed by what was generated. -/
theorem C91_at_most_once {σ : PreState} {ls} {s : State T} (h : Reach G (State.start σ) ls s)
    (hf : s.owner = none) :
    ((commits ls).filterMap (fun x => x.2.quad) ++ s.mem.quads).Sublist
        (σ.quads ++ generatedQuads G σ ((commits ls).map Prod.fst)) ∧
    ((commits ls).filterMap (fun x => x.2.triple) ++ s.mem.triples).Sublist
        (σ.triples ++ generatedTriples G σ ((commits ls).map Prod.fst)) := by
  have := C28_at_most_once_in_order G σ ((commits ls).map Prod.fst)
  rw [C91_linearizable h hf] at this
  simpa [List.filterMap_map, Function.comp_def] using this

/-! ## Races -/

/-- The accesses listed for the definition of races are those of the steps: a step changes no other
member than the one it writes, and what it does depends only on the one it accesses. -/
theorem C91_access (p : Pc) (d : Draws) (σ τ : PreState) (l σ' q) (h : p.act G d σ = some (l, σ', q)) :
    (∀ x, p.access ≠ some (x, true) → SameAt σ' σ x) ∧
    ((∀ x w, p.access = some (x, w) → SameAt σ τ x) → ∃ τ', p.act G d τ = some (l, τ', q) ∧
      ∀ x w, p.access = some (x, w) → SameAt σ' τ' x) := by
  cases p <;> simp only [Pc.act, reduceCtorEq] at h
  case emptyTriples n =>
    cases n <;> simp only [Option.some.injEq, Prod.mk.injEq] at h <;>
      obtain ⟨rfl, rfl, rfl⟩ := h <;>
      exact ⟨fun x hx => by cases x <;> simp_all [SameAt, Pc.access],
        fun hs => ⟨_, rfl, fun x w hx => by cases x <;> simp_all [SameAt, Pc.access]⟩⟩
  case emptyQuads n =>
    cases n <;> simp only [Option.some.injEq, Prod.mk.injEq] at h <;>
      obtain ⟨rfl, rfl, rfl⟩ := h <;>
      exact ⟨fun x hx => by cases x <;> simp_all [SameAt, Pc.access],
        fun hs => ⟨_, rfl, fun x w hx => by cases x <;> simp_all [SameAt, Pc.access]⟩⟩
  all_goals (try split at h) <;>
    simp only [Option.some.injEq, Prod.mk.injEq, reduceCtorEq] at h <;>
    obtain ⟨rfl, rfl, rfl⟩ := h
  all_goals refine ⟨fun x hx => by cases x <;> simp_all [SameAt, Pc.access], fun hs => ?_⟩
  all_goals
    have hs := hs _ _ rfl
    simp only [SameAt] at hs
    simp_all [SameAt, Pc.access, Pc.act]

theorem access_cases {p : Pc} {x} (h : p.access = some x) : p.inside = true ∨ p.unguarded = true := by
  cases p <;> first | (exact Or.inl rfl) | (exact Or.inr rfl) | cases h

/-- A race needs an access of `stop_populate`, of the two functions for the sizes, or of the condition of
the loop of `populate`. -/
theorem C91_race_unguarded {σ : PreState} {ls} {s : State T} (h : Reach G (State.start σ) ls s)
    (hr : Race s) : ∃ t, (s.pc t).unguarded = true := by
  obtain ⟨t, u, x, w, hne, ht, hu⟩ := hr
  rcases access_cases ht with h1 | h1
  · rcases access_cases hu with h2 | h2
    · have hi := lockInv_reach h
      have e1 := (hi t).1 h1
      have e2 := (hi u).1 h2
      rw [e1] at e2
      exact absurd (Option.some.inj e2) hne
    · exact ⟨u, h2⟩
  · exact ⟨t, h1⟩

/-- What a thread that only makes calls under the lock may be doing. -/
def Pc.quiet : Pc → Bool
  | .popLock _ _ | .popOk _ _ | .popQuad _ _ _ | .popT1 _ _ _ | .popT2 _ _ _ | .condSize _ _
  | .condMax _ _ _ | .stop | .size | .maxSize | .unlock (some _) _ => false
  | _ => true

theorem act_quiet {p q : Pc} {d σ l σ'} (h : p.act G d σ = some (l, σ', q)) (hp : p.quiet = true) :
    q.quiet = true := by
  cases p <;> simp only [Pc.act, reduceCtorEq] at h <;> try cases hp
  case emptyTriples n =>
    cases n <;> simp only [Option.some.injEq, Prod.mk.injEq] at h <;> obtain ⟨-, -, rfl⟩ := h <;> rfl
  case emptyQuads n =>
    cases n <;> simp only [Option.some.injEq, Prod.mk.injEq] at h <;> obtain ⟨-, -, rfl⟩ := h <;> rfl
  all_goals (try split at h) <;>
    simp only [Option.some.injEq, Prod.mk.injEq, reduceCtorEq] at h <;>
    obtain ⟨-, -, rfl⟩ := h <;> rfl

/-- There are no data races.  The part that holds: as long as threads only call `init`, the functions that
take values, and `empty_queues`. -/
theorem C91_race_free_partial {σ : PreState} {ls} {s : State T} (h : Reach G (State.start σ) ls s)
    (hc : ∀ c ∈ calls ls, c.underLock = true) : ¬ Race s := by
  have key : ∀ t, (s.pc t).quiet = true := by
    induction h with
    | refl => intro t; rfl
    | @step ls s' s'' t l h hs ih =>
      have ih := ih (fun c hm => hc c (by
        simp only [calls, List.filterMap_append, List.mem_append] at hm ⊢
        exact Or.inl hm))
      intro u
      by_cases hut : u = t
      · subst hut
        have ihu := ih u
        cases hs with
        | call c h =>
          rw [goto_pc_self]
          have := hc c (by simp [calls])
          cases c <;> first | rfl | cases this
        | lock p h ho =>
          rw [goto_pc_self]
          generalize s'.pc u = q at h ihu
          cases q <;> simp only [Pc.locked, reduceCtorEq, Option.some.injEq] at h <;> subst h <;>
            first | rfl | cases ihu
        | unlock loop out h =>
          rw [goto_pc_self]
          rw [h] at ihu
          cases loop with
          | none => rfl
          | some x => cases ihu
        | act d _ σ p h => rw [goto_pc_self]; exact act_quiet h ihu
      · cases hs <;> rw [goto_pc_ne _ _ hut] <;> exact ih u
  intro hr
  obtain ⟨t, ht⟩ := C91_race_unguarded h hr
  have := key t
  generalize s.pc t = q at ht this
  cases q <;> revert ht this <;> simp [Pc.unguarded, Pc.quiet]

/-! Witnesses -/

/-- A step that is one access. -/
theorem Reach.act {σ : State T} {ls} {s : State T} (h : Reach G σ ls s) (t : T) (d : Draws) {l m p}
    (ha : (s.pc t).act G d s.mem = some (l, m, p)) :
    Reach G σ (ls ++ [(t, l)]) ({ s with mem := m }.goto t p) := h.step (.act t d l m p ha)

theorem Reach.call {σ : State T} {ls} {s : State T} (h : Reach G σ ls s) (t : T) (c : Call)
    (hi : s.pc t = .idle) : Reach G σ (ls ++ [(t, .call c)]) (s.goto t c.start) := h.step (.call t c hi)

theorem Reach.lock {σ : State T} {ls} {s : State T} (h : Reach G σ ls s) (t : T) {p}
    (hl : (s.pc t).locked = some p) (ho : s.owner = none) :
    Reach G σ (ls ++ [(t, .tau)]) ({ s with owner := some t }.goto t p) := h.step (.lock t p hl ho)

theorem Reach.quadTest {σ : State T} {ls} {s : State T} (h : Reach G σ ls s) (t : T)
    (hp : s.pc t = .quadTest) (hq : s.mem.quads ≠ []) :
    Reach G σ (ls ++ [(t, .tau)]) (s.goto t .quadPop) := by
  refine h.step (.act t ⟨0, 0, 0, 0, 0, 0⟩ .tau s.mem .quadPop ?_)
  rw [hp]
  cases e : s.mem.quads with
  | nil => exact absurd e hq
  | cons x xs => simp only [Pc.act, e]

/-- Taking a value while another thread populates is a data race: the condition of the loop of `populate`
reads the size of the queue that `getTwoTriplesAndAQuadruple` pops. -/
theorem C91_populate_violated (σ : PreState) (hok : σ.populateOk = true) (pub : ℕ) (d : Draws) (t u : T)
    (hne : t ≠ u) : ∃ ls, ∃ s : State T, Reach G (State.start σ) ls s ∧ Race s ∧
      (∀ c ∈ calls ls, c = .populate pub ∨ c = .getQuad) := by
  have hne' : u ≠ t := fun e => hne e.symm
  have r0 : Reach G (State.start σ : State T) [] _ := .refl
  have r1 := r0.call t (.populate pub) rfl
  have r2 := r1.lock t (p := .popOk pub 0) (by rw [goto_pc_self]; rfl) rfl
  have r3 := r2.act t d (m := σ) (by rw [goto_pc_self]; simp only [Pc.act, goto_mem]; exact if_pos hok)
  have r4 := r3.act t d (by rw [goto_pc_self]; rfl)
  have r5 := r4.act t d (by rw [goto_pc_self]; rfl)
  have r6 := r5.act t d (by rw [goto_pc_self]; rfl)
  have r7 := r6.step (.unlock t (some (pub, 1)) {} (by rw [goto_pc_self]))
  have r8 := r7.call u .getQuad (by
    rw [goto_pc_ne _ _ hne']
    simp only [State.goto, Function.update_of_ne hne', State.start])
  have r9 := r8.lock u (p := .quadTest) (by rw [goto_pc_self]; rfl) rfl
  have r10 := r9.quadTest u (goto_pc_self ..) (by simp [State.goto])
  refine ⟨_, _, r10, ⟨u, t, .quads, false, hne', ?_, ?_⟩, ?_⟩
  · rw [goto_pc_self]; rfl
  · rw [goto_pc_ne _ _ hne]
    simp only [State.goto, Function.update_of_ne hne, Function.update_self, Pc.access, afterUnlock]
  · intro c hc
    simp [calls] at hc
    tauto

/-- Stopping while another thread populates is a data race on `populate_OK`. -/
theorem C91_stop_violated (σ : PreState) (pub : ℕ) (t u : T) (hne : t ≠ u) :
    ∃ ls, ∃ s : State T, Reach G (State.start σ) ls s ∧ Race s ∧
      (∀ c ∈ calls ls, c = .populate pub ∨ c = .stop) := by
  have hne' : u ≠ t := fun e => hne e.symm
  have r0 : Reach G (State.start σ : State T) [] _ := .refl
  have r1 := r0.call t (.populate pub) rfl
  have r2 := r1.lock t (p := .popOk pub 0) (by rw [goto_pc_self]; rfl) rfl
  have r3 := r2.call u .stop (by
    rw [goto_pc_ne _ _ hne']
    simp only [State.goto, Function.update_of_ne hne', State.start])
  refine ⟨_, _, r3, ⟨u, t, .populateOk, false, hne', ?_, ?_⟩, ?_⟩
  · rw [goto_pc_self]; rfl
  · rw [goto_pc_ne _ _ hne]
    simp only [State.goto, Function.update_self, Pc.access]
  · intro c hc
    simp [calls] at hc
    tauto

/-- So is asking for the sizes while another thread initialises. -/
theorem C91_status_violated (σ : PreState) (n : ℕ) (d : Draws) (t u : T) (hne : t ≠ u) :
    ∃ ls, ∃ s : State T, Reach G (State.start σ) ls s ∧ Race s ∧
      (∀ c ∈ calls ls, c = .init n ∨ c = .status) := by
  have hne' : u ≠ t := fun e => hne e.symm
  have r0 : Reach G (State.start σ : State T) [] _ := .refl
  have r1 := r0.call t (.init n) rfl
  have r2 := r1.lock t (p := .initOk n) (by rw [goto_pc_self]; rfl) rfl
  have r3 := r2.act t d (by rw [goto_pc_self]; rfl)
  have r4 := r3.call u .status (by
    rw [goto_pc_ne _ _ hne']
    simp only [State.goto, Function.update_of_ne hne', State.start])
  have r5 := r4.act u d (by rw [goto_pc_self]; rfl)
  refine ⟨_, _, r5, ⟨t, u, .max, false, hne, ?_, ?_⟩, ?_⟩
  · rw [goto_pc_ne _ _ hne]
    simp only [State.goto, Function.update_of_ne hne, Function.update_self, Pc.access]
  · rw [goto_pc_self]; rfl
  · intro c hc
    simp [calls] at hc
    tauto

/-! ## Size -/

/-- A thread in `populate` that will push without looking at the size again. -/
def Pc.pending (m : ℕ) : Pc → Bool
  | .popLock _ _ | .popOk _ _ | .popQuad _ _ _ => true
  | .condMax _ _ n => n < m
  | _ => false

def Pc.inPopulate : Pc → Bool
  | .popLock _ _ | .popOk _ _ | .popQuad _ _ _ | .popT1 _ _ _ | .popT2 _ _ _ | .condSize _ _
  | .condMax _ _ _ | .unlock (some _) _ => true
  | _ => false

/-- A thread in `init` will set the size `m`. -/
def Pc.sized (m : ℕ) : Pc → Prop
  | .initLock n | .initOk n | .initMax n => (if n ≠ 0 then n else defaultPrecomputeSize) = m
  | _ => True

/-- The number of threads at points `f`. -/
def count [Fintype T] (f : Pc → Bool) (pc : T → Pc) : ℕ := ∑ t, (f (pc t)).toNat

theorem count_update [Fintype T] (f : Pc → Bool) (pc : T → Pc) (t : T) (p : Pc) :
    count f (Function.update pc t p) + (f (pc t)).toNat = count f pc + (f p).toNat := by
  have e : ∀ u ∈ Finset.univ.erase t, (f (Function.update pc t p u)).toNat = (f (pc u)).toNat := by
    intro u hu
    rw [Function.update_of_ne (Finset.ne_of_mem_erase hu)]
  unfold count
  rw [← Finset.add_sum_erase _ _ (Finset.mem_univ t),
    ← Finset.add_sum_erase (f := fun u => (f (pc u)).toNat) _ (Finset.mem_univ t),
    Finset.sum_congr rfl e, Function.update_self]
  omega

theorem count_le [Fintype T] {f g : Pc → Bool} (h : ∀ p, f p = true → g p = true) (pc : T → Pc) (t : T)
    (ht : g (pc t) = true) (hf : f (pc t) = false) : count f pc + 1 ≤ count g pc := by
  unfold count
  rw [← Finset.add_sum_erase _ _ (Finset.mem_univ t),
    ← Finset.add_sum_erase (f := fun u => (g (pc u)).toNat) _ (Finset.mem_univ t), ht, hf]
  have : ∀ u ∈ Finset.univ.erase t, (f (pc u)).toNat ≤ (g (pc u)).toNat := by
    intro u _
    cases e : f (pc u)
    · simp
    · rw [h _ e]
  have := Finset.sum_le_sum this
  simp only [Bool.toNat_true, Bool.toNat_false]
  omega

theorem pending_inPopulate (m : ℕ) (p : Pc) (h : p.pending m = true) : p.inPopulate = true := by
  cases p <;> first | rfl | cases h

/-- What an access does to the quantities of the size. -/
theorem act_size {p q : Pc} {d σ l σ'} {m : ℕ} (h : p.act G d σ = some (l, σ', q)) (hm : σ.max = m)
    (hs : p.sized m) :
    σ'.max = m ∧ q.sized m ∧ (q.inPopulate = true → p.inPopulate = true) ∧
    ((σ'.quads.length + (q.pending m).toNat ≤ σ.quads.length + (p.pending m).toNat) ∨
      (σ'.quads = σ.quads ∧ σ.quads.length < m ∧ p.inPopulate = true ∧ p.pending m = false)) := by
  cases p <;> simp only [Pc.act, reduceCtorEq] at h
  case emptyTriples n =>
    cases n <;> simp only [Option.some.injEq, Prod.mk.injEq] at h <;> obtain ⟨-, rfl, rfl⟩ := h <;>
      simp_all [Pc.sized, Pc.inPopulate, Pc.pending]
  case emptyQuads n =>
    cases n <;> simp only [Option.some.injEq, Prod.mk.injEq] at h <;> obtain ⟨-, rfl, rfl⟩ := h <;>
      simp_all [Pc.sized, Pc.inPopulate, Pc.pending]
  case condSize pub it =>
    simp only [Option.some.injEq, Prod.mk.injEq] at h
    obtain ⟨-, rfl, rfl⟩ := h
    refine ⟨hm, trivial, fun _ => rfl, ?_⟩
    by_cases hlt : σ.quads.length < m
    · exact Or.inr ⟨rfl, hlt, rfl, rfl⟩
    · left; simp [Pc.pending, hlt]
  case condMax pub it n =>
    simp only [Option.some.injEq, Prod.mk.injEq] at h
    obtain ⟨-, rfl, rfl⟩ := h
    refine ⟨hm, ?_, fun _ => rfl, Or.inl ?_⟩
    · split <;> trivial
    · rw [hm]
      split <;> rename_i hlt <;> simp [Pc.pending, hlt]
  case popQuad pub it d =>
    simp only [Option.some.injEq, Prod.mk.injEq] at h
    obtain ⟨-, rfl, rfl⟩ := h
    refine ⟨hm, ?_, fun _ => rfl, Or.inl ?_⟩
    · split <;> trivial
    · split <;> simp [Pc.pending]
  all_goals (try split at h) <;>
    simp only [Option.some.injEq, Prod.mk.injEq, reduceCtorEq] at h <;>
    obtain ⟨-, rfl, rfl⟩ := h <;>
    simp_all [Pc.sized, Pc.inPopulate, Pc.pending]

/-- The number of calls of `populate`. -/
def populates (ls : List (T × Lab)) : ℕ := (calls ls).countP Call.isPopulate

/-- A call of `populate` brings the queue at most one entry beyond its size, however many run at the same
time, as long as the size is not changed. -/
theorem C91_size [Fintype T] {σ : PreState} {ls} {s : State T} (h : Reach G (State.start σ) ls s)
    (h0 : σ.quads.length ≤ σ.max)
    (hc : ∀ n, .init n ∈ calls ls → (if n ≠ 0 then n else defaultPrecomputeSize) = σ.max) :
    s.mem.max = σ.max ∧ s.mem.quads.length ≤ σ.max + populates ls := by
  suffices key : s.mem.max = σ.max ∧ (∀ t, (s.pc t).sized σ.max) ∧
      count Pc.inPopulate s.pc ≤ populates ls ∧
      s.mem.quads.length + count (Pc.pending σ.max) s.pc ≤ σ.max + populates ls from
    ⟨key.1, by have := key.2.2.2; omega⟩
  induction h with
  | refl =>
    have e : ∀ f : Pc → Bool, f .idle = false → count f (fun _ : T => Pc.idle) = 0 := by
      intro f hf
      simp [count, hf]
    refine ⟨rfl, fun t => trivial, ?_, ?_⟩
    · simp only [State.start]; rw [e _ rfl]; exact Nat.zero_le _
    · simp only [State.start]; rw [e _ rfl]
      show σ.quads.length + 0 ≤ σ.max + 0
      omega
  | @step ls s' s'' t l h hs ih =>
    have ec : calls (ls ++ [(t, l)]) = calls ls ++ calls [(t, l)] := by simp [calls]
    have ep : populates (ls ++ [(t, l)]) = populates ls + populates [(t, l)] := by
      simp [populates, ec, List.countP_append]
    obtain ⟨i1, i2, i3, i4⟩ := ih (fun n hn => hc n (by rw [ec]; exact List.mem_append_left _ hn))
    have sized : ∀ (x : State T) p, x.pc = s'.pc → p.sized σ.max → ∀ u, ((x.goto t p).pc u).sized σ.max := by
      intro x p hx hp u
      by_cases hu : u = t
      · subst hu; rw [goto_pc_self]; exact hp
      · rw [goto_pc_ne _ _ hu, hx]; exact i2 u
    cases hs with
    | call c h =>
      have a := count_update Pc.inPopulate s'.pc t c.start
      have b := count_update (Pc.pending σ.max) s'.pc t c.start
      rw [h] at a b
      rw [ep]
      refine ⟨i1, sized _ _ rfl ?_, ?_, ?_⟩
      · cases c <;> try trivial
        exact hc _ (by simp [calls])
      · show count Pc.inPopulate (Function.update s'.pc t c.start) ≤ _
        cases c <;> simp [populates, calls, Call.isPopulate, Call.start, Pc.inPopulate] at a ⊢ <;> 
          simp [populates, calls] at i3 <;> omega
      · show _ + count (Pc.pending σ.max) (Function.update s'.pc t c.start) ≤ _
        cases c <;> simp [populates, calls, Call.isPopulate, Call.start, Pc.pending, goto_mem] at b ⊢ <;>
          simp [populates, calls] at i4 <;> omega
    | lock p h ho =>
      have a := count_update Pc.inPopulate s'.pc t p
      have b := count_update (Pc.pending σ.max) s'.pc t p
      have hz := i2 t
      have e0 : populates [(t, Lab.tau)] = 0 := rfl
      rw [ep, e0]
      have hp : p.sized σ.max ∧ p.inPopulate = (s'.pc t).inPopulate ∧
          p.pending σ.max = (s'.pc t).pending σ.max := by
        generalize s'.pc t = q at h hz
        cases q <;> simp only [Pc.locked, reduceCtorEq, Option.some.injEq] at h <;> subst h <;>
          exact ⟨hz, rfl, rfl⟩
      rw [hp.2.1] at a
      rw [hp.2.2] at b
      refine ⟨i1, sized _ _ rfl hp.1, ?_, ?_⟩
      · show count Pc.inPopulate (Function.update s'.pc t p) ≤ _
        omega
      · show s'.mem.quads.length + count (Pc.pending σ.max) (Function.update s'.pc t p) ≤ _
        omega
    | unlock loop out h =>
      have e0 : populates [(t, Lab.tau)] = 0 := rfl
      rw [ep, e0]
      refine ⟨i1, sized _ _ rfl ?_, ?_, ?_⟩
      · cases loop <;> trivial
      · have a := count_update Pc.inPopulate s'.pc t (afterUnlock loop)
        rw [h] at a
        show count Pc.inPopulate (Function.update s'.pc t _) ≤ _
        cases loop <;> simp only [afterUnlock, Pc.inPopulate, Bool.toNat_false, Bool.toNat_true] at a ⊢ <;>
          omega
      · have a := count_update (Pc.pending σ.max) s'.pc t (afterUnlock loop)
        rw [h] at a
        show s'.mem.quads.length + count (Pc.pending σ.max) (Function.update s'.pc t _) ≤ _
        cases loop <;> simp only [afterUnlock, Pc.pending, Bool.toNat_false] at a ⊢ <;> omega
    | act d _ τ p h =>
      have e0 : populates [(t, l)] = 0 := by
        cases l with
        | call c =>
          exfalso
          generalize s'.pc t = q at h
          cases q <;> simp only [Pc.act, reduceCtorEq] at h
          case emptyTriples n => cases n <;> simp at h
          case emptyQuads n => cases n <;> simp at h
          all_goals (try split at h) <;> simp at h
        | commit op out => rfl
        | tau => rfl
      rw [ep, e0]
      obtain ⟨h1, h2, h3, h4⟩ := act_size h i1 (i2 t)
      have a := count_update Pc.inPopulate s'.pc t p
      have b := count_update (Pc.pending σ.max) s'.pc t p
      have a1 : p.inPopulate.toNat ≤ (s'.pc t).inPopulate.toNat := by
        cases e : p.inPopulate
        · simp
        · rw [h3 e]
      refine ⟨h1, sized _ _ rfl h2, ?_, ?_⟩
      · show count Pc.inPopulate (Function.update s'.pc t p) ≤ _
        omega
      · show τ.quads.length + count (Pc.pending σ.max) (Function.update s'.pc t p) ≤ _
        rcases h4 with h4 | ⟨h4, h5, h6, h7⟩
        · omega
        · have := count_le (pending_inPopulate σ.max) s'.pc t h6 h7
          rw [h4]
          rw [h7] at b
          have : (p.pending σ.max).toNat ≤ 1 := Bool.toNat_le _
          simp only [Bool.toNat_false] at b
          omega

/-! ## The lock is released -/

/-- How many steps the holder of the lock has at most to do before it releases it. -/
def Pc.rest (σ : PreState) : Pc → ℕ
  | .initOk _ => 3
  | .initMax _ => 2
  | .popOk _ _ => 5
  | .popQuad _ _ _ => 4
  | .popT1 _ _ _ => 3
  | .popT2 _ _ _ => 2
  | .quadTest | .tripleTest => 3
  | .quadPop | .triplePop => 2
  | .emptyTripleSize => popCount σ.triples.length + popCount σ.quads.length + 5
  | .emptyTriples n => n + popCount σ.quads.length + 4
  | .emptyQuadSize => popCount σ.quads.length + 3
  | .emptyQuads n => n + 2
  | .unlock _ _ => 1
  | _ => 0

theorem act_rest {p : Pc} (σ : PreState) (d : Draws) (hp : p.inside = true)
    (hq : p = .quadPop → σ.quads ≠ []) (ht : p = .triplePop → σ.triples ≠ []) :
    (∃ loop out, p = .unlock loop out) ∨
    ∃ l σ' q, p.act G d σ = some (l, σ', q) ∧ q.rest σ' < p.rest σ := by
  cases p <;> try cases hp
  case unlock loop out => exact Or.inl ⟨_, _, rfl⟩
  all_goals right
  case emptyTriples n => cases n <;> exact ⟨_, _, _, rfl, by simp [Pc.rest]⟩
  case emptyQuads n => cases n <;> exact ⟨_, _, _, rfl, by simp [Pc.rest]⟩
  case popOk =>
    by_cases h : σ.populateOk = true
    · exact ⟨_, _, _, by simp only [Pc.act, h, if_true]; rfl, by simp [Pc.rest]⟩
    · exact ⟨_, _, _, by simp only [Pc.act, h]; rfl, by simp [Pc.rest]⟩
  case popQuad => exact ⟨_, _, _, rfl, by split <;> simp [Pc.rest]⟩
  case quadTest =>
    cases h : σ.quads
    · exact ⟨_, _, _, by simp only [Pc.act, h]; rfl, by simp [Pc.rest]⟩
    · exact ⟨_, _, _, by simp only [Pc.act, h]; rfl, by simp [Pc.rest]⟩
  case tripleTest =>
    cases h : σ.triples
    · exact ⟨_, _, _, by simp only [Pc.act, h]; rfl, by simp [Pc.rest]⟩
    · exact ⟨_, _, _, by simp only [Pc.act, h]; rfl, by simp [Pc.rest]⟩
  case quadPop =>
    cases h : σ.quads
    · exact absurd h (hq rfl)
    · exact ⟨_, _, _, by simp only [Pc.act, h]; rfl, by simp [Pc.rest]⟩
  case triplePop =>
    cases h : σ.triples
    · exact absurd h (ht rfl)
    · exact ⟨_, _, _, by simp only [Pc.act, h]; rfl, by simp [Pc.rest]⟩
  all_goals exact ⟨_, _, _, rfl, by simp [Pc.rest]⟩

/-- A thread about to take an entry finds one. -/
def Ready (s : State T) : Prop :=
  ∀ t, (s.pc t = .quadPop → s.mem.quads ≠ []) ∧ (s.pc t = .triplePop → s.mem.triples ≠ [])

theorem act_ready {p q : Pc} {d σ l σ'} (h : p.act G d σ = some (l, σ', q)) :
    (q = .quadPop → σ'.quads ≠ []) ∧ (q = .triplePop → σ'.triples ≠ []) := by
  cases p <;> simp only [Pc.act, reduceCtorEq] at h
  case emptyTriples n =>
    cases n <;> simp only [Option.some.injEq, Prod.mk.injEq] at h <;> obtain ⟨-, rfl, rfl⟩ := h <;> simp
  case emptyQuads n =>
    cases n <;> simp only [Option.some.injEq, Prod.mk.injEq] at h <;> obtain ⟨-, rfl, rfl⟩ := h <;> simp
  all_goals (try split at h) <;>
    simp only [Option.some.injEq, Prod.mk.injEq, reduceCtorEq] at h <;>
    obtain ⟨-, rfl, rfl⟩ := h <;> simp_all

theorem ready_step {s s' : State T} {t l} (hi : LockInv s) (hr : Ready s) (h : Step G s t l s') :
    Ready s' := by
  intro u
  by_cases hu : u = t
  · subst hu
    cases h with
    | call c h => rw [goto_pc_self]; cases c <;> simp [Call.start]
    | lock p h ho =>
      rw [goto_pc_self]
      generalize s.pc u = q at h
      cases q <;> simp only [Pc.locked, reduceCtorEq, Option.some.injEq] at h <;> subst h <;> simp
    | unlock loop out h => rw [goto_pc_self]; cases loop <;> simp [afterUnlock]
    | act d _ σ p h => rw [goto_pc_self, goto_mem]; exact act_ready h
  · cases h with
    | call c h => rw [goto_pc_ne _ _ hu, goto_mem]; exact hr u
    | lock p h ho => rw [goto_pc_ne _ _ hu, goto_mem]; exact hr u
    | unlock loop out h => rw [goto_pc_ne _ _ hu, goto_mem]; exact hr u
    | act d _ σ p h =>
      rw [goto_pc_ne _ _ hu, goto_mem]
      by_cases hin : (s.pc t).inside = true
      · have ht := (hi t).1 hin
        have out : (s.pc u).inside = false := by
          cases e : (s.pc u).inside
          · rfl
          · have := (hi u).1 e
            rw [ht] at this
            exact absurd (Option.some.inj this).symm hu
        constructor <;> intro e <;> rw [e] at out <;> cases out
      · have hin : (s.pc t).inside = false := by simpa using hin
        rcases act_outside h hin with ⟨-, rfl⟩ | ⟨-, rfl⟩ <;> exact hr u

theorem ready_reach {σ : PreState} {ls} {s : State T} (h : Reach G (State.start σ) ls s) : Ready s := by
  induction h with
  | refl => intro t; simp [State.start]
  | step h hs ih => exact ready_step (lockInv_reach h) ih hs

/-- The lock is always released: whoever holds it can go on without waiting for anyone, and releases it
after finitely many steps of its own. -/
theorem C91_released {σ : PreState} {ls} {s : State T} (h : Reach G (State.start σ) ls s) {t : T}
    (ho : s.owner = some t) : ∃ ls' s', Reach G s ls' s' ∧ (∀ x ∈ ls', x.1 = t) ∧ s'.owner = none := by
  suffices key : ∀ n (ls : List (T × Lab)) (s : State T), Reach G (State.start σ) ls s → s.owner = some t →
      (s.pc t).rest s.mem ≤ n →
      ∀ ls₀ (s₀ : State T), Reach G s₀ ls₀ s → (∀ x ∈ ls₀, x.1 = t) →
      ∃ ls' s', Reach G s₀ ls' s' ∧ (∀ x ∈ ls', x.1 = t) ∧ s'.owner = none from
    key _ ls s h ho le_rfl [] s .refl (by simp)
  intro n
  induction n with
  | zero =>
    intro ls s h ho hn
    have hin := (lockInv_reach h t).2 ho
    generalize s.pc t = q at hin hn
    cases q <;> simp [Pc.rest, Pc.inside] at hn hin
  | succ n ih =>
    intro ls s h ho hn ls₀ s₀ h₀ hl
    have hin := (lockInv_reach h t).2 ho
    have hr := ready_reach h t
    have own : ∀ l : Lab, ∀ x ∈ ls₀ ++ [(t, l)], x.1 = t := by
      intro l x hx
      rcases List.mem_append.1 hx with hx | hx
      · exact hl x hx
      · simp at hx; rw [hx]
    rcases act_rest (G := G) s.mem ⟨0, 0, 0, 0, 0, 0⟩ hin hr.1 hr.2 with ⟨loop, out, e⟩ | ⟨l, σ', q, e, hlt⟩
    · exact ⟨_, _, h₀.step (.unlock t loop out e), own _, rfl⟩
    · refine ih _ _ (h.step (.act t _ l σ' q e)) ho ?_ _ _ (h₀.step (.act t _ l σ' q e)) (own l)
      rw [goto_pc_self, goto_mem]
      show q.rest σ' ≤ n
      omega

/-- Two threads take the only entry: one gets it, the other nothing, and the lock is free. -/
example (x : TwoTriplesQuad) (t u : T) (hne : t ≠ u) :
    ∃ ls, ∃ s : State T, Reach G (State.start ⟨1, true, [], [x]⟩) ls s ∧ s.owner = none ∧
      (∀ c ∈ calls ls, c.underLock = true) ∧ (commits ls).length = 2 ∧
      (commitsOf t ls).map (fun y => y.2.quad) = [some x] ∧
      (commitsOf u ls).map (fun y => y.2.quad) = [none] := by
  have hne' : u ≠ t := fun e => hne e.symm
  let d : Draws := ⟨0, 0, 0, 0, 0, 0⟩
  have r0 : Reach G (State.start ⟨1, true, [], [x]⟩ : State T) [] _ := .refl
  have r1 := r0.call t .getQuad rfl
  have r2 := r1.lock t (p := .quadTest) (by rw [goto_pc_self]; rfl) rfl
  have r3 := r2.act t d (by rw [goto_pc_self]; rfl)
  have r4 := r3.call u .getQuad (by
    rw [goto_pc_ne _ _ hne']
    simp only [State.goto, Function.update_of_ne hne', State.start])
  have r5 := r4.act t d (l := .commit .getQuad { quad := some x }) (m := ⟨1, true, [], []⟩)
    (p := .unlock none { quad := some x }) (by rw [goto_pc_ne _ _ hne, goto_pc_self]; rfl)
  have r6 := r5.step (.unlock t none { quad := some x } (by rw [goto_pc_self]))
  have r7 := r6.lock u (p := .quadTest) (by
    rw [goto_pc_ne _ _ hne']
    simp only [State.goto, Function.update_of_ne hne', Function.update_self]
    rfl) rfl
  have r8 := r7.act u d (by rw [goto_pc_self]; rfl)
  have r9 := r8.step (.unlock u none {} (by rw [goto_pc_self]))
  refine ⟨_, _, r9, rfl, ?_, ?_, ?_, ?_⟩
  · simp [calls, Call.underLock]
  · simp [commits]
  · simp [commitsOf, commits, hne']
  · simp [commitsOf, commits, hne]

end EG.PreRace
