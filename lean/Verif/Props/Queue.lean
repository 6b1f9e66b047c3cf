import Verif.Lemmas.Queue
import Mathlib.Data.List.Perm.Subperm
import Mathlib.Data.List.Perm.Basic
import Mathlib.Tactic.Common

/-!
# C51: the asynchronous queue
-/

namespace EG.Queue

set_option linter.unusedSectionVars false

variable {T V : Type} [DecidableEq T]

theorem sim_reachable {ls : List (Label T V)} {s : State T V} (h : Reachable ls s) :
    ∃ als a as, AReachable als a ∧ als.filter Label.visible = ls.filter Label.visible ∧ Sim s a as := by
  induction h with
  | initial x => exact ⟨[], _, [], .initial, rfl, Sim.initial x⟩
  | @step ls s l s' h hs ih =>
    obtain ⟨als, a, as, h1, h2, h3⟩ := ih
    obtain ⟨a', as', h4, h5⟩ := h3.step hs
    rcases h5 with h5 | ⟨rfl, rfl⟩
    · refine ⟨l :: als, a', as', .step h1 h5, ?_, h4⟩
      simp only [List.filter_cons, h2]
    · exact ⟨als, a', as', h1, by simpa [List.filter_cons, Label.visible] using h2, h4⟩

/-- Every execution of the queue, with any number of threads and any schedule, shows the same calls
and returns as an execution of the atomic queue: each call takes effect on one list at one instant
between its call and its return. -/
theorem C51_linearizable {ls : List (Label T V)} {s : State T V} (h : Reachable ls s) :
    ∃ als a, AReachable als a ∧ als.filter Label.visible = ls.filter Label.visible := by
  obtain ⟨als, a, _, h1, h2, _⟩ := sim_reachable h
  exact ⟨als, a, h1, h2⟩

/-- No thread ever dereferences a null pointer, uses a deleted node or takes a value twice. -/
theorem C51_no_crash {ls : List (Label T V)} {s : State T V} (h : Reachable ls s) (t : T) :
    ¬ Crash s t := by
  obtain ⟨_, a, as, _, _, hs⟩ := sim_reachable h
  intro hc
  unfold Crash at hc
  have ho := hs.ok t
  have htail := hs.alive s.tail (by simp)
  cases hp : s.pc t with
  | pushData v x => simp [hp, htail] at hc
  | pushNext v x => simp [hp, htail] at hc
  | move =>
    rw [hp] at ho
    simp only [hp] at hc
    obtain ⟨_, w, hw⟩ := ho
    obtain ⟨y, b, as', q', rfl, hq, hy, hb, hpth, hdy, hrest⟩ := hs.first hw
    have hut := hs.untaken (t := t) (by rw [hp]; rfl) (by rw [hp]; rfl)
    refine hc y w hy (hs.alive y (by simp)) ?_
    rcases hdy with h2 | ⟨u, h2⟩
    · exact h2
    · rw [hut u] at h2
      cases h2
  | unlink o =>
    rw [hp] at ho
    simp only [hp] at hc
    obtain ⟨w, hw, _⟩ := ho
    obtain ⟨y, b, as', q', rfl, hq, hy, hb, hpth, hdy, hrest⟩ := hs.first hw
    have := hc y hy
    rw [hs.alive y (by simp)] at this
    cases this
  | finish o x =>
    rw [hp] at ho
    obtain ⟨v, _, ho⟩ := ho
    have hal := (hs.priv t x (by rw [hp]; rfl)).1
    cases o with
    | none =>
      simp only [hp] at hc
      rcases hc with hc | hc
      · rw [hal] at hc; cases hc
      · rcases ho with ho | ⟨_, ho⟩
        · cases ho
        · exact hc v ho
    | some w =>
      simp only [hp] at hc
      rw [hal] at hc
      cases hc
  | _ => simp [hp] at hc

/-- When `pop` has found the queue not empty, the second look at the tail in `_pop` agrees: a value
that was moved out of its node is returned. -/
theorem C51_second_check {ls : List (Label T V)} {s : State T V} (h : Reachable ls s) (t : T)
    (o : Option V) (tl : Addr) (hp : s.pc t = .compare2 o tl) : s.head ≠ some tl := by
  obtain ⟨_, a, as, _, _, hs⟩ := sim_reachable h
  have ho := hs.ok t
  rw [hp] at ho
  exact ho.2

theorem head_mem {s : State T V} {a : AState T V} {as : List Addr} (hs : Sim s a as) {x : Addr}
    (hx : s.head = some x) : x ∈ as ++ [s.tail] := by
  obtain ⟨y, hy, hp⟩ := hs.path
  have h1 := path_head hp
  rw [hx] at hy
  rw [Option.some.inj hy]
  exact List.mem_of_mem_head? h1

/-- Accesses to the first node other than comparisons happen only when it is not the tail. -/
theorem head_ne_tail {s : State T V} {a : AState T V} {as : List Addr} (hs : Sim s a as) {t : T}
    (hp : s.pc t = .move ∨ ∃ o, s.pc t = .unlink o) : s.head ≠ some s.tail := by
  intro hh
  have hq := hs.head_eq_tail.1 hh
  have ho := hs.ok t
  rcases hp with hp | ⟨o, hp⟩
  · rw [hp, hq] at ho
    obtain ⟨_, v, hv⟩ := ho
    cases hv
  · rw [hp, hq] at ho
    obtain ⟨v, hv, _⟩ := ho
    cases hv

/-- How a thread comes to access a location. -/
theorem accesses_cases {s : State T V} {a : AState T V} {as : List Addr} (hs : Sim s a as) {t : T}
    {l : Loc} {b : Bool} (h : (l, b) ∈ accesses s t) :
    (l = .head ∧ (s.pc t).ownsHead = true) ∨ (l = .tail ∧ (s.pc t).ownsTail = true) ∨
    ((l = .data s.tail ∨ l = .next s.tail) ∧ (s.pc t).ownsTail = true) ∨
    (∃ x, s.head = some x ∧ x ≠ s.tail ∧ (l = .data x ∨ l = .next x) ∧ (s.pc t).ownsHead = true) ∨
    (∃ x, (s.pc t).priv = some x ∧ x ∉ as ++ [s.tail] ∧ (l = .data x ∨ l = .next x)) := by
  unfold accesses at h
  cases hp : s.pc t with
  | pushData v x =>
    simp only [hp, List.mem_cons, Prod.mk.injEq, List.not_mem_nil, or_false] at h
    rcases h with ⟨rfl, _⟩ | ⟨rfl, _⟩
    · exact Or.inr (Or.inl ⟨rfl, rfl⟩)
    · exact Or.inr (Or.inr (Or.inl ⟨Or.inl rfl, rfl⟩))
  | pushNext v x =>
    simp only [hp, List.mem_cons, Prod.mk.injEq, List.not_mem_nil, or_false] at h
    rcases h with ⟨rfl, _⟩ | ⟨rfl, _⟩
    · exact Or.inr (Or.inl ⟨rfl, rfl⟩)
    · exact Or.inr (Or.inr (Or.inl ⟨Or.inr rfl, rfl⟩))
  | pushTail v x =>
    simp only [hp, List.mem_cons, Prod.mk.injEq, List.not_mem_nil, or_false] at h
    exact Or.inr (Or.inl ⟨h.1, rfl⟩)
  | tailRead1 m =>
    simp only [hp, List.mem_cons, Prod.mk.injEq, List.not_mem_nil, or_false] at h
    exact Or.inr (Or.inl ⟨h.1, rfl⟩)
  | tailRead2 m =>
    simp only [hp, List.mem_cons, Prod.mk.injEq, List.not_mem_nil, or_false] at h
    exact Or.inr (Or.inl ⟨h.1, rfl⟩)
  | compare1 m tl =>
    simp only [hp, List.mem_cons, Prod.mk.injEq, List.not_mem_nil, or_false] at h
    exact Or.inl ⟨h.1, rfl⟩
  | compare2 m tl =>
    simp only [hp, List.mem_cons, Prod.mk.injEq, List.not_mem_nil, or_false] at h
    exact Or.inl ⟨h.1, rfl⟩
  | move =>
    have hne := head_ne_tail hs (Or.inl hp)
    cases hh : s.head with
    | none =>
      simp only [hp, hh, List.mem_cons, Prod.mk.injEq, List.not_mem_nil, or_false] at h
      exact Or.inl ⟨h.1, rfl⟩
    | some x =>
      simp only [hp, hh, List.mem_cons, Prod.mk.injEq, List.not_mem_nil, or_false] at h
      rcases h with ⟨rfl, _⟩ | ⟨rfl, _⟩
      · exact Or.inl ⟨rfl, rfl⟩
      · exact Or.inr (Or.inr (Or.inr (Or.inl ⟨x, rfl, fun hx => hne (by rw [hh, hx]), Or.inl rfl, rfl⟩)))
  | unlink o =>
    have hne := head_ne_tail hs (Or.inr ⟨o, hp⟩)
    cases hh : s.head with
    | none =>
      simp only [hp, hh, List.mem_cons, Prod.mk.injEq, List.not_mem_nil, or_false] at h
      exact Or.inl ⟨h.1, rfl⟩
    | some x =>
      simp only [hp, hh, List.mem_cons, Prod.mk.injEq, List.not_mem_nil, or_false] at h
      rcases h with ⟨rfl, _⟩ | ⟨rfl, _⟩
      · exact Or.inl ⟨rfl, rfl⟩
      · exact Or.inr (Or.inr (Or.inr (Or.inl ⟨x, rfl, fun hx => hne (by rw [hh, hx]), Or.inr rfl, rfl⟩)))
  | finish o x =>
    have h2 := hs.priv t x (by rw [hp]; rfl)
    simp only [hp, List.mem_cons, Prod.mk.injEq, List.not_mem_nil, or_false] at h
    rcases h with ⟨rfl, _⟩ | ⟨rfl, _⟩
    · exact Or.inr (Or.inr (Or.inr (Or.inr ⟨x, rfl, h2.2, Or.inl rfl⟩)))
    · exact Or.inr (Or.inr (Or.inr (Or.inr ⟨x, rfl, h2.2, Or.inr rfl⟩)))
  | _ => simp [hp] at h

/-- There are no data races: two threads are never about to access the same location, even to read
it.  So the interleavings considered here are all behaviours of the program. -/
theorem C51_race_free {ls : List (Label T V)} {s : State T V} (h : Reachable ls s) : ¬ Race s := by
  obtain ⟨_, a, as, _, _, hs⟩ := sim_reachable h
  rintro ⟨t, u, l, b, hne, h1, h2⟩
  have hH : (s.pc t).ownsHead = true → (s.pc u).ownsHead = true → False := fun h3 h4 => by
    rw [hs.other_head h3 (Ne.symm hne)] at h4
    cases h4
  have hT : (s.pc t).ownsTail = true → (s.pc u).ownsTail = true → False := fun h3 h4 => by
    rw [hs.other_tail h3 (Ne.symm hne)] at h4
    cases h4
  have inj : ∀ {x y : Addr}, (l = .data x ∨ l = .next x) → (l = .data y ∨ l = .next y) → x = y := by
    intro x y h3 h4
    rcases h3 with rfl | rfl <;> rcases h4 with h4 | h4 <;> cases h4 <;> rfl
  rcases accesses_cases hs h1 with ⟨e1, o1⟩ | ⟨e1, o1⟩ | ⟨e1, o1⟩ | ⟨x, hx, hxt, e1, o1⟩ | ⟨x, hx, hxn, e1⟩
  · rcases accesses_cases hs h2 with ⟨e2, o2⟩ | ⟨e2, o2⟩ | ⟨e2, o2⟩ | ⟨y, hy, hyt, e2, o2⟩ | ⟨y, hy, hyn, e2⟩
    · exact hH o1 o2
    · rw [e1] at e2; cases e2
    · rw [e1] at e2; rcases e2 with e2 | e2 <;> cases e2
    · rw [e1] at e2; rcases e2 with e2 | e2 <;> cases e2
    · rw [e1] at e2; rcases e2 with e2 | e2 <;> cases e2
  · rcases accesses_cases hs h2 with ⟨e2, o2⟩ | ⟨e2, o2⟩ | ⟨e2, o2⟩ | ⟨y, hy, hyt, e2, o2⟩ | ⟨y, hy, hyn, e2⟩
    · rw [e1] at e2; cases e2
    · exact hT o1 o2
    · rw [e1] at e2; rcases e2 with e2 | e2 <;> cases e2
    · rw [e1] at e2; rcases e2 with e2 | e2 <;> cases e2
    · rw [e1] at e2; rcases e2 with e2 | e2 <;> cases e2
  · rcases accesses_cases hs h2 with ⟨e2, o2⟩ | ⟨e2, o2⟩ | ⟨e2, o2⟩ | ⟨y, hy, hyt, e2, o2⟩ | ⟨y, hy, hyn, e2⟩
    · rw [e2] at e1; rcases e1 with e1 | e1 <;> cases e1
    · rw [e2] at e1; rcases e1 with e1 | e1 <;> cases e1
    · exact hT o1 o2
    · exact hyt (inj e1 e2).symm
    · exact hyn (by simp [← inj e1 e2])
  · rcases accesses_cases hs h2 with ⟨e2, o2⟩ | ⟨e2, o2⟩ | ⟨e2, o2⟩ | ⟨y, hy, hyt, e2, o2⟩ | ⟨y, hy, hyn, e2⟩
    · rw [e2] at e1; rcases e1 with e1 | e1 <;> cases e1
    · rw [e2] at e1; rcases e1 with e1 | e1 <;> cases e1
    · exact hxt (inj e1 e2)
    · exact hH o1 o2
    · exact hyn (by rw [← inj e1 e2]; exact head_mem hs hx)
  · rcases accesses_cases hs h2 with ⟨e2, o2⟩ | ⟨e2, o2⟩ | ⟨e2, o2⟩ | ⟨y, hy, hyt, e2, o2⟩ | ⟨y, hy, hyn, e2⟩
    · rw [e2] at e1; rcases e1 with e1 | e1 <;> cases e1
    · rw [e2] at e1; rcases e1 with e1 | e1 <;> cases e1
    · exact hxn (by simp [inj e1 e2])
    · exact hxn (by rw [inj e1 e2]; exact head_mem hs hy)
    · have := inj e1 e2
      subst this
      exact hne (hs.privInj t u x hx hy)

/-- A step that starts no new call. -/
def Label.isCall : Label T V → Bool
  | .call _ _ => true
  | _ => false

/-- There is no deadlock: as long as a call has not returned, some thread that is inside a call can
go on (an address for a new node being available). -/
theorem C51_progress {ls : List (Label T V)} {s : State T V} (h : Reachable ls s)
    (hfree : ∃ x, (s.node x).alive = false) (t : T) (ht : s.pc t ≠ .idle) :
    ∃ l s', Step s l s' ∧ l.isCall = false := by
  obtain ⟨_, a, as, _, _, hs⟩ := sim_reachable h
  have hcr := C51_no_crash h
  have htail := hs.alive s.tail (by simp)
  obtain ⟨hd, hhd, _⟩ := hs.path
  -- a thread that waits for no mutex can go on
  have free : ∀ u, s.pc u ≠ .idle → (∀ v x, s.pc u ≠ .pushLock v x) → (∀ m, s.pc u ≠ .headLock m) →
      (∀ m, s.pc u ≠ .tailLock1 m) → (∀ o, s.pc u ≠ .tailLock2 o) →
      ∃ l s', Step s l s' ∧ l.isCall = false := by
    intro u n1 n2 n3 n4 n5
    have hcu := hcr u
    unfold Crash at hcu
    cases hp : s.pc u with
    | idle => exact absurd hp n1
    | pushAlloc v =>
      obtain ⟨x, hx⟩ := hfree
      exact ⟨_, _, .pushAlloc u v x hp hx, rfl⟩
    | pushLock v x => exact absurd hp (n2 v x)
    | pushData v x => exact ⟨_, _, .pushData u v x hp htail, rfl⟩
    | pushNext v x => exact ⟨_, _, .pushNext u v x hp htail, rfl⟩
    | pushTail v x => exact ⟨_, _, .pushTail u v x hp, rfl⟩
    | pushUnlock => exact ⟨_, _, .pushUnlock u hp, rfl⟩
    | headLock m => exact absurd hp (n3 m)
    | tailLock1 m => exact absurd hp (n4 m)
    | tailRead1 m => exact ⟨_, _, .tailRead1 u m hp, rfl⟩
    | tailUnlock1 m tl => exact ⟨_, _, .tailUnlock1 u m tl hp, rfl⟩
    | compare1 m tl =>
      by_cases hc : s.head = some tl
      · exact ⟨_, _, .compareEq1 u m tl hp hc, rfl⟩
      · cases m with
        | ptr => exact ⟨_, _, .compareNePtr u tl hp hc, rfl⟩
        | ref => exact ⟨_, _, .compareNeRef u tl hp hc, rfl⟩
        | isEmpty => exact ⟨_, _, .compareNeEmpty u tl hp hc, rfl⟩
    | move =>
      simp only [hp] at hcu
      push Not at hcu
      obtain ⟨x, v, h1, h2, h3⟩ := hcu
      exact ⟨_, _, .move u x v hp h1 h2 h3, rfl⟩
    | tailLock2 o => exact absurd hp (n5 o)
    | tailRead2 o => exact ⟨_, _, .tailRead2 u o hp, rfl⟩
    | tailUnlock2 o tl => exact ⟨_, _, .tailUnlock2 u o tl hp, rfl⟩
    | compare2 o tl =>
      by_cases hc : s.head = some tl
      · exact ⟨_, _, .compareEq2 u o tl hp hc, rfl⟩
      · exact ⟨_, _, .compareNe2 u o tl hp hc, rfl⟩
    | unlink o =>
      simp only [hp] at hcu
      push Not at hcu
      obtain ⟨x, h1, h2⟩ := hcu
      exact ⟨_, _, .unlink u o x hp h1 (by simpa using h2), rfl⟩
    | headUnlock o x => exact ⟨_, _, .headUnlock u o x hp, rfl⟩
    | finish o x =>
      cases o with
      | none =>
        simp only [hp] at hcu
        push Not at hcu
        obtain ⟨h1, v, h2⟩ := hcu
        exact ⟨_, _, .finishPtr u x v hp (by simpa using h1) h2, rfl⟩
      | some v =>
        simp only [hp] at hcu
        exact ⟨_, _, .finishRef u x v hp (by simpa using hcu), rfl⟩
    | headUnlockNone r => exact ⟨_, _, .headUnlockNone u r hp, rfl⟩
    | done r => exact ⟨_, _, .ret u r hp, rfl⟩
  -- the owner of the tail mutex never waits
  cases htm : s.tailMutex with
  | some u =>
    have hu := (hs.ownT u).2 htm
    refine free u ?_ ?_ ?_ ?_ ?_ <;> intros <;> intro hp <;> rw [hp] at hu <;> cases hu
  | none =>
    have hfreeT : ∀ u, (s.pc u).ownsHead = true → ∃ l s', Step s l s' ∧ l.isCall = false := by
      intro u hu
      cases hp : s.pc u with
      | tailLock1 m => exact ⟨_, _, .tailLock1 u m hp htm, rfl⟩
      | tailLock2 o => exact ⟨_, _, .tailLock2 u o hp htm, rfl⟩
      | idle => rw [hp] at hu; cases hu
      | headLock m => rw [hp] at hu; cases hu
      | pushLock v x => rw [hp] at hu; cases hu
      | _ => exact free u (by simp [hp]) (by simp [hp]) (by simp [hp]) (by simp [hp]) (by simp [hp])
    cases hhm : s.headMutex with
    | some u => exact hfreeT u ((hs.ownH u).2 hhm)
    | none =>
      cases hp : s.pc t with
      | idle => exact absurd hp ht
      | pushLock v x => exact ⟨_, _, .pushLock t v x hp htm, rfl⟩
      | headLock m => exact ⟨_, _, .headLock t m hp hhm, rfl⟩
      | tailLock1 m => exact ⟨_, _, .tailLock1 t m hp htm, rfl⟩
      | tailLock2 o => exact ⟨_, _, .tailLock2 t o hp htm, rfl⟩
      | _ => exact free t (by simp [hp]) (by simp [hp]) (by simp [hp]) (by simp [hp]) (by simp [hp])

/-! ## What is pushed and what comes out -/

/-- The values given to `push`, with the calling thread, latest first. -/
def pushes (ls : List (Label T V)) : List (T × V) :=
  ls.filterMap (fun l => match l with
    | .call t (.push v) => some (t, v)
    | _ => none)

/-- The values that `pop` returned, with the thread, latest first. -/
def pops (ls : List (Label T V)) : List (T × V) :=
  ls.filterMap (fun l => match l with
    | .ret t (.popped (some v)) => some (t, v)
    | _ => none)

theorem pushes_visible (ls : List (Label T V)) : pushes (ls.filter Label.visible) = pushes ls := by
  induction ls with
  | nil => rfl
  | cons l ls ih =>
    unfold pushes at *
    cases l <;> simp [List.filter_cons, Label.visible, List.filterMap_cons, ih]

theorem pops_visible (ls : List (Label T V)) : pops (ls.filter Label.visible) = pops ls := by
  induction ls with
  | nil => rfl
  | cons l ls ih =>
    unfold pops at *
    cases l <;> simp [List.filter_cons, Label.visible, List.filterMap_cons, ih]

/-- The part of a list that belongs to one thread. -/
def ofThread (t : T) (l : List (T × V)) : List V := (l.filter (fun x => x.1 = t)).map (·.2)

theorem ofThread_cons (t u : T) (v : V) (l : List (T × V)) :
    ofThread t ((u, v) :: l) = if u = t then v :: ofThread t l else ofThread t l := by
  unfold ofThread
  by_cases h : u = t <;> simp [h]

/-- A pushed value that has not reached the queue. -/
def APc.pushing : APc V → List V
  | .called (.push v) => [v]
  | _ => []

/-- A value taken from the queue that has not been returned. -/
def APc.returning : APc V → List V
  | .took (.popped (some v)) => [v]
  | _ => []

/-- The history of the atomic queue. -/
theorem history {ls : List (Label T V)} {a : AState T V} (h : AReachable ls a) :
    ∃ E F : List (T × V), F.map (·.2) = a.queue.reverse ++ E.map (·.2) ∧
      (∀ t, ofThread t (pushes ls) = (a.pc t).pushing ++ ofThread t F) ∧
      (∀ t, ofThread t E = (a.pc t).returning ++ ofThread t (pops ls)) := by
  induction h with
  | initial => exact ⟨[], [], rfl, fun _ => rfl, fun _ => rfl⟩
  | @step ls s l s' h hs ih =>
    obtain ⟨E, F, h1, h2, h3⟩ := ih
    cases hs with
    | call t op hp =>
      refine ⟨E, F, h1, fun u => ?_, fun u => ?_⟩
      · have e := h2 u
        by_cases hu : u = t
        · subst hu
          rw [hp] at e
          cases op <;> simpa [pushes, List.filterMap_cons, APc.pushing, ofThread_cons] using e
        · cases op <;> simpa [pushes, List.filterMap_cons, ofThread_cons, hu, Ne.symm hu] using e
      · have e := h3 u
        by_cases hu : u = t
        · subst hu
          rw [hp] at e
          simpa [pops, List.filterMap_cons, APc.returning] using e
        · simpa [pops, List.filterMap_cons, hu] using e
    | ret t r hp =>
      refine ⟨E, F, h1, fun u => ?_, fun u => ?_⟩
      · have e := h2 u
        by_cases hu : u = t
        · subst hu
          rw [hp] at e
          simpa [pushes, List.filterMap_cons, APc.pushing] using e
        · simpa [pushes, List.filterMap_cons, hu] using e
      · have e := h3 u
        by_cases hu : u = t
        · subst hu
          rw [hp] at e
          rcases r with _ | ⟨_ | v⟩ | b <;>
            simpa [pops, List.filterMap_cons, APc.returning, ofThread_cons] using e
        · rcases r with _ | ⟨_ | v⟩ | b <;>
            simpa [pops, List.filterMap_cons, ofThread_cons, hu, Ne.symm hu] using e
    | effect t op hp =>
      -- an effect that changes nothing
      have same : ∀ r : Ret V, (APc.took r).returning = [] → (∀ v, op ≠ .push v) →
          (∀ u, ofThread u (pushes (.tau :: ls)) = (Function.update s.pc t (.took r) u).pushing ++
            ofThread u F) ∧
          (∀ u, ofThread u E = (Function.update s.pc t (.took r) u).returning ++
            ofThread u (pops (.tau :: ls))) := by
        intro r hr hop
        refine ⟨fun u => ?_, fun u => ?_⟩
        · have e := h2 u
          by_cases hu : u = t
          · subst hu
            rw [hp] at e
            rw [Function.update_self]
            cases op with
            | push v => exact absurd rfl (hop v)
            | _ => exact e
          · rw [Function.update_of_ne hu]
            exact e
        · have e := h3 u
          by_cases hu : u = t
          · subst hu
            rw [hp] at e
            rw [Function.update_self, hr]
            exact e
          · rw [Function.update_of_ne hu]
            exact e
      have take : ∀ v q, s.queue = v :: q → (∀ v, op ≠ .push v) →
          ∃ E F : List (T × V), F.map (·.2) = q.reverse ++ E.map (·.2) ∧
          (∀ u, ofThread u (pushes (.tau :: ls)) =
            (Function.update s.pc t (.took (.popped (some v))) u).pushing ++ ofThread u F) ∧
          (∀ u, ofThread u E = (Function.update s.pc t (.took (.popped (some v))) u).returning ++
            ofThread u (pops (.tau :: ls))) := by
        intro v q hq hop
        refine ⟨(t, v) :: E, F, ?_, fun u => ?_, fun u => ?_⟩
        · rw [h1, hq]; simp
        · have e := h2 u
          by_cases hu : u = t
          · subst hu
            rw [hp] at e
            rw [Function.update_self]
            cases op with
            | push v => exact absurd rfl (hop v)
            | _ => exact e
          · rw [Function.update_of_ne hu]
            exact e
        · have e := h3 u
          rw [ofThread_cons]
          by_cases hu : u = t
          · subst hu
            rw [hp] at e
            rw [Function.update_self, if_pos rfl, e]
            rfl
          · rw [Function.update_of_ne hu, if_neg (Ne.symm hu)]
            exact e
      cases op with
      | push v =>
        refine ⟨E, (t, v) :: F, ?_, fun u => ?_, fun u => ?_⟩
        · simp [Op.apply, h1]
        · have e := h2 u
          rw [ofThread_cons]
          by_cases hu : u = t
          · subst hu
            rw [hp] at e
            simpa [pushes, List.filterMap_cons, APc.pushing, Op.apply] using e
          · simpa [pushes, List.filterMap_cons, hu, Ne.symm hu] using e
        · have e := h3 u
          by_cases hu : u = t
          · subst hu
            rw [hp] at e
            simpa [pops, List.filterMap_cons, APc.returning, Op.apply] using e
          · simpa [pops, List.filterMap_cons, hu] using e
      | empty =>
        exact ⟨E, F, h1, same _ rfl (by simp)⟩
      | popPtr =>
        cases hq : s.queue with
        | nil =>
          rw [hq] at h1
          exact ⟨E, F, h1, same _ rfl (by simp)⟩
        | cons v q => exact take v q hq (by simp)
      | popRef =>
        cases hq : s.queue with
        | nil =>
          rw [hq] at h1
          exact ⟨E, F, h1, same _ rfl (by simp)⟩
        | cons v q => exact take v q hq (by simp)

open Classical in
theorem count_ofThread (l : List (T × V)) (t : T) (v : V) :
    l.count (t, v) = (ofThread t l).count v := by
  induction l with
  | nil => rfl
  | cons x l ih =>
    obtain ⟨u, w⟩ := x
    rw [ofThread_cons, List.count_cons, ih]
    by_cases hu : u = t
    · subst hu
      by_cases hw : w = v <;> simp [hw]
    · simp [hu]

theorem subperm_of_threads {l m : List (T × V)} (h : ∀ t, (ofThread t l).Sublist (ofThread t m)) :
    l.Subperm m := by
  classical
  rw [List.subperm_ext_iff]
  rintro ⟨t, v⟩ _
  rw [count_ofThread, count_ofThread]
  exact (h t).count_le v

theorem perm_of_threads {l m : List (T × V)} (h : ∀ t, ofThread t l = ofThread t m) :
    l.Perm m := by
  classical
  rw [List.perm_iff_count]
  rintro ⟨t, v⟩
  rw [count_ofThread, count_ofThread, h t]

theorem subperm_map {α β : Type} (f : α → β) {l m : List α} (h : l.Subperm m) :
    (l.map f).Subperm (m.map f) := by
  obtain ⟨l', h1, h2⟩ := h
  exact ⟨l'.map f, h1.map f, h2.map f⟩

/-- Nothing is invented or duplicated: the values that came out are, with multiplicity, among the
values that were pushed. -/
theorem C51_no_duplication {ls : List (Label T V)} {s : State T V} (h : Reachable ls s) :
    ((pops ls).map (·.2)).Subperm ((pushes ls).map (·.2)) := by
  obtain ⟨als, a, _, ha, hv, _⟩ := sim_reachable h
  obtain ⟨E, F, h1, h2, h3⟩ := history ha
  have e1 : pops als = pops ls := by rw [← pops_visible, hv, pops_visible]
  have e2 : pushes als = pushes ls := by rw [← pushes_visible, hv, pushes_visible]
  rw [e1] at h3
  rw [e2] at h2
  have s1 : (pops ls).Subperm E := subperm_of_threads (fun t => by
    rw [h3 t]; exact List.sublist_append_right _ _)
  have s2 : F.Subperm (pushes ls) := subperm_of_threads (fun t => by
    rw [h2 t]; exact List.sublist_append_right _ _)
  have s3 : (E.map (·.2)).Subperm (F.map (·.2)) := by
    rw [h1]
    exact (List.sublist_append_right _ _).subperm
  exact (subperm_map _ s1).trans (s3.trans (subperm_map _ s2))

/-- Nothing is lost: when no call is in progress and the queue is empty, what came out is what was
pushed. -/
theorem C51_no_loss {ls : List (Label T V)} {s : State T V} (h : Reachable ls s)
    (hidle : ∀ t, s.pc t = .idle) (hempty : s.head = some s.tail) :
    ((pops ls).map (·.2)).Perm ((pushes ls).map (·.2)) := by
  obtain ⟨als, a, _, ha, hv, hs⟩ := sim_reachable h
  obtain ⟨E, F, h1, h2, h3⟩ := history ha
  have e1 : pops als = pops ls := by rw [← pops_visible, hv, pops_visible]
  have e2 : pushes als = pushes ls := by rw [← pushes_visible, hv, pushes_visible]
  rw [e1] at h3
  rw [e2] at h2
  have hi : ∀ t, a.pc t = .idle := fun t => by
    have := hs.ok t
    rw [hidle t] at this
    exact this
  rw [hs.head_eq_tail.1 hempty] at h1
  have s1 : E.Perm (pops ls) := perm_of_threads (fun t => by rw [h3 t, hi t]; rfl)
  have s2 : (pushes ls).Perm F := perm_of_threads (fun t => by rw [h2 t, hi t]; rfl)
  have s3 : F.map (·.2) = E.map (·.2) := by simpa using h1
  have := (s2.map (·.2)).symm
  rw [s3] at this
  exact (s1.map _).symm.trans this

theorem ofThread_all {l : List (T × V)} {t : T} (h : ∀ x ∈ l, x.1 = t) :
    ofThread t l = l.map (·.2) := by
  unfold ofThread
  rw [List.filter_eq_self.2 (by simpa using h)]

theorem mem_ofThread {l : List (T × V)} {t : T} {v : V} (h : (t, v) ∈ l) : v ∈ ofThread t l := by
  unfold ofThread
  simp only [List.mem_map, List.mem_filter, decide_eq_true_eq]
  exact ⟨(t, v), ⟨h, rfl⟩, rfl⟩

/-- First in, first out: with one thread that pushes and one that pops, the values come out in the
order in which they were pushed, without gaps. -/
theorem C51_fifo {ls : List (Label T V)} {s : State T V} (h : Reachable ls s) (p c : T)
    (hp : ∀ t v, Label.call t (.push v) ∈ ls → t = p)
    (hc : ∀ t, (Label.call t .popPtr ∈ ls ∨ Label.call t .popRef ∈ ls) → t = c) :
    ((pops ls).map (·.2)).reverse <+: ((pushes ls).map (·.2)).reverse := by
  obtain ⟨als, a, _, ha, hv, hs⟩ := sim_reachable h
  have hmem : ∀ l : Label T V, l.visible = true → (l ∈ als ↔ l ∈ ls) := by
    intro l hl
    have e : l ∈ als.filter Label.visible ↔ l ∈ ls.filter Label.visible := by rw [hv]
    simpa [List.mem_filter, hl] using e
  -- only `c` takes values
  have key : ∀ als (a : AState T V), AReachable als a → (∀ t, (Label.call t .popPtr ∈ als ∨
      Label.call t .popRef ∈ als) → t = c) →
      (∀ t, (a.pc t = .called .popPtr ∨ a.pc t = .called .popRef ∨ ∃ o, a.pc t = .took (.popped o)) →
        t = c) ∧ ∀ x ∈ pops als, x.1 = c := by
    intro als a ha
    induction ha with
    | initial => intro _; exact ⟨fun t ht => by simp at ht, fun x hx => by cases hx⟩
    | @step ls s l s' h hs ih =>
      intro hc
      obtain ⟨i1, i2⟩ := ih (fun t ht => hc t (ht.imp (List.mem_cons_of_mem _) (List.mem_cons_of_mem _)))
      cases hs with
      | call t op hpc =>
        refine ⟨fun u hu => ?_, by simpa [pops, List.filterMap_cons] using i2⟩
        by_cases hut : u = t
        · subst hut
          simp only [Function.update_self] at hu
          apply hc
          rcases hu with hu | hu | ⟨o, hu⟩
          · cases hu; exact Or.inl (by simp)
          · cases hu; exact Or.inr (by simp)
          · cases hu
        · simp only [Function.update_of_ne hut] at hu
          exact i1 u hu
      | effect t op hpc =>
        refine ⟨fun u hu => ?_, by simpa [pops, List.filterMap_cons] using i2⟩
        by_cases hut : u = t
        · subst hut
          simp only [Function.update_self] at hu
          apply i1
          rcases hu with hu | hu | ⟨o, hu⟩
          · cases hu
          · cases hu
          · cases op with
            | push v => simp [Op.apply] at hu
            | empty => simp [Op.apply] at hu
            | popPtr => exact Or.inl hpc
            | popRef => exact Or.inr (Or.inl hpc)
        · simp only [Function.update_of_ne hut] at hu
          exact i1 u hu
      | ret t r hpc =>
        refine ⟨fun u hu => ?_, fun x hx => ?_⟩
        · by_cases hut : u = t
          · subst hut
            simp at hu
          · simp only [Function.update_of_ne hut] at hu
            exact i1 u hu
        · rcases r with _ | ⟨_ | v⟩ | b
          · exact i2 x (by simpa [pops, List.filterMap_cons] using hx)
          · exact i2 x (by simpa [pops, List.filterMap_cons] using hx)
          · have hx' : x = (t, v) ∨ x ∈ pops ls := by simpa [pops, List.filterMap_cons] using hx
            rcases hx' with rfl | hx'
            · exact i1 t (Or.inr (Or.inr ⟨_, hpc⟩))
            · exact i2 x hx'
          · exact i2 x (by simpa [pops, List.filterMap_cons] using hx)
  obtain ⟨k1, k2⟩ := key als a ha (fun t ht => hc t (ht.imp (hmem _ rfl).1 (hmem _ rfl).1))
  obtain ⟨E, F, h1, h2, h3⟩ := history ha
  have hpush : ∀ x ∈ pushes als, x.1 = p := by
    intro x hx
    simp only [pushes, List.mem_filterMap] at hx
    obtain ⟨l, hl, hlx⟩ := hx
    split at hlx
    · cases hlx
      exact hp _ _ ((hmem _ rfl).1 hl)
    · cases hlx
  have hE : ∀ x ∈ E, x.1 = c := by
    rintro ⟨t, v⟩ hx
    have := mem_ofThread hx
    rw [h3 t] at this
    rcases List.mem_append.1 this with h4 | h4
    · apply k1
      cases hpc : a.pc t with
      | took r =>
        rw [hpc] at h4
        rcases r with _ | o | b
        · cases h4
        · exact Or.inr (Or.inr ⟨o, rfl⟩)
        · cases h4
      | _ => rw [hpc] at h4; simp [APc.returning] at h4
    · simp only [ofThread, List.mem_map, List.mem_filter, decide_eq_true_eq] at h4
      obtain ⟨x, ⟨hx1, hx2⟩, _⟩ := h4
      rw [← hx2]
      exact k2 x hx1
  have hF : ∀ x ∈ F, x.1 = p := by
    rintro ⟨t, v⟩ hx
    have h4 : v ∈ ofThread t (pushes als) := by
      rw [h2 t]
      exact List.mem_append_right _ (mem_ofThread hx)
    simp only [ofThread, List.mem_map, List.mem_filter, decide_eq_true_eq] at h4
    obtain ⟨x, ⟨hx1, hx2⟩, _⟩ := h4
    rw [← hx2]
    exact hpush x hx1
  have e1 : pops als = pops ls := by rw [← pops_visible, hv, pops_visible]
  have e2 : pushes als = pushes ls := by rw [← pushes_visible, hv, pushes_visible]
  have g1 := h3 c
  have g2 := h2 p
  rw [ofThread_all hE, ofThread_all k2, e1] at g1
  rw [ofThread_all hpush, ofThread_all hF, e2, h1, g1] at g2
  rw [List.reverse_prefix, g2]
  exact ⟨(a.pc p).pushing ++ (a.queue.reverse ++ (a.pc c).returning), by simp [List.append_assoc]⟩

/-! ## Non-vacuity

Thread `false` pushes `7` and `8`; thread `true` takes the head mutex before the first value is in
the queue, and pops `7` while the second `push` is half done. -/

theorem sample : ∃ (ls : List (Label Bool ℕ)) (s : State Bool ℕ), Reachable ls s ∧
    pushes ls = [(false, 8), (false, 7)] ∧ pops ls = [(true, 7)] ∧ (∃ v x, s.pc false = .pushTail v x) ∧
    (∀ t v, Label.call t (.push v) ∈ ls → t = false) ∧
    (∀ t, (Label.call t .popPtr ∈ ls ∨ Label.call t .popRef ∈ ls) → t = true) := by
  have h0 : Reachable (T := Bool) (V := ℕ) [] _ := .initial 0
  have h1 := h0.step (.callPush false 7 rfl)
  have h2 := h1.step (.callHead true .ref rfl)
  have h3 := h2.step (.headLock true _ rfl rfl)
  have h4 := h3.step (.pushAlloc false 7 1 rfl rfl)
  have h5 := h4.step (.pushLock false 7 1 rfl rfl)
  have h6 := h5.step (.pushData false 7 1 rfl rfl)
  have h7 := h6.step (.pushNext false 7 1 rfl rfl)
  have h8 := h7.step (.pushTail false 7 1 rfl)
  have h9 := h8.step (.pushUnlock false rfl)
  have h10 := h9.step (.tailLock1 true _ rfl rfl)
  have h11 := h10.step (.tailRead1 true _ rfl)
  have h12 := h11.step (.tailUnlock1 true _ _ rfl)
  have h13 := h12.step (.compareNeRef true 1 rfl (by simp [State.goto, State.set, State.initial]))
  have h14 := h13.step (.ret false _ rfl)
  have h15 := h14.step (.callPush false 8 rfl)
  have h16 := h15.step (.move true 0 7 rfl rfl rfl rfl)
  have h17 := h16.step (.tailLock2 true _ rfl rfl)
  have h18 := h17.step (.tailRead2 true _ rfl)
  have h19 := h18.step (.tailUnlock2 true _ _ rfl)
  have h20 := h19.step (.compareNe2 true _ 1 rfl (by simp [State.goto, State.set, State.initial]))
  have h21 := h20.step (.pushAlloc false 8 5 rfl rfl)
  have h22 := h21.step (.pushLock false 8 5 rfl rfl)
  have h23 := h22.step (.pushData false 8 5 rfl rfl)
  have h24 := h23.step (.unlink true _ 0 rfl rfl rfl)
  have h25 := h24.step (.headUnlock true _ 0 rfl)
  have h26 := h25.step (.finishRef true 0 7 rfl rfl)
  have h27 := h26.step (.pushNext false 8 5 rfl rfl)
  have h28 := h27.step (.ret true _ rfl)
  refine ⟨_, _, h28, rfl, rfl, ⟨8, 5, rfl⟩, ?_, ?_⟩
  · intro t v h
    simp [Mode.op] at h
    rcases h with h | h <;> exact h.1
  · intro t h
    simp [Mode.op] at h
    exact h

/-- The hypotheses of `C51_fifo` hold in an execution in which something comes out. -/
example : ∃ (ls : List (Label Bool ℕ)) (s : State Bool ℕ), Reachable ls s ∧ pops ls ≠ [] ∧
    ((pops ls).map (·.2)).reverse <+: ((pushes ls).map (·.2)).reverse := by
  obtain ⟨ls, s, h, h1, h2, h3, h4, h5⟩ := sample
  exact ⟨ls, s, h, by rw [h2]; simp, C51_fifo h false true h4 h5⟩

/-- `C51_progress` applies there: the producer is not idle. -/
example : ∃ (ls : List (Label Bool ℕ)) (s : State Bool ℕ), Reachable ls s ∧ ∃ t, s.pc t ≠ .idle := by
  obtain ⟨ls, s, h, h1, h2, ⟨v, x, h3⟩, h4, h5⟩ := sample
  exact ⟨ls, s, h, false, by rw [h3]; simp⟩

/-- The comparison of `C51_second_check` is reached, and the hypotheses of `C51_no_loss` hold after
one push and one pop. -/
example : ∃ (ls : List (Label Bool ℕ)) (s : State Bool ℕ), Reachable ls s ∧
    (∃ o tl, s.pc true = .compare2 o tl) := by
  have h0 : Reachable (T := Bool) (V := ℕ) [] _ := .initial 0
  have h1 := h0.step (.callPush false 7 rfl)
  have h4 := h1.step (.pushAlloc false 7 1 rfl rfl)
  have h5 := h4.step (.pushLock false 7 1 rfl rfl)
  have h6 := h5.step (.pushData false 7 1 rfl rfl)
  have h7 := h6.step (.pushNext false 7 1 rfl rfl)
  have h8 := h7.step (.pushTail false 7 1 rfl)
  have h9 := h8.step (.pushUnlock false rfl)
  have g1 := h9.step (.callHead true .ptr rfl)
  have g2 := g1.step (.headLock true _ rfl rfl)
  have g3 := g2.step (.tailLock1 true _ rfl rfl)
  have g4 := g3.step (.tailRead1 true _ rfl)
  have g5 := g4.step (.tailUnlock1 true _ _ rfl)
  have g6 := g5.step (.compareNePtr true 1 rfl (by simp [State.goto, State.set, State.initial]))
  have g7 := g6.step (.tailLock2 true _ rfl rfl)
  have g8 := g7.step (.tailRead2 true _ rfl)
  have g9 := g8.step (.tailUnlock2 true _ _ rfl)
  exact ⟨_, _, g9, _, _, rfl⟩

example : ∃ (ls : List (Label Bool ℕ)) (s : State Bool ℕ), Reachable ls s ∧ (∀ t, s.pc t = .idle) ∧
    s.head = some s.tail ∧ pushes ls = [(false, 7)] := by
  have h0 : Reachable (T := Bool) (V := ℕ) [] _ := .initial 0
  have h1 := h0.step (.callPush false 7 rfl)
  have h4 := h1.step (.pushAlloc false 7 1 rfl rfl)
  have h5 := h4.step (.pushLock false 7 1 rfl rfl)
  have h6 := h5.step (.pushData false 7 1 rfl rfl)
  have h7 := h6.step (.pushNext false 7 1 rfl rfl)
  have h8 := h7.step (.pushTail false 7 1 rfl)
  have h9 := h8.step (.pushUnlock false rfl)
  have h10 := h9.step (.ret false _ rfl)
  have g1 := h10.step (.callHead true .ptr rfl)
  have g2 := g1.step (.headLock true _ rfl rfl)
  have g3 := g2.step (.tailLock1 true _ rfl rfl)
  have g4 := g3.step (.tailRead1 true _ rfl)
  have g5 := g4.step (.tailUnlock1 true _ _ rfl)
  have g6 := g5.step (.compareNePtr true 1 rfl (by simp [State.goto, State.set, State.initial]))
  have g7 := g6.step (.tailLock2 true _ rfl rfl)
  have g8 := g7.step (.tailRead2 true _ rfl)
  have g9 := g8.step (.tailUnlock2 true _ _ rfl)
  have g10 := g9.step (.compareNe2 true _ 1 rfl (by simp [State.goto, State.set, State.initial]))
  have g11 := g10.step (.unlink true _ 0 rfl rfl rfl)
  have g12 := g11.step (.headUnlock true _ 0 rfl)
  have g13 := g12.step (.finishPtr true 0 7 rfl rfl rfl)
  have g14 := g13.step (.ret true _ rfl)
  refine ⟨_, _, g14, fun t => by cases t <;> rfl, rfl, rfl⟩

end EG.Queue
