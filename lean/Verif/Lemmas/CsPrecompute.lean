import Verif.Spec.CsPrecompute

/-!
# Lemmas for C89
-/

namespace EG.CsPre

variable {G : Params}

theorem run_append {es fs : List Ev} : ∀ {s : State},
    s.run G (es ++ fs) = (s.run G es).bind fun s' => s'.run G fs := by
  induction es with
  | nil => intro s; rfl
  | cons e es ih =>
    intro s
    simp only [List.cons_append, State.run]
    cases s.step G e with
    | none => rfl
    | some s' => exact ih

/-- Invariants hold after a history. -/
theorem run_ind {P : State → Prop} {ok : Ev → Prop}
    (h : ∀ s e s', P s → ok e → s.step G e = some s' → P s') :
    ∀ {es : List Ev} {s s' : State}, (∀ e ∈ es, ok e) → P s → s.run G es = some s' → P s' := by
  intro es
  induction es with
  | nil => intro s s' _ p r; cases r; exact p
  | cons e es ih =>
    intro s s' he p r
    simp only [State.run] at r
    cases hs : s.step G e with
    | none => rw [hs] at r; cases r
    | some s1 =>
      rw [hs] at r
      exact ih (fun e m => he e (List.mem_cons_of_mem _ m))
        (h s e s1 p (he e List.mem_cons_self) hs) r

/-- Before `Init`, or between it and the signal to the user. -/
def Worker.starting : Worker → Bool
  | .init | .set => true
  | _ => false

/-- A worker that starts is the last one, and the user waits for it. -/
def Inv (s : State) : Prop :=
  (∀ i w, s.workers[i]? = some w → w.starting = true →
    s.user = .waiting ∧ i + 1 = s.workers.length) ∧
  (s.user = .waiting → ∃ w, s.workers[s.workers.length - 1]? = some w ∧ w.starting = true)

theorem inv_new (buf : PreState) : Inv (State.new buf) := by
  constructor
  · intro i w h; simp [State.new] at h
  · intro h; cases h

theorem inv_step (s : State) (e : Ev) (s' : State) (i : Inv s) (h : s.step G e = some s') :
    Inv s' := by
  obtain ⟨i1, i2⟩ := i
  have same : ∀ {t : State}, t.workers = s.workers → (t.user = .waiting ↔ s.user = .waiting) →
      Inv t := by
    intro t hw hu
    refine ⟨fun j w hj st => ?_, fun u => ?_⟩
    · rw [hw] at hj ⊢
      rw [hu]
      exact i1 j w hj st
    · rw [hw]
      exact i2 (hu.1 u)
  cases e with
  | start pub n =>
    simp only [State.step] at h
    split at h
    · rename_i hu
      cases h
      refine ⟨fun j w hj st => ⟨rfl, ?_⟩, fun _ => ⟨.init, ?_, rfl⟩⟩
      · rw [List.getElem?_append] at hj
        split at hj
        · have := (i1 j w hj st).1
          rw [hu] at this; cases this
        · have : j - s.workers.length = 0 := by
            by_contra n
            rw [List.getElem?_singleton, if_neg n] at hj
            cases hj
          simp only [List.length_append, List.length_singleton]
          omega
      · simp
    · cases h
  | stop =>
    simp only [State.step] at h
    split at h
    · rename_i hu
      split at h
      · cases h; exact same rfl (by simp [hu])
      · cases h; exact same rfl (by simp [hu])
    · cases h
  | status =>
    simp only [State.step] at h
    split at h
    · rename_i hu
      cases h; exact same rfl (by simp [hu])
    · cases h
  | user =>
    simp only [State.step, State.userStep] at h
    split at h <;> rename_i hu <;> first | cases h; done | (cases h; exact same rfl (by simp [hu]))
  | getQuad => cases h; exact same rfl Iff.rfl
  | getTriple => cases h; exact same rfl Iff.rfl
  | other => cases h; exact same rfl Iff.rfl
  | worker j d =>
    simp only [State.step] at h
    cases hj : s.workers[j]? with
    | none => simp only [hj] at h; cases h
    | some w =>
      simp only [hj] at h
      have hl : j < s.workers.length := (List.getElem?_eq_some_iff.1 hj).1
      have upd : ∀ {t : State} {w' : Worker},
          (w'.starting = true → w.starting = true) →
          (t.user = .waiting ↔ s.user = .waiting) →
          (s.user = .waiting → w.starting = true → w'.starting = true) →
          Inv { t with workers := s.workers.set j w' } := by
        intro t w' hs hu hk
        refine ⟨fun k v hk' st => ?_, fun u => ?_⟩
        · simp only [List.length_set] at hk' ⊢
          rw [hu]
          rw [List.getElem?_set] at hk'
          split at hk'
          · rename_i e
            subst e
            cases hk'
            exact i1 j w hj (hs st)
          · exact i1 k v hk' st
        · obtain ⟨v, hv, sv⟩ := i2 (hu.1 u)
          simp only [List.length_set]
          rw [List.getElem?_set]
          split
          · rename_i e
            rw [← e, hj] at hv
            cases hv
            exact ⟨w', rfl, hk (hu.1 u) sv⟩
          · exact ⟨v, hv, sv⟩
      cases w with
      | init => cases h; exact upd (fun _ => rfl) Iff.rfl (fun _ _ => rfl)
      | set =>
        cases h
        have hu := (i1 j _ hj rfl).1
        have hn := (i1 j _ hj rfl).2
        rw [if_pos hu]
        refine ⟨fun k v hk st => ?_, fun u => by cases u⟩
        exfalso
        simp only at hk
        rw [List.getElem?_set] at hk
        split at hk
        · cases hk; cases st
        · rename_i ne
          have := (i1 k v hk st).2
          omega
      | key => cases h; exact upd (by simp [Worker.starting]) Iff.rfl (by simp [Worker.starting])
      | done => cases h
      | pop pub it =>
        simp only [State.workerStep] at h
        by_cases hp : s.buf.populateOk = true
        · simp only [hp, if_true] at h
          cases h; exact upd (by simp [Worker.starting]) Iff.rfl (by simp [Worker.starting])
        · simp only [hp, if_false, Bool.false_eq_true] at h
          cases h; exact upd (by simp [Worker.starting]) Iff.rfl (by simp [Worker.starting])
      | cond pub it =>
        simp only [State.workerStep] at h
        by_cases hp : s.buf.quads.length < s.buf.max
        · simp only [hp, if_true] at h
          cases h; exact upd (by simp [Worker.starting]) Iff.rfl (by simp [Worker.starting])
        · simp only [hp, if_false] at h
          cases h; exact upd (by simp [Worker.starting]) Iff.rfl (by simp [Worker.starting])
      | send r =>
        cases r <;>
          (cases h; exact upd (by simp [Worker.starting]) Iff.rfl (by simp [Worker.starting]))

theorem inv_reachable {s : State} (r : Reachable G s) : Inv s := by
  obtain ⟨buf, es, h⟩ := r
  exact run_ind (ok := fun _ => True) (fun s e s' i _ h => inv_step s e s' i h) (fun _ _ => trivial)
    (inv_new buf) h

/-- Steps a worker still makes if the flag is not set. -/
def Worker.rank : Worker → ℕ
  | .init => 8
  | .set => 7
  | .key => 6
  | .cond _ _ => 5
  | .pop _ _ => 4
  | .send .count => 3
  | .send (.size _) => 2
  | .send .tell => 1
  | .done => 0

def ranks (ws : List Worker) : ℕ := (ws.map Worker.rank).sum

theorem ranks_set {ws : List Worker} {i : ℕ} {w w' : Worker} (h : ws[i]? = some w) :
    ranks (ws.set i w') + w.rank = ranks ws + w'.rank := by
  induction ws generalizing i with
  | nil => simp at h
  | cons v ws ih =>
    cases i with
    | zero =>
      simp only [List.getElem?_cons_zero, Option.some.injEq] at h
      subst h
      simp only [List.set_cons_zero, ranks, List.map_cons, List.sum_cons]
      omega
    | succ i =>
      simp only [List.getElem?_cons_succ] at h
      have := ih h
      simp only [List.set_cons_succ, ranks, List.map_cons, List.sum_cons] at this ⊢
      omega

/-- No worker starts, the flag is not set. -/
structure Stopped (s : State) : Prop where
  none : ∀ w ∈ s.workers, w.starting = false
  user : s.user ≠ .waiting
  flag : s.buf.populateOk = false

theorem stopped_step {s s' : State} {e : Ev} (i : Stopped s) (q : e.quiet = true)
    (h : s.step G e = some s') :
    Stopped s' ∧ s'.buf.quads <:+ s.buf.quads ∧ s'.buf.triples <:+ s.buf.triples ∧
      ranks s'.workers + (if e.isWorker then 1 else 0) ≤ ranks s.workers := by
  obtain ⟨i1, i2, i3⟩ := i
  cases e with
  | start => cases q
  | other => cases q
  | stop =>
    simp only [State.step] at h
    split at h
    · split at h
      · cases h
        exact ⟨⟨i1, by simp, i3⟩, List.suffix_rfl, List.suffix_rfl, le_refl _⟩
      · cases h
        exact ⟨⟨i1, by simp, i3⟩, List.suffix_rfl, List.suffix_rfl, le_refl _⟩
    · cases h
  | status =>
    simp only [State.step] at h
    split at h
    · cases h
      exact ⟨⟨i1, by simp, i3⟩, List.suffix_rfl, List.suffix_rfl, le_refl _⟩
    · cases h
  | user =>
    simp only [State.step, State.userStep] at h
    split at h <;> first
      | cases h; done
      | (cases h
         exact ⟨⟨i1, by simp, by first | exact i3 | rfl⟩, List.suffix_rfl, List.suffix_rfl,
           le_refl _⟩)
  | getQuad =>
    cases h
    unfold PreState.getQuad
    split
    · exact ⟨⟨i1, i2, i3⟩, List.suffix_rfl, List.suffix_rfl, le_refl _⟩
    · rename_i x xs hq
      refine ⟨⟨i1, i2, i3⟩, ?_, List.suffix_rfl, le_refl _⟩
      show xs <:+ s.buf.quads
      rw [hq]; exact List.suffix_cons x xs
  | getTriple =>
    cases h
    unfold PreState.getTriple
    split
    · exact ⟨⟨i1, i2, i3⟩, List.suffix_rfl, List.suffix_rfl, le_refl _⟩
    · rename_i x xs hq
      refine ⟨⟨i1, i2, i3⟩, List.suffix_rfl, ?_, le_refl _⟩
      show xs <:+ s.buf.triples
      rw [hq]; exact List.suffix_cons x xs
  | worker j d =>
    simp only [State.step] at h
    cases hj : s.workers[j]? with
    | none => simp only [hj] at h; cases h
    | some w =>
      simp only [hj] at h
      have hm := i1 w (List.mem_of_getElem? hj)
      have upd : ∀ {t : State} {w' : Worker}, t.buf = s.buf → t.user = s.user →
          w'.starting = false → w'.rank + 1 ≤ w.rank →
          Stopped { t with workers := s.workers.set j w' } ∧
          t.buf.quads <:+ s.buf.quads ∧ t.buf.triples <:+ s.buf.triples ∧
          ranks (s.workers.set j w') + 1 ≤ ranks s.workers := by
        intro t w' hb hu hs hr
        refine ⟨⟨?_, ?_, ?_⟩, ?_, ?_, ?_⟩
        · intro v hv
          rcases List.mem_or_eq_of_mem_set hv with hv | rfl
          · exact i1 v hv
          · exact hs
        · show t.user ≠ _
          rw [hu]; exact i2
        · show t.buf.populateOk = false
          rw [hb]; exact i3
        · rw [hb]
        · rw [hb]
        · have := ranks_set (w' := w') hj
          omega
      cases w with
      | init => cases hm
      | set => cases hm
      | key => cases h; exact upd rfl rfl rfl (by simp [Worker.rank])
      | done => cases h
      | pop pub it =>
        simp only [State.workerStep, i3, if_false, Bool.false_eq_true] at h
        cases h; exact upd rfl rfl rfl (le_refl _)
      | cond pub it =>
        simp only [State.workerStep] at h
        by_cases hp : s.buf.quads.length < s.buf.max
        · simp only [hp, if_true] at h
          cases h; exact upd rfl rfl rfl (le_refl _)
        · simp only [hp, if_false] at h
          cases h; exact upd rfl rfl rfl (by simp [Worker.rank])
      | send r =>
        cases r with
        | count => cases h; exact upd rfl rfl rfl (by simp [Worker.rank])
        | size c => cases h; exact upd rfl rfl rfl (by simp [Worker.rank])
        | tell => cases h; exact upd rfl rfl rfl (by simp [Worker.rank])

theorem ranks_le {ws : List Worker} (h : ∀ w ∈ ws, w.starting = false) :
    ranks ws ≤ 6 * ws.length := by
  induction ws with
  | nil => exact le_refl _
  | cons w ws ih =>
    have := ih fun v m => h v (List.mem_cons_of_mem _ m)
    have hw := h w List.mem_cons_self
    have : w.rank ≤ 6 := by
      cases w with
      | init => cases hw
      | set => cases hw
      | send r => cases r <;> simp [Worker.rank]
      | _ => simp [Worker.rank]
    simp only [ranks, List.map_cons, List.sum_cons, List.length_cons] at *
    omega

def dones (ws : List Worker) : ℕ := ws.countP (· = .done)

theorem dones_set {ws : List Worker} {i : ℕ} {w w' : Worker} (h : ws[i]? = some w) :
    dones (ws.set i w') + (if w = .done then 1 else 0) = dones ws + (if w' = .done then 1 else 0) := by
  induction ws generalizing i with
  | nil => simp at h
  | cons v ws ih =>
    cases i with
    | zero =>
      simp only [List.getElem?_cons_zero, Option.some.injEq] at h
      subst h
      simp only [List.set_cons_zero, dones, List.countP_cons, decide_eq_true_eq]
      omega
    | succ i =>
      simp only [List.getElem?_cons_succ] at h
      have := ih h
      simp only [List.set_cons_succ, dones, List.countP_cons, decide_eq_true_eq] at this ⊢
      omega

/-- Ends of `SendCompleted` called by `StopPrecompute`. -/
def reportsLeft : User → ℕ
  | .stopReport _ => 1
  | _ => 0

theorem events_step {s s' : State} {e : Ev} (h : s.step G e = some s') :
    s'.workers.length = s.workers.length + (if e.isStart then 1 else 0) ∧
    s.events.length + dones s'.workers ≤ s'.events.length + dones s.workers ∧
    s'.events.length + dones s.workers + reportsLeft s'.user ≤
      s.events.length + dones s'.workers + reportsLeft s.user + (if e.isStop then 1 else 0) := by
  cases e with
  | start pub n =>
    simp only [State.step] at h
    split at h
    · cases h; simp [dones, Ev.isStart, Ev.isStop, reportsLeft]
    · cases h
  | stop =>
    simp only [State.step] at h
    split at h
    · rename_i hu
      split at h
      · cases h; simp [hu, Ev.isStart, Ev.isStop, reportsLeft]
      · cases h; simp [hu, Ev.isStart, Ev.isStop, reportsLeft]
    · cases h
  | status =>
    simp only [State.step] at h
    split at h
    · rename_i hu
      cases h; simp [hu, Ev.isStart, Ev.isStop, reportsLeft]
    · cases h
  | user =>
    simp only [State.step, State.userStep] at h
    split at h <;> rename_i hu <;> first
      | cases h; done
      | (cases h; simp [hu, Ev.isStart, Ev.isStop, reportsLeft]; try omega)
  | getQuad => cases h; simp [Ev.isStart, Ev.isStop]
  | getTriple => cases h; simp [Ev.isStart, Ev.isStop]
  | other => cases h; simp [Ev.isStart, Ev.isStop]
  | worker j d =>
    simp only [State.step] at h
    cases hj : s.workers[j]? with
    | none => simp only [hj] at h; cases h
    | some w =>
      simp only [hj] at h
      have hd := fun w' => dones_set (w' := w') hj
      cases w with
      | init =>
        cases h
        have := hd .set
        simp [Ev.isStart, Ev.isStop] at this ⊢
        omega
      | set =>
        cases h
        have := hd .key
        simp only [reduceCtorEq, if_false, Nat.add_zero] at this
        by_cases hu : s.user = .waiting
        · simp [Ev.isStart, Ev.isStop, hu, reportsLeft]
          omega
        · simp [Ev.isStart, Ev.isStop, hu]
          omega
      | key =>
        cases h
        have := hd (.pop s.pub 0)
        simp [Ev.isStart, Ev.isStop] at this ⊢
        omega
      | done => cases h
      | pop pub it =>
        simp only [State.workerStep] at h
        by_cases hp : s.buf.populateOk = true
        · simp only [hp, if_true] at h
          cases h
          have := hd (.cond pub (it + 1))
          simp [Ev.isStart, Ev.isStop] at this ⊢
          omega
        · simp only [hp, if_false, Bool.false_eq_true] at h
          cases h
          have := hd (.send .count)
          simp [Ev.isStart, Ev.isStop] at this ⊢
          omega
      | cond pub it =>
        simp only [State.workerStep] at h
        by_cases hp : s.buf.quads.length < s.buf.max
        · simp only [hp, if_true] at h
          cases h
          have := hd (.pop pub it)
          simp [Ev.isStart, Ev.isStop] at this ⊢
          omega
        · simp only [hp, if_false] at h
          cases h
          have := hd (.send .count)
          simp [Ev.isStart, Ev.isStop] at this ⊢
          omega
      | send r =>
        cases r with
        | count =>
          cases h
          have := hd (.send (.size s.buf.quads.length))
          simp [Ev.isStart, Ev.isStop] at this ⊢
          omega
        | size c =>
          cases h
          have := hd (.send .tell)
          simp [Ev.isStart, Ev.isStop] at this ⊢
          omega
        | tell =>
          cases h
          have := hd .done
          simp [Ev.isStart, Ev.isStop] at this ⊢
          omega

/-- The queue, the events and the status when the worker is at `w`. -/
def At (n : ℕ) (s : State) : Worker → Prop
  | .init => s.maxBuffers ≠ 0 ∧ s.maxBuffers = n ∧ s.buf.quads.length < n ∧ s.events = []
  | .set | .key | .pop _ _ => s.buf.quads.length < n ∧ s.events = []
  | .cond _ _ => s.buf.quads.length ≤ n ∧ s.events = []
  | .send .count => s.buf.quads.length = n ∧ s.events = []
  | .send (.size c) => c = n ∧ s.buf.quads.length = n ∧ s.events = []
  | .send .tell => s.cur = .completed ∧ s.buf.quads.length = n ∧ s.events = []
  | .done => s.cur = .completed ∧ s.buf.quads.length = n ∧ s.events = [.completed]

/-- A single worker, at `w`, on the way to a full queue. -/
structure Filling (n : ℕ) (s : State) (w : Worker) : Prop where
  only : s.workers = [w]
  user : s.user = .waiting ∨ s.user = .idle ∨ ∃ r, s.user = .status r
  count : ∀ c, s.user = .status (.size c) → c ≤ s.buf.quads.length
  max : w ≠ .init → s.buf.max = n ∧ s.buf.populateOk = true
  start : w.starting = true → s.user = .waiting
  at_ : At n s w

theorem filling_step {n : ℕ} {s s' : State} {w : Worker} {e : Ev} (i : Filling n s w)
    (q : e.harmless = true) (h : s.step G e = some s') : ∃ w', Filling n s' w' := by
  obtain ⟨i1, i2, i3, i4, i5, i6⟩ := i
  cases e with
  | start => cases q
  | stop => cases q
  | getQuad => cases q
  | other => cases q
  | getTriple =>
    cases h
    have e : s.buf.getTriple.2.quads = s.buf.quads ∧ s.buf.getTriple.2.max = s.buf.max ∧
        s.buf.getTriple.2.populateOk = s.buf.populateOk := by
      unfold PreState.getTriple
      split <;> exact ⟨rfl, rfl, rfl⟩
    refine ⟨w, i1, i2, ?_, ?_, i5, ?_⟩
    · simpa only [e.1] using i3
    · simpa only [e.2.1, e.2.2] using i4
    · cases w with
      | send r => cases r <;> simpa only [At, e.1] using i6
      | _ => simpa only [At, e.1] using i6
  | status =>
    simp only [State.step] at h
    split at h
    · rename_i hu
      cases h
      refine ⟨w, i1, Or.inr (Or.inr ⟨_, rfl⟩), by simp, i4, ?_, i6⟩
      intro st
      have := i5 st
      rw [hu] at this; cases this
    · cases h
  | user =>
    rcases i2 with hu | hu | ⟨r, hu⟩
    · simp only [State.step, State.userStep, hu] at h; cases h
    · simp only [State.step, State.userStep, hu] at h; cases h
    · have hst : w.starting = true → False := by
        intro st
        have := i5 st
        rw [hu] at this; cases this
      cases r with
      | count =>
        simp only [State.step, State.userStep, hu] at h
        cases h
        refine ⟨w, i1, Or.inr (Or.inr ⟨_, rfl⟩), ?_, i4, fun st => (hst st).elim, i6⟩
        intro c hc
        simp only [User.status.injEq, Report.size.injEq] at hc
        subst hc
        exact le_refl _
      | size c =>
        simp only [State.step, State.userStep, hu] at h
        cases h
        refine ⟨w, i1, Or.inr (Or.inr ⟨_, rfl⟩), by simp, i4, fun st => (hst st).elim, ?_⟩
        have hc : ∀ {a b : ℕ}, s.cur = .completed → s.cur.seen a b = .completed := by
          intro a b h; unfold PState.seen; split
          · rfl
          · exact h
        cases w with
        | send r =>
          cases r with
          | tell => exact ⟨hc i6.1, i6.2⟩
          | _ => exact i6
        | done => exact ⟨hc i6.1, i6.2⟩
        | _ => exact i6
      | tell =>
        simp only [State.step, State.userStep, hu] at h
        cases h
        exact ⟨w, i1, Or.inr (Or.inl rfl), by simp, i4, fun st => (hst st).elim, i6⟩
  | worker j d =>
    simp only [State.step] at h
    cases hj : s.workers[j]? with
    | none => simp only [hj] at h; cases h
    | some v =>
      have hj0 : j = 0 := by
        have := (List.getElem?_eq_some_iff.1 hj).1
        rw [i1] at this
        simpa using this
      subst hj0
      have hv : v = w := by
        rw [i1] at hj
        simpa using hj.symm
      subst hv
      simp only [hj] at h
      have hset : ∀ w', s.workers.set 0 w' = [w'] := by intro w'; rw [i1]; rfl
      cases v with
      | init =>
        cases h
        have hu := i5 rfl
        refine ⟨.set, hset _, Or.inl hu, ?_, fun _ => ⟨?_, rfl⟩, fun _ => hu, i6.2.2⟩
        · intro c hc
          simp only [hu] at hc; cases hc
        · have h0 := i6.1
          rw [i6.2.1] at h0
          simp only [PreState.init, i6.2.1, if_pos h0]
      | set =>
        cases h
        have hu := i5 rfl
        refine ⟨.key, hset _, ?_, ?_, fun _ => i4 (by simp), by simp [Worker.starting], i6⟩
        · simp [hu]
        · simp [hu]
      | key =>
        cases h
        exact ⟨_, hset _, i2, i3, fun _ => i4 (by simp), by simp [Worker.starting], i6⟩
      | done => cases h
      | pop pub it =>
        obtain ⟨m1, m2⟩ := i4 (by simp)
        simp only [State.workerStep, m2, if_true] at h
        cases h
        have hl : (s.buf.iterate G pub it d).quads.length = s.buf.quads.length + 1 := by
          simp [PreState.iterate]
        refine ⟨_, hset _, i2, ?_, fun _ => ⟨m1, m2⟩, by simp [Worker.starting], ?_⟩
        · intro c hc
          have := i3 c hc
          simp only [hl]
          omega
        · refine ⟨?_, i6.2⟩
          rw [show State.buf _ = s.buf.iterate G pub it d from rfl, hl]
          exact i6.1
      | cond pub it =>
        obtain ⟨m1, m2⟩ := i4 (by simp)
        simp only [State.workerStep] at h
        by_cases hp : s.buf.quads.length < s.buf.max
        · simp only [hp, if_true] at h
          cases h
          exact ⟨_, hset _, i2, i3, fun _ => ⟨m1, m2⟩, by simp [Worker.starting], m1 ▸ hp, i6.2⟩
        · simp only [hp, if_false] at h
          cases h
          refine ⟨_, hset _, i2, i3, fun _ => ⟨m1, m2⟩, by simp [Worker.starting], ?_, i6.2⟩
          have := i6.1
          show s.buf.quads.length = n
          omega
      | send r =>
        obtain ⟨m1, m2⟩ := i4 (by simp)
        cases r with
        | count =>
          cases h
          exact ⟨_, hset _, i2, i3, fun _ => ⟨m1, m2⟩, by simp [Worker.starting], i6.1, i6⟩
        | size c =>
          cases h
          refine ⟨_, hset _, i2, i3, fun _ => ⟨m1, m2⟩, by simp [Worker.starting], ?_, i6.2⟩
          simp only [m1, i6.1, PState.seen, if_true]
        | tell =>
          cases h
          refine ⟨.done, hset _, i2, i3, fun _ => ⟨m1, m2⟩, by simp [Worker.starting], i6.1, i6.2.1,
            ?_⟩
          simp [i6.1, i6.2.2]

/-- Every value in the buffers and every key in use is for `K`. -/
structure One (G : Params) (K : ℕ) (s : State) : Prop where
  quads : ∀ t ∈ s.buf.quads, t.ForKey G K
  triples : ∀ t ∈ s.buf.triples, t.ForKey G K
  pub : s.workers ≠ [] → s.pub = K
  pop : ∀ k it, .pop k it ∈ s.workers → k = K
  cond : ∀ k it, .cond k it ∈ s.workers → k = K

theorem one_step (hG : G.Valid) {K : ℕ} (hK : K < 2 ^ 4096) (s : State) (e : Ev) (s' : State)
    (i : One G K s) (q : e.keyIs G.q K) (h : s.step G e = some s') : One G K s' := by
  obtain ⟨i1, i2, i3, i4, i5⟩ := i
  cases e with
  | start pub n =>
    simp only [State.step] at h
    split at h
    · cases h
      exact ⟨i1, i2, fun _ => q, fun k it m => i4 k it (by simpa using m),
        fun k it m => i5 k it (by simpa using m)⟩
    · cases h
  | stop =>
    simp only [State.step] at h
    split at h
    · split at h <;> (cases h; exact ⟨i1, i2, i3, i4, i5⟩)
    · cases h
  | status =>
    simp only [State.step] at h
    split at h
    · cases h; exact ⟨i1, i2, i3, i4, i5⟩
    · cases h
  | user =>
    simp only [State.step, State.userStep] at h
    split at h <;> first | cases h; done | (cases h; exact ⟨i1, i2, i3, i4, i5⟩)
  | other => cases h; exact ⟨i1, i2, i3, i4, i5⟩
  | getQuad =>
    cases h
    unfold PreState.getQuad
    split
    · exact ⟨i1, i2, i3, i4, i5⟩
    · rename_i x xs hq
      exact ⟨fun t m => i1 t (by rw [hq]; exact List.mem_cons_of_mem _ m), i2, i3, i4, i5⟩
  | getTriple =>
    cases h
    unfold PreState.getTriple
    split
    · exact ⟨i1, i2, i3, i4, i5⟩
    · rename_i x xs hq
      exact ⟨i1, fun t m => i2 t (by rw [hq]; exact List.mem_cons_of_mem _ m), i3, i4, i5⟩
  | worker j d =>
    simp only [State.step] at h
    cases hj : s.workers[j]? with
    | none => simp only [hj] at h; cases h
    | some w =>
      simp only [hj] at h
      have hm := List.mem_of_getElem? hj
      have hne : s.workers ≠ [] := List.ne_nil_of_mem hm
      have upd : ∀ {t : State} {w' : Worker}, (∀ x ∈ t.buf.quads, x.ForKey G K) →
          (∀ x ∈ t.buf.triples, x.ForKey G K) → t.pub = s.pub →
          (∀ k it, w' = .pop k it → k = K) → (∀ k it, w' = .cond k it → k = K) →
          One G K { t with workers := s.workers.set j w' } := by
        intro t w' a1 a2 a3 a4 a5
        refine ⟨a1, a2, fun _ => by rw [← i3 hne]; exact a3, fun k it m => ?_, fun k it m => ?_⟩
        · rcases List.mem_or_eq_of_mem_set m with m | e
          · exact i4 k it m
          · exact a4 k it e.symm
        · rcases List.mem_or_eq_of_mem_set m with m | e
          · exact i5 k it m
          · exact a5 k it e.symm
      cases w with
      | init => cases h; exact upd i1 i2 rfl (by simp) (by simp)
      | set => cases h; exact upd i1 i2 rfl (by simp) (by simp)
      | key =>
        cases h
        refine upd i1 i2 rfl ?_ (by simp)
        intro k it e
        cases e
        exact i3 hne
      | done => cases h
      | pop pub it =>
        have hp := i4 _ _ hm
        subst hp
        simp only [State.workerStep] at h
        by_cases hp : s.buf.populateOk = true
        · simp only [hp, if_true] at h
          cases h
          obtain ⟨d1, d2, d3, d4, d5, d6⟩ := q
          refine upd (t := { s with buf := s.buf.iterate G pub it d }) (w' := .cond pub (it + 1)) ?_ ?_
            rfl (fun _ _ e => by cases e) ?_
          · intro x hx
            simp only [PreState.iterate, List.mem_append, List.mem_singleton] at hx
            rcases hx with hx | rfl
            · exact i1 x hx
            · exact ⟨genTriple_forKey G hG _ _ hK d1, genTriple_forKey G hG _ _ hK d2,
                genQuadruple_forKey G hG _ _ _ hK d3 d4⟩
          · intro x hx
            change x ∈ (if it % 3 = 0 then _ else s.buf.triples) at hx
            split at hx
            · simp only [List.mem_append, List.mem_singleton] at hx
              rcases hx with (hx | rfl) | rfl
              · exact i2 x hx
              · exact genTriple_forKey G hG _ _ hK d5
              · exact genTriple_forKey G hG _ _ hK d6
            · exact i2 x hx
          · intro k it' e
            cases e; rfl
        · simp only [hp, if_false, Bool.false_eq_true] at h
          cases h; exact upd i1 i2 rfl (by simp) (by simp)
      | cond pub it =>
        have hp := i5 _ _ hm
        subst hp
        simp only [State.workerStep] at h
        by_cases hp : s.buf.quads.length < s.buf.max
        · simp only [hp, if_true] at h
          cases h
          refine upd i1 i2 rfl ?_ (by simp)
          intro k it' e
          cases e; rfl
        · simp only [hp, if_false] at h
          cases h; exact upd i1 i2 rfl (by simp) (by simp)
      | send r => cases r <;> (cases h; exact upd i1 i2 rfl (by simp) (by simp))

end EG.CsPre
