import Verif.Lemmas.Pool

/-!
# C78: the thread pool runs every task once.  C79: wait_all collects every result.
-/

namespace EG.Pool

variable {n : ℕ}

/-! ## C78 -/

/-- Tasks start in the order of their submission, each at most once, and what has not started is in the
queue. -/
theorem C78_fifo (s : State n) (tr : List (Label n)) (h : Run (.initial n) tr s) :
    started tr ++ s.queue = submitted tr ∧ (started tr).Nodup := by
  have I := h.inv
  exact ⟨by rw [I.fifo, I.sub], (range_nodup_append I.fifo).1⟩

/-- No task ends twice, and only a task that was started ends. -/
theorem C78_once (s : State n) (tr : List (Label n)) (h : Run (.initial n) tr s) :
    (finished tr).Nodup ∧ ∀ i ∈ finished tr, i ∈ started tr :=
  ⟨h.inv.fin_nodup, h.inv.fin_started⟩

/-- The destructor waits for every task that was started: when it returns no thread is left, and every task
that was started has ended. -/
theorem C78_joined (s : State n) (tr : List (Label n)) (h : Run (.initial n) tr s)
    (hd : s.destructor = .returned) :
    (∀ w, s.worker w = .exited) ∧ (finished tr).Perm (started tr) := by
  have I := h.inv
  refine ⟨I.ret hd, ?_⟩
  rw [List.perm_ext_iff_of_nodup I.fin_nodup (range_nodup_append I.fifo).1]
  intro i
  refine ⟨I.fin_started i, fun hi => ?_⟩
  by_contra hc
  obtain ⟨w, hw⟩ := I.open_exec i hi hc
  rw [I.ret hd w] at hw
  cases hw

/-- Every submitted task has been run, exactly once, when the destructor returns.  The part that holds:
unless a task is submitted after the destructor found the queue empty. -/
theorem C78_all_run_partial (s : State n) (tr : List (Label n)) (h : Run (.initial n) tr s)
    (hd : s.destructor = .returned)
    (hlate : ∀ t u, tr = t ++ .sawEmpty :: u → submitted u = []) :
    (finished tr).Perm (submitted tr) ∧ started tr = submitted tr := by
  have hs : Label.sawEmpty ∈ tr := h.inv.saw.1 (Or.inr (Or.inr hd))
  obtain ⟨t, u, rfl⟩ := mem_split hs
  have hu := hlate t u rfl
  obtain ⟨s1, h1, h2⟩ := Run.split t (.sawEmpty :: u) h
  obtain ⟨s2, h3, h4⟩ := Run.split [.sawEmpty] u (show Run s1 ([.sawEmpty] ++ u) s from h2)
  have hq2 : s2.queue = [] := by
    cases h3.single rfl with
    | sawEmpty _ hq => exact hq
  have hq : s.queue = [] := h4.empty_stays hq2 hu
  obtain ⟨f1, -⟩ := C78_fifo s _ h
  rw [hq, List.append_nil] at f1
  exact ⟨by rw [← f1]; exact (C78_joined s _ h hd).2, f1⟩

/-- The destructor can always return: with at least one thread, every state that can be reached can be
continued, without further submissions, until it has returned.  If it had not found the queue empty yet,
then every task submitted so far is run. -/
theorem C78_progress (s : State n) (tr : List (Label n)) (h : Run (.initial n) tr s) (hn : 0 < n) :
    ∃ s' tr', Run s tr' s' ∧ submitted tr' = [] ∧ s'.destructor = .returned ∧
      (Label.sawEmpty ∉ tr → (finished (tr ++ tr')).Perm (submitted tr)) := by
  have I := h.inv
  have key : ∃ s', Reach s s' ∧ s'.destructor = .returned := by
    cases hd : s.destructor with
    | alive | waitLoop | waitEmpty =>
      have hr : s.running = true := by
        cases hr : s.running with
        | true => rfl
        | false => have := I.stopped.1 hr; simp [hd] at this
      by_cases hw : s.worker ⟨0, hn⟩ = .exited
      · exact absurd (exited_stopped h _ hw) (by simp [hr])
      · exact wait_all_done ⟨0, hn⟩ s hr hw (by simp [hd])
    | stop => exact stop_all s hd
    | join ws => exact join_all ws s hd (I.stopped.2 (Or.inl ⟨ws, hd⟩))
    | returned => exact ⟨s, .refl s, hd⟩
  obtain ⟨s', ⟨tr', h1, h2⟩, h3⟩ := key
  refine ⟨s', tr', h1, h2, h3, fun hns => ?_⟩
  have e : submitted (tr ++ tr') = submitted tr := by rw [submitted_append, h2, List.append_nil]
  rw [← e]
  refine (C78_all_run_partial s' _ (h.trans h1) h3 ?_).1
  intro t u htu
  rw [List.append_eq_append_iff] at htu
  rcases htu with ⟨a, rfl, ha⟩ | ⟨c, hc, hc2⟩
  · rw [ha, submitted_append] at h2
    exact (List.append_eq_nil_iff.1 h2).2
  · cases c with
    | nil =>
      rw [List.nil_append] at hc2
      rw [← hc2] at h2
      exact h2
    | cons x c =>
      rw [List.cons_append] at hc2
      injection hc2 with hx _
      subst hx
      exact absurd (by rw [hc]; simp) hns

/-- A task that a running task submits while the pool is being destroyed is lost: it never starts, although
the destructor waits for the task that submitted it. -/
theorem C78_late_violated :
    ∃ (s : State 1) (tr : List (Label 1)), Run (.initial 1) tr s ∧ s.destructor = .returned ∧
      1 ∈ submitted tr ∧ 1 ∉ started tr ∧ 0 ∈ finished tr := by
  have run := Run.step (.step (.step (.step (.step (.step (.step (.step (.step (.step (.step (.step (.nil (State.initial 1))
      (.submit (by simp [State.initial]))) (.running 0 rfl rfl)) (.take 0 0 [] rfl rfl)) (.destroy rfl))
      (.waitRunning rfl rfl)) (.sawEmpty rfl rfl)) (.submit (by simp))) (.stop rfl)) (.finish 0 0 rfl))
      (.exit 0 rfl rfl)) (.join 0 [] rfl rfl)) (.destroyed rfl)
  exact ⟨_, _, run, rfl, by decide, by decide, by decide⟩

/-- A pool without threads, which the default argument makes where `hardware_concurrency` returns zero: if
a task was submitted the destructor never returns. -/
theorem C78_no_threads_violated (s s' : State 0) (tr tr' : List (Label 0)) (h : Run (.initial 0) tr s)
    (hs : submitted tr ≠ []) (hd : s.destructor = .alive) (h' : Run s tr' s') :
    s'.destructor ≠ .returned := by
  have noStart : ∀ t : List (Label 0), started t = [] := by
    intro t
    induction t with
    | nil => rfl
    | cons l t ih =>
      cases l with
      | start w => exact w.elim0
      | submit | finish | sawEmpty | destroyed | tau => exact ih
  have key : Label.sawEmpty ∉ tr' ∧ s'.queue ≠ [] := by
    induction h' with
    | nil =>
      have := (C78_fifo _ _ h).1
      rw [noStart, List.nil_append] at this
      exact ⟨by simp, by rw [this]; exact hs⟩
    | step h1 hst ih =>
      rename_i s1 l t s2
      obtain ⟨i1, i2⟩ := ih
      have hq : s2.queue ≠ [] := by
        have := (C78_fifo _ _ (h.trans (h1.step hst))).1
        rw [noStart, List.nil_append, submitted_append] at this
        rw [this]
        intro e
        exact hs (List.append_eq_nil_iff.1 e).1
      refine ⟨?_, hq⟩
      rw [List.mem_append, not_or]
      refine ⟨i1, ?_⟩
      intro hm
      rw [List.mem_singleton] at hm
      subst hm
      cases hst with
      | sawEmpty _ hq' => exact i2 hq'
  intro hret
  have := (h.trans h').inv.saw.1 (Or.inr (Or.inr hret))
  rcases List.mem_append.1 this with hm | hm
  · have := h.inv.saw.2 hm
    simp [hd] at this
  · exact key.1 hm

/-- A history in which two tasks are run by two threads and the pool is destroyed. -/
theorem pool_example : ∃ (s : State 2) (tr : List (Label 2)), Run (.initial 2) tr s ∧
    s.destructor = .returned ∧ submitted tr = [0, 1] ∧ finished tr = [1, 0] := by
  have run := Run.step (.step (.step (.step (.step (.step (.step (.step (.step (.step (.step (.step (.step (.step (.step
      (.step (.step (.nil (State.initial 2))
      (.submit (by simp [State.initial]))) (.submit (by simp [State.initial]))) (.running 0 rfl rfl))
      (.running 1 rfl rfl)) (.take 0 0 [1] rfl rfl)) (.take 1 1 [] rfl rfl)) (.destroy rfl))
      (.waitRunning rfl rfl)) (.sawEmpty rfl rfl)) (.finish 1 1 rfl)) (.finish 0 0 rfl)) (.stop rfl))
      (.exit 0 rfl rfl)) (.exit 1 rfl rfl)) (.join 0 [1] rfl rfl)) (.join 1 [] rfl rfl)) (.destroyed rfl)
  exact ⟨_, _, run, rfl, by decide, by decide⟩

example : ∃ (s : State 2) (tr : List (Label 2)), Run (.initial 2) tr s ∧ s.destructor = .returned ∧
    submitted tr = [0, 1] ∧ (finished tr).Perm (submitted tr) := by
  obtain ⟨s, tr, h, hd, h1, h2⟩ := pool_example
  exact ⟨s, tr, h, hd, h1, by rw [h1, h2]; decide⟩

/-- The hypotheses of the violation without threads. -/
example : ∃ (s : State 0) (tr : List (Label 0)), Run (.initial 0) tr s ∧ submitted tr ≠ [] ∧
    s.destructor = .alive :=
  ⟨_, _, .step (.nil _) (.submit (by simp [State.initial])), by decide, rfl⟩

/-! ## C79 -/

variable {V : Type}

/-- Whatever `wait_all` returns is the collection of all results, each once. -/
theorem C79_results (delay : ℕ → ℕ) (tasks : List (Future V)) (hv : ∀ f ∈ tasks, f.valid = true)
    (fuel t : ℕ) (r : List V) (h : waitAll delay fuel tasks [] t = some (.ok r)) :
    r.Perm (tasks.filterMap (·.result)) ∧ r.length = tasks.length := by
  obtain ⟨h1, h2⟩ := waitAll_perm delay fuel tasks [] t r h
    (by simp [validCount_all tasks hv])
  rw [List.nil_append, pending_all tasks hv] at h1
  exact ⟨h1, h2⟩

/-- If every task ends with a result then `wait_all` returns. -/
theorem C79_returns (delay : ℕ → ℕ) (tasks : List (Future V)) (hv : ∀ f ∈ tasks, f.valid = true)
    (hr : ∀ f ∈ tasks, f.result.isSome) (t : ℕ) :
    ∃ fuel r, waitAll delay fuel tasks [] t = some (.ok r) ∧ r.Perm (tasks.filterMap (·.result)) := by
  obtain ⟨fuel, r, h⟩ := waitAll_terminates delay tasks hr t hv
  exact ⟨fuel, r, h, (C79_results delay tasks hv fuel t r h).1⟩

/-- If a task ends with an exception then `wait_all` never returns results. -/
theorem C79_exception (delay : ℕ → ℕ) (tasks : List (Future V)) (hv : ∀ f ∈ tasks, f.valid = true)
    (f : Future V) (hf : f ∈ tasks) (hr : f.result = none) (fuel t : ℕ) (r : List V) :
    waitAll delay fuel tasks [] t ≠ some (.ok r) := by
  intro h
  obtain ⟨h1, h2⟩ := C79_results delay tasks hv fuel t r h
  have h3 := h1.length_eq
  rw [h2] at h3
  have : (tasks.filterMap (·.result)).length < tasks.length := by
    clear h h1 h2 h3 hv
    induction tasks with
    | nil => cases hf
    | cons g gs ih =>
      rcases List.mem_cons.1 hf with rfl | hf
      · rw [List.filterMap_cons, hr, List.length_cons]
        exact Nat.lt_succ_of_le (List.length_filterMap_le _ _)
      · have := ih hf
        rw [List.filterMap_cons, List.length_cons]
        cases g.result
        · exact Nat.lt_succ_of_lt this
        · simpa using this
  omega

/-- The results are in the order in which they were found, not in the order of the tasks. -/
theorem C79_order_violated :
    ∃ tasks : List (Future ℕ), (∀ f ∈ tasks, f.valid = true) ∧
      waitAll (fun _ => 0) 9 tasks [] 0 = some (.ok [2, 1]) ∧ tasks.filterMap (·.result) = [1, 2] :=
  ⟨[⟨true, some 1, 5⟩, ⟨true, some 2, 0⟩], by decide, by decide, by decide⟩

/-- If one of the futures has no state, for example because its result was taken before, then `wait_all`
does not return. -/
theorem C79_invalid_violated (delay : ℕ → ℕ) (tasks : List (Future V)) (f : Future V) (hf : f ∈ tasks)
    (hv : f.valid = false) (hr : ∀ g ∈ tasks, g.result.isSome) (fuel t : ℕ) :
    waitAll delay fuel tasks [] t = none := by
  have hc : validCount tasks < tasks.length := by
    unfold validCount
    refine lt_of_le_of_ne (List.length_filter_le _ _) ?_
    intro e
    have := List.length_filter_eq_length_iff.1 e f hf
    rw [hv] at this
    cases this
  exact waitAll_never delay fuel tasks [] t hr (by simpa using hc)

example : waitAll (fun t => t) 9 [⟨true, some 1, 5⟩, ⟨true, some 2, 0⟩, ⟨true, some 3, 9⟩] [] 0 =
    some (.ok [2, 1, 3]) := by decide

example : waitAll (V := ℕ) (fun _ => 0) 9 [] [] 0 = some (.ok []) := by decide

end EG.Pool
