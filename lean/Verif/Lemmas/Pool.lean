import Verif.Model.Pool
import Mathlib.Data.List.Perm.Basic
import Mathlib.Data.List.Nodup
import Mathlib.Tactic.Linarith

/-! # Invariants of the thread pool, and of `wait_all` -/

namespace EG.Pool

variable {n : ℕ}

theorem submitted_append (a b : List (Label n)) : submitted (a ++ b) = submitted a ++ submitted b :=
  List.filterMap_append
theorem started_append (a b : List (Label n)) : started (a ++ b) = started a ++ started b :=
  List.filterMap_append
theorem finished_append (a b : List (Label n)) : finished (a ++ b) = finished a ++ finished b :=
  List.filterMap_append

theorem goto_worker (s : State n) (w v : Fin n) (p : WPc) :
    (s.goto w p).worker v = if v = w then p else s.worker v := by
  unfold State.goto
  simp only [Function.update_apply]

@[simp] theorem goto_next (s : State n) (w : Fin n) (p : WPc) : (s.goto w p).next = s.next := rfl
@[simp] theorem goto_queue (s : State n) (w : Fin n) (p : WPc) : (s.goto w p).queue = s.queue := rfl
@[simp] theorem goto_destructor (s : State n) (w : Fin n) (p : WPc) :
    (s.goto w p).destructor = s.destructor := rfl

/-- What holds in every reachable state. -/
structure Inv (s : State n) (tr : List (Label n)) : Prop where
  sub : submitted tr = List.range s.next
  fifo : started tr ++ s.queue = List.range s.next
  exec_started : ∀ w i, s.worker w = .exec i → i ∈ started tr ∧ i ∉ finished tr
  exec_inj : ∀ v w i, s.worker v = .exec i → s.worker w = .exec i → v = w
  fin_started : ∀ i ∈ finished tr, i ∈ started tr
  fin_nodup : (finished tr).Nodup
  open_exec : ∀ i ∈ started tr, i ∉ finished tr → ∃ w, s.worker w = .exec i
  stopped : s.running = false ↔ (∃ ws, s.destructor = .join ws) ∨ s.destructor = .returned
  exited : ∀ ws, s.destructor = .join ws → ∀ w, w ∉ ws → s.worker w = .exited
  ret : s.destructor = .returned → ∀ w, s.worker w = .exited
  saw : (s.destructor = .stop ∨ (∃ ws, s.destructor = .join ws) ∨ s.destructor = .returned) ↔
    .sawEmpty ∈ tr

theorem range_nodup_append {a b : List ℕ} {k : ℕ} (h : a ++ b = List.range k) :
    a.Nodup ∧ ∀ x ∈ b, x ∉ a := by
  have : (a ++ b).Nodup := by rw [h]; exact List.nodup_range
  rw [List.nodup_append] at this
  exact ⟨this.1, fun x hx ha => this.2.2 x ha x hx rfl⟩

theorem inv_initial : Inv (State.initial n) [] where
  sub := rfl
  fifo := rfl
  exec_started := by intro w i h; cases h
  exec_inj := by intro v w i h; cases h
  fin_started := by intro i h; cases h
  fin_nodup := List.nodup_nil
  open_exec := by intro i h; cases h
  stopped := by simp [State.initial]
  exited := by intro ws h; cases h
  ret := by intro h; cases h
  saw := by simp [State.initial]

theorem inv_step {s s' : State n} {tr : List (Label n)} {l : Label n} (I : Inv s tr) (h : Step s l s') :
    Inv s' (tr ++ [l]) := by
  cases h with
  | submit h =>
    refine ⟨?_, ?_, ?_, I.exec_inj, ?_, ?_, ?_, I.stopped, I.exited, I.ret, ?_⟩
    · rw [submitted_append, I.sub]; exact List.range_succ.symm
    · rw [started_append]
      show (started tr ++ []) ++ (s.queue ++ [s.next]) = List.range (s.next + 1)
      rw [List.append_nil, ← List.append_assoc, I.fifo, List.range_succ]
    · simpa [started_append, finished_append, started, finished] using I.exec_started
    · simpa [started_append, finished_append, started, finished] using I.fin_started
    · simpa [finished_append, finished] using I.fin_nodup
    · simpa [started_append, finished_append, started, finished] using I.open_exec
    · simpa using I.saw
  | running w h hr =>
    refine ⟨?_, ?_, ?_, ?_, ?_, ?_, ?_, I.stopped, ?_, ?_, ?_⟩
    · simpa [submitted_append, submitted] using I.sub
    · simpa [started_append, started] using I.fifo
    · intro v i hv
      rw [goto_worker] at hv
      split_ifs at hv with e
      simpa [started_append, finished_append, started, finished] using I.exec_started v i hv
    · intro u v i hu hv
      rw [goto_worker] at hu hv
      split_ifs at hu hv with e1 e2
      exact I.exec_inj u v i hu hv
    · simpa [started_append, finished_append, started, finished] using I.fin_started
    · simpa [finished_append, finished] using I.fin_nodup
    · intro i h1 h2
      obtain ⟨v, hv⟩ := I.open_exec i (by simpa [started_append, started] using h1)
        (by simpa [finished_append, finished] using h2)
      refine ⟨v, ?_⟩
      rw [goto_worker, if_neg (by rintro rfl; rw [h] at hv; cases hv)]
      exact hv
    · intro ws hd v hv
      have := I.exited ws hd v hv
      rw [goto_worker, if_neg (by rintro rfl; rw [h] at this; cases this)]
      exact this
    · intro hd v
      have := I.ret hd v
      rw [goto_worker, if_neg (by rintro rfl; rw [h] at this; cases this)]
      exact this
    · simpa using I.saw
  | exit w h hr =>
    refine ⟨?_, ?_, ?_, ?_, ?_, ?_, ?_, I.stopped, ?_, ?_, ?_⟩
    · simpa [submitted_append, submitted] using I.sub
    · simpa [started_append, started] using I.fifo
    · intro v i hv
      rw [goto_worker] at hv
      split_ifs at hv with e
      simpa [started_append, finished_append, started, finished] using I.exec_started v i hv
    · intro u v i hu hv
      rw [goto_worker] at hu hv
      split_ifs at hu hv with e1 e2
      exact I.exec_inj u v i hu hv
    · simpa [started_append, finished_append, started, finished] using I.fin_started
    · simpa [finished_append, finished] using I.fin_nodup
    · intro i h1 h2
      obtain ⟨v, hv⟩ := I.open_exec i (by simpa [started_append, started] using h1)
        (by simpa [finished_append, finished] using h2)
      refine ⟨v, ?_⟩
      rw [goto_worker, if_neg (by rintro rfl; rw [h] at hv; cases hv)]
      exact hv
    · intro ws hd v hv
      have := I.exited ws hd v hv
      rw [goto_worker]; split_ifs
      · rfl
      · exact this
    · intro hd v
      have := I.ret hd v
      rw [goto_worker]; split_ifs
      · rfl
      · exact this
    · simpa using I.saw
  | takeNone w h hq =>
    refine ⟨?_, ?_, ?_, ?_, ?_, ?_, ?_, I.stopped, ?_, ?_, ?_⟩
    · simpa [submitted_append, submitted] using I.sub
    · simpa [started_append, started] using I.fifo
    · intro v i hv
      rw [goto_worker] at hv
      split_ifs at hv with e
      simpa [started_append, finished_append, started, finished] using I.exec_started v i hv
    · intro u v i hu hv
      rw [goto_worker] at hu hv
      split_ifs at hu hv with e1 e2
      exact I.exec_inj u v i hu hv
    · simpa [started_append, finished_append, started, finished] using I.fin_started
    · simpa [finished_append, finished] using I.fin_nodup
    · intro i h1 h2
      obtain ⟨v, hv⟩ := I.open_exec i (by simpa [started_append, started] using h1)
        (by simpa [finished_append, finished] using h2)
      refine ⟨v, ?_⟩
      rw [goto_worker, if_neg (by rintro rfl; rw [h] at hv; cases hv)]
      exact hv
    · intro ws hd v hv
      have := I.exited ws hd v hv
      rw [goto_worker, if_neg (by rintro rfl; rw [h] at this; cases this)]
      exact this
    · intro hd v
      have := I.ret hd v
      rw [goto_worker, if_neg (by rintro rfl; rw [h] at this; cases this)]
      exact this
    · simpa using I.saw
  | take w i rest h hq =>
    have hf := I.fifo
    rw [hq] at hf
    obtain ⟨-, hfresh⟩ := range_nodup_append hf
    have hi := hfresh i (by simp)
    have hst : started (tr ++ [Label.start w i]) = started tr ++ [i] := started_append _ _
    have hfi : finished (tr ++ [Label.start w i]) = finished tr := by
      rw [finished_append]; exact List.append_nil _
    refine ⟨?_, ?_, ?_, ?_, ?_, ?_, ?_, I.stopped, ?_, ?_, ?_⟩
    · simpa [submitted_append, submitted] using I.sub
    · rw [hst]
      show (started tr ++ [i]) ++ rest = List.range s.next
      rw [List.append_assoc]; exact hf
    · intro v j hv
      rw [goto_worker] at hv
      rw [hst, hfi]
      split_ifs at hv with e
      · cases hv
        exact ⟨by simp, fun hh => hi (I.fin_started _ hh)⟩
      · obtain ⟨a, b⟩ := I.exec_started v j hv
        exact ⟨by simp [a], b⟩
    · intro u v j hu hv
      rw [goto_worker] at hu hv
      split_ifs at hu hv with e1 e2 e2
      · rw [e1, e2]
      · cases hu; exact absurd (I.exec_started v _ hv).1 hi
      · cases hv; exact absurd (I.exec_started u _ hu).1 hi
      · exact I.exec_inj u v j hu hv
    · rw [hst, hfi]; intro j hj; simp [I.fin_started j hj]
    · rw [hfi]; exact I.fin_nodup
    · rw [hst, hfi]
      intro j hj hj2
      rcases List.mem_append.1 hj with hj | hj
      · obtain ⟨v, hv⟩ := I.open_exec j hj hj2
        refine ⟨v, ?_⟩
        rw [goto_worker, if_neg (by rintro rfl; rw [h] at hv; cases hv)]
        exact hv
      · rw [List.mem_singleton.1 hj]
        exact ⟨w, by rw [goto_worker, if_pos rfl]⟩
    · intro ws hd v hv
      have := I.exited ws hd v hv
      rw [goto_worker, if_neg (by rintro rfl; rw [h] at this; cases this)]
      exact this
    · intro hd v
      have := I.ret hd v
      rw [goto_worker, if_neg (by rintro rfl; rw [h] at this; cases this)]
      exact this
    · simpa using I.saw
  | finish w i h =>
    have hst : started (tr ++ [Label.finish w i]) = started tr := by
      rw [started_append]; exact List.append_nil _
    have hfi : finished (tr ++ [Label.finish w i]) = finished tr ++ [i] := finished_append _ _
    obtain ⟨hi1, hi2⟩ := I.exec_started w i h
    refine ⟨?_, ?_, ?_, ?_, ?_, ?_, ?_, I.stopped, ?_, ?_, ?_⟩
    · simpa [submitted_append, submitted] using I.sub
    · rw [hst]; exact I.fifo
    · intro v j hv
      rw [goto_worker] at hv
      rw [hst, hfi]
      split_ifs at hv with e
      obtain ⟨a, b⟩ := I.exec_started v j hv
      refine ⟨a, ?_⟩
      rw [List.mem_append, List.mem_singleton]
      rintro (c | rfl)
      · exact b c
      · exact e (I.exec_inj v w _ hv h)
    · intro u v j hu hv
      rw [goto_worker] at hu hv
      split_ifs at hu hv
      exact I.exec_inj u v j hu hv
    · rw [hst, hfi]
      intro j hj
      rcases List.mem_append.1 hj with hj | hj
      · exact I.fin_started j hj
      · rw [List.mem_singleton.1 hj]; exact hi1
    · rw [hfi, List.nodup_append]
      exact ⟨I.fin_nodup, List.nodup_singleton _, by
        intro a ha b hb; rw [List.mem_singleton.1 hb]; rintro rfl; exact hi2 ha⟩
    · rw [hst, hfi]
      intro j hj hj2
      rw [List.mem_append, List.mem_singleton, not_or] at hj2
      obtain ⟨v, hv⟩ := I.open_exec j hj hj2.1
      refine ⟨v, ?_⟩
      rw [goto_worker, if_neg (by rintro rfl; rw [h] at hv; cases hv; exact hj2.2 rfl)]
      exact hv
    · intro ws hd v hv
      have := I.exited ws hd v hv
      rw [goto_worker, if_neg (by rintro rfl; rw [h] at this; cases this)]
      exact this
    · intro hd v
      have := I.ret hd v
      rw [goto_worker, if_neg (by rintro rfl; rw [h] at this; cases this)]
      exact this
    · simpa using I.saw
  | destroy h | waitRunning h hr | notEmpty h hr =>
    refine ⟨?_, ?_, ?_, I.exec_inj, ?_, ?_, ?_, ?_, ?_, ?_, ?_⟩
    · simpa [submitted_append, submitted] using I.sub
    · simpa [started_append, started] using I.fifo
    · simpa [started_append, finished_append, started, finished] using I.exec_started
    · simpa [started_append, finished_append, started, finished] using I.fin_started
    · simpa [finished_append, finished] using I.fin_nodup
    · simpa [started_append, finished_append, started, finished] using I.open_exec
    · have := I.stopped; simpa [h] using this
    · intro ws hd; cases hd
    · intro hd; cases hd
    · have := I.saw; simpa [h] using this
  | waitStopped h hr =>
    have := I.stopped.1 hr
    simp [h] at this
  | sawEmpty h hq =>
    refine ⟨?_, ?_, ?_, I.exec_inj, ?_, ?_, ?_, ?_, ?_, ?_, ?_⟩
    · simpa [submitted_append, submitted] using I.sub
    · simpa [started_append, started] using I.fifo
    · simpa [started_append, finished_append, started, finished] using I.exec_started
    · simpa [started_append, finished_append, started, finished] using I.fin_started
    · simpa [finished_append, finished] using I.fin_nodup
    · simpa [started_append, finished_append, started, finished] using I.open_exec
    · have := I.stopped; simpa [h] using this
    · intro ws hd; cases hd
    · intro hd; cases hd
    · simp
  | stop h =>
    refine ⟨?_, ?_, ?_, I.exec_inj, ?_, ?_, ?_, ?_, ?_, ?_, ?_⟩
    · simpa [submitted_append, submitted] using I.sub
    · simpa [started_append, started] using I.fifo
    · simpa [started_append, finished_append, started, finished] using I.exec_started
    · simpa [started_append, finished_append, started, finished] using I.fin_started
    · simpa [finished_append, finished] using I.fin_nodup
    · simpa [started_append, finished_append, started, finished] using I.open_exec
    · simp
    · intro ws hd w hw
      cases hd
      exact absurd (List.mem_finRange w) hw
    · intro hd; cases hd
    · have := I.saw; simpa [h] using this
  | join w ws h he =>
    refine ⟨?_, ?_, ?_, I.exec_inj, ?_, ?_, ?_, ?_, ?_, ?_, ?_⟩
    · simpa [submitted_append, submitted] using I.sub
    · simpa [started_append, started] using I.fifo
    · simpa [started_append, finished_append, started, finished] using I.exec_started
    · simpa [started_append, finished_append, started, finished] using I.fin_started
    · simpa [finished_append, finished] using I.fin_nodup
    · simpa [started_append, finished_append, started, finished] using I.open_exec
    · have := I.stopped; simpa [h] using this
    · intro ws' hd v hv
      cases hd
      by_cases e : v = w
      · rw [e]; exact he
      · exact I.exited _ h v (by simp [e, hv])
    · intro hd; cases hd
    · have := I.saw; simpa [h] using this
  | destroyed h =>
    refine ⟨?_, ?_, ?_, I.exec_inj, ?_, ?_, ?_, ?_, ?_, ?_, ?_⟩
    · simpa [submitted_append, submitted] using I.sub
    · simpa [started_append, started] using I.fifo
    · simpa [started_append, finished_append, started, finished] using I.exec_started
    · simpa [started_append, finished_append, started, finished] using I.fin_started
    · simpa [finished_append, finished] using I.fin_nodup
    · simpa [started_append, finished_append, started, finished] using I.open_exec
    · have := I.stopped; simpa [h] using this
    · intro ws hd; cases hd
    · intro _ w; exact I.exited _ h w (by simp)
    · have := I.saw; simpa [h] using this

theorem Run.inv {s : State n} {tr : List (Label n)} (h : Run (State.initial n) tr s) : Inv s tr := by
  generalize hs : State.initial n = s0 at h
  induction h with
  | nil => subst hs; exact inv_initial
  | step _ hs' ih => exact inv_step ih hs'

theorem exited_stopped {s : State n} {tr : List (Label n)} (h : Run (State.initial n) tr s) (w : Fin n)
    (hw : s.worker w = .exited) : s.running = false := by
  generalize hs : State.initial n = s0 at h
  induction h with
  | nil => subst hs; cases hw
  | step h1 hst ih =>
    rename_i s1 l t s2
    cases hst with
    | exit v h hr => exact hr
    | running v h hr =>
      rw [goto_worker] at hw
      split_ifs at hw
      exact ih hw
    | take v i rest h hq =>
      rw [goto_worker] at hw
      split_ifs at hw
      exact ih hw
    | takeNone v h hq =>
      rw [goto_worker] at hw
      split_ifs at hw
      exact ih hw
    | finish v i h =>
      rw [goto_worker] at hw
      split_ifs at hw
      exact ih hw
    | stop h => rfl
    | submit | destroy | waitRunning | waitStopped | sawEmpty | notEmpty | join | destroyed => exact ih hw

theorem Run.trans {s s' s'' : State n} {t u : List (Label n)} (h : Run s t s') (h' : Run s' u s'') :
    Run s (t ++ u) s'' := by
  induction h' with
  | nil => rw [List.append_nil]; exact h
  | step _ hs ih => rw [← List.append_assoc]; exact .step ih hs

theorem Run.one {s s' : State n} {l : Label n} (h : Step s l s') : Run s [l] s' := Run.step (.nil s) h

theorem Run.eq_of_nil {s s' : State n} {tr : List (Label n)} (h : Run s tr s') (ht : tr = []) : s = s' := by
  cases h with
  | nil => rfl
  | step h1 h2 => simp at ht

theorem Run.single {s s' : State n} {tr : List (Label n)} {l : Label n} (h : Run s tr s') (ht : tr = [l]) :
    Step s l s' := by
  cases h with
  | nil => cases ht
  | step h1 h2 =>
    rename_i x tr' s1
    obtain ⟨e1, e2⟩ := List.append_inj' (show _ = [] ++ [l] from ht) rfl
    cases e2
    rw [h1.eq_of_nil e1]
    exact h2

theorem Run.split {s s'' : State n} (t u : List (Label n)) (h : Run s (t ++ u) s'') :
    ∃ s', Run s t s' ∧ Run s' u s'' := by
  generalize htr : t ++ u = tr at h
  induction h generalizing u with
  | nil =>
    obtain ⟨rfl, rfl⟩ := List.append_eq_nil_iff.1 htr
    exact ⟨s, .nil s, .nil s⟩
  | step h1 hs ih =>
    rename_i s1 l tr s2
    rcases List.eq_nil_or_concat u with rfl | ⟨u', x, rfl⟩
    · rw [List.append_nil] at htr
      subst htr
      exact ⟨_, .step h1 hs, .nil _⟩
    · rw [List.concat_eq_append, ← List.append_assoc] at htr
      obtain ⟨h3, h4⟩ := List.append_inj' htr rfl
      obtain ⟨s', h5, h6⟩ := ih u' h3
      cases h4
      rw [List.concat_eq_append]
      exact ⟨s', h5, .step h6 hs⟩

theorem Run.empty_stays {s s' : State n} {tr : List (Label n)} (h : Run s tr s') (hq : s.queue = [])
    (hn : submitted tr = []) : s'.queue = [] := by
  induction h with
  | nil => exact hq
  | step h1 hs ih =>
    rw [submitted_append] at hn
    obtain ⟨a, b⟩ := List.append_eq_nil_iff.1 hn
    have e := ih a
    cases hs with
    | submit => simp [submitted] at b
    | take w i rest h hq' => rw [e] at hq'; cases hq'
    | running | exit | takeNone | finish | destroy | waitRunning | waitStopped | sawEmpty | notEmpty | stop
    | join | destroyed => exact e

theorem mem_split {tr : List (Label n)} {l : Label n} (h : l ∈ tr) : ∃ t u, tr = t ++ l :: u :=
  List.append_of_mem h

/-! ## Progress -/

/-- `s'` can be reached from `s` without a submission. -/
def Reach (s s' : State n) : Prop := ∃ tr, Run s tr s' ∧ submitted tr = []

theorem Reach.refl (s : State n) : Reach s s := ⟨[], .nil s, rfl⟩

theorem Reach.trans {s s' s'' : State n} (h : Reach s s') (h' : Reach s' s'') : Reach s s'' := by
  obtain ⟨t, h1, h2⟩ := h
  obtain ⟨u, h3, h4⟩ := h'
  exact ⟨t ++ u, h1.trans h3, by rw [submitted_append, h2, h4]; rfl⟩

theorem Reach.one {s s' : State n} {l : Label n} (h : Step s l s') (hl : submitted [l] = []) : Reach s s' :=
  ⟨[l], .one h, hl⟩

def rank1 : WPc → ℕ
  | .exec _ => 2
  | .loop => 1
  | .pop => 0
  | .exited => 3

/-- While the pool runs a worker empties the queue. -/
theorem drain (w : Fin n) : ∀ (k : ℕ) (s : State n), 4 * s.queue.length + rank1 (s.worker w) ≤ k →
    s.running = true → s.worker w ≠ .exited →
    ∃ s', Reach s s' ∧ s'.queue = [] ∧ s'.running = true ∧ s'.destructor = s.destructor := by
  intro k
  induction k with
  | zero =>
    intro s hk hr he
    refine ⟨s, .refl s, ?_, hr, rfl⟩
    exact List.eq_nil_of_length_eq_zero (by omega)
  | succ k ih =>
    intro s hk hr he
    rcases hq : s.queue with _ | ⟨i, rest⟩
    · exact ⟨s, .refl s, hq, hr, rfl⟩
    · rw [hq, List.length_cons] at hk
      have go : ∀ (s1 : State n) (l : Label n), Step s l s1 → submitted [l] = [] →
          4 * s1.queue.length + rank1 (s1.worker w) ≤ k → s1.running = true → s1.worker w ≠ .exited →
          s1.destructor = s.destructor →
          ∃ s', Reach s s' ∧ s'.queue = [] ∧ s'.running = true ∧ s'.destructor = s.destructor := by
        intro s1 l h1 h2 h3 h4 h5 h6
        obtain ⟨s', r1, r2, r3, r4⟩ := ih s1 h3 h4 h5
        exact ⟨s', (Reach.one h1 h2).trans r1, r2, r3, r4.trans h6⟩
      cases hw : s.worker w with
      | exited => exact absurd hw he
      | loop =>
        refine go _ _ (.running w hw hr) rfl ?_ hr ?_ rfl
        · rw [goto_worker, if_pos rfl]
          rw [hw] at hk
          show 4 * s.queue.length + 0 ≤ k
          rw [hq, List.length_cons]
          simp only [rank1] at hk
          omega
        · rw [goto_worker, if_pos rfl]; simp
      | pop =>
        refine go _ _ (.take w i rest hw hq) rfl ?_ hr ?_ rfl
        · rw [goto_worker, if_pos rfl]
          rw [hw] at hk
          show 4 * rest.length + 2 ≤ k
          simp only [rank1] at hk
          omega
        · rw [goto_worker, if_pos rfl]; simp
      | exec j =>
        refine go _ _ (.finish w j hw) rfl ?_ hr ?_ rfl
        · rw [goto_worker, if_pos rfl]
          rw [hw] at hk
          show 4 * s.queue.length + 1 ≤ k
          rw [hq, List.length_cons]
          simp only [rank1] at hk
          omega
        · rw [goto_worker, if_pos rfl]; simp

def rank2 : WPc → ℕ
  | .pop => 3
  | .exec _ => 2
  | .loop => 1
  | .exited => 0

/-- Once the pool is stopped a worker ends. -/
theorem end_worker (w : Fin n) : ∀ (k : ℕ) (s : State n), rank2 (s.worker w) ≤ k → s.running = false →
    ∃ s', Reach s s' ∧ s'.worker w = .exited ∧ s'.running = false ∧ s'.destructor = s.destructor := by
  intro k
  induction k with
  | zero =>
    intro s hk hr
    cases hw : s.worker w with
    | exited => exact ⟨s, .refl s, hw, hr, rfl⟩
    | loop | pop | exec i => rw [hw] at hk; simp [rank2] at hk
  | succ k ih =>
    intro s hk hr
    have go : ∀ (s1 : State n) (l : Label n), Step s l s1 → submitted [l] = [] →
        rank2 (s1.worker w) ≤ k → s1.running = false → s1.destructor = s.destructor →
        ∃ s', Reach s s' ∧ s'.worker w = .exited ∧ s'.running = false ∧ s'.destructor = s.destructor := by
      intro s1 l h1 h2 h3 h4 h6
      obtain ⟨s', r1, r2, r3, r4⟩ := ih s1 h3 h4
      exact ⟨s', (Reach.one h1 h2).trans r1, r2, r3, r4.trans h6⟩
    cases hw : s.worker w with
    | exited => exact ⟨s, .refl s, hw, hr, rfl⟩
    | loop =>
      refine go _ _ (.exit w hw hr) rfl ?_ hr rfl
      rw [goto_worker, if_pos rfl]; simp [rank2]
    | pop =>
      rw [hw] at hk
      simp only [rank2] at hk
      rcases hq : s.queue with _ | ⟨i, rest⟩
      · refine go _ _ (.takeNone w hw hq) rfl ?_ hr rfl
        rw [goto_worker, if_pos rfl]; simp only [rank2]; omega
      · refine go _ _ (.take w i rest hw hq) rfl ?_ hr rfl
        rw [goto_worker, if_pos rfl]; simp only [rank2]; omega
    | exec j =>
      rw [hw] at hk
      simp only [rank2] at hk
      refine go _ _ (.finish w j hw) rfl ?_ hr rfl
      rw [goto_worker, if_pos rfl]; simp only [rank2]; omega

theorem join_all : ∀ (ws : List (Fin n)) (s : State n), s.destructor = .join ws → s.running = false →
    ∃ s', Reach s s' ∧ s'.destructor = .returned := by
  intro ws
  induction ws with
  | nil => intro s hd _; exact ⟨_, .one (.destroyed hd) rfl, rfl⟩
  | cons w ws ih =>
    intro s hd hr
    obtain ⟨s1, r1, r2, r3, r4⟩ := end_worker w _ s le_rfl hr
    have st := Step.join (s := s1) w ws (r4.trans hd) r2
    obtain ⟨s2, q1, q2⟩ := ih _ rfl (show ({ s1 with destructor := DPc.join ws } : State n).running = false
      from r3)
    exact ⟨s2, r1.trans ((Reach.one st rfl).trans q1), q2⟩

theorem stop_all (s : State n) (hd : s.destructor = .stop) : ∃ s', Reach s s' ∧ s'.destructor = .returned := by
  obtain ⟨s', h1, h2⟩ := join_all (List.finRange n)
    { s with running := false, destructor := .join (List.finRange n) } rfl rfl
  exact ⟨s', (Reach.one (.stop hd) rfl).trans h1, h2⟩

theorem wait_all_done (w : Fin n) (s : State n) (hr : s.running = true) (hw : s.worker w ≠ .exited)
    (hd : s.destructor = .alive ∨ s.destructor = .waitLoop ∨ s.destructor = .waitEmpty) :
    ∃ s', Reach s s' ∧ s'.destructor = .returned := by
  obtain ⟨s1, r1, r2, r3, r4⟩ := drain w _ s le_rfl hr hw
  have hE : ∀ s2 : State n, s2.destructor = .waitEmpty → s2.queue = [] →
      ∃ s', Reach s2 s' ∧ s'.destructor = .returned := by
    intro s2 h1 h2
    obtain ⟨s', h3, h4⟩ := stop_all ({ s2 with destructor := DPc.stop } : State n) rfl
    exact ⟨s', (Reach.one (.sawEmpty h1 h2) rfl).trans h3, h4⟩
  have hL : ∀ s2 : State n, s2.destructor = .waitLoop → s2.queue = [] → s2.running = true →
      ∃ s', Reach s2 s' ∧ s'.destructor = .returned := by
    intro s2 h1 h2 h3
    obtain ⟨s', h4, h5⟩ := hE ({ s2 with destructor := DPc.waitEmpty } : State n) rfl h2
    exact ⟨s', (Reach.one (.waitRunning h1 h3) rfl).trans h4, h5⟩
  rcases hd with h | h | h
  · obtain ⟨s', h4, h5⟩ := hL ({ s1 with destructor := DPc.waitLoop } : State n) rfl r2 r3
    exact ⟨s', r1.trans ((Reach.one (.destroy (r4.trans h)) rfl).trans h4), h5⟩
  · obtain ⟨s', h4, h5⟩ := hL s1 (r4.trans h) r2 r3
    exact ⟨s', r1.trans h4, h5⟩
  · obtain ⟨s', h4, h5⟩ := hE s1 (r4.trans h) r2
    exact ⟨s', r1.trans h4, h5⟩

/-! ## wait_all -/

variable {V : Type}

/-- The results that are still to be taken. -/
def pending (fs : List (Future V)) : List V := fs.filterMap fun f => if f.valid then f.result else none

def validCount (fs : List (Future V)) : ℕ := (fs.filter (·.valid)).length

theorem waitPass_spec (delay : ℕ → ℕ) (fs : List (Future V)) : ∀ (r : List V) (t : ℕ) (fs' : List (Future V))
    (r' : List V) (t' : ℕ), waitPass delay fs r t = .cont fs' r' t' →
    (r' ++ pending fs').Perm (r ++ pending fs) ∧ r'.length + validCount fs' = r.length + validCount fs ∧
      t + fs.length ≤ t' ∧ fs'.length = fs.length ∧
      (∀ f ∈ fs', ∃ g ∈ fs, f = g ∨ f = { g with valid := false }) := by
  induction fs with
  | nil =>
    intro r t fs' r' t' h
    cases h
    exact ⟨List.Perm.refl _, rfl, by simp, rfl, by simp⟩
  | cons f fs ih =>
    intro r t fs' r' t' h
    rw [waitPass] at h
    split_ifs at h with hr
    · have hv : f.valid = true := by
        unfold Future.isReady at hr
        rw [Bool.and_eq_true] at hr
        exact hr.1
      cases hres : f.result with
      | none => rw [hres] at h; cases h
      | some v =>
        rw [hres] at h
        dsimp only at h
        cases hp : waitPass delay fs (r ++ [v]) (t + delay t + 1) with
        | threw => rw [hp] at h; cases h
        | cont fs1 r1 t1 =>
          rw [hp] at h
          cases h
          obtain ⟨a, b, c, d, e⟩ := ih _ _ _ _ _ hp
          refine ⟨?_, ?_, ?_, ?_, ?_⟩
          · have e1 : pending (⟨false, some v, f.readyAt⟩ :: fs1) = pending fs1 := by simp [pending]
            have e2 : pending (f :: fs) = v :: pending fs := by simp [pending, hv, hres]
            rw [e1, e2]
            simpa using a
          · have e1 : validCount (⟨false, some v, f.readyAt⟩ :: fs1) = validCount fs1 := by simp [validCount]
            have e2 : validCount (f :: fs) = validCount fs + 1 := by simp [validCount, hv]
            rw [e1, e2, b, List.length_append, List.length_singleton]
            omega
          · rw [List.length_cons]; omega
          · rw [List.length_cons, List.length_cons, d]
          · intro x hx
            rcases List.mem_cons.1 hx with rfl | hx
            · exact ⟨f, by simp, Or.inr (by rw [hres])⟩
            · obtain ⟨g, hg, hh⟩ := e x hx
              exact ⟨g, by simp [hg], hh⟩
    · cases hp : waitPass delay fs r (t + delay t + 1) with
      | threw => rw [hp] at h; cases h
      | cont fs1 r1 t1 =>
        rw [hp] at h
        cases h
        obtain ⟨a, b, c, d, e⟩ := ih _ _ _ _ _ hp
        refine ⟨?_, ?_, ?_, ?_, ?_⟩
        · have key : ∀ gs, pending (f :: gs) = (if f.valid then f.result else none).toList ++ pending gs := by
            intro gs
            unfold pending
            rw [List.filterMap_cons]
            cases (if f.valid then f.result else none) <;> rfl
          rw [key, key]
          refine (List.perm_append_comm_assoc _ _ _).trans
            (((List.Perm.refl _).append a).trans (List.perm_append_comm_assoc _ _ _))
        · unfold validCount at *
          rw [List.filter_cons, List.filter_cons]
          split_ifs
          · rw [List.length_cons, List.length_cons]; omega
          · exact b
        · rw [List.length_cons]; omega
        · rw [List.length_cons, List.length_cons, d]
        · intro x hx
          rcases List.mem_cons.1 hx with rfl | hx
          · exact ⟨x, by simp, Or.inl rfl⟩
          · obtain ⟨g, hg, hh⟩ := e x hx
            exact ⟨g, by simp [hg], hh⟩

theorem waitPass_threw (delay : ℕ → ℕ) (fs : List (Future V)) : ∀ (r : List V) (t : ℕ),
    waitPass delay fs r t = .threw → ∃ f ∈ fs, f.valid = true ∧ f.result = none := by
  induction fs with
  | nil => intro r t h; cases h
  | cons f fs ih =>
    intro r t h
    rw [waitPass] at h
    split_ifs at h with hr
    · cases hres : f.result with
      | none =>
        refine ⟨f, by simp, ?_, hres⟩
        unfold Future.isReady at hr
        rw [Bool.and_eq_true] at hr
        exact hr.1
      | some v =>
        rw [hres] at h
        dsimp only at h
        cases hp : waitPass delay fs (r ++ [v]) (t + delay t + 1) with
        | threw =>
          obtain ⟨g, hg, hh⟩ := ih _ _ hp
          exact ⟨g, by simp [hg], hh⟩
        | cont fs1 r1 t1 => rw [hp] at h; cases h
    · cases hp : waitPass delay fs r (t + delay t + 1) with
      | threw =>
        obtain ⟨g, hg, hh⟩ := ih _ _ hp
        exact ⟨g, by simp [hg], hh⟩
      | cont fs1 r1 t1 => rw [hp] at h; cases h

/-- Once everything is ready a pass takes all. -/
theorem waitPass_ready (delay : ℕ → ℕ) (fs : List (Future V)) : ∀ (r : List V) (t : ℕ) (fs' : List (Future V))
    (r' : List V) (t' : ℕ), (∀ f ∈ fs, f.readyAt ≤ t) → waitPass delay fs r t = .cont fs' r' t' →
    validCount fs' = 0 := by
  induction fs with
  | nil => intro r t fs' r' t' _ h; cases h; rfl
  | cons f fs ih =>
    intro r t fs' r' t' hr h
    have hrest : ∀ g ∈ fs, g.readyAt ≤ t + delay t + 1 := fun g hg => by
      have := hr g (by simp [hg]); omega
    rw [waitPass] at h
    split_ifs at h with hx
    · cases hres : f.result with
      | none => rw [hres] at h; cases h
      | some v =>
        rw [hres] at h
        dsimp only at h
        cases hp : waitPass delay fs (r ++ [v]) (t + delay t + 1) with
        | threw => rw [hp] at h; cases h
        | cont fs1 r1 t1 =>
          rw [hp] at h
          cases h
          have := ih _ _ _ _ _ hrest hp
          simpa [validCount] using this
    · have hv : f.valid = false := by
        unfold Future.isReady at hx
        have : f.readyAt ≤ t + delay t := by have := hr f (by simp); omega
        simpa [this] using hx
      cases hp : waitPass delay fs r (t + delay t + 1) with
      | threw => rw [hp] at h; cases h
      | cont fs1 r1 t1 =>
        rw [hp] at h
        cases h
        have := ih _ _ _ _ _ hrest hp
        simpa [validCount, hv] using this

theorem waitAll_perm (delay : ℕ → ℕ) (fuel : ℕ) : ∀ (fs : List (Future V)) (r : List V) (t : ℕ) (r' : List V),
    waitAll delay fuel fs r t = some (.ok r') → r.length + validCount fs = fs.length →
    r'.Perm (r ++ pending fs) ∧ r'.length = fs.length := by
  induction fuel with
  | zero => intro fs r t r' h; cases h
  | succ fuel ih =>
    intro fs r t r' h hc
    rw [waitAll] at h
    cases hp : waitPass delay fs r t with
    | threw => rw [hp] at h; cases h
    | cont fs1 r1 t1 =>
      rw [hp] at h
      dsimp only at h
      obtain ⟨a, b, c, d, e⟩ := waitPass_spec delay fs r t fs1 r1 t1 hp
      split_ifs at h with hl
      · obtain ⟨i1, i2⟩ := ih fs1 r1 t1 r' h (by omega)
        exact ⟨i1.trans a, by omega⟩
      · cases h
        have hz : validCount fs1 = 0 := by omega
        have hpn : pending fs1 = [] := by
          unfold validCount at hz
          have hz := List.eq_nil_of_length_eq_zero hz
          rw [List.filter_eq_nil_iff] at hz
          unfold pending
          rw [List.filterMap_eq_nil_iff]
          intro f hf
          rw [if_neg (hz f hf)]
        rw [hpn, List.append_nil] at a
        exact ⟨a, by omega⟩

theorem validCount_all (fs : List (Future V)) (h : ∀ f ∈ fs, f.valid = true) : validCount fs = fs.length := by
  unfold validCount
  rw [List.filter_eq_self.2 h]

theorem pending_all (fs : List (Future V)) (h : ∀ f ∈ fs, f.valid = true) :
    pending fs = fs.filterMap (·.result) := by
  unfold pending
  apply List.filterMap_congr
  intro f hf
  rw [if_pos (h f hf)]

theorem waitAll_fuel (delay : ℕ → ℕ) (T : ℕ) : ∀ (fuel : ℕ) (fs : List (Future V)) (r : List V) (t : ℕ),
    (∀ f ∈ fs, f.result.isSome) → (∀ f ∈ fs, f.readyAt ≤ T) → T < t + fuel → 0 < fs.length →
    r.length + validCount fs = fs.length → ∃ r', waitAll delay fuel fs r t = some (.ok r') ∨
      ∃ fs1 r1 t1, waitPass delay fs r t = .cont fs1 r1 t1 ∧
        waitAll delay (fuel + 1) fs r t = some (.ok r') := by
  intro fuel
  induction fuel with
  | zero =>
    intro fs r t h1 h2 h3 h4 h5
    cases hp : waitPass delay fs r t with
    | threw =>
      obtain ⟨f, hf, -, hn⟩ := waitPass_threw delay fs r t hp
      have := h1 f hf
      rw [hn] at this; cases this
    | cont fs1 r1 t1 =>
      obtain ⟨a, b, c, d, e⟩ := waitPass_spec delay fs r t fs1 r1 t1 hp
      have hz := waitPass_ready delay fs r t fs1 r1 t1 (fun f hf => by have := h2 f hf; omega) hp
      refine ⟨r1, Or.inr ⟨fs1, r1, t1, rfl, ?_⟩⟩
      rw [waitAll, hp]
      dsimp only
      rw [if_neg (by omega)]
  | succ fuel ih =>
    intro fs r t h1 h2 h3 h4 h5
    cases hp : waitPass delay fs r t with
    | threw =>
      obtain ⟨f, hf, -, hn⟩ := waitPass_threw delay fs r t hp
      have := h1 f hf
      rw [hn] at this; cases this
    | cont fs1 r1 t1 =>
      obtain ⟨a, b, c, d, e⟩ := waitPass_spec delay fs r t fs1 r1 t1 hp
      by_cases hl : r1.length < fs.length
      · have h1' : ∀ f ∈ fs1, f.result.isSome := by
          intro f hf
          obtain ⟨g, hg, rfl | rfl⟩ := e f hf
          · exact h1 _ hg
          · exact h1 g hg
        have h2' : ∀ f ∈ fs1, f.readyAt ≤ T := by
          intro f hf
          obtain ⟨g, hg, rfl | rfl⟩ := e f hf
          · exact h2 _ hg
          · exact h2 g hg
        obtain ⟨r', h | ⟨-, -, -, -, h⟩⟩ := ih fs1 r1 t1 h1' h2' (by omega) (by omega) (by omega)
        · refine ⟨r', Or.inl ?_⟩
          rw [waitAll, hp]
          dsimp only
          rw [if_pos hl]
          exact h
        · refine ⟨r', Or.inr ⟨fs1, r1, t1, rfl, ?_⟩⟩
          rw [waitAll, hp]
          dsimp only
          rw [if_pos hl]
          exact h
      · refine ⟨r1, Or.inl ?_⟩
        rw [waitAll, hp]
        dsimp only
        rw [if_neg hl]

theorem waitAll_terminates (delay : ℕ → ℕ) (fs : List (Future V)) (hr : ∀ f ∈ fs, f.result.isSome) (t : ℕ)
    (hv : ∀ f ∈ fs, f.valid = true) : ∃ fuel r, waitAll delay fuel fs [] t = some (.ok r) := by
  by_cases h0 : fs.length = 0
  · have := List.eq_nil_of_length_eq_zero h0
    subst this
    exact ⟨1, [], rfl⟩
  · obtain ⟨T, hT⟩ : ∃ T, ∀ f ∈ fs, f.readyAt ≤ T := by
      clear hr hv h0
      induction fs with
      | nil => exact ⟨0, by simp⟩
      | cons g gs ih =>
        obtain ⟨T, hT⟩ := ih
        refine ⟨max g.readyAt T, fun f hf => ?_⟩
        rcases List.mem_cons.1 hf with rfl | hf
        · exact le_max_left _ _
        · exact le_trans (hT f hf) (le_max_right _ _)
    obtain ⟨r', h | ⟨-, -, -, -, h⟩⟩ := waitAll_fuel delay T (T + 1) fs [] t hr hT (by omega) (by omega)
      (by rw [validCount_all fs hv]; simp)
    · exact ⟨_, r', h⟩
    · exact ⟨_, r', h⟩

theorem waitAll_never (delay : ℕ → ℕ) (fuel : ℕ) : ∀ (fs : List (Future V)) (r : List V) (t : ℕ),
    (∀ f ∈ fs, f.result.isSome) → r.length + validCount fs < fs.length → waitAll delay fuel fs r t = none := by
  induction fuel with
  | zero => intro fs r t _ _; rfl
  | succ fuel ih =>
    intro fs r t h1 hc
    rw [waitAll]
    cases hp : waitPass delay fs r t with
    | threw =>
      obtain ⟨f, hf, -, hn⟩ := waitPass_threw delay fs r t hp
      have := h1 f hf
      rw [hn] at this; cases this
    | cont fs1 r1 t1 =>
      obtain ⟨a, b, c, d, e⟩ := waitPass_spec delay fs r t fs1 r1 t1 hp
      dsimp only
      rw [if_pos (by omega)]
      apply ih
      · intro f hf
        obtain ⟨g, hg, rfl | rfl⟩ := e f hf
        · exact h1 _ hg
        · exact h1 g hg
      · omega

end EG.Pool
