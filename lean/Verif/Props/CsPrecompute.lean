import Verif.Lemmas.CsPrecompute
import Verif.Props.Params

/-!
# C89: precomputation in the background (C# bindings)
-/

namespace EG.CsPre

variable {G : Params}

/-! ## Stopping -/

/-- Once `StopPrecompute` has returned, and until the next start or new object, nothing is added to the
buffers, whatever the workers and others do, and the workers come to an end: each has at most six steps
left. -/
theorem C89_stop {s s0 s' : State} (r : Reachable G s) (hu : s.user = .stopping)
    (h0 : s.step G .user = some s0) {es : List Ev} (hq : ∀ e ∈ es, e.quiet = true)
    (h : s0.run G es = some s') :
    s0.user = .idle ∧ s'.buf.quads <:+ s0.buf.quads ∧ s'.buf.triples <:+ s0.buf.triples ∧
      es.countP Ev.isWorker ≤ 6 * s0.workers.length := by
  have i := inv_reachable r
  simp only [State.step, State.userStep, hu] at h0
  cases h0
  have st : Stopped { s with buf := s.buf.stop, user := .idle } := by
    refine ⟨?_, by simp, rfl⟩
    intro w m
    rw [Bool.eq_false_iff]
    intro hs
    obtain ⟨k, hk, e⟩ := List.getElem_of_mem m
    have := (i.1 k w (by rw [← e]; exact List.getElem?_eq_getElem hk) hs).1
    rw [hu] at this; cases this
  have key : ∀ {es : List Ev} {a b : State}, (∀ e ∈ es, e.quiet = true) → Stopped a →
      a.run G es = some b → b.buf.quads <:+ a.buf.quads ∧ b.buf.triples <:+ a.buf.triples ∧
      ranks b.workers + es.countP Ev.isWorker ≤ ranks a.workers := by
    intro es
    induction es with
    | nil => intro a b _ _ e; cases e; exact ⟨List.suffix_rfl, List.suffix_rfl, le_refl _⟩
    | cons e es ih =>
      intro a b hq sa r
      simp only [State.run] at r
      cases hs : a.step G e with
      | none => rw [hs] at r; cases r
      | some a1 =>
        rw [hs] at r
        obtain ⟨s1, q1, t1, r1⟩ := stopped_step sa (hq e List.mem_cons_self) hs
        obtain ⟨q2, t2, r2⟩ := ih (fun e m => hq e (List.mem_cons_of_mem _ m)) s1 r
        refine ⟨q2.trans q1, t2.trans t1, ?_⟩
        rw [List.countP_cons]
        omega
  obtain ⟨k1, k2, k3⟩ := key hq st h
  refine ⟨rfl, k1, k2, ?_⟩
  have := ranks_le st.none
  simp only at this k3 ⊢
  omega

/-- A worker that is not at its end can go on, whatever the others do: nothing waits for a lock for
ever, and `StartPrecomputeAsync` returns. -/
theorem C89_progress {s : State} (r : Reachable G s) :
    (∀ i w, s.workers[i]? = some w → w ≠ .done → ∀ d, (s.step G (.worker i d)).isSome) ∧
    (s.user = .waiting → ∃ d d', ((s.run G [.worker (s.workers.length - 1) d]).map State.user
        = some .idle ∨ (s.run G [.worker (s.workers.length - 1) d,
          .worker (s.workers.length - 1) d']).map State.user = some .idle)) := by
  constructor
  · intro i w hw hd d
    simp only [State.step, hw]
    cases w with
    | done => exact absurd rfl hd
    | pop pub it =>
      simp only [State.workerStep]
      by_cases hp : s.buf.populateOk = true
      · simp only [hp, if_true]; rfl
      · simp only [hp, if_false, Bool.false_eq_true]; rfl
    | cond pub it =>
      simp only [State.workerStep]
      by_cases hp : s.buf.quads.length < s.buf.max
      · simp only [hp, if_true]; rfl
      · simp only [hp, if_false]; rfl
    | send r => cases r <;> rfl
    | init => rfl
    | set => rfl
    | key => rfl
  · intro hu
    obtain ⟨w, hw, hs⟩ := (inv_reachable r).2 hu
    refine ⟨⟨0, 0, 0, 0, 0, 0⟩, ⟨0, 0, 0, 0, 0, 0⟩, ?_⟩
    have hl := (List.getElem?_eq_some_iff.1 hw).1
    cases w with
    | init =>
      right
      simp only [State.run, State.step, hw, State.workerStep, Option.bind_some,
        List.getElem?_set_self hl, Option.map_some, hu, if_true]
    | set =>
      left
      simp only [State.run, State.step, hw, State.workerStep, Option.bind_some, Option.map_some, hu,
        if_true]
    | _ => cases hs

/-! ## Events -/

/-- Every start makes one worker.  Every worker that has ended has raised one event, and apart from
these at most one is raised for each call of `StopPrecompute`. -/
theorem C89_events {buf : PreState} {es : List Ev} {s : State}
    (h : (State.new buf).run G es = some s) :
    s.workers.length = es.countP Ev.isStart ∧
    s.workers.countP (· = .done) ≤ s.events.length ∧
    s.events.length ≤ s.workers.countP (· = .done) + es.countP Ev.isStop := by
  have key : ∀ {es : List Ev} {a b : State}, a.run G es = some b →
      b.workers.length = a.workers.length + es.countP Ev.isStart ∧
      a.events.length + dones b.workers ≤ b.events.length + dones a.workers ∧
      b.events.length + dones a.workers + reportsLeft b.user ≤
        a.events.length + dones b.workers + reportsLeft a.user + es.countP Ev.isStop := by
    intro es
    induction es with
    | nil => intro a b e; cases e; simp
    | cons e es ih =>
      intro a b r
      simp only [State.run] at r
      cases hs : a.step G e with
      | none => rw [hs] at r; cases r
      | some a1 =>
        rw [hs] at r
        obtain ⟨p1, p2, p3⟩ := events_step hs
        obtain ⟨q1, q2, q3⟩ := ih r
        simp only [List.countP_cons]
        omega
  obtain ⟨k1, k2, k3⟩ := key h
  simp only [State.new, List.length_nil, dones, List.countP_nil, reportsLeft] at k1 k2 k3
  omega

/-- Stopping when nothing runs is reported, by one event with the status, which is kept unless the queue happens to have the
size asked for; and nothing else happens. -/
theorem C89_idle_stop {s : State} (hu : s.user = .idle) (hc : s.cur ≠ .running) : ∃ s',
    s.run G [.stop, .user, .user, .user, .user] = some s' ∧ s'.user = .idle ∧ s'.workers = s.workers ∧
    s'.buf = s.buf.stop ∧ s'.events = s.events ++ [s'.cur] ∧
    s'.cur = if s.buf.quads.length = s.buf.max then .completed else s.cur := by
  refine ⟨{ s with buf := s.buf.stop, cur := s.cur.seen s.buf.quads.length s.buf.max,
                   events := s.events ++ [s.cur.seen s.buf.quads.length s.buf.max] }, ?_, hu, rfl, rfl, rfl, rfl⟩
  simp [State.run, State.step, State.userStep, hu, hc]

example : (State.new .initial).user = .idle ∧ (State.new .initial).cur ≠ .running := by decide

/-! ## Completion -/

/-- A start on a new object with room in the queue, and no one who stops, takes quadruples or makes
other objects: when the worker has ended, the queue has the size asked for, one event has been raised, it
says `Completed`, and so does the status. -/
theorem C89_completed_partial {buf : PreState} {pub n : ℕ} (hn : n ≠ 0) (hb : buf.quads.length < n)
    {es : List Ev} (hq : ∀ e ∈ es, e.harmless = true) {s : State}
    (h : (State.new buf).run G (.start pub n :: es) = some s) (hd : s.workers = [.done]) :
    s.buf.quads.length = n ∧ s.events = [.completed] ∧ s.cur = .completed := by
  simp only [State.run, State.step, State.new, Option.bind_some, if_true, List.nil_append] at h
  have := run_ind (P := fun s => ∃ w, Filling n s w) (ok := fun e => e.harmless = true)
    (fun s e s' ⟨w, i⟩ q h => filling_step i q h) hq
    ⟨.init, rfl, Or.inl rfl, by simp, fun h => absurd rfl h, fun _ => rfl, hn, rfl, hb, rfl⟩ h
  obtain ⟨w, i⟩ := this
  have hw := i.only
  rw [hd] at hw
  simp only [List.cons.injEq, and_true] at hw
  subst hw
  exact ⟨i.at_.2.1, i.at_.2.2, i.at_.1⟩

/-- Draws for the examples. -/
def d0 : Draws := ⟨1, 2, 3, 4, 5, 6⟩

/-- One worker alone: `k` iterations. -/
def alone (i k : ℕ) : List Ev :=
  (List.replicate 3 (.worker i d0)) ++ List.replicate (2 * k) (.worker i d0) ++
    List.replicate 3 (.worker i d0)

example : ((State.new .initial).run .test (.start 4 2 :: alone 0 2)).map (·.workers) = some [.done] :=
  by decide +kernel

/-- The queue is full at the start: one more is made, `count` and `queue_size` differ, so `Completed`
is not reported although the worker has ended; the event and the status say `Running`. -/
theorem C89_full_violated : ∃ (buf : PreState) (s : State),
    buf.quads.length = 1 ∧ (State.new buf).run .test (.start 4 1 :: alone 0 1) = some s ∧
    s.workers = [.done] ∧ s.buf.quads.length = 2 ∧ s.events = [.running] ∧ s.cur = .running := by
  refine ⟨PreState.iterate .test 4 .initial 0 d0, _, rfl, rfl, ?_⟩
  decide +kernel

/-- A quadruple is taken before the worker looks at the count: the event says `Running`, and when the
user stops then, no event follows; `UserStopped` is never in an event though no worker is left. -/
theorem C89_silent_violated : ∃ s : State,
    (State.new .initial).run .test (.start 4 1 :: (List.replicate 5 (.worker 0 d0) ++ [.getQuad] ++
      List.replicate 3 (.worker 0 d0) ++ [.stop, .user, .user])) = some s ∧
    s.workers = [.done] ∧ s.user = .idle ∧ s.cur = .userStopped ∧ s.events = [.running] := by
  refine ⟨_, rfl, ?_⟩
  decide +kernel

theorem keys_differ : genTriple .test 4 1 ≠ genTriple .test 5 1 := by
  intro h
  have h' := congrArg Triple.pubkeyToExp h
  have big : ∀ {a : ℕ}, a < 2 ^ 3 → a < 2 ^ 4096 := fun h =>
    lt_of_lt_of_le h (Nat.pow_le_pow_right (by decide) (by decide))
  have big' : ∀ {a : ℕ}, a < 2 ^ 3 → a < 2 ^ 512 := fun h =>
    lt_of_lt_of_le h (Nat.pow_le_pow_right (by decide) (by decide))
  simp only [genTriple] at h'
  rw [powModP_eq C54_test_valid 4 1 (big (by decide)) (big' (by decide)),
    powModP_eq C54_test_valid 5 1 (big (by decide)) (big' (by decide))] at h'
  revert h'
  decide +kernel

/-- Start with a key, stop, start with another before the first worker has ended: `Init` sets the flag
again, the first worker goes on, and values for the first key are added after the second start has
returned. -/
theorem C89_restart_violated : ∃ (a b : State) (es fs : List Ev),
    (State.new .initial).run .test es = some a ∧
    es = .start 4 9 :: List.replicate 4 (.worker 0 d0) ++ [.stop, .user, .user] ++
      .start 5 9 :: List.replicate 2 (.worker 1 d0) ∧
    a.user = .idle ∧ a.pub = 5 ∧ a.run .test fs = some b ∧ (∀ e ∈ fs, e.isWorker = true) ∧
    ∃ t, b.buf.quads = a.buf.quads ++ [t] ∧ t.triple1 = genTriple .test 4 1 ∧
      t.triple1 ≠ genTriple .test 5 1 := by
  refine ⟨_, _, _, List.replicate 2 (.worker 0 d0), rfl, rfl, rfl, rfl, rfl, ?_, _, rfl, rfl, ?_⟩
  · intro e he
    rw [List.eq_of_mem_replicate he]; rfl
  · exact keys_differ

/-- A second object of the class undoes a stop: the flag is set again, the worker goes on, and no
longer to 1 but to 100. -/
theorem C89_other_violated : ∃ (a b : State),
    (State.new .initial).run .test (.start 4 1 :: (List.replicate 4 (.worker 0 d0) ++
      [.stop, .user, .user])) = some a ∧ a.user = .idle ∧ a.cur = .userStopped ∧
    a.buf.populateOk = false ∧ a.buf.quads.length = 1 ∧
    a.run .test (.other :: List.replicate 6 (.worker 0 d0)) = some b ∧
    b.buf.quads.length = 4 ∧ b.buf.max = 100 ∧ b.workers = [.cond 4 4] := by
  refine ⟨_, _, rfl, rfl, rfl, rfl, rfl, rfl, ?_⟩
  decide +kernel

/-! ## One key -/

/-- If every start is for the same key and the buffers are empty at first, then whatever the schedule,
the number of starts and stops and of other objects, all that is in the buffers is for that key. -/
theorem C89_single_key_partial (hG : G.Valid) {K : ℕ} (hK : K < 2 ^ 4096) {buf : PreState}
    (h0 : buf.quads = []) (h1 : buf.triples = []) {es : List Ev} (he : ∀ e ∈ es, e.keyIs G.q K)
    {s : State} (h : (State.new buf).run G es = some s) :
    (∀ t ∈ s.buf.quads, t.ForKey G K) ∧ (∀ t ∈ s.buf.triples, t.ForKey G K) := by
  have := run_ind (P := One G K) (one_step hG hK) he
    ⟨by simp [State.new, PreState.init, h0], by simp [State.new, PreState.init, h1],
      fun n => absurd rfl n, by simp [State.new], by simp [State.new]⟩ h
  exact ⟨this.quads, this.triples⟩

example : ((State.new .initial).run .test (.start 4 3 :: List.replicate 4 (.worker 0 d0) ++
    [.stop, .user, .user, .start 4 5] ++ List.replicate 6 (.worker 1 d0) ++
    List.replicate 3 (.worker 0 d0))).map (fun s => (s.buf.quads.length, s.buf.triples.length))
    = some (4, 4) := by decide +kernel

/-- A stop while a worker is about to add values: afterwards it ends without adding any. -/
example : ∃ s s0 s' : State, (State.new .initial).run .test (.start 4 3 ::
      List.replicate 5 (.worker 0 d0) ++ [.stop, .user]) = some s ∧ s.user = .stopping ∧
    s.step .test .user = some s0 ∧ s0.run .test (List.replicate 4 (.worker 0 d0)) = some s' ∧
    s0.buf.quads.length = 1 ∧ s'.buf.quads.length = 1 ∧ s'.workers = [.done] := by
  refine ⟨_, _, _, rfl, rfl, rfl, rfl, ?_⟩
  decide +kernel


end EG.CsPre
