import Verif.Model.LogRace

/-!
# C120: the first messages logged
-/

namespace EG.LogRace

variable {T : Type} [DecidableEq T]

theorem goto_pc (s : State T) (t u : T) (p : Pc) : (s.goto t p).pc u = if u = t then p else s.pc u := by
  simp [State.goto, Function.update_apply]

theorem Reach.trans {s s' s'' : State T} (h : Reach s s') (h' : Reach s' s'') : Reach s s'' := by
  induction h' with
  | refl => exact h
  | step _ hs ih => exact ih.step hs

/-- Where a thread can be that has not seen the null pointer. -/
def Safe : Pc → Prop
  | .idle | .check _ | .use _ => True
  | _ => False

theorem Safe.not_writes {p : Pc} (h : Safe p) : ¬ p.writes := by
  cases p <;> simp_all [Safe, Pc.writes]

theorem logger_stays {s s' : State T} (h : Reach s s') (hl : s.logger = true) : s'.logger = true := by
  induction h with
  | refl => exact hl
  | step _ hs ih => cases hs <;> first | exact ih | rfl

/-- **C120, in part.**  Once a message has been logged, threads that call the library then get no exception from logging,
whatever the others do. -/
theorem C120_later_partial {s s' : State T} (hl : s.logger = true) (h : Reach s s') (t : T) (ht : Safe (s.pc t)) :
    Safe (s'.pc t) := by
  induction h with
  | refl => exact ht
  | step h hs ih =>
    rename_i s1 s2 u
    have hl' := logger_stays h hl
    by_cases htu : t = u
    · subst htu
      cases hs with
      | call h => rw [goto_pc, if_pos rfl]; trivial
      | fail h => rw [goto_pc, if_pos rfl]; trivial
      | hit p h _ => rw [goto_pc, if_pos rfl]; trivial
      | miss p h hf => rw [hl'] at hf; cases hf
      | make p h _ => rw [h] at ih; exact ih.elim
      | «exists» p h _ => rw [h] at ih; exact ih.elim
      | publish p h => rw [h] at ih; exact ih.elim
      | use p h => rw [goto_pc, if_pos rfl]; trivial
      | caught h => rw [h] at ih; exact ih.elim
    · cases hs <;> rw [goto_pc, if_neg htu] <;> exact ih

/-- **C120, in part.**  If a message has been logged before any of the threads calls the library, there are no exceptions and no
data races. -/
theorem C120_after_partial {s s' : State T} (hl : s.logger = true) (hidle : ∀ t, s.pc t = .idle) (h : Reach s s') :
    (∀ t, s'.pc t ≠ .thrown ∧ s'.pc t ≠ .escaped) ∧ ¬ Race s' := by
  have key : ∀ t, Safe (s'.pc t) := fun t => C120_later_partial hl h t (by rw [hidle t]; trivial)
  refine ⟨fun t => ⟨fun e => ?_, fun e => ?_⟩, ?_⟩
  · have := key t; rw [e] at this; exact this
  · have := key t; rw [e] at this; exact this
  · rintro ⟨t, u, -, hw, -⟩
    exact (key t).not_writes hw

/-- What a single thread maintains. -/
def Alone (s : State T) (t : T) : Prop :=
  match s.pc t with
  | .thrown | .escaped => False
  | .make _ => s.registered = false ∧ s.logger = false
  | .publish _ => s.registered = true ∧ s.logger = false
  | .use _ => s.registered = true ∧ s.logger = true
  | _ => s.registered = s.logger

/-- **C120, in part.**  A single thread gets no exceptions and makes no data races. -/
theorem C120_single_partial [Subsingleton T] {s : State T} (h : Reach (State.initial false) s) :
    (∀ t, s.pc t ≠ .thrown ∧ s.pc t ≠ .escaped) ∧ ¬ Race s := by
  have key : ∀ t, Alone s t := by
    induction h with
    | refl => intro t; rfl
    | step h hs ih =>
      rename_i s1 s2 u
      intro t
      obtain rfl := Subsingleton.elim t u
      have := ih t
      unfold Alone at this ⊢
      cases hs with
      | call h => rw [h] at this; rw [goto_pc, if_pos rfl]; exact this
      | fail h => rw [h] at this; rw [goto_pc, if_pos rfl]; exact this
      | hit p h hl => rw [h] at this; rw [goto_pc, if_pos rfl]; exact ⟨this.trans hl, hl⟩
      | miss p h hl => rw [h] at this; rw [goto_pc, if_pos rfl]; exact ⟨this.trans hl, hl⟩
      | make p h hr => rw [h] at this; rw [goto_pc, if_pos rfl]; exact ⟨rfl, this.2⟩
      | «exists» p h hr => rw [h] at this; rw [this.1] at hr; cases hr
      | publish p h => rw [h] at this; rw [goto_pc, if_pos rfl]; exact ⟨this.1, rfl⟩
      | use p h => rw [h] at this; rw [goto_pc, if_pos rfl]; exact this.1.trans this.2.symm
      | caught h => rw [h] at this; exact this.elim
  refine ⟨fun t => ⟨fun e => ?_, fun e => ?_⟩, ?_⟩
  · have := key t; rw [Alone, e] at this; exact this
  · have := key t; rw [Alone, e] at this; exact this
  · rintro ⟨t, u, htu, -, -⟩
    exact htu (Subsingleton.elim t u)

/-- **C120, violated.**  While the first message is being logged, a call of another thread ends with an exception of the
logging library, though its arguments are right. -/
theorem C120_thrown_violated (t u : T) (htu : t ≠ u) :
    ∃ s : State T, Reach (State.initial false) s ∧ s.pc u = .thrown ∧ s.pc t = .publish .body := by
  have hut : u ≠ t := fun e => htu e.symm
  let s1 : State T := (State.initial false).goto t (.check .body)
  let s2 := s1.goto t (.make .body)
  let s3 := ({ s2 with registered := true } : State T).goto t (.publish .body)
  let s4 := s3.goto u (.check .body)
  let s5 := s4.goto u (.make .body)
  have h1 : Step (State.initial false) t s1 := .call rfl
  have h2 : Step s1 t s2 := .miss .body (by simp [s1, goto_pc]) rfl
  have h3 : Step s2 t s3 := .make .body (by simp [s2, goto_pc]) rfl
  have h4 : Step s3 u s4 := .call (by simp [s3, s2, s1, goto_pc, hut, State.initial])
  have h5 : Step s4 u s5 := .miss .body (by simp [s4, goto_pc]) rfl
  have h6 : Step s5 u (s5.goto u .thrown) := .exists .body (by simp [s5, goto_pc]) rfl
  refine ⟨s5.goto u .thrown, (((((Reach.refl.step h1).step h2).step h3).step h4).step h5).step h6, ?_, ?_⟩
  · simp [goto_pc]
  · simp [s5, s4, s3, goto_pc, htu]

/-- A thread that is about to call the library, while another one has registered the logger and not yet stored it. -/
theorem escape {s : State T} (hr : s.registered = true) (hl : s.logger = false) {u : T} (hu : s.pc u = .idle) :
    Reach s (s.goto u .escaped) := by
  have e : ∀ p q, (s.goto u p).goto u q = s.goto u q := fun p q => by
    simp [State.goto]
  have pc : ∀ p, (s.goto u p).pc u = p := fun p => by simp [goto_pc]
  have h1 : Step s u (s.goto u (.check .body)) := .call hu
  have h2 := Step.miss (s := s.goto u (.check .body)) .body (pc _) hl
  have h3 := Step.exists (s := s.goto u (.make .body)) .body (pc _) hr
  have h4 := Step.caught (s := s.goto u .thrown) (pc _)
  have h5 := Step.miss (s := s.goto u (.check .handler)) .handler (pc _) hl
  have h6 := Step.exists (s := s.goto u (.make .handler)) .handler (pc _) hr
  rw [e] at h2 h3 h4 h5 h6
  exact (((((Reach.refl.step h1).step h2).step h3).step h4).step h5).step h6

/-- **C120, violated.**  If the program has a logger "console" of its own, already the first call of the C interface that
fails, before it logs anything itself, ends with an exception in place of a status: its `catch` clause logs. -/
theorem C120_failing_violated (t : T) : ∃ s1 s2 s3 : State T, Step (State.initial true) t s1 ∧ Step s1 t s2 ∧
    Step s2 t s3 ∧ s3.pc t = .escaped := by
  let s1 : State T := (State.initial true).goto t (.check .handler)
  let s2 := s1.goto t (.make .handler)
  refine ⟨s1, s2, s2.goto t .escaped, .fail rfl, .miss .handler (by simp [s1, goto_pc]) rfl,
    .exists .handler (by simp [s2, goto_pc]) rfl, by simp [goto_pc]⟩

/-- **C120, violated.**  It is worse in the C interface: the exception is caught, but catching it logs a message, and this can
throw once more, out of the function of the C interface.  This can happen to all threads but the first, however many
they are. -/
theorem C120_escapes_violated (t : T) (us : List T) (hnd : us.Nodup) (ht : t ∉ us) :
    ∃ s : State T, Reach (State.initial false) s ∧ (∀ u ∈ us, s.pc u = .escaped) ∧ s.pc t = .publish .body := by
  have key : ∃ s : State T, Reach (State.initial false) s ∧ s.registered = true ∧ s.logger = false ∧
      (∀ u, s.pc u = if u = t then .publish .body else if u ∈ us then .escaped else .idle) := by
    induction us with
    | nil =>
      let s1 : State T := (State.initial false).goto t (.check .body)
      let s2 := s1.goto t (.make .body)
      let s3 := ({ s2 with registered := true } : State T).goto t (.publish .body)
      have h1 : Step (State.initial false) t s1 := .call rfl
      have h2 : Step s1 t s2 := .miss .body (by simp [s1, goto_pc]) rfl
      have h3 : Step s2 t s3 := .make .body (by simp [s2, goto_pc]) rfl
      refine ⟨s3, ((Reach.refl.step h1).step h2).step h3, rfl, rfl, fun u => ?_⟩
      by_cases hu : u = t <;> simp [s3, s2, s1, goto_pc, hu, State.initial]
    | cons v us ih =>
      obtain ⟨s, h1, h2, h3, h4⟩ := ih (List.nodup_cons.1 hnd).2 (fun h => ht (List.mem_cons_of_mem _ h))
      have hvt : v ≠ t := by
        rintro rfl
        exact ht List.mem_cons_self
      have hv : s.pc v = .idle := by
        rw [h4, if_neg hvt, if_neg (List.nodup_cons.1 hnd).1]
      refine ⟨s.goto v .escaped, h1.trans (escape h2 h3 hv), h2, h3, fun u => ?_⟩
      rw [goto_pc, h4]
      by_cases hu : u = t
      · subst hu
        rw [if_neg (Ne.symm hvt), if_pos rfl, if_pos rfl]
      · by_cases huv : u = v
        · subst huv
          simp [hu]
        · simp [hu, huv]
  obtain ⟨s, h1, -, -, h4⟩ := key
  refine ⟨s, h1, fun u hu => ?_, ?_⟩
  · rw [h4, if_neg (by rintro rfl; exact ht hu), if_pos hu]
  · rw [h4, if_pos rfl]

/-- **C120, violated.**  The first messages of two threads can be a data race. -/
theorem C120_race_violated (t u : T) (htu : t ≠ u) : ∃ s : State T, Reach (State.initial false) s ∧ Race s := by
  have hut : u ≠ t := fun e => htu e.symm
  let s1 : State T := (State.initial false).goto t (.check .body)
  let s2 := s1.goto t (.make .body)
  let s3 := ({ s2 with registered := true } : State T).goto t (.publish .body)
  let s4 := s3.goto u (.check .body)
  have h1 : Step (State.initial false) t s1 := .call rfl
  have h2 : Step s1 t s2 := .miss .body (by simp [s1, goto_pc]) rfl
  have h3 : Step s2 t s3 := .make .body (by simp [s2, goto_pc]) rfl
  have h4 : Step s3 u s4 := .call (by simp [s3, s2, s1, goto_pc, hut, State.initial])
  refine ⟨s4, (((Reach.refl.step h1).step h2).step h3).step h4, t, u, htu, ?_, ?_⟩
  · simp [s4, s3, goto_pc, htu, Pc.writes]
  · simp [s4, goto_pc, Pc.touches]

/-- **C120.**  Whatever the threads do, at most one of them makes the logger: nobody ever replaces a logger that is in use, and
exceptions end when it is stored (`C120_later_partial`). -/
theorem C120_once {s : State T} (h : Reach (State.initial false) s) :
    (∀ t u p q, s.pc t = .publish p → s.pc u = .publish q → t = u) ∧
      (s.logger = true → ∀ t p, s.pc t ≠ .publish p) ∧
      (s.registered = true ↔ s.logger = true ∨ ∃ t p, s.pc t = .publish p) := by
  induction h with
  | refl => simp [State.initial]
  | step h hs ih =>
    rename_i s1 s2 u
    obtain ⟨i1, i2, i3⟩ := ih
    have go : ∀ p : Pc, (∀ q, s1.pc u ≠ .publish q) → (∀ q, p ≠ .publish q) → ∀ t q, (s1.goto u p).pc t = .publish q ↔
        s1.pc t = .publish q := by
      intro p h1 h2 t q
      rw [goto_pc]
      split
      · rename_i e
        subst e
        exact iff_of_false (h2 q) (h1 q)
      · rfl
    have same : ∀ p : Pc, (∀ q, s1.pc u ≠ .publish q) → (∀ q, p ≠ .publish q) →
        (∀ t v q r, (s1.goto u p).pc t = .publish q → (s1.goto u p).pc v = .publish r → t = v) ∧
        ((s1.goto u p).logger = true → ∀ t q, (s1.goto u p).pc t ≠ .publish q) ∧
        ((s1.goto u p).registered = true ↔ (s1.goto u p).logger = true ∨ ∃ t q, (s1.goto u p).pc t = .publish q) := by
      intro p h1 h2
      simp only [go p h1 h2, ne_eq]
      exact ⟨i1, i2, i3⟩
    cases hs with
    | call h => exact same _ (by simp [h]) (by simp)
    | fail h => exact same _ (by simp [h]) (by simp)
    | hit p h hl => exact same _ (by simp [h]) (by simp)
    | miss p h hl => exact same _ (by simp [h]) (by simp)
    | make p h hr =>
      have hn : ¬ (s1.logger = true ∨ ∃ t p, s1.pc t = .publish p) := by rw [← i3, hr]; simp
      rw [not_or, not_exists] at hn
      have only : ∀ t q, (({ s1 with registered := true } : State T).goto u (.publish p)).pc t = .publish q → t = u := by
        intro t q ht
        rw [goto_pc] at ht
        by_contra e
        rw [if_neg e] at ht
        exact hn.2 t ⟨q, ht⟩
      refine ⟨fun t v q r h1 h2 => (only t q h1).trans (only v r h2).symm, fun hl => absurd hl hn.1, ?_⟩
      exact iff_of_true rfl (Or.inr ⟨u, p, by rw [goto_pc, if_pos rfl]⟩)
    | «exists» p h hr => exact same _ (by simp [h]) (by cases p <;> simp)
    | publish p h =>
      have none : ∀ t q, (({ s1 with logger := true } : State T).goto u (.use p)).pc t ≠ .publish q := by
        intro t q ht
        rw [goto_pc] at ht
        by_cases e : t = u
        · rw [if_pos e] at ht; cases ht
        · rw [if_neg e] at ht
          exact e (i1 t u q p ht h)
      refine ⟨fun t v q r h1 => absurd h1 (none t q), fun _ => none, ?_⟩
      exact iff_of_true (i3.2 (Or.inr ⟨u, p, h⟩)) (Or.inl rfl)
    | use p h => exact same _ (by simp [h]) (by simp)
    | caught h => exact same _ (by simp [h]) (by simp)

/-- **C120, violated.**  In a program that has a logger "console" of its own in the same table, no message is ever logged, and
every call that logs ends with an exception. -/
theorem C120_console_violated {s : State T} (h : Reach (State.initial true) s) :
    s.logger = false ∧ ∀ t p, s.pc t ≠ .use p ∧ s.pc t ≠ .publish p := by
  have key : s.registered = true ∧ s.logger = false ∧ ∀ t p, s.pc t ≠ .use p ∧ s.pc t ≠ .publish p := by
    induction h with
    | refl => exact ⟨rfl, rfl, fun t p => ⟨by simp [State.initial], by simp [State.initial]⟩⟩
    | step h hs ih =>
      rename_i s1 s2 u
      obtain ⟨i1, i2, i3⟩ := ih
      have go : ∀ p : Pc, (∀ q, p ≠ .use q ∧ p ≠ .publish q) → (s1.goto u p).registered = true ∧ (s1.goto u p).logger = false ∧
          ∀ t q, (s1.goto u p).pc t ≠ .use q ∧ (s1.goto u p).pc t ≠ .publish q := by
        intro p hp
        refine ⟨i1, i2, fun t q => ?_⟩
        rw [goto_pc]
        split
        · exact hp q
        · exact i3 t q
      cases hs with
      | call h => exact go _ (by simp)
      | fail h => exact go _ (by simp)
      | hit p h hl => rw [i2] at hl; cases hl
      | miss p h hl => exact go _ (by simp)
      | make p h hr => rw [i1] at hr; cases hr
      | «exists» p h hr => exact go _ (by cases p <;> simp)
      | publish p h => exact absurd h (i3 u p).2
      | use p h => exact absurd h (i3 u p).1
      | caught h => exact go _ (by simp)
  exact key.2

/-- Two threads, and a state after the first message. -/
example : ∃ s : State Bool, Reach (State.initial false) s ∧ s.logger = true ∧ (∀ t, s.pc t = .idle) ∧ (true : Bool) ≠ false := by
  let s1 : State Bool := (State.initial false).goto true (.check .body)
  let s2 := s1.goto true (.make .body)
  let s3 := ({ s2 with registered := true } : State Bool).goto true (.publish .body)
  let s4 := ({ s3 with logger := true } : State Bool).goto true (.use .body)
  have h1 : Step (State.initial false) true s1 := .call rfl
  have h2 : Step s1 true s2 := .miss .body (by simp [s1, goto_pc]) rfl
  have h3 : Step s2 true s3 := .make .body (by simp [s2, goto_pc]) rfl
  have h4 : Step s3 true s4 := .publish .body (by simp [s3, goto_pc])
  have h5 : Step s4 true (s4.goto true .idle) := .use .body (by simp [s4, goto_pc])
  refine ⟨_, ((((Reach.refl.step h1).step h2).step h3).step h4).step h5, rfl, fun t => ?_, by decide⟩
  cases t <;> simp [s4, s3, s2, s1, goto_pc, State.initial]

end EG.LogRace
