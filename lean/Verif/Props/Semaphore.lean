import Verif.Model.Semaphore
import Mathlib.Data.Fintype.Card
import Mathlib.Data.Fintype.Basic
import Mathlib.Data.Finset.Card
import Mathlib.Algebra.BigOperators.Group.Finset.Basic
import Mathlib.Algebra.BigOperators.Group.Finset.Piecewise
import Mathlib.Algebra.Order.BigOperators.Group.Finset
import Mathlib.Tactic.Ring
import Mathlib.Tactic.FinCases

/-!
# C52: the semaphore
-/

namespace EG.Sem

/-- Between the decrement in `lock` and the increment in `unlock`. -/
def Pc.holds : Pc → Bool
  | .lockLeave _ | .holding | .unlockEnter _ | .inc _ => true
  | _ => false

/-- The thread owns the mutex. -/
def Pc.owns : Pc → Bool
  | .check _ | .dec _ | .lockLeave _ | .inc _ | .notify _ | .unlockLeave _ => true
  | _ => false

/-- The thread will look at the count again, or is about to wake up one that will. -/
def Pc.pending : Pc → Bool
  | .woken _ | .check _ | .dec _ | .notify _ => true
  | _ => false

/-- Number of threads at a place. -/
def State.num {N : ℕ} (s : State N) (f : Pc → Bool) : ℕ :=
  ∑ t, if f (s.pc t) then 1 else 0

theorem num_goto {N : ℕ} (s : State N) (f : Pc → Bool) (t : Fin N) (p : Pc) :
    (s.goto t p).num f + (if f (s.pc t) then 1 else 0) = s.num f + (if f p then 1 else 0) := by
  unfold State.num State.goto
  rw [← Finset.add_sum_erase _ _ (Finset.mem_univ t),
    ← Finset.add_sum_erase (a := t) Finset.univ (fun u => if f (s.pc u) then 1 else 0) (Finset.mem_univ t)]
  have : ∑ x ∈ Finset.univ.erase t, (if f (Function.update s.pc t p x) = true then 1 else 0) =
      ∑ x ∈ Finset.univ.erase t, (if f (s.pc x) = true then 1 else 0) := by
    apply Finset.sum_congr rfl
    intro x hx
    rw [Function.update_of_ne (Finset.ne_of_mem_erase hx)]
  simp only [Function.update_self]
  rw [this]
  ring

/-- The invariant behind exclusion. -/
structure Inv (N n : ℕ) (s : State N) : Prop where
  owner : ∀ t, (s.pc t).owns = true ↔ s.mutex = some t
  dec : ∀ t w, s.pc t = .dec w → s.count ≠ 0
  total : s.count + s.num Pc.holds = n

/-- No wake-up is lost: if a thread is blocked, enough threads are going to look at the count. -/
def Wake {N : ℕ} (s : State N) : Prop :=
  (∃ t w, s.pc t = .blocked w) → s.count ≤ s.num Pc.pending

theorem inv_update {N n : ℕ} {s : State N} (h : Inv N n s) (t : Fin N) (p : Pc) (c : ℕ)
    (m : Option (Fin N))
    (hown : (m = s.mutex ∧ p.owns = (s.pc t).owns) ∨ (s.mutex = none ∧ m = some t ∧ p.owns = true) ∨
      ((s.pc t).owns = true ∧ m = none ∧ p.owns = false))
    (hd1 : ∀ w, p = .dec w → c ≠ 0) (hd2 : c = s.count ∨ (s.pc t).owns = true)
    (ht : c + (if p.holds then 1 else 0) = s.count + (if (s.pc t).holds then 1 else 0)) :
    Inv N n { s.goto t p with count := c, mutex := m } := by
  constructor
  · intro u
    show (Function.update s.pc t p u).owns = true ↔ m = some u
    by_cases hu : u = t
    · subst hu
      rw [Function.update_self]
      rcases hown with ⟨rfl, h2⟩ | ⟨_, rfl, h2⟩ | ⟨_, rfl, h2⟩
      · rw [h2]; exact h.owner u
      · simp [h2]
      · simp [h2]
    · rw [Function.update_of_ne hu]
      rcases hown with ⟨rfl, _⟩ | ⟨h1, rfl, _⟩ | ⟨h1, rfl, _⟩
      · exact h.owner u
      · rw [h.owner u, h1]
        simp [Ne.symm hu]
      · rw [h.owner u, (h.owner t).1 h1]
        simp [Ne.symm hu]
  · intro u w hu
    show c ≠ 0
    change Function.update s.pc t p u = .dec w at hu
    by_cases hut : u = t
    · subst hut
      rw [Function.update_self] at hu
      exact hd1 w hu
    · rw [Function.update_of_ne hut] at hu
      rcases hd2 with rfl | h2
      · exact h.dec u w hu
      · have h3 := (h.owner t).1 h2
        have h4 := (h.owner u).1 (by rw [hu]; rfl)
        rw [h3] at h4
        exact absurd (Option.some.inj h4).symm hut
  · have h1 := num_goto s Pc.holds t p
    have h2 := h.total
    show c + (s.goto t p).num Pc.holds = n
    omega

theorem wake_update {N : ℕ} {s : State N} (h : Wake s) (t : Fin N) (p : Pc) (c : ℕ)
    (m : Option (Fin N))
    (hw : c = 0 ∨ ((∀ w, p ≠ .blocked w) ∧
      c + (if (s.pc t).pending then 1 else 0) ≤ s.count + (if p.pending then 1 else 0))) :
    Wake { s.goto t p with count := c, mutex := m } := by
  rintro ⟨u, w, hu⟩
  change Function.update s.pc t p u = .blocked w at hu
  show c ≤ (s.goto t p).num Pc.pending
  rcases hw with rfl | ⟨h1, h2⟩
  · exact Nat.zero_le _
  · by_cases hut : u = t
    · subst hut
      rw [Function.update_self] at hu
      exact absurd hu (h1 w)
    · rw [Function.update_of_ne hut] at hu
      have h3 := h ⟨u, w, hu⟩
      have h4 := num_goto s Pc.pending t p
      omega

theorem inv_step {N n : ℕ} (hn : n < 2 ^ 64) {s s' : State N} (h : Inv N n s) (hw : Wake s)
    (hs : Step s s') : Inv N n s' ∧ Wake s' := by
  have hcount : s.count < 2 ^ 64 := by have := h.total; omega
  have b1 : ∀ {p : Pc} {f : Pc → Bool}, f p = true → (if f p then 1 else 0) = 1 := by
    intro p f h; simp [h]
  cases hs with
  | callLock t h1 =>
    rcases h1 with h1 | h1 <;>
      exact ⟨inv_update h t _ s.count s.mutex (Or.inl ⟨rfl, by simp [h1, Pc.owns]⟩) (by simp)
          (Or.inl rfl) (by simp [h1, Pc.holds]),
        wake_update hw t _ s.count s.mutex (Or.inr ⟨by simp, by simp [h1, Pc.pending]⟩)⟩
  | callWait t h1 =>
    rcases h1 with h1 | h1 <;>
      exact ⟨inv_update h t _ s.count s.mutex (Or.inl ⟨rfl, by simp [h1, Pc.owns]⟩) (by simp)
          (Or.inl rfl) (by simp [h1, Pc.holds]),
        wake_update hw t _ s.count s.mutex (Or.inr ⟨by simp, by simp [h1, Pc.pending]⟩)⟩
  | acquire t w h1 hm =>
    exact ⟨inv_update h t _ s.count (some t) (Or.inr (Or.inl ⟨hm, rfl, rfl⟩)) (by simp) (Or.inl rfl)
        (by simp [h1, Pc.holds]),
      wake_update hw t _ s.count (some t) (Or.inr ⟨by simp, by simp [h1, Pc.pending]⟩)⟩
  | checkTrue t w h1 hc =>
    exact ⟨inv_update h t _ s.count s.mutex (Or.inl ⟨rfl, by simp [h1, Pc.owns]⟩)
        (fun _ _ => hc) (Or.inl rfl) (by simp [h1, Pc.holds]),
      wake_update hw t _ s.count s.mutex (Or.inr ⟨by simp, by simp [h1, Pc.pending]⟩)⟩
  | checkFalse t w h1 hc =>
    exact ⟨inv_update h t _ s.count none (Or.inr (Or.inr ⟨by simp [h1, Pc.owns], rfl, rfl⟩))
        (by simp) (Or.inl rfl) (by simp [h1, Pc.holds]),
      wake_update hw t _ s.count none (Or.inl hc)⟩
  | spurious t w h1 =>
    exact ⟨inv_update h t _ s.count s.mutex (Or.inl ⟨rfl, by simp [h1, Pc.owns]⟩) (by simp)
        (Or.inl rfl) (by simp [h1, Pc.holds]),
      wake_update hw t _ s.count s.mutex (Or.inr ⟨by simp, by simp [h1, Pc.pending]⟩)⟩
  | reacquire t w h1 hm =>
    exact ⟨inv_update h t _ s.count (some t) (Or.inr (Or.inl ⟨hm, rfl, rfl⟩)) (by simp) (Or.inl rfl)
        (by simp [h1, Pc.holds]),
      wake_update hw t _ s.count (some t) (Or.inr ⟨by simp, by simp [h1, Pc.pending]⟩)⟩
  | decrement t w h1 =>
    have h0 := h.dec t w h1
    have hc : (s.count + 2 ^ 64 - 1) % 2 ^ 64 = s.count - 1 := by
      have : s.count + 2 ^ 64 - 1 = (s.count - 1) + 2 ^ 64 := by omega
      rw [this, Nat.add_mod_right, Nat.mod_eq_of_lt (by omega)]
    rw [hc]
    exact ⟨inv_update h t _ _ s.mutex (Or.inl ⟨rfl, by simp [h1, Pc.owns]⟩) (by simp)
        (Or.inr (by simp [h1, Pc.owns])) (by simp [h1, Pc.holds]; omega),
      wake_update hw t _ _ s.mutex (Or.inr ⟨by simp, by simp [h1, Pc.pending]; omega⟩)⟩
  | lockReturn t h1 =>
    exact ⟨inv_update h t _ s.count none (Or.inr (Or.inr ⟨by simp [h1, Pc.owns], rfl, rfl⟩))
        (by simp) (Or.inl rfl) (by simp [h1, Pc.holds]),
      wake_update hw t _ s.count none (Or.inr ⟨by simp, by simp [h1, Pc.pending]⟩)⟩
  | lockReturnWait t h1 =>
    exact ⟨inv_update h t _ s.count none (Or.inr (Or.inr ⟨by simp [h1, Pc.owns], rfl, rfl⟩))
        (by simp) (Or.inl rfl) (by simp [h1, Pc.holds]),
      wake_update hw t _ s.count none (Or.inr ⟨by simp, by simp [h1, Pc.pending]⟩)⟩
  | callUnlock t h1 =>
    exact ⟨inv_update h t _ s.count s.mutex (Or.inl ⟨rfl, by simp [h1, Pc.owns]⟩) (by simp)
        (Or.inl rfl) (by simp [h1, Pc.holds]),
      wake_update hw t _ s.count s.mutex (Or.inr ⟨by simp, by simp [h1, Pc.pending]⟩)⟩
  | acquireUnlock t w h1 hm =>
    exact ⟨inv_update h t _ s.count (some t) (Or.inr (Or.inl ⟨hm, rfl, rfl⟩)) (by simp) (Or.inl rfl)
        (by simp [h1, Pc.holds]),
      wake_update hw t _ s.count (some t) (Or.inr ⟨by simp, by simp [h1, Pc.pending]⟩)⟩
  | increment t w h1 =>
    have hc : (s.count + 1) % 2 ^ 64 = s.count + 1 := by
      apply Nat.mod_eq_of_lt
      have h2 := num_goto s Pc.holds t (.notify w)
      have h3 := h.total
      simp only [h1, Pc.holds, if_true, Bool.false_eq_true, if_false] at h2
      omega
    rw [hc]
    exact ⟨inv_update h t _ _ s.mutex (Or.inl ⟨rfl, by simp [h1, Pc.owns]⟩) (by simp)
        (Or.inr (by simp [h1, Pc.owns])) (by simp [h1, Pc.holds]),
      wake_update hw t _ _ s.mutex (Or.inr ⟨by simp, by simp [h1, Pc.pending]⟩)⟩
  | notifyOne t w u w' h1 hu =>
    have hut : u ≠ t := by
      rintro rfl
      rw [h1] at hu
      cases hu
    have i1 := inv_update h t (.unlockLeave w) s.count s.mutex (Or.inl ⟨rfl, by simp [h1, Pc.owns]⟩)
      (by simp) (Or.inl rfl) (by simp [h1, Pc.holds])
    have hpu : (s.goto t (.unlockLeave w)).pc u = .blocked w' := by
      simp [State.goto, hut, hu]
    have i2 := inv_update i1 u (.woken w') s.count s.mutex
      (Or.inl ⟨rfl, by
        show (Pc.woken w').owns = ((s.goto t (.unlockLeave w)).pc u).owns
        rw [hpu]; rfl⟩) (by simp) (Or.inl rfl) (by
        show s.count + _ = s.count + (if ((s.goto t (.unlockLeave w)).pc u).holds then 1 else 0)
        rw [hpu]; rfl)
    refine ⟨i2, fun _ => ?_⟩
    have h2 := hw ⟨u, w', hu⟩
    have h3 := num_goto s Pc.pending t (.unlockLeave w)
    have h4 := num_goto (s.goto t (.unlockLeave w)) Pc.pending u (.woken w')
    rw [hpu] at h4
    rw [h1] at h3
    simp only [Pc.pending, if_true, Bool.false_eq_true, if_false] at h3 h4
    show s.count ≤ _
    omega
  | notifyNone t w h1 hu =>
    refine ⟨inv_update h t _ s.count s.mutex (Or.inl ⟨rfl, by simp [h1, Pc.owns]⟩) (by simp)
        (Or.inl rfl) (by simp [h1, Pc.holds]), ?_⟩
    rintro ⟨u, w', hu'⟩
    change Function.update s.pc t (.unlockLeave w) u = .blocked w' at hu'
    by_cases hut : u = t
    · subst hut
      rw [Function.update_self] at hu'
      cases hu'
    · rw [Function.update_of_ne hut] at hu'
      exact absurd hu' (hu u w')
  | unlockReturn t h1 =>
    exact ⟨inv_update h t _ s.count none (Or.inr (Or.inr ⟨by simp [h1, Pc.owns], rfl, rfl⟩))
        (by simp) (Or.inl rfl) (by simp [h1, Pc.holds]),
      wake_update hw t _ s.count none (Or.inr ⟨by simp, by simp [h1, Pc.pending]⟩)⟩
  | unlockReturnWait t h1 =>
    exact ⟨inv_update h t _ s.count none (Or.inr (Or.inr ⟨by simp [h1, Pc.owns], rfl, rfl⟩))
        (by simp) (Or.inl rfl) (by simp [h1, Pc.holds]),
      wake_update hw t _ s.count none (Or.inr ⟨by simp, by simp [h1, Pc.pending]⟩)⟩

theorem inv_reachable {N n : ℕ} (hn : n < 2 ^ 64) {s : State N} (h : Reachable N n s) :
    Inv N n s ∧ Wake s := by
  induction h with
  | initial =>
    refine ⟨⟨fun t => by simp [State.initial, Pc.owns], fun t w h => by simp [State.initial] at h, ?_⟩,
      fun ⟨t, w, h⟩ => by simp [State.initial] at h⟩
    simp [State.num, State.initial, Pc.holds]
  | step _ hs ih => exact inv_step hn ih.1 ih.2 hs

/-! ## The theorems -/

/-- Threads for which `lock` has returned and which have not called `unlock`. -/
def holders {N : ℕ} (s : State N) : Finset (Fin N) := Finset.univ.filter (fun t => s.pc t = .holding)

/-- Under every schedule at most `n` threads are between `lock` and `unlock`. -/
theorem C52_exclusion {N n : ℕ} (hn : n < 2 ^ 64) {s : State N} (h : Reachable N n s) :
    (holders s).card ≤ n := by
  have hi := (inv_reachable hn h).1.total
  have hle : (holders s).card ≤ s.num Pc.holds := by
    unfold holders State.num
    rw [Finset.card_filter]
    apply Finset.sum_le_sum
    intro t _
    by_cases ht : s.pc t = .holding
    · simp [ht, Pc.holds]
    · simp [ht]
  omega

/-- The count is what is left: exactly `n` minus the number of threads in possession. -/
theorem C52_count {N n : ℕ} (hn : n < 2 ^ 64) {s : State N} (h : Reachable N n s)
    (hq : ∀ t, s.pc t = .idle ∨ s.pc t = .holding ∨ s.pc t = .afterWait ∨ ∃ w, s.pc t = .blocked w) :
    s.count + (holders s).card = n := by
  rw [← (inv_reachable hn h).1.total]
  congr 1
  unfold holders State.num
  rw [Finset.card_filter]
  apply Finset.sum_congr rfl
  intro t _
  rcases hq t with h | h | h | ⟨w, h⟩ <;> simp [h, Pc.holds]

/-- No lost wake-up: when all threads are outside, in possession or blocked, and one is blocked,
then `n` threads are in possession. -/
theorem C52_no_lost_wakeup {N n : ℕ} (hn : n < 2 ^ 64) {s : State N} (h : Reachable N n s)
    (hq : ∀ t, s.pc t = .idle ∨ s.pc t = .holding ∨ s.pc t = .afterWait ∨ ∃ w, s.pc t = .blocked w)
    (hb : ∃ t w, s.pc t = .blocked w) : (holders s).card = n := by
  have h1 := C52_count hn h hq
  have h2 := (inv_reachable hn h).2 hb
  have h3 : s.num Pc.pending = 0 := by
    unfold State.num
    apply Finset.sum_eq_zero
    intro t _
    rcases hq t with h | h | h | ⟨w, h⟩ <;> simp [h, Pc.pending]
  omega

/-- In every reachable state some thread can take a step inside the semaphore unless all threads are
outside, in possession or blocked: the mutex never deadlocks. -/
theorem C52_progress {N n : ℕ} (hn : n < 2 ^ 64) {s : State N} (h : Reachable N n s)
    (t : Fin N) (ht : ¬ (s.pc t = .idle ∨ s.pc t = .holding ∨ s.pc t = .afterWait ∨
      ∃ w, s.pc t = .blocked w)) :
    ∃ u s', Step s s' ∧ s'.pc u ≠ s.pc u ∧ s.pc u ≠ .idle ∧ s.pc u ≠ .holding ∧ s.pc u ≠ .afterWait := by
  have hi := (inv_reachable hn h).1
  -- a thread that owns the mutex can always step
  have hown : ∀ u, (s.pc u).owns = true → ∃ s', Step s s' ∧ s'.pc u ≠ s.pc u ∧ s.pc u ≠ .idle ∧
      s.pc u ≠ .holding ∧ s.pc u ≠ .afterWait := by
    intro u hu
    cases hp : s.pc u with
    | check w =>
      by_cases hc : s.count = 0
      · exact ⟨_, .checkFalse u w hp hc, by simp [State.goto], by simp, by simp, by simp⟩
      · exact ⟨_, .checkTrue u w hp hc, by simp [State.goto], by simp, by simp, by simp⟩
    | dec w => exact ⟨_, .decrement u w hp, by simp [State.goto], by simp, by simp, by simp⟩
    | lockLeave w =>
      cases w
      · exact ⟨_, .lockReturn u hp, by simp [State.goto], by simp, by simp, by simp⟩
      · exact ⟨_, .lockReturnWait u hp, by simp [State.goto], by simp, by simp, by simp⟩
    | inc w => exact ⟨_, .increment u w hp, by simp [State.goto], by simp, by simp, by simp⟩
    | notify w =>
      by_cases hb : ∃ v w', s.pc v = .blocked w'
      · obtain ⟨v, w', hv⟩ := hb
        have hvu : u ≠ v := by
          rintro rfl
          rw [hp] at hv
          cases hv
        exact ⟨_, .notifyOne u w v w' hp hv, by simp [State.goto, hvu], by simp, by simp, by simp⟩
      · exact ⟨_, .notifyNone u w hp (fun v w' hv => hb ⟨v, w', hv⟩), by simp [State.goto], by simp,
          by simp, by simp⟩
    | unlockLeave w =>
      cases w
      · exact ⟨_, .unlockReturn u hp, by simp [State.goto], by simp, by simp, by simp⟩
      · exact ⟨_, .unlockReturnWait u hp, by simp [State.goto], by simp, by simp, by simp⟩
    | _ => rw [hp] at hu; simp [Pc.owns] at hu
  cases hm : s.mutex with
  | some u =>
    obtain ⟨s', h1⟩ := hown u ((hi.owner u).2 hm)
    exact ⟨u, s', h1⟩
  | none =>
    refine ⟨t, ?_⟩
    cases hp : s.pc t with
    | lockEnter w => exact ⟨_, .acquire t w hp hm, by simp [State.goto], by simp, by simp, by simp⟩
    | woken w => exact ⟨_, .reacquire t w hp hm, by simp [State.goto], by simp, by simp, by simp⟩
    | unlockEnter w =>
      exact ⟨_, .acquireUnlock t w hp hm, by simp [State.goto], by simp, by simp, by simp⟩
    | idle => exact absurd (Or.inl hp) ht
    | holding => exact absurd (Or.inr (Or.inl hp)) ht
    | afterWait => exact absurd (Or.inr (Or.inr (Or.inl hp))) ht
    | blocked w => exact absurd (Or.inr (Or.inr (Or.inr ⟨w, hp⟩))) ht
    | _ =>
      have h1 := (hi.owner t).1 (by rw [hp]; rfl)
      rw [hm] at h1
      cases h1

/-- With an initial count of `0` (which `hardware_concurrency()` may report) no call of `lock` or
`wait` ever returns. -/
theorem C52_zero {N : ℕ} {s : State N} (h : Reachable N 0 s) (t : Fin N) :
    s.pc t ≠ .holding ∧ s.pc t ≠ .afterWait := by
  have hgo : ∀ s : State N, Reachable N 0 s → ∀ t, (s.pc t = .idle ∨ (∃ w, s.pc t = .lockEnter w) ∨
      (∃ w, s.pc t = .check w) ∨ (∃ w, s.pc t = .blocked w) ∨ (∃ w, s.pc t = .woken w)) := by
    intro s h
    induction h with
    | initial => intro t; exact Or.inl rfl
    | @step s s' h hs ih =>
      have hc : s.count = 0 := by have := (inv_reachable (by norm_num) h).1.total; omega
      intro u
      have key : ∀ t p, (s.goto t p).pc u = if u = t then p else s.pc u := by
        intro t p
        by_cases hut : u = t
        · subst hut; simp [State.goto]
        · simp [State.goto, hut]
      cases hs with
      | callLock t h1 =>
        rw [key]
        split_ifs
        · simp
        · exact ih u
      | callWait t h1 =>
        rw [key]
        split_ifs
        · simp
        · exact ih u
      | acquire t w h1 hm =>
        show (s.goto t _).pc u = _ ∨ _
        rw [key]
        split_ifs
        · simp
        · exact ih u
      | checkTrue t w h1 hc' => exact absurd hc hc'
      | checkFalse t w h1 hc' =>
        show (s.goto t _).pc u = _ ∨ _
        rw [key]
        split_ifs
        · simp
        · exact ih u
      | spurious t w h1 =>
        rw [key]
        split_ifs
        · simp
        · exact ih u
      | reacquire t w h1 hm =>
        show (s.goto t _).pc u = _ ∨ _
        rw [key]
        split_ifs
        · simp
        · exact ih u
      | decrement t w h1 => have := ih t; simp [h1] at this
      | lockReturn t h1 => have := ih t; simp [h1] at this
      | lockReturnWait t h1 => have := ih t; simp [h1] at this
      | callUnlock t h1 => have := ih t; simp [h1] at this
      | acquireUnlock t w h1 hm => have := ih t; simp [h1] at this
      | increment t w h1 => have := ih t; simp [h1] at this
      | notifyOne t w u w' h1 hu => have := ih t; simp [h1] at this
      | notifyNone t w h1 hu => have := ih t; simp [h1] at this
      | unlockReturn t h1 => have := ih t; simp [h1] at this
      | unlockReturnWait t h1 => have := ih t; simp [h1] at this
  have := hgo s h t
  constructor <;> intro hc <;> simp [hc] at this

/-! ## `wait` -/

/-- One thread runs `wait` to its end while nobody else moves. -/
theorem wait_alone {N n : ℕ} {s : State N} (h : Reachable N n s) (hm : s.mutex = none)
    (hc : 0 < s.count) (hc' : s.count < 2 ^ 64) (hb : ∀ u w, s.pc u ≠ .blocked w) (t : Fin N)
    (ht : s.pc t = .idle) : ∃ s', Reachable N n s' ∧ s'.mutex = none ∧ s'.count = s.count ∧
      s'.pc = Function.update s.pc t .afterWait := by
  have h1 := Reachable.step h (.callWait t (Or.inl ht))
  have h2 := Reachable.step h1 (.acquire t true (by simp [State.goto]) hm)
  have h3 := Reachable.step h2 (.checkTrue t true (by simp [State.goto]) (show s.count ≠ 0 by omega))
  obtain ⟨s3, hr3, hc3, hm3, hp3⟩ : ∃ s3 : State N, Reachable N n s3 ∧ s3.count = s.count ∧
      s3.mutex = some t ∧ s3.pc = Function.update s.pc t (.dec true) :=
    ⟨_, h3, rfl, rfl, by simp [State.goto]⟩
  have e1 : (s3.count + 2 ^ 64 - 1) % 2 ^ 64 = s.count - 1 := by
    have : s3.count + 2 ^ 64 - 1 = (s.count - 1) + 2 ^ 64 := by omega
    rw [this, Nat.add_mod_right, Nat.mod_eq_of_lt (by omega)]
  have h4 := Reachable.step hr3 (.decrement t true (by simp [hp3]))
  rw [e1] at h4
  obtain ⟨s4, hr4, hc4, hm4, hp4⟩ : ∃ s4 : State N, Reachable N n s4 ∧ s4.count = s.count - 1 ∧
      s4.mutex = some t ∧ s4.pc = Function.update s.pc t (.lockLeave true) :=
    ⟨_, h4, rfl, hm3, by simp [State.goto, hp3]⟩
  have h5 := Reachable.step hr4 (.lockReturnWait t (by simp [hp4]))
  have h6 := Reachable.step h5 (.acquireUnlock t true (by simp [State.goto]) rfl)
  obtain ⟨s6, hr6, hc6, hm6, hp6⟩ : ∃ s6 : State N, Reachable N n s6 ∧ s6.count = s.count - 1 ∧
      s6.mutex = some t ∧ s6.pc = Function.update s.pc t (.inc true) :=
    ⟨_, h6, hc4, rfl, by simp [State.goto, hp4]⟩
  have e2 : (s6.count + 1) % 2 ^ 64 = s.count := by
    rw [hc6, Nat.sub_add_cancel hc, Nat.mod_eq_of_lt hc']
  have h7 := Reachable.step hr6 (.increment t true (by simp [hp6]))
  rw [e2] at h7
  have h8 := Reachable.step h7 (.notifyNone t true (by simp [State.goto]) (by
    intro u w'
    by_cases hut : u = t
    · subst hut
      simp [State.goto]
    · simpa [State.goto, hut, hp6] using hb u w'))
  have h9 := Reachable.step h8 (.unlockReturnWait t (by simp [State.goto]))
  exact ⟨_, h9, rfl, rfl, by simp [State.goto, hp6]⟩

/-- `wait()` limits nothing: whatever the count `n ≥ 1` and the number of threads, all of them can be
past `wait()` at the same time. -/
theorem C52_wait_no_exclusion (N n : ℕ) (h1 : 1 ≤ n) (h2 : n < 2 ^ 64) :
    ∃ s : State N, Reachable N n s ∧ ∀ t, s.pc t = .afterWait := by
  have key : ∀ k, k ≤ N → ∃ s : State N, Reachable N n s ∧ s.mutex = none ∧ s.count = n ∧
      ∀ t, s.pc t = if t.1 < k then .afterWait else .idle := by
    intro k
    induction k with
    | zero => intro _; exact ⟨_, .initial, rfl, rfl, fun t => by simp [State.initial]⟩
    | succ k ih =>
      intro hk
      obtain ⟨s, hr, hm, hc, hp⟩ := ih (by omega)
      have hb : ∀ u w, s.pc u ≠ .blocked w := by
        intro u w
        rw [hp u]
        split_ifs <;> simp
      have hidle : s.pc ⟨k, by omega⟩ = .idle := by rw [hp]; simp
      obtain ⟨s', hr', hm', hc', hp'⟩ := wait_alone hr hm (by omega) (by omega) hb ⟨k, by omega⟩ hidle
      refine ⟨s', hr', hm', by rw [hc', hc], fun t => ?_⟩
      rw [hp']
      by_cases ht : t = ⟨k, by omega⟩
      · subst ht; simp
      · have hne : t.1 ≠ k := fun h => ht (Fin.ext h)
        rw [Function.update_of_ne ht, hp t]
        have : (t.1 < k) ↔ (t.1 < k + 1) := by omega
        simp [this]
  obtain ⟨s, hr, _, _, hp⟩ := key N (le_refl N)
  exact ⟨s, hr, fun t => by rw [hp t]; simp⟩

/-! ## Non-vacuity -/

/-- Three threads, count one: a state in which thread 0 holds and thread 1 is blocked is reachable. -/
example : ∃ s : State 3, Reachable 3 1 s ∧ (holders s).card = 1 ∧
    (∃ t w, s.pc t = .blocked w) ∧
    (∀ t, s.pc t = .idle ∨ s.pc t = .holding ∨ s.pc t = .afterWait ∨ ∃ w, s.pc t = .blocked w) := by
  have h1 : Reachable 3 1 _ := Reachable.step .initial (.callLock 0 (Or.inl rfl))
  have h2 := Reachable.step h1 (.acquire 0 false rfl rfl)
  have h3 := Reachable.step h2 (.checkTrue 0 false rfl (by decide))
  have h4 := Reachable.step h3 (.decrement 0 false rfl)
  have h5 := Reachable.step h4 (.lockReturn 0 rfl)
  have h6 := Reachable.step h5 (.callLock 1 (Or.inl rfl))
  have h7 := Reachable.step h6 (.acquire 1 false rfl rfl)
  have h8 := Reachable.step h7 (.checkFalse 1 false rfl rfl)
  refine ⟨_, h8, by decide, ⟨1, false, rfl⟩, ?_⟩
  intro t
  fin_cases t
  · exact Or.inr (Or.inl rfl)
  · exact Or.inr (Or.inr (Or.inr ⟨false, rfl⟩))
  · exact Or.inl rfl

end EG.Sem
