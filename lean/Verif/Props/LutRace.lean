import Verif.Model.LutRace
import Mathlib.Tactic.SplitIfs

/-!
# C80: the cache of fixed-base tables under concurrent calls
-/

namespace EG.LutRace

variable {T K : Type} [DecidableEq T] [DecidableEq K]

omit [DecidableEq K] in
theorem goto_pc (s : State T K) (t u : T) (p : Pc K) :
    (s.goto t p).pc u = if u = t then p else s.pc u := by
  unfold State.goto
  simp only [Function.update_apply]

/-- No thread is about to modify the map or has found its key missing. -/
def Quiet (p : Pc K) : Prop := match p with
  | .found _ false | .emplace _ => False
  | _ => True

/-- Concurrent calls never race, and every thread gets the table of its key.  The part that holds: if all keys
that are used are in the map before. -/
theorem C80_warm_partial (c : ℕ) (keys : K → Bool) (s : State T K)
    (h : Reach (fun k => keys k = true) (State.initial c keys) s) :
    ¬Race s ∧ s.keys = keys ∧ ∀ t k, s.pc t = .use k → s.keys k = true := by
  have key : s.keys = keys ∧ (∀ t, Quiet (s.pc t)) ∧ ∀ t k, s.pc t = .use k ∨ s.pc t = .index k ∨
      s.pc t = .indexing k ∨ s.pc t = .found k true → keys k = true := by
    induction h with
    | refl => exact ⟨rfl, fun _ => trivial, by intro t k h; simp [State.initial] at h⟩
    | step h hk hs ih =>
      rename_i s1 s2 t k
      obtain ⟨i1, i2, i3⟩ := ih
      have go : ∀ (s' : State T K) (p : Pc K), s'.keys = keys → s'.pc = s1.pc → Quiet p →
          (∀ k', p = .use k' ∨ p = .index k' ∨ p = .indexing k' ∨ p = .found k' true → k' = k) →
          (s'.goto t p).keys = keys ∧ (∀ u, Quiet ((s'.goto t p).pc u)) ∧
          ∀ u k', (s'.goto t p).pc u = .use k' ∨ (s'.goto t p).pc u = .index k' ∨
            (s'.goto t p).pc u = .indexing k' ∨ (s'.goto t p).pc u = .found k' true → keys k' = true := by
        intro s' p h1 h2 h3 h4
        refine ⟨h1, fun u => ?_, fun u k' => ?_⟩
        · rw [goto_pc, h2]; split_ifs
          · exact h3
          · exact i2 u
        · rw [goto_pc, h2]; split_ifs
          · intro hh; rw [h4 k' hh]; exact hk
          · exact i3 u k'
      cases hs with
      | call h => exact go s1 _ i1 rfl trivial (by simp)
      | lock h hc => exact go { s1 with count := s1.count - 1 } _ i1 rfl trivial (by simp)
      | unlock h => exact go { s1 with count := s1.count + 1 } _ i1 rfl trivial (by simp)
      | findBegin h => exact go s1 _ i1 rfl trivial (by simp)
      | findEnd h =>
        refine go s1 _ i1 rfl ?_ (by simp +contextual)
        rw [i1, hk]; trivial
      | hit h => exact go s1 _ i1 rfl trivial (by simp +contextual)
      | emplaceBegin h => have := i2 t; rw [h] at this; exact this.elim
      | emplaceEnd h => have := i2 t; rw [h] at this; exact this.elim
      | indexBegin h => exact go s1 _ i1 rfl trivial (by simp +contextual)
      | indexEnd h => exact go s1 _ i1 rfl trivial (by simp +contextual)
      | ret h => exact go s1 _ i1 rfl trivial (by simp)
  obtain ⟨h1, h2, h3⟩ := key
  refine ⟨?_, h1, fun t k hk => by rw [h1]; exact h3 t k (Or.inl hk)⟩
  rintro ⟨t, u, -, hw, -⟩
  have := h2 t
  cases hp : s.pc t <;> rw [hp] at hw this
  all_goals first
    | exact hw
    | exact this

/-- Whatever calls there are: nothing is lost from the map, only keys of calls are added, and where a
table is used, its key is in the map. -/
theorem C80_present (c : ℕ) (keys : K → Bool) (ks : K → Prop) (s : State T K)
    (h : Reach ks (State.initial c keys) s) :
    (∀ k, keys k = true → s.keys k = true) ∧ (∀ k, s.keys k = true → keys k = true ∨ ks k) ∧
    ∀ t k, s.pc t = .use k → s.keys k = true := by
  have key : (∀ k, keys k = true → s.keys k = true) ∧
      (∀ k, s.keys k = true → keys k = true ∨ ks k) ∧ ∀ t k, s.pc t = .use k ∨ s.pc t = .index k ∨
      s.pc t = .indexing k ∨ s.pc t = .found k true → s.keys k = true := by
    induction h with
    | refl => exact ⟨fun _ h => h, fun _ h => Or.inl h, by intro t k h; simp [State.initial] at h⟩
    | step h hk hs ih =>
      rename_i s1 s2 t k
      obtain ⟨i1, i2, i3⟩ := ih
      have go : ∀ (s' : State T K) (p : Pc K), s'.keys = s1.keys → s'.pc = s1.pc →
          (∀ k', p = .use k' ∨ p = .index k' ∨ p = .indexing k' ∨ p = .found k' true →
            s1.keys k' = true) →
          (∀ k, keys k = true → (s'.goto t p).keys k = true) ∧
          (∀ k, (s'.goto t p).keys k = true → keys k = true ∨ ks k) ∧
          ∀ u k', (s'.goto t p).pc u = .use k' ∨ (s'.goto t p).pc u = .index k' ∨
            (s'.goto t p).pc u = .indexing k' ∨ (s'.goto t p).pc u = .found k' true →
            (s'.goto t p).keys k' = true := by
        intro s' p h1 h2 h4
        rw [show (s'.goto t p).keys = s1.keys from h1]
        refine ⟨i1, i2, fun u k' => ?_⟩
        rw [goto_pc, h2]; split_ifs
        · exact h4 k'
        · exact i3 u k'
      cases hs with
      | call h => exact go s1 _ rfl rfl (by simp)
      | lock h hc => exact go { s1 with count := s1.count - 1 } _ rfl rfl (by simp)
      | unlock h => exact go { s1 with count := s1.count + 1 } _ rfl rfl (by simp)
      | findBegin h => exact go s1 _ rfl rfl (by simp)
      | findEnd h =>
        refine go s1 _ rfl rfl ?_
        rintro k' (e | e | e | e)
        · cases e
        · cases e
        · cases e
        · injection e with e1 e2
          rw [← e1]; exact e2
      | hit h =>
        refine go s1 _ rfl rfl ?_
        rintro k' (e | e | e | e) <;> cases e
        exact i3 t k (by simp [h])
      | emplaceBegin h => exact go s1 _ rfl rfl (by simp)
      | emplaceEnd h =>
        refine ⟨fun l hl => ?_, fun l => ?_, fun u l => ?_⟩
        · show Function.update s1.keys k true l = true
          rw [Function.update_apply]; split_ifs
          · rfl
          · exact i1 l hl
        · show Function.update s1.keys k true l = true → _
          rw [Function.update_apply]; split_ifs with e
          · intro _; rw [e]; exact Or.inr hk
          · exact i2 l
        · show _ → Function.update s1.keys k true l = true
          rw [goto_pc, Function.update_apply]
          split_ifs with e1 e2 e2
          · intro _; rfl
          · rintro (e | e | e | e) <;> cases e
            exact absurd rfl e2
          · intro _; rfl
          · exact i3 u l
      | indexBegin h =>
        refine go s1 _ rfl rfl ?_
        rintro k' (e | e | e | e) <;> cases e
        exact i3 t k (by simp [h])
      | indexEnd h =>
        refine go s1 _ rfl rfl ?_
        rintro k' (e | e | e | e) <;> cases e
        exact i3 t k (by simp [h])
      | ret h => exact go s1 _ rfl rfl (by simp)
  exact ⟨key.1, key.2.1, fun t k h => key.2.2 t k (Or.inl h)⟩

/-- Otherwise two calls can modify the map at the same time, whatever the count of the semaphore is, as
`wait` has released it before the map is looked at: also with a count of one. -/
theorem C80_race_violated (c : ℕ) (hc : c ≠ 0) (keys : K → Bool) (k l : K) (hk : keys k = false)
    (hl : keys l = false) (t u : T) (htu : t ≠ u) :
    ∃ s : State T K, Reach (fun x => x = k ∨ x = l) (State.initial c keys) s ∧ Race s ∧
      s.pc t = .emplace k ∧ s.pc u = .emplace l := by
  have hut : u ≠ t := fun e => htu e.symm
  -- a thread that is idle can run up to `emplace` while the other waits
  have run : ∀ (s : State T K) (t : T) (k : K) (ks : K → Prop), ks k → s.pc t = .idle → s.count ≠ 0 →
      s.keys k = false → ∃ s', Reach ks s s' ∧ s'.count = s.count ∧ s'.keys = s.keys ∧
        s'.pc t = .emplace k ∧ ∀ v, v ≠ t → s'.pc v = s.pc v := by
    intro s t k ks hks h1 h2 h3
    have st1 := Step.call (s := s) t k h1
    have st2 := Step.lock (s := s.goto t (.lock k)) t k (by rw [goto_pc, if_pos rfl]) h2
    have st3 := Step.unlock (s := ({ s.goto t (.lock k) with count := s.count - 1 } : State T K).goto t
      (.unlock k)) t k (by rw [goto_pc, if_pos rfl])
    have st4 := Step.findBegin t k (show ((({ ({ s.goto t (.lock k) with count := s.count - 1 } :
      State T K).goto t (.unlock k) with count := s.count - 1 + 1 } : State T K).goto t (.enter k)).pc t = _)
      by rw [goto_pc, if_pos rfl])
    have st5 := Step.findEnd t k (show (((({ ({ s.goto t (.lock k) with count := s.count - 1 } :
      State T K).goto t (.unlock k) with count := s.count - 1 + 1 } : State T K).goto t (.enter k)).goto t
      (.find k)).pc t = _) by rw [goto_pc, if_pos rfl])
    refine ⟨_, .step (.step (.step (.step (.step (.step .refl hks st1) hks st2) hks st3) hks st4) hks st5) hks
      (.emplaceBegin t k ?_), ?_, rfl, ?_, ?_⟩
    · rw [goto_pc, if_pos rfl]
      exact congrArg _ h3
    · show s.count - 1 + 1 = s.count
      omega
    · rw [goto_pc, if_pos rfl]
    · intro v hv
      simp only [goto_pc, if_neg hv]
  obtain ⟨s1, a1, a2, a3, a4, a5⟩ := run (State.initial c keys) t k (fun x => x = k ∨ x = l) (Or.inl rfl) rfl hc hk
  obtain ⟨s2, b1, b2, b3, b4, b5⟩ := run s1 u l (fun x => x = k ∨ x = l) (Or.inr rfl)
    (by rw [a5 u hut]; rfl) (by rw [a2]; exact hc) (by rw [a3]; exact hl)
  have hp : s2.pc t = .emplace k := by rw [b5 t htu, a4]
  have tr : ∀ {x y z : State T K}, Reach (fun x => x = k ∨ x = l) x y →
      Reach (fun x => x = k ∨ x = l) y z → Reach (fun x => x = k ∨ x = l) x z := by
    intro x y z h h'
    induction h' with
    | refl => exact h
    | step _ hk hs ih => exact .step ih hk hs
  refine ⟨s2, tr a1 b1, ⟨t, u, htu, ?_, ?_⟩, hp, b4⟩
  · rw [hp]; trivial
  · rw [b4]; trivial

/-- With a semaphore of count zero, which the default argument makes where `hardware_concurrency` returns
zero, no call ever gets past `wait`. -/
theorem C80_zero_violated (keys : K → Bool) (ks : K → Prop) (s : State T K)
    (h : Reach ks (State.initial 0 keys) s) (t : T) : s.pc t = .idle ∨ ∃ k, s.pc t = .lock k := by
  have key : s.count = 0 ∧ ∀ t, s.pc t = .idle ∨ ∃ k, s.pc t = .lock k := by
    induction h with
    | refl => exact ⟨rfl, fun _ => Or.inl rfl⟩
    | step h hk hs ih =>
      rename_i s1 s2 u k
      obtain ⟨i1, i2⟩ := ih
      have hu := i2 u
      cases hs with
      | call h =>
        refine ⟨i1, fun v => ?_⟩
        rw [goto_pc]; split_ifs
        · exact Or.inr ⟨k, rfl⟩
        · exact i2 v
      | lock h hc => exact absurd i1 hc
      | unlock h | findBegin h | findEnd h | hit h | emplaceBegin h | emplaceEnd h | indexBegin h | indexEnd h
      | ret h => rw [h] at hu; simp at hu
  exact key.2 t

/-- Two threads, one key, a semaphore of count one. -/
example : ∃ s : State Bool ℕ, Reach (fun x => x = 7 ∨ x = 7) (State.initial 1 fun _ => false) s ∧ Race s := by
  obtain ⟨s, h1, h2, -⟩ := C80_race_violated (T := Bool) 1 (by decide) (fun _ => false) 7 7 rfl rfl true false
    (by decide)
  exact ⟨s, h1, h2⟩

/-- An empty cache: a call adds its key. -/
example : ∃ s : State Bool ℕ, Reach (fun k => k = 7) (State.initial 1 fun _ => false) s ∧
    s.pc true = .use 7 ∧ s.keys 7 = true ∧ s.keys 8 = false := by
  refine ⟨_, .step (.step (.step (.step (.step (.step (.step (.step (.step .refl
    rfl (.call true 7 rfl)) rfl (.lock true 7 rfl (by decide))) rfl (.unlock true 7 rfl))
    rfl (.findBegin true 7 rfl)) rfl (.findEnd true 7 rfl)) rfl (.emplaceBegin true 7 rfl))
    rfl (.emplaceEnd true 7 rfl)) rfl (.indexBegin true 7 rfl))
    rfl (.indexEnd true 7 rfl), rfl, rfl, rfl⟩

/-- A warm cache: a call comes to the end. -/
example : ∃ s : State Bool ℕ, Reach (fun k => decide (k = 7) = true) (State.initial 1 fun k => decide (k = 7)) s ∧
    s.pc true = .use 7 := by
  refine ⟨_, .step (.step (.step (.step (.step (.step (.step (.step .refl
    rfl (.call true 7 rfl)) rfl (.lock true 7 rfl (by decide))) rfl (.unlock true 7 rfl))
    rfl (.findBegin true 7 rfl)) rfl (.findEnd true 7 rfl)) rfl (.hit true 7 rfl)) rfl (.indexBegin true 7 rfl))
    rfl (.indexEnd true 7 rfl), rfl⟩

end EG.LutRace
