import Verif.Spec.Queue
import Mathlib.Data.List.Nodup
import Mathlib.Data.List.Forall2

/-!
# The simulation of the queue by the atomic queue
-/

namespace EG.Queue

set_option linter.unusedSectionVars false

variable {T V : Type} [DecidableEq T]

/-- Does a thread here own the head mutex? -/
def Pc.ownsHead : Pc V → Bool
  | .tailLock1 _ | .tailRead1 _ | .tailUnlock1 _ _ | .compare1 _ _ | .move | .tailLock2 _
  | .tailRead2 _ | .tailUnlock2 _ _ | .compare2 _ _ | .unlink _ | .headUnlock _ _
  | .headUnlockNone _ => true
  | _ => false

/-- Does a thread here own the tail mutex? -/
def Pc.ownsTail : Pc V → Bool
  | .pushData _ _ | .pushNext _ _ | .pushTail _ _ | .pushUnlock | .tailRead1 _ | .tailUnlock1 _ _
  | .tailRead2 _ | .tailUnlock2 _ _ => true
  | _ => false

/-- The node that only this thread knows. -/
def Pc.priv : Pc V → Option Addr
  | .pushLock _ a | .pushData _ a | .pushNext _ a | .pushTail _ a | .headUnlock _ a
  | .finish _ a => some a
  | _ => none

/-- The thread has moved the first value out. -/
def Pc.taken : Pc V → Bool
  | .tailLock2 (some _) | .tailRead2 (some _) | .tailUnlock2 (some _) _ | .compare2 (some _) _
  | .unlink (some _) => true
  | _ => false

/-- The nodes from one address to another. -/
def Path (node : Addr → Node V) : Addr → List Addr → Addr → Prop
  | h, [], tl => h = tl
  | h, a :: as, tl => h = a ∧ ∃ b, (node a).next = some b ∧ Path node b as tl

/-- `o` is consistent with the first element of `q`. -/
def Taking (o : Option V) (q : List V) (ap : APc V) : Prop :=
  ∃ v, q.head? = some v ∧ match o with
    | none => ap = .called .popPtr
    | some w => ap = .called .popRef ∧ w = v

/-- What holds for a thread, depending on where it is. -/
def PcOk (node : Addr → Node V) (head : Option Addr) (tail : Addr) (q : List V) :
    Pc V → APc V → Prop
  | .idle, ap => ap = .idle
  | .pushAlloc v, ap => ap = .called (.push v)
  | .pushLock v _, ap => ap = .called (.push v)
  | .pushData v _, ap => ap = .called (.push v)
  | .pushNext v _, ap => ap = .called (.push v) ∧ (node tail).data = .val v
  | .pushTail v a, ap => ap = .called (.push v) ∧ (node tail).data = .val v ∧
      (node tail).next = some a
  | .pushUnlock, ap => ap = .took .unit
  | .headLock m, ap => ap = .called m.op
  | .tailLock1 m, ap => ap = .called m.op
  | .tailRead1 m, ap => ap = .called m.op
  | .tailUnlock1 m tl, ap | .compare1 m tl, ap =>
      (head = some tl → ap = .took m.none) ∧
      (head ≠ some tl → (m = .isEmpty → ap = .took (.isEmpty false)) ∧
        (m ≠ .isEmpty → ap = .called m.op ∧ ∃ v, q.head? = some v))
  | .move, ap => ap = .called .popRef ∧ ∃ v, q.head? = some v
  | .tailLock2 o, ap | .tailRead2 o, ap | .unlink o, ap => Taking o q ap
  | .tailUnlock2 o tl, ap | .compare2 o tl, ap => Taking o q ap ∧ head ≠ some tl
  | .headUnlock o a, ap | .finish o a, ap => ∃ v, ap = .took (.popped (some v)) ∧
      (o = some v ∨ (o = none ∧ (node a).data = .val v))
  | .headUnlockNone r, ap | .done r, ap => ap = .took r

theorem Taking.mono {o : Option V} {q q' : List V} {ap : APc V} (h : Taking o q ap)
    (hq : ∀ v, q.head? = some v → q'.head? = some v) : Taking o q' ap := by
  obtain ⟨v, h1, h2⟩ := h
  exact ⟨v, hq v h1, h2⟩

theorem PcOk.frame {node node' : Addr → Node V} {head head' : Option Addr} {tail tail' : Addr}
    {q q' : List V} {p : Pc V} {ap : APc V} (h : PcOk node head tail q p ap)
    (hh : p.ownsHead = true → head' = head ∧ ∀ v, q.head? = some v → q'.head? = some v)
    (ht : p.ownsTail = true → p.ownsHead = false → tail' = tail ∧
      (node' tail').data = (node tail).data ∧ (node' tail').next = (node tail).next)
    (hp : ∀ x, p.priv = some x → p.ownsTail = false → (node' x).data = (node x).data) :
    PcOk node' head' tail' q' p ap := by
  cases p with
  | idle => exact h
  | pushAlloc v => exact h
  | pushLock v a => exact h
  | pushData v a => exact h
  | pushNext v a =>
    obtain ⟨h1, h2, h3⟩ := ht rfl rfl
    exact ⟨h.1, by rw [h2]; exact h.2⟩
  | pushTail v a =>
    obtain ⟨h1, h2, h3⟩ := ht rfl rfl
    exact ⟨h.1, by rw [h2]; exact h.2.1, by rw [h3]; exact h.2.2⟩
  | pushUnlock => exact h
  | headLock m => exact h
  | tailLock1 m => exact h
  | tailRead1 m => exact h
  | tailUnlock1 m tl =>
    obtain ⟨rfl, hq⟩ := hh rfl
    exact ⟨h.1, fun hne => ⟨(h.2 hne).1, fun hm => ⟨((h.2 hne).2 hm).1,
      let ⟨v, hv⟩ := ((h.2 hne).2 hm).2; ⟨v, hq v hv⟩⟩⟩⟩
  | compare1 m tl =>
    obtain ⟨rfl, hq⟩ := hh rfl
    exact ⟨h.1, fun hne => ⟨(h.2 hne).1, fun hm => ⟨((h.2 hne).2 hm).1,
      let ⟨v, hv⟩ := ((h.2 hne).2 hm).2; ⟨v, hq v hv⟩⟩⟩⟩
  | move =>
    obtain ⟨rfl, hq⟩ := hh rfl
    exact ⟨h.1, let ⟨v, hv⟩ := h.2; ⟨v, hq v hv⟩⟩
  | tailLock2 o => exact Taking.mono h (hh rfl).2
  | tailRead2 o => exact Taking.mono h (hh rfl).2
  | unlink o => exact Taking.mono h (hh rfl).2
  | tailUnlock2 o tl =>
    obtain ⟨rfl, hq⟩ := hh rfl
    exact ⟨Taking.mono h.1 hq, h.2⟩
  | compare2 o tl =>
    obtain ⟨rfl, hq⟩ := hh rfl
    exact ⟨Taking.mono h.1 hq, h.2⟩
  | headUnlock o a =>
    obtain ⟨v, h1, h2⟩ := h
    exact ⟨v, h1, by rw [hp a rfl rfl]; exact h2⟩
  | finish o a =>
    obtain ⟨v, h1, h2⟩ := h
    exact ⟨v, h1, by rw [hp a rfl rfl]; exact h2⟩
  | headUnlockNone r => exact h
  | done r => exact h

/-- The simulation; `as` are the nodes before the tail. -/
structure Sim (s : State T V) (a : AState T V) (as : List Addr) : Prop where
  ownH : ∀ t, (s.pc t).ownsHead = true ↔ s.headMutex = some t
  ownT : ∀ t, (s.pc t).ownsTail = true ↔ s.tailMutex = some t
  path : ∃ h, s.head = some h ∧ Path s.node h as s.tail
  nodup : (as ++ [s.tail]).Nodup
  alive : ∀ x ∈ as ++ [s.tail], (s.node x).alive = true
  data : List.Forall₂ (fun x v => (s.node x).data = .val v ∨
    (s.head = some x ∧ ∃ t, (s.pc t).taken = true)) as a.queue
  priv : ∀ t x, (s.pc t).priv = some x → (s.node x).alive = true ∧ x ∉ as ++ [s.tail]
  privInj : ∀ t u x, (s.pc t).priv = some x → (s.pc u).priv = some x → t = u
  ok : ∀ t, PcOk s.node s.head s.tail a.queue (s.pc t) (a.pc t)

theorem Pc.ownsHead_of_taken {p : Pc V} (h : p.taken = true) : p.ownsHead = true := by
  cases p <;> simp [Pc.taken, Pc.ownsHead] at h ⊢

/-- How the owner of a mutex may change when thread `t` goes to a place where it owns it or not. -/
def OwnStep (t : T) (m m' : Option T) (b b' : Bool) : Prop :=
  (m' = m ∧ b' = b) ∨ (m = none ∧ m' = some t ∧ b' = true) ∨ (b = true ∧ m' = none ∧ b' = false)

theorem own_step {m m' : Option T} {pc : T → Pc V} {f : Pc V → Bool} {t : T} {p : Pc V}
    (h : ∀ u, f (pc u) = true ↔ m = some u) (hs : OwnStep t m m' (f (pc t)) (f p)) (u : T) :
    f (Function.update pc t p u) = true ↔ m' = some u := by
  by_cases hu : u = t
  · subst hu
    rw [Function.update_self]
    rcases hs with ⟨rfl, h2⟩ | ⟨_, rfl, h2⟩ | ⟨_, rfl, h2⟩
    · rw [h2]; exact h u
    · simp [h2]
    · simp [h2]
  · rw [Function.update_of_ne hu]
    rcases hs with ⟨rfl, _⟩ | ⟨h1, rfl, _⟩ | ⟨h1, rfl, _⟩
    · exact h u
    · rw [h u, h1]
      simp [Ne.symm hu]
    · rw [h u, (h t).1 h1]
      simp [Ne.symm hu]

/-- The general step. -/
theorem Sim.mk' {s : State T V} {a : AState T V} {as : List Addr} (h : Sim s a as) (t : T)
    {node' : Addr → Node V} {head' : Option Addr} {tail' : Addr} {hm' tm' : Option T} {p : Pc V}
    {q' : List V} {ap : APc V} {as' : List Addr}
    (oh : OwnStep t s.headMutex hm' (s.pc t).ownsHead p.ownsHead)
    (ot : OwnStep t s.tailMutex tm' (s.pc t).ownsTail p.ownsTail)
    (path : ∃ h, head' = some h ∧ Path node' h as' tail')
    (nodup : (as' ++ [tail']).Nodup)
    (alive : ∀ x ∈ as' ++ [tail'], (node' x).alive = true)
    (data : List.Forall₂ (fun x v => (node' x).data = .val v ∨
      (head' = some x ∧ (p.taken = true ∨ ∃ u, u ≠ t ∧ (s.pc u).taken = true))) as' q')
    (priv : ∀ u x, u ≠ t → (s.pc u).priv = some x →
      (node' x).alive = true ∧ x ∉ as' ++ [tail'] ∧ p.priv ≠ some x)
    (privt : ∀ x, p.priv = some x → (node' x).alive = true ∧ x ∉ as' ++ [tail'])
    (fh : ∀ u, u ≠ t → (s.pc u).ownsHead = true →
      head' = s.head ∧ ∀ v, a.queue.head? = some v → q'.head? = some v)
    (ft : ∀ u, u ≠ t → (s.pc u).ownsTail = true → (s.pc u).ownsHead = false → tail' = s.tail ∧
      (node' tail').data = (s.node s.tail).data ∧ (node' tail').next = (s.node s.tail).next)
    (fp : ∀ u x, u ≠ t → (s.pc u).priv = some x → (node' x).data = (s.node x).data)
    (ok : PcOk node' head' tail' q' p ap) :
    Sim (⟨node', head', tail', hm', tm', Function.update s.pc t p⟩ : State T V)
      ⟨q', Function.update a.pc t ap⟩ as' := by
  refine ⟨own_step h.ownH oh, own_step h.ownT ot, path, nodup, alive, ?_, ?_, ?_, ?_⟩
  · refine data.imp (fun x v hx => ?_)
    rcases hx with h1 | ⟨h1, h2 | ⟨u, hu, h2⟩⟩
    · exact Or.inl h1
    · exact Or.inr ⟨h1, t, by simpa using h2⟩
    · exact Or.inr ⟨h1, u, by simpa [hu] using h2⟩
  · intro u x hx
    by_cases hu : u = t
    · subst hu
      exact privt x (by simpa using hx)
    · have := priv u x hu (by simpa [hu] using hx)
      exact ⟨this.1, this.2.1⟩
  · intro u w x hx hy
    by_cases hu : u = t
    · by_cases hw : w = t
      · rw [hu, hw]
      · subst hu
        exact absurd (by simpa using hx) (priv w x hw (by simpa [hw] using hy)).2.2
    · by_cases hw : w = t
      · subst hw
        exact absurd (by simpa using hy) (priv u x hu (by simpa [hu] using hx)).2.2
      · exact h.privInj u w x (by simpa [hu] using hx) (by simpa [hw] using hy)
  · intro u
    by_cases hu : u = t
    · subst hu
      simpa using ok
    · simp only [Function.update_of_ne hu]
      exact (h.ok u).frame (fh u hu) (ft u hu) (fun x hx _ => fp u x hu hx)

/-- A step that changes no node and neither end. -/
theorem Sim.local {s : State T V} {a : AState T V} {as : List Addr} (h : Sim s a as) (t : T)
    {hm' tm' : Option T} {p : Pc V} {ap : APc V}
    (oh : OwnStep t s.headMutex hm' (s.pc t).ownsHead p.ownsHead)
    (ot : OwnStep t s.tailMutex tm' (s.pc t).ownsTail p.ownsTail)
    (hp : ∀ x, p.priv = some x → (s.pc t).priv = some x)
    (htk : (s.pc t).taken = true → p.taken = true)
    (ok : PcOk s.node s.head s.tail a.queue p ap) :
    Sim (⟨s.node, s.head, s.tail, hm', tm', Function.update s.pc t p⟩ : State T V)
      ⟨a.queue, Function.update a.pc t ap⟩ as := by
  refine h.mk' t oh ot h.path h.nodup h.alive ?_ ?_ ?_ ?_ ?_ ?_ ok
  · refine h.data.imp (fun x v hx => ?_)
    rcases hx with h1 | ⟨h1, u, h2⟩
    · exact Or.inl h1
    · refine Or.inr ⟨h1, ?_⟩
      by_cases hu : u = t
      · subst hu
        exact Or.inl (htk h2)
      · exact Or.inr ⟨u, hu, h2⟩
  · intro u x hu hx
    have := h.priv u x hx
    exact ⟨this.1, this.2, fun hpx => hu (h.privInj u t x hx (hp x hpx))⟩
  · exact fun x hx => h.priv t x (hp x hx)
  · exact fun _ _ _ => ⟨rfl, fun _ hv => hv⟩
  · exact fun _ _ _ _ => ⟨rfl, rfl, rfl⟩
  · exact fun _ _ _ _ => rfl

theorem path_frame {node node' : Addr → Node V} {as : List Addr} {h tl : Addr}
    (hp : Path node h as tl) (hn : ∀ x ∈ as, (node' x).next = (node x).next) :
    Path node' h as tl := by
  induction as generalizing h with
  | nil => exact hp
  | cons a as ih =>
    obtain ⟨h1, b, h2, h3⟩ := hp
    exact ⟨h1, b, by rw [hn a (by simp)]; exact h2, ih h3 (fun x hx => hn x (by simp [hx]))⟩

theorem path_snoc {node : Addr → Node V} {as : List Addr} {h tl b : Addr}
    (hp : Path node h as tl) (hn : (node tl).next = some b) : Path node h (as ++ [tl]) b := by
  induction as generalizing h with
  | nil => exact ⟨hp, b, hn, rfl⟩
  | cons a as ih =>
    obtain ⟨h1, c, h2, h3⟩ := hp
    exact ⟨h1, c, h2, ih h3⟩

theorem path_head {node : Addr → Node V} {as : List Addr} {h tl : Addr} (hp : Path node h as tl) :
    (as ++ [tl]).head? = some h := by
  cases as with
  | nil => simp [show h = tl from hp]
  | cons a as => simp [hp.1]

/-- The atomic queue follows. -/
def Follows (a : AState T V) (l : Label T V) (a' : AState T V) : Prop :=
  AStep a l a' ∨ (l = .tau ∧ a' = a)

theorem stay (a : AState T V) (t : T) : (⟨a.queue, Function.update a.pc t (a.pc t)⟩ : AState T V) = a := by
  rw [Function.update_eq_self]

/-- A local step that the atomic queue does not notice. -/
theorem Sim.silent {s : State T V} {a : AState T V} {as : List Addr} (h : Sim s a as) (t : T)
    {hm' tm' : Option T} {p : Pc V}
    (oh : OwnStep t s.headMutex hm' (s.pc t).ownsHead p.ownsHead)
    (ot : OwnStep t s.tailMutex tm' (s.pc t).ownsTail p.ownsTail)
    (hp : ∀ x, p.priv = some x → (s.pc t).priv = some x)
    (htk : (s.pc t).taken = true → p.taken = true)
    (ok : PcOk s.node s.head s.tail a.queue p (a.pc t)) :
    ∃ a' as', Sim (⟨s.node, s.head, s.tail, hm', tm', Function.update s.pc t p⟩ : State T V) a' as' ∧
      Follows a .tau a' :=
  ⟨a, as, by rw [← stay a t]; exact h.local t oh ot hp htk ok, Or.inr ⟨rfl, rfl⟩⟩

theorem Sim.head_eq_tail {s : State T V} {a : AState T V} {as : List Addr} (h : Sim s a as) :
    s.head = some s.tail ↔ a.queue = [] := by
  obtain ⟨x, hx, hp⟩ := h.path
  have hd := h.data
  have hn := h.nodup
  cases as with
  | nil =>
    cases hd' : a.queue with
    | nil =>
      have : x = s.tail := hp
      simp [hx, this]
    | cons v q => rw [hd'] at hd; cases hd
  | cons y as =>
    cases hd' : a.queue with
    | nil => rw [hd'] at hd; cases hd
    | cons v q =>
      have hxy : x = y := hp.1
      have : y ≠ s.tail := by
        intro hyt
        rw [List.cons_append, List.nodup_cons] at hn
        exact hn.1 (by simp [hyt])
      simp [hx, hxy, this]

/-- The first node, when the queue is not empty. -/
theorem Sim.first {s : State T V} {a : AState T V} {as : List Addr} (h : Sim s a as) {v : V}
    (hv : a.queue.head? = some v) : ∃ x b as' q', as = x :: as' ∧ a.queue = v :: q' ∧
      s.head = some x ∧ (s.node x).next = some b ∧ Path s.node b as' s.tail ∧
      ((s.node x).data = .val v ∨ ∃ t, (s.pc t).taken = true) ∧
      List.Forall₂ (fun x v => (s.node x).data = .val v) as' q' := by
  obtain ⟨x, hx, hp⟩ := h.path
  have hd := h.data
  have hn := h.nodup
  cases as with
  | nil => cases hd' : a.queue with
    | nil => rw [hd'] at hv; cases hv
    | cons w q => rw [hd'] at hd; cases hd
  | cons y as =>
    cases hd' : a.queue with
    | nil => rw [hd'] at hd; cases hd
    | cons w q =>
      rw [hd'] at hd hv
      simp only [List.head?_cons, Option.some.injEq] at hv
      subst hv
      obtain ⟨rfl, b, hb, hp'⟩ := hp
      rw [List.forall₂_cons] at hd
      refine ⟨x, b, as, q, rfl, rfl, hx, hb, hp', ?_, ?_⟩
      · rcases hd.1 with h1 | ⟨_, h1⟩
        · exact Or.inl h1
        · exact Or.inr h1
      · have hne : ∀ y ∈ as, y ≠ x := by
          intro y hy hyx
          rw [List.cons_append, List.nodup_cons] at hn
          exact hn.1 (by simp [← hyx, hy])
        have h2 := hd.2
        clear hd hd' hp' hn h
        induction h2 with
        | nil => exact .nil
        | cons h3 h4 ih =>
          refine .cons ?_ (ih (fun y hy => hne y (by simp [hy])))
          rcases h3 with h3 | ⟨h3, _⟩
          · exact h3
          · rw [hx] at h3
            exact absurd (Option.some.inj h3).symm (hne _ (by simp))

/-- The owner of the head mutex that has not moved the first value sees it. -/
theorem Sim.untaken {s : State T V} {a : AState T V} {as : List Addr} (h : Sim s a as) {t : T}
    (ht : (s.pc t).ownsHead = true) (htk : (s.pc t).taken = false) (u : T) :
    (s.pc u).taken = false := by
  by_contra hu
  rw [Bool.not_eq_false] at hu
  have h1 := (h.ownH u).1 (Pc.ownsHead_of_taken hu)
  have h2 := (h.ownH t).1 ht
  rw [h1] at h2
  have := Option.some.inj h2
  subst this
  rw [hu] at htk
  cases htk

theorem Sim.other_head {s : State T V} {a : AState T V} {as : List Addr} (h : Sim s a as) {t u : T}
    (ht : (s.pc t).ownsHead = true) (hu : u ≠ t) : (s.pc u).ownsHead = false := by
  by_contra h1
  rw [Bool.not_eq_false] at h1
  have h2 := (h.ownH u).1 h1
  rw [(h.ownH t).1 ht] at h2
  exact hu (Option.some.inj h2).symm

theorem Sim.other_tail {s : State T V} {a : AState T V} {as : List Addr} (h : Sim s a as) {t u : T}
    (ht : (s.pc t).ownsTail = true) (hu : u ≠ t) : (s.pc u).ownsTail = false := by
  by_contra h1
  rw [Bool.not_eq_false] at h1
  have h2 := (h.ownT u).1 h1
  rw [(h.ownT t).1 ht] at h2
  exact hu (Option.some.inj h2).symm

/-- A step that changes a node which is not in the queue and which no other thread knows. -/
theorem Sim.dead {s : State T V} {a : AState T V} {as : List Addr} (h : Sim s a as) (t : T)
    {hm' tm' : Option T} {p : Pc V} {ap : APc V} {x : Addr} {n : Node V}
    (oh : OwnStep t s.headMutex hm' (s.pc t).ownsHead p.ownsHead)
    (ot : OwnStep t s.tailMutex tm' (s.pc t).ownsTail p.ownsTail)
    (hx : x ∉ as ++ [s.tail]) (hpx : ∀ u, u ≠ t → (s.pc u).priv ≠ some x)
    (htk : (s.pc t).taken = true → p.taken = true)
    (hpp : ∀ y, p.priv = some y → y = x ∧ n.alive = true)
    (ok : PcOk (Function.update s.node x n) s.head s.tail a.queue p ap) :
    Sim (⟨Function.update s.node x n, s.head, s.tail, hm', tm', Function.update s.pc t p⟩ : State T V)
      ⟨a.queue, Function.update a.pc t ap⟩ as := by
  have hne : ∀ y ∈ as ++ [s.tail], y ≠ x := fun y hy hyx => hx (hyx ▸ hy)
  obtain ⟨hd, hh, hp⟩ := h.path
  refine h.mk' t oh ot ⟨hd, hh, path_frame hp ?_⟩ h.nodup ?_ ?_ ?_ ?_ ?_ ?_ ?_ ok
  · intro y hy
    rw [Function.update_of_ne (hne y (by simp [hy]))]
  · intro y hy
    rw [Function.update_of_ne (hne y hy)]
    exact h.alive y hy
  · have hd' := h.data
    rw [List.forall₂_iff_get] at hd' ⊢
    refine ⟨hd'.1, fun i hi hi' => ?_⟩
    rw [Function.update_of_ne (hne _ (by simp))]
    rcases hd'.2 i hi hi' with h1 | ⟨h1, u, h2⟩
    · exact Or.inl h1
    · refine Or.inr ⟨h1, ?_⟩
      by_cases hu : u = t
      · subst hu
        exact Or.inl (htk h2)
      · exact Or.inr ⟨u, hu, h2⟩
  · intro u y hu hy
    have hyx : y ≠ x := fun hyx => hpx u hu (hyx ▸ hy)
    rw [Function.update_of_ne hyx]
    exact ⟨(h.priv u y hy).1, (h.priv u y hy).2, fun hpy => hyx (hpp y hpy).1⟩
  · intro y hy
    obtain ⟨rfl, hal⟩ := hpp y hy
    rw [Function.update_self]
    exact ⟨hal, hx⟩
  · exact fun _ _ _ => ⟨rfl, fun _ hv => hv⟩
  · intro u hu _ _
    rw [Function.update_of_ne (hne s.tail (by simp))]
    exact ⟨rfl, rfl, rfl⟩
  · intro u y hu hy
    have hyx : y ≠ x := fun hyx => hpx u hu (hyx ▸ hy)
    rw [Function.update_of_ne hyx]

/-- A step that changes the tail node. -/
theorem Sim.atTail {s : State T V} {a : AState T V} {as : List Addr} (h : Sim s a as) (t : T)
    {hm' tm' : Option T} {p : Pc V} {ap : APc V} {n : Node V}
    (oh : OwnStep t s.headMutex hm' (s.pc t).ownsHead p.ownsHead)
    (ot : OwnStep t s.tailMutex tm' (s.pc t).ownsTail p.ownsTail)
    (hown : (s.pc t).ownsTail = true) (hl : n.alive = true)
    (htk : (s.pc t).taken = true → p.taken = true)
    (hpp : ∀ y, p.priv = some y → (s.pc t).priv = some y)
    (ok : PcOk (Function.update s.node s.tail n) s.head s.tail a.queue p ap) :
    Sim (⟨Function.update s.node s.tail n, s.head, s.tail, hm', tm', Function.update s.pc t p⟩ : State T V)
      ⟨a.queue, Function.update a.pc t ap⟩ as := by
  have hn := h.nodup
  have hne : ∀ y ∈ as, y ≠ s.tail := by
    intro y hy hyx
    rw [List.nodup_append] at hn
    exact hn.2.2 y hy s.tail (by simp) hyx
  have hpt : ∀ u y, (s.pc u).priv = some y → y ≠ s.tail := fun u y hy hyt =>
    (h.priv u y hy).2 (by simp [hyt])
  obtain ⟨hd, hh, hp⟩ := h.path
  refine h.mk' t oh ot ⟨hd, hh, path_frame hp ?_⟩ h.nodup ?_ ?_ ?_ ?_ ?_ ?_ ?_ ok
  · intro y hy
    rw [Function.update_of_ne (hne y hy)]
  · intro y hy
    by_cases hyt : y = s.tail
    · rw [hyt, Function.update_self]
      exact hl
    · rw [Function.update_of_ne hyt]
      exact h.alive y hy
  · have hd' := h.data
    rw [List.forall₂_iff_get] at hd' ⊢
    refine ⟨hd'.1, fun i hi hi' => ?_⟩
    rw [Function.update_of_ne (hne _ (List.get_mem as ⟨i, hi⟩))]
    rcases hd'.2 i hi hi' with h1 | ⟨h1, u, h2⟩
    · exact Or.inl h1
    · refine Or.inr ⟨h1, ?_⟩
      by_cases hu : u = t
      · subst hu
        exact Or.inl (htk h2)
      · exact Or.inr ⟨u, hu, h2⟩
  · intro u y hu hy
    rw [Function.update_of_ne (hpt u y hy)]
    exact ⟨(h.priv u y hy).1, (h.priv u y hy).2, fun hpy => hu (h.privInj u t y hy (hpp y hpy))⟩
  · intro y hy
    have hy' := hpp y hy
    rw [Function.update_of_ne (hpt t y hy')]
    exact h.priv t y hy'
  · exact fun _ _ _ => ⟨rfl, fun _ hv => hv⟩
  · intro u hu hut
    rw [h.other_tail hown hu] at hut
    cases hut
  · intro u y hu hy
    rw [Function.update_of_ne (hpt u y hy)]

theorem Sim.step {s : State T V} {a : AState T V} {as : List Addr} (h : Sim s a as)
    {l : Label T V} {s' : State T V} (hs : Step s l s') :
    ∃ a' as', Sim s' a' as' ∧ Follows a l a' := by
  cases hs with
  | callPush t v h1 =>
    have ho := h.ok t
    rw [h1] at ho
    exact ⟨_, as, h.local t (Or.inl ⟨rfl, by rw [h1]; rfl⟩) (Or.inl ⟨rfl, by rw [h1]; rfl⟩)
      (by simp [Pc.priv]) (by simp [h1, Pc.taken]) (show PcOk _ _ _ _ _ (.called (.push v)) from rfl),
      Or.inl (.call t _ ho)⟩
  | callHead t m h1 =>
    have ho := h.ok t
    rw [h1] at ho
    exact ⟨_, as, h.local t (Or.inl ⟨rfl, by rw [h1]; rfl⟩) (Or.inl ⟨rfl, by rw [h1]; rfl⟩)
      (by simp [Pc.priv]) (by simp [h1, Pc.taken]) (show PcOk _ _ _ _ _ (.called m.op) from rfl),
      Or.inl (.call t _ ho)⟩
  | ret t r h1 =>
    have ho := h.ok t
    rw [h1] at ho
    exact ⟨_, as, h.local t (Or.inl ⟨rfl, by rw [h1]; rfl⟩) (Or.inl ⟨rfl, by rw [h1]; rfl⟩)
      (by simp [Pc.priv]) (by simp [h1, Pc.taken]) (show PcOk _ _ _ _ _ .idle from rfl),
      Or.inl (.ret t r ho)⟩
  | pushLock t v x h1 hm =>
    have ho := h.ok t
    rw [h1] at ho
    exact h.silent t (Or.inl ⟨rfl, by rw [h1]; rfl⟩) (Or.inr (Or.inl ⟨hm, rfl, rfl⟩))
      (by simp [h1, Pc.priv]) (by simp [h1, Pc.taken]) ho
  | pushUnlock t h1 =>
    have ho := h.ok t
    rw [h1] at ho
    exact h.silent t (Or.inl ⟨rfl, by rw [h1]; rfl⟩) (Or.inr (Or.inr ⟨by rw [h1]; rfl, rfl, rfl⟩))
      (by simp [Pc.priv]) (by simp [h1, Pc.taken]) ho
  | headLock t m h1 hm =>
    have ho := h.ok t
    rw [h1] at ho
    exact h.silent t (Or.inr (Or.inl ⟨hm, rfl, rfl⟩)) (Or.inl ⟨rfl, by rw [h1]; rfl⟩)
      (by simp [Pc.priv]) (by simp [h1, Pc.taken]) ho
  | tailLock1 t m h1 hm =>
    have ho := h.ok t
    rw [h1] at ho
    exact h.silent t (Or.inl ⟨rfl, by rw [h1]; rfl⟩) (Or.inr (Or.inl ⟨hm, rfl, rfl⟩))
      (by simp [Pc.priv]) (by simp [h1, Pc.taken]) ho
  | tailRead1 t m h1 =>
    have ho := h.ok t
    rw [h1] at ho
    by_cases hq : a.queue = []
    · -- the effect on an empty queue
      have hht := h.head_eq_tail.2 hq
      have happ : ∀ m : Mode, (Op.apply m.op a.queue).1 = a.queue ∧ (Op.apply m.op a.queue).2 = m.none := by
        intro m
        rw [hq]
        cases m <;> exact ⟨rfl, rfl⟩
      refine ⟨_, as, h.local (ap := .took (Op.apply m.op a.queue).2) t (Or.inl ⟨rfl, by rw [h1]; rfl⟩) (Or.inl ⟨rfl, by rw [h1]; rfl⟩)
        (by simp [Pc.priv]) (by simp [h1, Pc.taken]) ?_, Or.inl ?_⟩
      · rw [(happ m).2]
        exact ⟨fun _ => rfl, fun hne => absurd hht hne⟩
      · have := AStep.effect t _ ho
        rw [(happ m).1] at this
        exact this
    · have hht : s.head ≠ some s.tail := fun hh => hq (h.head_eq_tail.1 hh)
      obtain ⟨v, hv⟩ : ∃ v, a.queue.head? = some v := by
        cases hc : a.queue with
        | nil => exact absurd hc hq
        | cons v q => exact ⟨v, rfl⟩
      by_cases hm : m = .isEmpty
      · subst hm
        refine ⟨_, as, h.local (ap := .took (.isEmpty false)) t (Or.inl ⟨rfl, by rw [h1]; rfl⟩) (Or.inl ⟨rfl, by rw [h1]; rfl⟩)
          (by simp [Pc.priv]) (by simp [h1, Pc.taken]) ?_, Or.inl ?_⟩
        · exact ⟨fun hh => absurd hh hht, fun _ => ⟨fun _ => rfl, fun hne => absurd rfl hne⟩⟩
        · have := AStep.effect t _ ho
          have e : a.queue.isEmpty = false := by
            cases hc : a.queue with
            | nil => exact absurd hc hq
            | cons v q => rfl
          simp only [Mode.op, Op.apply, e] at this
          exact this
      · exact h.silent t (Or.inl ⟨rfl, by rw [h1]; rfl⟩) (Or.inl ⟨rfl, by rw [h1]; rfl⟩)
          (by simp [Pc.priv]) (by simp [h1, Pc.taken])
          ⟨fun hh => absurd hh hht, fun _ => ⟨fun hmm => absurd hmm hm, fun _ => ⟨ho, v, hv⟩⟩⟩
  | tailUnlock1 t m tl h1 =>
    have ho := h.ok t
    rw [h1] at ho
    exact h.silent t (Or.inl ⟨rfl, by rw [h1]; rfl⟩) (Or.inr (Or.inr ⟨by rw [h1]; rfl, rfl, rfl⟩))
      (by simp [Pc.priv]) (by simp [h1, Pc.taken]) ho
  | compareEq1 t m tl h1 hc =>
    have ho := h.ok t
    rw [h1] at ho
    exact h.silent t (Or.inl ⟨rfl, by rw [h1]; rfl⟩) (Or.inl ⟨rfl, by rw [h1]; rfl⟩)
      (by simp [Pc.priv]) (by simp [h1, Pc.taken]) (ho.1 hc)
  | compareNeEmpty t tl h1 hc =>
    have ho := h.ok t
    rw [h1] at ho
    exact h.silent t (Or.inl ⟨rfl, by rw [h1]; rfl⟩) (Or.inl ⟨rfl, by rw [h1]; rfl⟩)
      (by simp [Pc.priv]) (by simp [h1, Pc.taken]) ((ho.2 hc).1 rfl)
  | compareNePtr t tl h1 hc =>
    have ho := h.ok t
    rw [h1] at ho
    obtain ⟨h2, v, hv⟩ := (ho.2 hc).2 (by decide)
    exact h.silent t (Or.inl ⟨rfl, by rw [h1]; rfl⟩) (Or.inl ⟨rfl, by rw [h1]; rfl⟩)
      (by simp [Pc.priv]) (by simp [h1, Pc.taken]) ⟨v, hv, h2⟩
  | compareNeRef t tl h1 hc =>
    have ho := h.ok t
    rw [h1] at ho
    exact h.silent t (Or.inl ⟨rfl, by rw [h1]; rfl⟩) (Or.inl ⟨rfl, by rw [h1]; rfl⟩)
      (by simp [Pc.priv]) (by simp [h1, Pc.taken]) ((ho.2 hc).2 (by decide))
  | tailLock2 t o h1 hm =>
    have ho := h.ok t
    rw [h1] at ho
    exact h.silent t (Or.inl ⟨rfl, by rw [h1]; rfl⟩) (Or.inr (Or.inl ⟨hm, rfl, rfl⟩))
      (by simp [Pc.priv]) (by cases o <;> simp [h1, Pc.taken]) ho
  | tailRead2 t o h1 =>
    have ho := h.ok t
    rw [h1] at ho
    have hne : s.head ≠ some s.tail := by
      intro hh
      obtain ⟨v, hv, _⟩ := ho
      rw [h.head_eq_tail.1 hh] at hv
      cases hv
    exact h.silent t (Or.inl ⟨rfl, by rw [h1]; rfl⟩) (Or.inl ⟨rfl, by rw [h1]; rfl⟩)
      (by simp [Pc.priv]) (by cases o <;> simp [h1, Pc.taken]) ⟨ho, hne⟩
  | tailUnlock2 t o tl h1 =>
    have ho := h.ok t
    rw [h1] at ho
    exact h.silent t (Or.inl ⟨rfl, by rw [h1]; rfl⟩) (Or.inr (Or.inr ⟨by rw [h1]; rfl, rfl, rfl⟩))
      (by simp [Pc.priv]) (by cases o <;> simp [h1, Pc.taken]) ho
  | compareEq2 t o tl h1 hc =>
    have ho := h.ok t
    rw [h1] at ho
    exact absurd hc ho.2
  | compareNe2 t o tl h1 hc =>
    have ho := h.ok t
    rw [h1] at ho
    exact h.silent t (Or.inl ⟨rfl, by rw [h1]; rfl⟩) (Or.inl ⟨rfl, by rw [h1]; rfl⟩)
      (by simp [Pc.priv]) (by cases o <;> simp [h1, Pc.taken]) ho.1
  | headUnlock t o x h1 =>
    have ho := h.ok t
    rw [h1] at ho
    exact h.silent t (Or.inr (Or.inr ⟨by rw [h1]; rfl, rfl, rfl⟩)) (Or.inl ⟨rfl, by rw [h1]; rfl⟩)
      (by simp [h1, Pc.priv]) (by simp [h1, Pc.taken]) ho
  | headUnlockNone t r h1 =>
    have ho := h.ok t
    rw [h1] at ho
    exact h.silent t (Or.inr (Or.inr ⟨by rw [h1]; rfl, rfl, rfl⟩)) (Or.inl ⟨rfl, by rw [h1]; rfl⟩)
      (by simp [Pc.priv]) (by simp [h1, Pc.taken]) ho
  | pushAlloc t v x h1 ha =>
    have ho := h.ok t
    rw [h1] at ho
    have hx : x ∉ as ++ [s.tail] := fun hx => by rw [h.alive x hx] at ha; cases ha
    refine ⟨a, as, ?_, Or.inr ⟨rfl, rfl⟩⟩
    rw [← stay a t]
    refine h.dead t (n := ⟨true, .null, none⟩) (Or.inl ⟨rfl, by rw [h1]; rfl⟩)
      (Or.inl ⟨rfl, by rw [h1]; rfl⟩) hx ?_ (by simp [h1, Pc.taken]) ?_ ho
    · intro u hu hux
      rw [(h.priv u x hux).1] at ha
      cases ha
    · intro y hy
      simp only [Pc.priv, Option.some.injEq] at hy
      exact ⟨hy.symm, rfl⟩
  | pushData t v x h1 hl =>
    have ho := h.ok t
    rw [h1] at ho
    have htl : (s.pc t).ownsTail = true := by rw [h1]; rfl
    refine ⟨a, as, ?_, Or.inr ⟨rfl, rfl⟩⟩
    rw [← stay a t]
    exact h.atTail t (n := { s.node s.tail with data := .val v }) (Or.inl ⟨rfl, by rw [h1]; rfl⟩)
      (Or.inl ⟨rfl, by rw [h1]; rfl⟩) htl hl (by simp [h1, Pc.taken]) (by simp [h1, Pc.priv])
      ⟨ho, by rw [Function.update_self]⟩
  | pushNext t v x h1 hl =>
    have ho := h.ok t
    rw [h1] at ho
    have htl : (s.pc t).ownsTail = true := by rw [h1]; rfl
    refine ⟨a, as, ?_, Or.inr ⟨rfl, rfl⟩⟩
    rw [← stay a t]
    exact h.atTail t (n := { s.node s.tail with next := some x }) (Or.inl ⟨rfl, by rw [h1]; rfl⟩)
      (Or.inl ⟨rfl, by rw [h1]; rfl⟩) htl hl (by simp [h1, Pc.taken]) (by simp [h1, Pc.priv])
      ⟨ho.1, by rw [Function.update_self]; exact ho.2, by rw [Function.update_self]⟩
  | pushTail t v x h1 =>
    have ho := h.ok t
    rw [h1] at ho
    obtain ⟨ho, hd, hn⟩ := ho
    have htl : (s.pc t).ownsTail = true := by rw [h1]; rfl
    obtain ⟨hd', hh, hp⟩ := h.path
    have hpx := h.priv t x (by rw [h1]; rfl)
    refine ⟨_, as ++ [s.tail], ?_, Or.inl (.effect t _ ho)⟩
    refine h.mk' t (Or.inl ⟨rfl, by rw [h1]; rfl⟩) (Or.inl ⟨rfl, by rw [h1]; rfl⟩) ?_ ?_ ?_ ?_ ?_ ?_ ?_ ?_ ?_ ?_
    · exact ⟨hd', hh, path_snoc hp hn⟩
    · rw [List.nodup_append]
      refine ⟨h.nodup, by simp, ?_⟩
      intro y hy z hz hyz
      simp only [List.mem_singleton] at hz
      rw [hyz, hz] at hy
      exact hpx.2 hy
    · intro y hy
      rcases List.mem_append.1 hy with hy | hy
      · exact h.alive y hy
      · simp only [List.mem_singleton] at hy
        rw [hy]
        exact hpx.1
    · refine List.rel_append ?_ (.cons (Or.inl hd) .nil)
      refine h.data.imp (fun y w hy => ?_)
      rcases hy with hy | ⟨hy, u, hu⟩
      · exact Or.inl hy
      · refine Or.inr ⟨hy, Or.inr ⟨u, ?_, hu⟩⟩
        rintro rfl
        rw [h1] at hu
        cases hu
    · intro u y hu hy
      have h2 := h.priv u y hy
      refine ⟨h2.1, ?_, by simp [Pc.priv]⟩
      intro hmem
      rcases List.mem_append.1 hmem with hm | hm
      · exact h2.2 hm
      · simp only [List.mem_singleton] at hm
        subst hm
        exact hu (h.privInj u t y hy (by rw [h1]; rfl))
    · intro y hy
      simp [Pc.priv] at hy
    · intro u hu _
      refine ⟨rfl, fun w hw => ?_⟩
      show (a.queue ++ [v]).head? = some w
      cases hq : a.queue with
      | nil => rw [hq] at hw; cases hw
      | cons z q => rw [hq] at hw; exact hw
    · intro u hu hut
      rw [h.other_tail htl hu] at hut
      cases hut
    · intro u y hu hy
      rfl
    · exact rfl
  | move t x v h1 hh hl hd =>
    have ho := h.ok t
    rw [h1] at ho
    obtain ⟨ho, w, hw⟩ := ho
    have hown : (s.pc t).ownsHead = true := by rw [h1]; rfl
    have hut := h.untaken hown (by rw [h1]; rfl)
    obtain ⟨y, b, as', q', rfl, hq, hy, hb, hp, hdy, hrest⟩ := h.first hw
    have hxy : x = y := by rw [hh] at hy; exact Option.some.inj hy
    subst hxy
    have hvw : v = w := by
      rcases hdy with h2 | ⟨u, h2⟩
      · rw [hd] at h2
        exact Slot.val.inj h2
      · rw [hut u] at h2
        cases h2
    subst hvw
    have hn := h.nodup
    rw [List.cons_append, List.nodup_cons] at hn
    have hxt : s.tail ≠ x := fun hx => hn.1 (by simp [hx])
    refine ⟨a, x :: as', ?_, Or.inr ⟨rfl, rfl⟩⟩
    rw [← stay a t]
    refine h.mk' t (Or.inl ⟨rfl, by rw [h1]; rfl⟩) (Or.inl ⟨rfl, by rw [h1]; rfl⟩) ?_ ?_ ?_ ?_ ?_ ?_ ?_ ?_ ?_ ?_
    · refine ⟨x, hh, path_frame (node := s.node) ⟨rfl, b, hb, hp⟩ ?_⟩
      intro z _
      by_cases hz : z = x
      · subst hz; simp [State.set]
      · simp [State.set, hz]
    · exact h.nodup
    · intro z hz
      have := h.alive z hz
      by_cases hzx : z = x
      · subst hzx; simpa [State.set] using this
      · simpa [State.set, hzx] using this
    · rw [hq]
      refine .cons (Or.inr ⟨hh, Or.inl rfl⟩) ?_
      have hall : ∀ z ∈ as', z ≠ x := fun z hz hzx => hn.1 (by simp [← hzx, hz])
      rw [List.forall₂_iff_get] at hrest ⊢
      refine ⟨hrest.1, fun i hi hi' => Or.inl ?_⟩
      rw [← hrest.2 i hi hi']
      show (Function.update s.node x _ (as'.get ⟨i, hi⟩)).data = _
      rw [Function.update_of_ne (hall _ (List.get_mem as' ⟨i, hi⟩))]
    · intro u z hu hz
      have h2 := h.priv u z hz
      have hzx : z ≠ x := fun hzx => h2.2 (by simp [hzx])
      exact ⟨by simpa [State.set, hzx] using h2.1, h2.2, by simp [Pc.priv]⟩
    · intro z hz
      simp [Pc.priv] at hz
    · exact fun u hu _ => ⟨rfl, fun _ hv => hv⟩
    · intro u hu _ _
      refine ⟨rfl, ?_, ?_⟩ <;> simp [State.set, hxt]
    · intro u z hu hz
      have h2 := h.priv u z hz
      have hzx : z ≠ x := fun hzx => h2.2 (by simp [hzx])
      simp [State.set, hzx]
    · exact ⟨v, hw, ho, rfl⟩
  | unlink t o x h1 hh hl =>
    have ho := h.ok t
    rw [h1] at ho
    obtain ⟨v, hv, ho⟩ := ho
    have hown : (s.pc t).ownsHead = true := by rw [h1]; rfl
    obtain ⟨y, b, as', q', rfl, hq, hy, hb, hp, hdy, hrest⟩ := h.first hv
    have hxy : x = y := by rw [hh] at hy; exact Option.some.inj hy
    subst hxy
    have hn := h.nodup
    rw [List.cons_append, List.nodup_cons] at hn
    have hxt : s.tail ≠ x := fun hx => hn.1 (by simp [hx])
    have hall : ∀ z ∈ as', z ≠ x := fun z hz hzx => hn.1 (by simp [← hzx, hz])
    have heff : ∃ op, a.pc t = .called op ∧ op.apply a.queue = (q', .popped (some v)) := by
      rw [hq]
      cases o with
      | none => exact ⟨_, ho, rfl⟩
      | some w => exact ⟨_, ho.1, rfl⟩
    obtain ⟨op, hop, happ⟩ := heff
    refine ⟨_, as', ?_, Or.inl (.effect t op hop)⟩
    rw [happ]
    have hnode : ∀ z, (Function.update s.node x { s.node x with next := none } z).data = (s.node z).data ∧
        (Function.update s.node x { s.node x with next := none } z).alive = (s.node z).alive ∧
        (z ≠ x → Function.update s.node x { s.node x with next := none } z = s.node z) := by
      intro z
      by_cases hz : z = x
      · subst hz; simp
      · simp [hz]
    refine h.mk' t (Or.inl ⟨rfl, by rw [h1]; rfl⟩) (Or.inl ⟨rfl, by rw [h1]; rfl⟩) ?_ ?_ ?_ ?_ ?_ ?_ ?_ ?_ ?_ ?_
    · refine ⟨b, hb, path_frame hp ?_⟩
      intro z hz
      show (Function.update s.node x _ z).next = _
      rw [(hnode z).2.2 (hall z hz)]
    · exact hn.2
    · intro z hz
      show (Function.update s.node x _ z).alive = _
      rw [(hnode z).2.1]
      exact h.alive z (List.mem_cons_of_mem x hz)
    · refine hrest.imp (fun z w hz => Or.inl ?_)
      show (Function.update s.node x _ z).data = _
      rw [(hnode z).1, hz]
    · intro u z hu hz
      have h2 := h.priv u z hz
      have hzx : z ≠ x := fun hzx => h2.2 (by simp [hzx])
      refine ⟨?_, fun hm => h2.2 (List.mem_cons_of_mem x hm), ?_⟩
      · show (Function.update s.node x _ z).alive = _
        rw [(hnode z).2.1]
        exact h2.1
      · simpa [Pc.priv] using Ne.symm hzx
    · intro z hz
      simp only [Pc.priv, Option.some.injEq] at hz
      subst hz
      refine ⟨?_, hn.1⟩
      show (Function.update s.node x _ x).alive = _
      rw [(hnode x).2.1]
      exact hl
    · intro u hu huo
      rw [h.other_head hown hu] at huo
      cases huo
    · intro u hu _ _
      refine ⟨rfl, ?_, ?_⟩
      · exact (hnode _).1
      · show (Function.update s.node x _ s.tail).next = _
        rw [(hnode _).2.2 hxt]
    · intro u z hu hz
      exact (hnode z).1
    · refine ⟨v, rfl, ?_⟩
      cases o with
      | some w => exact Or.inl (by rw [ho.2])
      | none =>
        refine Or.inr ⟨rfl, ?_⟩
        show (Function.update s.node x _ x).data = _
        rw [(hnode x).1]
        have hut := h.untaken hown (by rw [h1]; rfl)
        rcases hdy with h2 | ⟨u, h2⟩
        · exact h2
        · rw [hut u] at h2
          cases h2
  | finishPtr t x v h1 hl hd =>
    have ho := h.ok t
    rw [h1] at ho
    obtain ⟨w, hw, ho'⟩ := ho
    have hpx := h.priv t x (by rw [h1]; rfl)
    refine ⟨a, as, ?_, Or.inr ⟨rfl, rfl⟩⟩
    rw [← stay a t]
    refine h.dead t (n := ⟨false, .null, none⟩) (Or.inl ⟨rfl, by rw [h1]; rfl⟩) (Or.inl ⟨rfl, by rw [h1]; rfl⟩)
      hpx.2 ?_ (by simp [h1, Pc.taken]) (by simp [Pc.priv]) ?_
    · intro u hu hux
      exact hu (h.privInj u t x hux (by rw [h1]; rfl))
    · rcases ho' with ho' | ⟨_, ho'⟩
      · cases ho'
      · rw [hd] at ho'
        rw [hw, ← Slot.val.inj ho']
        rfl
  | finishPtrNull t x h1 hl hd =>
    have ho := h.ok t
    rw [h1] at ho
    obtain ⟨w, hw, ho'⟩ := ho
    rcases ho' with ho' | ⟨_, ho'⟩
    · cases ho'
    · rw [hd] at ho'
      cases ho'
  | finishRef t x v h1 hl =>
    have ho := h.ok t
    rw [h1] at ho
    obtain ⟨w, hw, ho'⟩ := ho
    have hpx := h.priv t x (by rw [h1]; rfl)
    refine ⟨a, as, ?_, Or.inr ⟨rfl, rfl⟩⟩
    rw [← stay a t]
    refine h.dead t (n := ⟨false, .null, none⟩) (Or.inl ⟨rfl, by rw [h1]; rfl⟩) (Or.inl ⟨rfl, by rw [h1]; rfl⟩)
      hpx.2 ?_ (by simp [h1, Pc.taken]) (by simp [Pc.priv]) ?_
    · intro u hu hux
      exact hu (h.privInj u t x hux (by rw [h1]; rfl))
    · rcases ho' with ho' | ⟨ho', _⟩
      · rw [hw, ← Option.some.inj ho']
        rfl
      · cases ho'

theorem Sim.initial (x : Addr) :
    Sim (State.initial x : State T V) { queue := [], pc := fun _ => .idle } [] := by
  refine ⟨fun t => ?_, fun t => ?_, ⟨x, rfl, rfl⟩, by simp, ?_, .nil, ?_, ?_, fun t => rfl⟩
  · simp [State.initial, Pc.ownsHead]
  · simp [State.initial, Pc.ownsTail]
  · simp [State.initial]
  · intro t y hy
    simp [State.initial, Pc.priv] at hy
  · intro t u y hy
    simp [State.initial, Pc.priv] at hy

end EG.Queue
