import Verif.Spec.Collections
import Mathlib.Tactic.Ring
import Mathlib.Data.List.Nodup
import Mathlib.Data.Finset.Card
import Mathlib.Order.Interval.Finset.Nat

/-!
# The representation of a sequence by a doubly linked list
-/

namespace EG.CList

/-- A node address with its key and value pointers. -/
abbrev Item := Addr × Addr × Addr

/-- The addresses an item owns. -/
def Item.cells (x : Item) : List Addr := x.1 :: [x.2.1, x.2.2].filter (· ≠ 0)

def cells (xs : List Item) : List Addr := xs.flatMap Item.cells

def nextOf (xs : List Item) (nx : Addr) : Addr :=
  match xs with
  | [] => nx
  | x :: _ => x.1

def lastOf (p : Addr) (xs : List Item) : Addr :=
  match xs with
  | [] => p
  | x :: rest => lastOf x.1 rest

/-- The nodes of `xs` are linked in both directions, between `p` and `nx`. -/
def Chain (h : Heap) : Addr → List Item → Addr → Prop
  | _, [], _ => True
  | p, x :: rest, nx =>
    h x.1 = some (.node ⟨x.2.1, x.2.2, p, nextOf rest nx⟩) ∧ Chain h x.1 rest nx

theorem cells_append (xs ys : List Item) : cells (xs ++ ys) = cells xs ++ cells ys := by
  simp [cells]

theorem nextOf_append (xs ys : List Item) (nx : Addr) :
    nextOf (xs ++ ys) nx = nextOf xs (nextOf ys nx) := by
  cases xs <;> rfl

theorem lastOf_append (p : Addr) (xs ys : List Item) :
    lastOf p (xs ++ ys) = lastOf (lastOf p xs) ys := by
  induction xs generalizing p with
  | nil => rfl
  | cons x xs ih => exact ih x.1

theorem chain_append (h : Heap) (p : Addr) (xs ys : List Item) (nx : Addr) :
    Chain h p (xs ++ ys) nx ↔ Chain h p xs (nextOf ys nx) ∧ Chain h (lastOf p xs) ys nx := by
  induction xs generalizing p with
  | nil => simp [Chain, lastOf]
  | cons x xs ih =>
    simp only [List.cons_append, Chain, nextOf_append, lastOf, ih x.1]
    tauto

theorem chain_congr {h h' : Heap} (p : Addr) (xs : List Item) (nx : Addr)
    (he : ∀ a ∈ cells xs, h' a = h a) (hc : Chain h p xs nx) : Chain h' p xs nx := by
  induction xs generalizing p with
  | nil => trivial
  | cons x xs ih =>
    refine ⟨?_, ih x.1 (fun a ha => he a ?_) hc.2⟩
    · rw [he x.1 (by simp [cells, Item.cells])]
      exact hc.1
    · simp only [cells, List.flatMap_cons, List.mem_append] at ha ⊢
      exact Or.inr ha

/-- The state `m`, `l` represents `es` with the nodes `xs`; the rest of the heap is as in `h0`. -/
structure Rep (h0 : Heap) (m : Mem) (l : LList) (xs : List Item) (es : List Entry) : Prop where
  chain : Chain m.heap 0 xs 0
  head : l.head = nextOf xs 0
  tail : l.tail = lastOf 0 xs
  count : l.count = xs.length
  nodup : (cells xs).Nodup
  pos : ∀ a ∈ cells xs, a ≠ 0
  bound : ∀ a ∈ cells xs, a < 2 ^ 64
  content : List.Forall₂ (fun x e => StrAt m x.2.1 e.1 ∧ StrAt m x.2.2 e.2) xs es
  frame : ∀ b, b ∉ cells xs → m.heap b = h0 b
  unused : ∀ b ∈ cells xs, h0 b = none

theorem length_le_cells (xs : List Item) : xs.length ≤ (cells xs).length := by
  induction xs with
  | nil => simp [cells]
  | cons x xs ih =>
    simp only [cells, List.flatMap_cons, List.length_append, List.length_cons] at ih ⊢
    have : 1 ≤ (Item.cells x).length := by simp [Item.cells]
    omega

theorem nodup_bound (l : List ℕ) (n : ℕ) (hn : l.Nodup) (h0 : ∀ a ∈ l, a ≠ 0) (hb : ∀ a ∈ l, a < n) :
    l.length < n ∨ l = [] := by
  rcases l with _ | ⟨x, l⟩
  · exact Or.inr rfl
  · left
    have hsub : (x :: l).toFinset ⊆ (Finset.Ico 1 n) := by
      intro a ha
      simp only [List.mem_toFinset] at ha
      simp only [Finset.mem_Ico]
      exact ⟨Nat.pos_of_ne_zero (h0 a ha), hb a ha⟩
    have hc := Finset.card_le_card hsub
    rw [List.toFinset_card_of_nodup hn, Nat.card_Ico] at hc
    have := hb x (by simp)
    omega

theorem Rep.length_lt {h0 m l xs es} (r : Rep h0 m l xs es) : xs.length < 2 ^ 64 := by
  have h1 := length_le_cells xs
  rcases nodup_bound _ _ r.nodup r.pos r.bound with h | h
  · omega
  · rw [h] at h1
    simp at h1
    simp [h1]

theorem rep_new (m : Mem) : Rep m.heap m new [] [] where
  chain := trivial
  head := rfl
  tail := rfl
  count := rfl
  nodup := by simp [cells]
  pos := by simp [cells]
  bound := by simp [cells]
  content := .nil
  frame := fun _ _ => rfl
  unused := by simp [cells]

theorem strAt_cell {m : Mem} {a : Addr} {o : Option (List Char)} (h : StrAt m a o) :
    (a = 0 ∧ o = none) ∨ (∃ s, a ≠ 0 ∧ o = some s ∧ m.heap a = some (.str s)) := by
  cases o with
  | none => exact Or.inl ⟨h, rfl⟩
  | some s =>
    right
    refine ⟨s, ?_⟩
    simp only [StrAt, readStr] at h
    by_cases h0 : a = 0
    · simp [h0] at h
    · simp only [h0, if_false] at h
      cases hc : m.heap a with
      | none => simp [hc] at h
      | some c =>
        cases c with
        | str t => simp [hc] at h; simp [h0, h]
        | raw => simp [hc] at h
        | node n => simp [hc] at h

theorem strAt_none (m : Mem) : StrAt m 0 none := rfl

theorem strAt_some {m : Mem} {a : Addr} {s : List Char} (h0 : a ≠ 0)
    (h : m.heap a = some (.str s)) : StrAt m a (some s) := by
  simp [StrAt, readStr, h0, h]

theorem strAt_congr {m m' : Mem} {a : Addr} {o : Option (List Char)} (h : StrAt m a o)
    (he : a ≠ 0 → m'.heap a = m.heap a) : StrAt m' a o := by
  rcases strAt_cell h with ⟨rfl, rfl⟩ | ⟨s, h1, rfl, h2⟩
  · rfl
  · exact strAt_some h1 (by rw [he h1, h2])

theorem mem_cells_fst {xs : List Item} {x : Item} (h : x ∈ xs) : x.1 ∈ cells xs :=
  List.mem_flatMap.2 ⟨x, h, by simp [Item.cells]⟩

theorem mem_cells_key {xs : List Item} {x : Item} (h : x ∈ xs) (h0 : x.2.1 ≠ 0) :
    x.2.1 ∈ cells xs := List.mem_flatMap.2 ⟨x, h, by simp [Item.cells, h0]⟩

theorem mem_cells_value {xs : List Item} {x : Item} (h : x ∈ xs) (h0 : x.2.2 ≠ 0) :
    x.2.2 ∈ cells xs := List.mem_flatMap.2 ⟨x, h, by simp [Item.cells, h0]⟩

theorem content_congr {m m' : Mem} {xs : List Item} {es : List Entry}
    (he : ∀ a s, a ∈ cells xs → m.heap a = some (.str s) → m'.heap a = m.heap a)
    (h : List.Forall₂ (fun x e => StrAt m x.2.1 e.1 ∧ StrAt m x.2.2 e.2) xs es) :
    List.Forall₂ (fun x e => StrAt m' x.2.1 e.1 ∧ StrAt m' x.2.2 e.2) xs es := by
  have hmem : ∀ (l : List Item) (es : List Entry),
      List.Forall₂ (fun x e => StrAt m x.2.1 e.1 ∧ StrAt m x.2.2 e.2) l es → (∀ x ∈ l, x ∈ xs) →
      List.Forall₂ (fun x e => StrAt m' x.2.1 e.1 ∧ StrAt m' x.2.2 e.2) l es := by
    intro l es hf
    induction hf with
    | nil => intro; exact .nil
    | @cons x e l es hx _ ih =>
      intro hsub
      have hxm := hsub x (by simp)
      refine .cons ⟨?_, ?_⟩ (ih (fun y hy => hsub y (by simp [hy])))
      · rcases strAt_cell hx.1 with ⟨h1, h2⟩ | ⟨s, h1, h2, h3⟩
        · rw [h1, h2]; exact strAt_none _
        · rw [h2]; exact strAt_some h1 (by rw [he _ s (mem_cells_key hxm h1) h3, h3])
      · rcases strAt_cell hx.2 with ⟨h1, h2⟩ | ⟨s, h1, h2, h3⟩
        · rw [h1, h2]; exact strAt_none _
        · rw [h2]; exact strAt_some h1 (by rw [he _ s (mem_cells_value hxm h1) h3, h3])
  exact hmem xs es h (fun _ h => h)

theorem chain_mem {h : Heap} {p nx : Addr} {xs : List Item} (hc : Chain h p xs nx) {x : Item}
    (hx : x ∈ xs) : ∃ n, h x.1 = some (.node n) := by
  induction xs generalizing p with
  | nil => simp at hx
  | cons y ys ih =>
    rcases List.mem_cons.1 hx with rfl | hx
    · exact ⟨_, hc.1⟩
    · exact ih hc.2 hx

theorem forall₂_mem_left' {α β : Type} {R : α → β → Prop} {l : List α} {l' : List β}
    (h : List.Forall₂ R l l') {x : α} (hx : x ∈ l) : ∃ y, R x y := by
  induction h with
  | nil => simp at hx
  | cons hr _ ih =>
    rcases List.mem_cons.1 hx with rfl | hx
    · exact ⟨_, hr⟩
    · exact ih hx

/-- Every owned address carries an object. -/
theorem Rep.cell_some {h0 m l xs es} (r : Rep h0 m l xs es) {a : Addr} (ha : a ∈ cells xs) :
    ∃ c, m.heap a = some c := by
  obtain ⟨x, hx, hax⟩ := List.mem_flatMap.1 ha
  obtain ⟨e, he⟩ := forall₂_mem_left' r.content hx
  simp only [Item.cells, List.mem_cons, List.mem_filter, List.not_mem_nil, or_false] at hax
  rcases hax with rfl | ⟨rfl | rfl, h0'⟩
  · obtain ⟨n, hn⟩ := chain_mem r.chain hx
    exact ⟨_, hn⟩
  · rcases strAt_cell he.1 with ⟨h1, _⟩ | ⟨s, _, _, h⟩
    · simp [h1] at h0'
    · exact ⟨_, h⟩
  · rcases strAt_cell he.2 with ⟨h1, _⟩ | ⟨s, _, _, h⟩
    · simp [h1] at h0'
    · exact ⟨_, h⟩

/-! ## Appending -/

/-- What `malloc` does, in terms of the heap. -/
theorem malloc_spec (A : Malloc) (m : Mem) (c : Cell) :
    ((malloc A m c).1 = 0 ∧ (malloc A m c).2.heap = m.heap) ∨
    ((malloc A m c).1 ≠ 0 ∧ (malloc A m c).1 < 2 ^ 64 ∧ m.heap (malloc A m c).1 = none ∧
      (malloc A m c).2.heap = Function.update m.heap (malloc A m c).1 (some c)) := by
  by_cases h : A.pick m.time m.heap = 0
  · left; simp [malloc, h]
  · right
    refine ⟨h, A.bound _ _, A.fresh _ _ h, ?_⟩
    simp [malloc, h]

/-- The heap of the new node before it is linked. -/
theorem fresh_node (A : Malloc) (m : Mem) (key value : List Char)
    (ha : (malloc A m .raw).1 ≠ 0) :
    ∃ a k v m3, a = (malloc A m .raw).1 ∧ k = (strdup A (malloc A m .raw).2 key).1 ∧
      v = (strdup A (strdup A (malloc A m .raw).2 key).2 value).1 ∧
      m3 = ((strdup A (strdup A (malloc A m .raw).2 key).2 value).2.set a
        (.node ⟨k, v, 0, 0⟩)) ∧ a < 2 ^ 64 ∧ m.heap a = none ∧
      (k = 0 ∨ (k ≠ a ∧ k < 2 ^ 64 ∧ m.heap k = none ∧ m3.heap k = some (.str key))) ∧
      (v = 0 ∨ (v ≠ a ∧ v ≠ k ∧ v < 2 ^ 64 ∧ m.heap v = none ∧ m3.heap v = some (.str value))) ∧
      m3.heap a = some (.node ⟨k, v, 0, 0⟩) ∧
      (∀ b, b ≠ a → (b ≠ k ∨ k = 0) → (b ≠ v ∨ v = 0) → m3.heap b = m.heap b) := by
  refine ⟨_, _, _, _, rfl, rfl, rfl, rfl, ?_⟩
  generalize hr : malloc A m .raw = r at ha ⊢
  have h1 := malloc_spec A m .raw
  rw [hr] at h1
  rcases h1 with ⟨h, _⟩ | ⟨_, hb1, hf1, hh1⟩
  · exact absurd h ha
  generalize hk : strdup A r.2 key = k
  have h2 := malloc_spec A r.2 (.str key)
  rw [show malloc A r.2 (.str key) = k from hk] at h2
  generalize hv : strdup A k.2 value = v
  have h3 := malloc_spec A k.2 (.str value)
  rw [show malloc A k.2 (.str value) = v from hv] at h3
  have hset : ∀ (m : Mem) a c, (m.set a c).heap = Function.update m.heap a (some c) := fun _ _ _ => rfl
  simp only [hset]
  refine ⟨hb1, hf1, ?_⟩
  have hkf : k.1 = 0 ∨ (k.1 ≠ r.1 ∧ k.1 < 2 ^ 64 ∧ m.heap k.1 = none) := by
    rcases h2 with ⟨h, _⟩ | ⟨_, hb, hf, _⟩
    · exact Or.inl h
    · right
      rw [hh1] at hf
      have hne : k.1 ≠ r.1 := by
        intro he
        rw [he, Function.update_self] at hf
        cases hf
      rw [Function.update_of_ne hne] at hf
      exact ⟨hne, hb, hf⟩
  have hvf : v.1 = 0 ∨ (v.1 ≠ r.1 ∧ v.1 ≠ k.1 ∧ v.1 < 2 ^ 64 ∧ m.heap v.1 = none) := by
    rcases h3 with ⟨h, _⟩ | ⟨hv0, hb, hf, _⟩
    · exact Or.inl h
    · right
      have hfr : v.1 ≠ k.1 ∧ r.2.heap v.1 = none := by
        rcases h2 with ⟨hk0, h⟩ | ⟨_, _, _, h⟩
        · rw [h] at hf
          exact ⟨by rw [hk0]; exact hv0, hf⟩
        · rw [h] at hf
          have hne : v.1 ≠ k.1 := by
            intro he
            rw [he, Function.update_self] at hf
            cases hf
          rw [Function.update_of_ne hne] at hf
          exact ⟨hne, hf⟩
      have hne : v.1 ≠ r.1 := by
        intro he
        have := hfr.2
        rw [he, hh1, Function.update_self] at this
        cases this
      have := hfr.2
      rw [hh1, Function.update_of_ne hne] at this
      exact ⟨hne, hfr.1, hb, this⟩
  have hkh : k.1 ≠ 0 → k.2.heap = Function.update r.2.heap k.1 (some (.str key)) := by
    intro h0
    rcases h2 with ⟨h, _⟩ | ⟨_, _, _, h⟩
    · exact absurd h h0
    · exact h
  have hkh0 : k.1 = 0 → k.2.heap = r.2.heap := by
    intro h0
    rcases h2 with ⟨_, h⟩ | ⟨h, _⟩
    · exact h
    · exact absurd h0 h
  have hvh : v.1 ≠ 0 → v.2.heap = Function.update k.2.heap v.1 (some (.str value)) := by
    intro h0
    rcases h3 with ⟨h, _⟩ | ⟨_, _, _, h⟩
    · exact absurd h h0
    · exact h
  have hvh0 : v.1 = 0 → v.2.heap = k.2.heap := by
    intro h0
    rcases h3 with ⟨_, h⟩ | ⟨h, _⟩
    · exact h
    · exact absurd h0 h
  refine ⟨?_, ?_, by simp, ?_⟩
  · by_cases hk0 : k.1 = 0
    · exact Or.inl hk0
    · right
      obtain ⟨e1, e2, e3⟩ := hkf.resolve_left hk0
      refine ⟨e1, e2, e3, ?_⟩
      rw [Function.update_of_ne e1]
      by_cases hv0 : v.1 = 0
      · rw [hvh0 hv0, hkh hk0, Function.update_self]
      · rw [hvh hv0, Function.update_of_ne (Ne.symm (hvf.resolve_left hv0).2.1), hkh hk0,
          Function.update_self]
  · by_cases hv0 : v.1 = 0
    · exact Or.inl hv0
    · right
      obtain ⟨e1, e2, e3, e4⟩ := hvf.resolve_left hv0
      refine ⟨e1, e2, e3, e4, ?_⟩
      rw [Function.update_of_ne e1, hvh hv0, Function.update_self]
  · intro b hba hbk hbv
    rw [Function.update_of_ne hba]
    have hv' : v.2.heap b = k.2.heap b := by
      by_cases hv0 : v.1 = 0
      · rw [hvh0 hv0]
      · rw [hvh hv0, Function.update_of_ne (hbv.resolve_right hv0)]
    have hk' : k.2.heap b = r.2.heap b := by
      by_cases hk0 : k.1 = 0
      · rw [hkh0 hk0]
      · rw [hkh hk0, Function.update_of_ne (hbk.resolve_right hk0)]
    rw [hv', hk', hh1, Function.update_of_ne hba]

theorem readNode_of {m : Mem} {a : Addr} {n : Node} (h0 : a ≠ 0) (h : m.heap a = some (.node n)) :
    readNode m a = .ok n := by
  simp [readNode, h0, h]

theorem link_spec (m : Mem) (tail a : Addr) (k v : Addr) (nt : Node) (h0 : a ≠ 0)
    (ha : m.heap a = some (.node ⟨k, v, 0, 0⟩))
    (ht : tail ≠ 0 → tail ≠ a ∧ m.heap tail = some (.node nt)) :
    ∃ m', link m tail a = .ok m' ∧ m'.heap a = some (.node ⟨k, v, tail, 0⟩) ∧
      (tail ≠ 0 → m'.heap tail = some (.node { nt with next := a })) ∧
      (∀ b, b ≠ a → (b ≠ tail ∨ tail = 0) → m'.heap b = m.heap b) := by
  by_cases h : tail = 0
  · subst h
    exact ⟨m, by simp [link], ha, fun h => absurd rfl h, fun _ _ _ => rfl⟩
  · obtain ⟨hta, htn⟩ := ht h
    have h1 : readNode m a = .ok ⟨k, v, 0, 0⟩ := readNode_of h0 ha
    have h2 : readNode (m.set a (.node ⟨k, v, tail, 0⟩)) tail = .ok nt :=
      readNode_of h (by simp [Mem.set, hta, htn])
    refine ⟨(m.set a (.node ⟨k, v, tail, 0⟩)).set tail (.node { nt with next := a }), ?_, ?_, ?_, ?_⟩
    · simp only [link, ne_eq, h, not_false_eq_true, if_true, h1, h2, Res.bind_ok]
    · simp [Mem.set, Ne.symm hta]
    · intro _
      simp [Mem.set]
    · intro b hb1 hb2
      simp [Mem.set, hb1, hb2.resolve_right h]

theorem Rep.tail_node {h0 m l xs es} (r : Rep h0 m l xs es) (h : l.tail ≠ 0) :
    ∃ ys y, xs = ys ++ [y] ∧ l.tail = y.1 ∧ Chain m.heap 0 ys y.1 ∧
      m.heap y.1 = some (.node ⟨y.2.1, y.2.2, lastOf 0 ys, 0⟩) := by
  rcases List.eq_nil_or_concat xs with rfl | ⟨ys, y, rfl⟩
  · exact absurd r.tail h
  · have hc := r.chain
    have ht := r.tail
    simp only [List.concat_eq_append] at hc ht ⊢
    rw [chain_append] at hc
    rw [lastOf_append] at ht
    exact ⟨ys, y, rfl, ht, hc.1, hc.2.1⟩

theorem cells_single (a k v : Addr) (b : Addr) :
    b ∈ cells [(a, k, v)] ↔ b = a ∨ (b = k ∧ k ≠ 0) ∨ (b = v ∧ v ≠ 0) := by
  have hnew : cells [(a, k, v)] = a :: [k, v].filter (· ≠ 0) := by simp [cells, Item.cells]
  rw [hnew]
  simp only [List.mem_cons, List.mem_filter, List.not_mem_nil, or_false, decide_eq_true_eq]
  constructor
  · rintro (h | ⟨rfl | rfl, h⟩) <;> simp_all
  · rintro (h | ⟨rfl, h⟩ | ⟨rfl, h⟩) <;> simp_all

theorem nodup_single (a k v : Addr) (hk : k = 0 ∨ k ≠ a) (hv : v = 0 ∨ (v ≠ a ∧ v ≠ k)) :
    (cells [(a, k, v)]).Nodup := by
  have hnew : cells [(a, k, v)] = a :: [k, v].filter (· ≠ 0) := by simp [cells, Item.cells]
  rw [hnew]
  by_cases hk0 : k = 0 <;> by_cases hv0 : v = 0
  · simp [hk0, hv0]
  · have := hv.resolve_left hv0
    simp [hk0, hv0, Ne.symm this.1]
  · have := hk.resolve_left hk0
    simp [hk0, hv0, Ne.symm this]
  · have h1 := hk.resolve_left hk0
    have h2 := hv.resolve_left hv0
    simp [hk0, hv0, Ne.symm h1, Ne.symm h2.1, Ne.symm h2.2]

theorem append_rep (A : Malloc) {h0 m l xs es} (r : Rep h0 m l xs es) (key value : List Char) :
    ∃ st l' m', append A m l key value = .ok (st, l', m') ∧
      ((st = .badAlloc ∧ Rep h0 m' l' xs es ∧ A.pick m.time m.heap = 0) ∨
        (st = .success ∧ ∃ x e, Rep h0 m' l' (xs ++ [x]) (es ++ [e]) ∧
          (e.1 = none ∨ e.1 = some key) ∧ (e.2 = none ∨ e.2 = some value))) := by
  by_cases ha : (malloc A m .raw).1 = 0
  · refine ⟨.badAlloc, l, (malloc A m .raw).2, by simp [append, ha], Or.inl ⟨rfl, ?_, ha⟩⟩
    have hh : (malloc A m .raw).2.heap = m.heap := by
      rcases malloc_spec A m .raw with ⟨_, h⟩ | ⟨h, _⟩
      · exact h
      · exact absurd ha h
    refine ⟨by rw [hh]; exact r.chain, r.head, r.tail, r.count, r.nodup, r.pos, r.bound,
      content_congr (fun a s _ _ => by rw [hh]) r.content, by rw [hh]; exact r.frame, r.unused⟩
  · obtain ⟨a, k, v, m3, ea, ek, ev, em, hab, han, hk, hv, h3a, h3⟩ := fresh_node A m key value ha
    have ha0 : a ≠ 0 := by rw [ea]; exact ha
    -- no owned address is one of the new ones
    have hold : ∀ b ∈ cells xs, b ≠ a ∧ (b ≠ k ∨ k = 0) ∧ (b ≠ v ∨ v = 0) := by
      intro b hb
      obtain ⟨c, hc⟩ := r.cell_some hb
      refine ⟨?_, ?_, ?_⟩
      · rintro rfl; rw [han] at hc; cases hc
      · rcases hk with h | ⟨_, _, h, _⟩
        · exact Or.inr h
        · left; rintro rfl; rw [h] at hc; cases hc
      · rcases hv with h | ⟨_, _, _, h, _⟩
        · exact Or.inr h
        · left; rintro rfl; rw [h] at hc; cases hc
    have h3old : ∀ b ∈ cells xs, m3.heap b = m.heap b := fun b hb =>
      h3 b (hold b hb).1 (hold b hb).2.1 (hold b hb).2.2
    obtain ⟨nt, hnt⟩ : ∃ nt, l.tail ≠ 0 → l.tail ≠ a ∧ m3.heap l.tail = some (.node nt) := by
      by_cases h : l.tail = 0
      · exact ⟨⟨0, 0, 0, 0⟩, fun h' => absurd h h'⟩
      · obtain ⟨ys, y, rfl, hty, _, hyn⟩ := r.tail_node h
        have hy : y.1 ∈ cells (ys ++ [y]) := mem_cells_fst (by simp)
        exact ⟨_, fun _ => ⟨by rw [hty]; exact (hold _ hy).1, by rw [hty, h3old _ hy]; exact hyn⟩⟩
    obtain ⟨m', hl, h4a, h4t, h4⟩ := link_spec m3 l.tail a k v nt ha0 h3a hnt
    have hrun : append A m l key value = .ok (.success,
        { count := (l.count + 1) % 2 ^ 64, head := if l.head = 0 then a else l.head, tail := a },
        m') := by
      simp only [append, ← ea, ha0, if_false, ← ek, ← ev, ← em, hl, Res.bind_ok]
    -- the strings
    have htk : k ≠ 0 → l.tail ≠ 0 → k ≠ l.tail := by
      intro hk0 ht0 he
      have h1 := (hnt ht0).2
      rw [← he, (hk.resolve_left hk0).2.2.2] at h1
      cases h1
    have htv : v ≠ 0 → l.tail ≠ 0 → v ≠ l.tail := by
      intro hv0 ht0 he
      have h1 := (hnt ht0).2
      rw [← he, (hv.resolve_left hv0).2.2.2.2] at h1
      cases h1
    have hsk : ∃ o, StrAt m' k o ∧ (o = none ∨ o = some key) := by
      by_cases hk0 : k = 0
      · exact ⟨none, hk0, Or.inl rfl⟩
      · refine ⟨some key, strAt_some hk0 ?_, Or.inr rfl⟩
        rw [h4 k (hk.resolve_left hk0).1 ?_, (hk.resolve_left hk0).2.2.2]
        by_cases ht0 : l.tail = 0
        · exact Or.inr ht0
        · exact Or.inl (htk hk0 ht0)
    have hsv : ∃ o, StrAt m' v o ∧ (o = none ∨ o = some value) := by
      by_cases hv0 : v = 0
      · exact ⟨none, hv0, Or.inl rfl⟩
      · refine ⟨some value, strAt_some hv0 ?_, Or.inr rfl⟩
        rw [h4 v (hv.resolve_left hv0).1 ?_, (hv.resolve_left hv0).2.2.2.2]
        by_cases ht0 : l.tail = 0
        · exact Or.inr ht0
        · exact Or.inl (htv hv0 ht0)
    obtain ⟨ok, hok1, hok2⟩ := hsk
    obtain ⟨ov, hov1, hov2⟩ := hsv
    have hmemnew := cells_single a k v
    have hnd3 : (cells (xs ++ [(a, k, v)])).Nodup := by
      rw [cells_append, List.nodup_append']
      refine ⟨r.nodup, nodup_single a k v (hk.imp_right (·.1)) (hv.imp_right (fun h => ⟨h.1, h.2.1⟩)), ?_⟩
      intro b hb hb'
      rw [hmemnew] at hb'
      obtain ⟨e1, e2, e3⟩ := hold b hb
      rcases hb' with h | ⟨h, h'⟩ | ⟨h, h'⟩
      · exact e1 h
      · exact (e2.resolve_right h') h
      · exact (e3.resolve_right h') h
    have hpos3 : ∀ b ∈ cells (xs ++ [(a, k, v)]), b ≠ 0 := by
      intro b hb
      rw [cells_append] at hb
      rcases List.mem_append.1 hb with hb | hb
      · exact r.pos b hb
      · rw [hmemnew] at hb
        rcases hb with rfl | ⟨rfl, h⟩ | ⟨rfl, h⟩ <;> assumption
    have hbd3 : ∀ b ∈ cells (xs ++ [(a, k, v)]), b < 2 ^ 64 := by
      intro b hb
      rw [cells_append] at hb
      rcases List.mem_append.1 hb with hb | hb
      · exact r.bound b hb
      · rw [hmemnew] at hb
        rcases hb with rfl | ⟨rfl, h⟩ | ⟨rfl, h⟩
        · exact hab
        · exact (hk.resolve_left h).2.1
        · exact (hv.resolve_left h).2.2.1
    have hlen : (xs ++ [(a, k, v)]).length < 2 ^ 64 := by
      have h1 := length_le_cells (xs ++ [(a, k, v)])
      rcases nodup_bound _ _ hnd3 hpos3 hbd3 with h | h
      · exact lt_of_le_of_lt h1 h
      · rw [h] at h1
        simp at h1
    refine ⟨_, _, _, hrun, Or.inr ⟨rfl, (a, k, v), (ok, ov), ?_, hok2, hov2⟩⟩
    · constructor
      · rw [chain_append]
        refine ⟨?_, ?_, trivial⟩
        · rcases List.eq_nil_or_concat xs with rfl | ⟨ys, y, rfl⟩
          · trivial
          · simp only [List.concat_eq_append] at *
            have hc := r.chain
            rw [chain_append] at hc
            have hty : l.tail = y.1 := by rw [r.tail, lastOf_append]; rfl
            have hy : y.1 ∈ cells (ys ++ [y]) := mem_cells_fst (by simp)
            have hy0 : l.tail ≠ 0 := by rw [hty]; exact r.pos _ hy
            have hnd := r.nodup
            rw [cells_append, List.nodup_append'] at hnd
            rw [chain_append]
            refine ⟨chain_congr _ _ _ (fun b hb => ?_) hc.1, ?_, trivial⟩
            · have hb' : b ∈ cells (ys ++ [y]) := by rw [cells_append]; simp [hb]
              rw [h4 b (hold b hb').1 ?_, h3old b hb']
              left
              rw [hty]
              rintro rfl
              exact hnd.2.2 hb (mem_cells_fst (by simp))
            · have h5 := (hnt hy0).2
              rw [hty, h3old _ hy, hc.2.1] at h5
              have h6 := h4t hy0
              rw [hty] at h6
              simp only [Option.some.injEq, Cell.node.injEq] at h5
              rw [h6, ← h5]
              rfl
        · rw [← r.tail]
          exact h4a
      · show (if l.head = 0 then a else l.head) = _
        rw [nextOf_append, r.head]
        rcases xs with _ | ⟨y, ys⟩
        · rfl
        · rw [if_neg]
          · rfl
          · exact r.pos _ (mem_cells_fst (x := y) (by simp))
      · show a = _
        rw [lastOf_append]
        rfl
      · show (l.count + 1) % 2 ^ 64 = _
        rw [List.length_append, List.length_singleton] at hlen ⊢
        rw [r.count, Nat.mod_eq_of_lt hlen]
      · exact hnd3
      · exact hpos3
      · exact hbd3
      · refine List.rel_append (content_congr (fun b s hb hs => ?_) r.content)
          (.cons ⟨hok1, hov1⟩ .nil)
        rw [h4 b (hold b hb).1 ?_, h3old b hb]
        by_cases ht0 : l.tail = 0
        · exact Or.inr ht0
        · left
          rintro rfl
          have h5 := (hnt ht0).2
          rw [h3old _ hb, hs] at h5
          cases h5
      · intro b hb
        have hb1 : b ∉ cells xs := fun h => hb (by rw [cells_append]; exact List.mem_append_left _ h)
        have hb' : ¬ (b = a ∨ (b = k ∧ k ≠ 0) ∨ (b = v ∧ v ≠ 0)) := fun h =>
          hb (by rw [cells_append]; exact List.mem_append_right _ ((hmemnew b).2 h))
        have hb2 : b ≠ a := fun h => hb' (Or.inl h)
        rw [h4 b hb2 ?_, h3 b hb2 ?_ ?_, r.frame b hb1]
        · by_cases h : k = 0
          · exact Or.inr h
          · exact Or.inl (fun h' => hb' (Or.inr (Or.inl ⟨h', h⟩)))
        · by_cases h : v = 0
          · exact Or.inr h
          · exact Or.inl (fun h' => hb' (Or.inr (Or.inr ⟨h', h⟩)))
        · by_cases ht0 : l.tail = 0
          · exact Or.inr ht0
          · left
            obtain ⟨ys, y, rfl, hty, _, _⟩ := r.tail_node ht0
            rw [hty]
            rintro rfl
            exact hb1 (mem_cells_fst (by simp))
      · intro b hb
        rw [cells_append, List.mem_append, hmemnew] at hb
        rcases hb with hb | hb
        · exact r.unused b hb
        · have hb1 : b ∉ cells xs := by
            intro h
            obtain ⟨e1, e2, e3⟩ := hold b h
            rcases hb with h | ⟨h, h'⟩ | ⟨h, h'⟩
            · exact e1 h
            · exact (e2.resolve_right h') h
            · exact (e3.resolve_right h') h
          rw [← r.frame b hb1]
          rcases hb with rfl | ⟨rfl, h⟩ | ⟨rfl, h⟩
          · exact han
          · exact (hk.resolve_left h).2.2.1
          · exact (hv.resolve_left h).2.2.2.1

/-! ## Deleting -/

theorem free_of {m : Mem} {a : Addr} {c : Cell} (h : a ≠ 0 → m.heap a = some c) :
    ∃ m', free m a = .ok m' ∧ (a ≠ 0 → m'.heap a = none) ∧ (∀ b, b ≠ a ∨ a = 0 → m'.heap b = m.heap b) := by
  by_cases h0 : a = 0
  · exact ⟨m, by simp [free, h0], fun h => absurd h0 h, fun _ _ => rfl⟩
  · refine ⟨{ m with heap := Function.update m.heap a none }, by simp [free, h0, h h0], by simp, ?_⟩
    intro b hb
    simp [hb.resolve_right h0]

theorem deleteLast_rep {h0 m l xs es} (r : Rep h0 m l xs es) :
    ∃ l' m', deleteLast m l = .ok (.success, l', m') ∧ Rep h0 m' l' xs.dropLast es.dropLast := by
  rcases List.eq_nil_or_concat xs with rfl | ⟨ys, y, rfl⟩
  · have he : es = [] := by
      have := r.content
      cases this
      rfl
    subst he
    have ht : l.tail = 0 := r.tail
    exact ⟨l, m, by simp [deleteLast, ht], r⟩
  simp only [List.concat_eq_append] at r ⊢
  have hyc : y.1 ∈ cells (ys ++ [y]) := mem_cells_fst (by simp)
  have hty : l.tail = y.1 := by rw [r.tail, lastOf_append]; rfl
  have hy0 : y.1 ≠ 0 := r.pos _ hyc
  have hc := r.chain
  rw [chain_append] at hc
  obtain ⟨hcys, hcy, _⟩ := hc
  have hnd := r.nodup
  rw [cells_append, List.nodup_append'] at hnd
  obtain ⟨hnys, hny, hdisj⟩ := hnd
  obtain ⟨eds, e, rfl, hce, hcon⟩ : ∃ eds e, es = eds ++ [e] ∧ (StrAt m y.2.1 e.1 ∧ StrAt m y.2.2 e.2) ∧
      List.Forall₂ (fun x e => StrAt m x.2.1 e.1 ∧ StrAt m x.2.2 e.2) ys eds := by
    have h := r.content
    rcases List.eq_nil_or_concat es with rfl | ⟨eds, e, rfl⟩
    · have := h.length_eq
      simp at this
    · simp only [List.concat_eq_append] at h ⊢
      have hl : ys.length = eds.length := by
        have := h.length_eq
        simpa using this
      have h1 := List.forall₂_take ys.length h
      have h2 := List.forall₂_drop ys.length h
      rw [List.take_left, hl, List.take_left] at h1
      rw [List.drop_left, hl, List.drop_left] at h2
      exact ⟨eds, e, rfl, by cases h2; assumption, h1⟩
  have hread : readNode m l.tail = .ok ⟨y.2.1, y.2.2, lastOf 0 ys, 0⟩ :=
    readNode_of (by rw [hty]; exact hy0) (by rw [hty]; exact hcy)
  -- unlinking the new tail
  obtain ⟨m1, hu, h1t, h1⟩ : ∃ m1, unlink m (lastOf 0 ys) = .ok m1 ∧ Chain m1.heap 0 ys 0 ∧
      (∀ b, (b ≠ lastOf 0 ys ∨ lastOf 0 ys = 0) → m1.heap b = m.heap b) := by
    rcases List.eq_nil_or_concat ys with rfl | ⟨zs, z, rfl⟩
    · exact ⟨m, by simp [unlink, lastOf], trivial, fun _ _ => rfl⟩
    · simp only [List.concat_eq_append] at *
      have hl : lastOf 0 (zs ++ [z]) = z.1 := by rw [lastOf_append]; rfl
      rw [hl]
      have hzc : z.1 ∈ cells (zs ++ [z]) := mem_cells_fst (by simp)
      have hz0 : z.1 ≠ 0 := r.pos _ (by rw [cells_append]; simp [hzc])
      rw [chain_append] at hcys
      have hz := hcys.2.1
      refine ⟨m.set z.1 (.node ⟨z.2.1, z.2.2, lastOf 0 zs, 0⟩), ?_, ?_, ?_⟩
      · simp only [unlink, ne_eq, hz0, not_false_eq_true, if_true, readNode_of hz0 hz, Res.bind_ok]
      · rw [chain_append]
        refine ⟨chain_congr _ _ _ (fun b hb => ?_) hcys.1, by simp [Mem.set, nextOf], trivial⟩
        have hne : b ≠ z.1 := by
          rintro rfl
          rw [cells_append, List.nodup_append'] at hnys
          exact hnys.2.2 hb (mem_cells_fst (by simp))
        simp [Mem.set, hne]
      · intro b hb
        simp [Mem.set, hb.resolve_right hz0]
  have hlast : lastOf 0 ys = 0 ∨ lastOf 0 ys ∈ cells ys := by
    rcases List.eq_nil_or_concat ys with rfl | ⟨zs, z, rfl⟩
    · exact Or.inl rfl
    · right
      simp only [List.concat_eq_append]
      rw [lastOf_append]
      exact mem_cells_fst (x := z) (by simp)
  have hysmem : ∀ b ∈ cells ys, b ∉ cells [y] := fun b hb hb' => hdisj hb hb'
  have hm1y : ∀ b ∈ cells [y], m1.heap b = m.heap b := by
    intro b hb
    apply h1
    rcases hlast with h | h
    · exact Or.inr h
    · left
      rintro rfl
      exact hysmem _ h hb
  have hy1 : y.1 ∈ cells [y] := mem_cells_fst (by simp)
  have hread1 : readNode m1 l.tail = .ok ⟨y.2.1, y.2.2, lastOf 0 ys, 0⟩ :=
    readNode_of (by rw [hty]; exact hy0) (by rw [hty, hm1y _ hy1]; exact hcy)
  -- freeing
  have hkstr : ∃ s, y.2.1 ≠ 0 → m1.heap y.2.1 = some (.str s) := by
    rcases strAt_cell hce.1 with ⟨h, _⟩ | ⟨s, h, _, h'⟩
    · exact ⟨[], fun h' => absurd h h'⟩
    · exact ⟨s, fun h0 => by rw [hm1y _ (mem_cells_key (by simp) h0), h']⟩
  have hvstr : ∃ s, y.2.2 ≠ 0 → m1.heap y.2.2 = some (.str s) := by
    rcases strAt_cell hce.2 with ⟨h, _⟩ | ⟨s, h, _, h'⟩
    · exact ⟨[], fun h' => absurd h h'⟩
    · exact ⟨s, fun h0 => by rw [hm1y _ (mem_cells_value (by simp) h0), h']⟩
  obtain ⟨sk, hsk⟩ := hkstr
  obtain ⟨sv, hsv⟩ := hvstr
  obtain ⟨m2, hf2, hf2k, hf2o⟩ := free_of hsk
  have hny' : y.2.1 ≠ 0 → y.2.2 ≠ 0 → y.2.2 ≠ y.2.1 := by
    intro hk hv he
    simp [cells, Item.cells, hk, he] at hny
  have hnk : y.2.1 ≠ 0 → y.1 ≠ y.2.1 := by
    intro hk he
    simp [cells, Item.cells, ← he, hy0] at hny
  have hnv : y.2.2 ≠ 0 → y.1 ≠ y.2.2 := by
    intro hv he
    by_cases hk : y.2.1 = 0 <;> simp [cells, Item.cells, ← he, hy0, hk] at hny
  have hsv2 : y.2.2 ≠ 0 → m2.heap y.2.2 = some (.str sv) := by
    intro hv
    rw [hf2o, hsv hv]
    by_cases hk : y.2.1 = 0
    · exact Or.inr hk
    · exact Or.inl (hny' hk hv)
  obtain ⟨m3, hf3, hf3v, hf3o⟩ := free_of hsv2
  have ht3 : l.tail ≠ 0 → m3.heap l.tail = some (.node ⟨y.2.1, y.2.2, lastOf 0 ys, 0⟩) := by
    intro _
    rw [hty, hf3o _ ?_, hf2o _ ?_, hm1y _ hy1, hcy]
    · rfl
    · by_cases hk : y.2.1 = 0
      · exact Or.inr hk
      · exact Or.inl (hnk hk)
    · by_cases hv : y.2.2 = 0
      · exact Or.inr hv
      · exact Or.inl (hnv hv)
  obtain ⟨m4, hf4, hf4t, hf4o⟩ := free_of ht3
  have ht0 : l.tail ≠ 0 := by rw [hty]; exact hy0
  have hcy' : ∀ b, b ∉ cells [y] → m4.heap b = m1.heap b := by
    intro b hb
    have hb' : ¬ (b = y.1 ∨ (b = y.2.1 ∧ y.2.1 ≠ 0) ∨ (b = y.2.2 ∧ y.2.2 ≠ 0)) := fun h =>
      hb ((cells_single y.1 y.2.1 y.2.2 b).2 h)
    rw [hf4o, hf3o, hf2o]
    · by_cases hk : y.2.1 = 0
      · exact Or.inr hk
      · exact Or.inl (fun h => hb' (Or.inr (Or.inl ⟨h, hk⟩)))
    · by_cases hv : y.2.2 = 0
      · exact Or.inr hv
      · exact Or.inl (fun h => hb' (Or.inr (Or.inr ⟨h, hv⟩)))
    · left
      rw [hty]
      exact fun h => hb' (Or.inl h)
  have hgone : ∀ b ∈ cells [y], m4.heap b = none := by
    intro b hb
    rcases (cells_single y.1 y.2.1 y.2.2 b).1 hb with rfl | ⟨rfl, h⟩ | ⟨rfl, h⟩
    · rw [← hty]; exact hf4t ht0
    · rw [hf4o, hf3o, hf2k h]
      · by_cases hv : y.2.2 = 0
        · exact Or.inr hv
        · exact Or.inl (Ne.symm (hny' h hv))
      · rw [hty]; exact Or.inl (Ne.symm (hnk h))
    · rw [hf4o, hf3v h]
      rw [hty]; exact Or.inl (Ne.symm (hnv h))
  refine ⟨{ count := (l.count + 2 ^ 64 - 1) % 2 ^ 64, head := if l.head = l.tail then 0 else l.head,
            tail := lastOf 0 ys }, m4, ?_, ?_⟩
  · simp only [deleteLast, ht0, if_false, hread, hu, hread1, hf2, hf3, hf4, Res.bind_ok]
  · rw [List.dropLast_concat, List.dropLast_concat]
    constructor
    · exact chain_congr _ _ _ (fun b hb => hcy' b (hysmem b hb)) h1t
    · show (if l.head = l.tail then 0 else l.head) = _
      rw [r.head, hty]
      rcases ys with _ | ⟨z, zs⟩
      · simp [nextOf]
      · rw [if_neg]
        · rfl
        · show z.1 ≠ y.1
          intro he
          exact hysmem z.1 (mem_cells_fst (by simp)) (he ▸ hy1)
    · rfl
    · show (l.count + 2 ^ 64 - 1) % 2 ^ 64 = _
      have hlt := r.length_lt
      rw [List.length_append, List.length_singleton] at hlt
      rw [r.count, List.length_append, List.length_singleton]
      have : ys.length + 1 + 2 ^ 64 - 1 = ys.length + 2 ^ 64 := by omega
      rw [this, Nat.add_mod_right, Nat.mod_eq_of_lt (by omega)]
    · exact hnys
    · exact fun b hb => r.pos b (by rw [cells_append]; simp [hb])
    · exact fun b hb => r.bound b (by rw [cells_append]; simp [hb])
    · refine content_congr (fun b s hb hs => ?_) hcon
      rw [hcy' b (hysmem b hb), h1]
      by_cases hl0 : lastOf 0 ys = 0
      · exact Or.inr hl0
      · left
        rintro rfl
        rcases List.eq_nil_or_concat ys with rfl | ⟨zs, z, rfl⟩
        · exact hl0 rfl
        · simp only [List.concat_eq_append] at *
          obtain ⟨n, hn⟩ := chain_mem hcys (x := z) (by simp)
          rw [lastOf_append] at hs
          have hs' : m.heap z.1 = some (.str s) := hs
          rw [hn] at hs'
          cases hs'
    · intro b hb
      by_cases hby : b ∈ cells [y]
      · rw [hgone b hby, r.unused b (by rw [cells_append]; simp [hby])]
      · rw [hcy' b hby, h1, r.frame b (by rw [cells_append]; simp [hb, hby])]
        rcases hlast with h | h
        · exact Or.inr h
        · left
          rintro rfl
          exact hb h
    · exact fun b hb => r.unused b (by rw [cells_append]; simp [hb])

/-! ## Reading -/

theorem walk_spec {m : Mem} {p : Addr} {xs : List Item} (hc : Chain m.heap p xs 0)
    (hpos : ∀ a ∈ cells xs, a ≠ 0) (i : ℕ) (hi : i < xs.length) :
    walk m (nextOf xs 0) i = .ok xs[i].1 := by
  induction xs generalizing p i with
  | nil => simp at hi
  | cons x xs ih =>
    cases i with
    | zero => rfl
    | succ i =>
      have hx0 : x.1 ≠ 0 := hpos _ (mem_cells_fst (by simp))
      show (readNode m x.1 >>= fun n => walk m n.next i) = _
      rw [readNode_of hx0 hc.1, Res.bind_ok]
      have := ih hc.2 (fun a ha => hpos a (by
        simp only [cells, List.flatMap_cons, List.mem_append] at ha ⊢
        exact Or.inr ha)) i (by simpa using hi)
      simpa using this

theorem chain_get {h : Heap} {p : Addr} {xs : List Item} {nx : Addr} (hc : Chain h p xs nx) (i : ℕ)
    (hi : i < xs.length) : ∃ pv n, h xs[i].1 = some (.node ⟨xs[i].2.1, xs[i].2.2, pv, n⟩) := by
  induction xs generalizing p i with
  | nil => simp at hi
  | cons x xs ih =>
    cases i with
    | zero => exact ⟨_, _, hc.1⟩
    | succ i => exact ih hc.2 i (by simpa using hi)

theorem Rep.shows {h0 m l xs es} (r : Rep h0 m l xs es) : Shows m l es := by
  have hlen : xs.length = es.length := r.content.length_eq
  have hbase : ∀ i (hi : i < xs.length), l.count ≠ 0 ∧ i < l.count ∧
      walk m l.head i = .ok xs[i].1 ∧ xs[i].1 ≠ 0 := by
    intro i hi
    rw [r.count, r.head]
    exact ⟨by omega, hi, walk_spec r.chain r.pos i hi, r.pos _ (mem_cells_fst (List.getElem_mem hi))⟩
  have hcon : ∀ i (hi : i < xs.length) (hi' : i < es.length),
      StrAt m xs[i].2.1 es[i].1 ∧ StrAt m xs[i].2.2 es[i].2 := fun i hi hi' =>
    (List.forall₂_iff_get.1 r.content).2 i hi hi'
  refine ⟨by rw [getCount, r.count, hlen], ?_, ?_, ?_⟩
  · intro i hi
    have hi' : i < xs.length := by omega
    obtain ⟨h1, h2, h3, h4⟩ := hbase i hi'
    obtain ⟨pv, n, h5⟩ := chain_get r.chain i hi'
    refine ⟨xs[i].2.1, xs[i].2.2, ?_, hcon i hi' hi⟩
    have hno : ¬ (l.count = 0 ∨ i ≥ l.count) := by omega
    simp only [getElementAt, hno, if_false, h3, Res.bind_ok, h4, readNode_of h4 h5]
  · intro i hi
    have hi' : i < xs.length := by omega
    obtain ⟨h1, h2, h3, h4⟩ := hbase i hi'
    obtain ⟨pv, n, h5⟩ := chain_get r.chain i hi'
    refine ⟨xs[i].2.2, ?_, (hcon i hi' hi).2⟩
    have hno : ¬ (l.count = 0 ∨ i ≥ l.count) := by omega
    simp only [getValueAt, hno, if_false, h3, Res.bind_ok, h4, readNode_of h4 h5]
  · intro i hi
    have hyes : l.count = 0 ∨ i ≥ l.count := by
      rw [r.count, hlen]
      exact Or.inr hi
    simp [getElementAt, getValueAt, hyes]

theorem runAll_rep (A : Malloc) (ops : List Op) {h0 m l xs es} (r : Rep h0 m l xs es) :
    ∃ ss l' m' xs' es', runAll A ops m l = .ok (ss, l', m') ∧ Rep h0 m' l' xs' es' ∧
      Effects ops ss es es' := by
  induction ops generalizing m l xs es with
  | nil => exact ⟨[], l, m, xs, es, rfl, r, rfl⟩
  | cons op ops ih =>
    cases op with
    | append key value =>
      obtain ⟨st, l1, m1, h1, h2⟩ := append_rep A r key value
      rcases h2 with ⟨rfl, r1, hz⟩ | ⟨rfl, x, e, r1, he1, he2⟩
      · obtain ⟨ss, l', m', xs', es', h3, h4, h5⟩ := ih r1
        refine ⟨.badAlloc :: ss, l', m', xs', es', ?_, h4, ⟨es, rfl, h5⟩⟩
        simp only [runAll, Op.run, h1, Res.bind_ok, h3]
      · obtain ⟨ss, l', m', xs', es', h3, h4, h5⟩ := ih r1
        refine ⟨.success :: ss, l', m', xs', es', ?_, h4, ⟨es ++ [e], ⟨e, rfl, he1, he2⟩, h5⟩⟩
        simp only [runAll, Op.run, h1, Res.bind_ok, h3]
    | deleteLast =>
      obtain ⟨l1, m1, h1, r1⟩ := deleteLast_rep r
      obtain ⟨ss, l', m', xs', es', h3, h4, h5⟩ := ih r1
      refine ⟨.success :: ss, l', m', xs', es', ?_, h4, ⟨es.dropLast, rfl, h5⟩⟩
      simp only [runAll, Op.run, h1, Res.bind_ok, h3]

theorem forall₂_dropLast {α β : Type} {R : α → β → Prop} {l : List α} {l' : List β}
    (h : List.Forall₂ R l l') : List.Forall₂ R l.dropLast l'.dropLast := by
  rw [List.dropLast_eq_take, List.dropLast_eq_take, h.length_eq]
  exact List.forall₂_take _ h

/-- If every call reported success, the sequence is the expected one up to missing strings. -/
theorem effects_success (ops : List Op) (ss : List Status) (hs : ∀ s ∈ ss, s = .success)
    (es es' : List Entry) (ps : List (List Char × List Char)) (h : Effects ops ss es es')
    (hp : List.Forall₂ (fun (e : Entry) p => (e.1 = none ∨ e.1 = some p.1) ∧
      (e.2 = none ∨ e.2 = some p.2)) es ps) :
    List.Forall₂ (fun (e : Entry) p => (e.1 = none ∨ e.1 = some p.1) ∧
      (e.2 = none ∨ e.2 = some p.2)) es' (sequenceOf ops ps) := by
  induction ops generalizing ss es ps with
  | nil =>
    cases ss with
    | nil => rw [show es' = es from h]; exact hp
    | cons _ _ => exact absurd h (by simp [Effects])
  | cons op ops ih =>
    cases ss with
    | nil => exact absurd h (by simp [Effects])
    | cons s ss =>
      obtain ⟨mid, h1, h2⟩ := h
      have hs1 : s = .success := hs s (by simp)
      subst hs1
      cases op with
      | append key value =>
        obtain ⟨e, rfl, he⟩ := h1
        exact ih ss (fun s h => hs s (by simp [h])) _ _ h2 (List.rel_append hp (.cons he .nil))
      | deleteLast =>
        have h1' : mid = es.dropLast := h1
        subst h1'
        exact ih ss (fun s h => hs s (by simp [h])) _ _ h2 (forall₂_dropLast hp)

theorem freeLoop_rep {h0 : Heap} (n : ℕ) {m l xs es} (r : Rep h0 m l xs es) (hn : xs.length ≤ n) :
    ∃ m', freeLoop n m l = some (.ok m') ∧ m'.heap = h0 := by
  induction n generalizing m l xs es with
  | zero =>
    have hx : xs = [] := List.length_eq_zero_iff.1 (by omega)
    subst hx
    have hc : l.count = 0 := r.count
    exact ⟨m, by simp [freeLoop, hc], funext fun b => r.frame b (by simp [cells])⟩
  | succ n ih =>
    by_cases hx : xs = []
    · subst hx
      have hc : l.count = 0 := r.count
      exact ⟨m, by simp [freeLoop, hc], funext fun b => r.frame b (by simp [cells])⟩
    · have hc : l.count > 0 := by rw [r.count]; exact List.length_pos_iff.2 hx
      obtain ⟨l1, m1, h1, r1⟩ := deleteLast_rep r
      obtain ⟨m', h2, h3⟩ := ih r1 (by rw [List.length_dropLast]; omega)
      exact ⟨m', by simp only [freeLoop, hc, if_true, h1, h2], h3⟩

end EG.CList
