import Verif.Model.Manifest
import Mathlib.Data.Finset.Dedup
import Mathlib.Data.Finset.Card

/-! # Lemmas on sets, sorting and effects -/

namespace EG

section sets

variable {α : Type} [DecidableEq α]

theorem foldl_insert (l s : List α) (hs : s.Nodup) :
    (l.foldl setInsert s).Nodup ∧
      ∀ x, x ∈ l.foldl setInsert s ↔ x ∈ s ∨ x ∈ l := by
  induction l generalizing s with
  | nil => simp [hs]
  | cons a l ih =>
    obtain ⟨h1, h2⟩ := ih (setInsert s a) (List.Nodup.insert hs)
    refine ⟨h1, fun x => ?_⟩
    rw [List.foldl_cons, h2, setInsert, List.mem_insert_iff, List.mem_cons]
    tauto

theorem setOf_nodup (l : List α) : (setOf l).Nodup := (foldl_insert l [] List.nodup_nil).1

@[simp] theorem mem_setOf (l : List α) (x : α) : x ∈ setOf l ↔ x ∈ l := by
  have := (foldl_insert l [] List.nodup_nil).2 x
  simpa [setOf] using this

theorem setOf_length (l : List α) : (setOf l).length = l.toFinset.card := by
  rw [← List.toFinset_card_of_nodup (setOf_nodup l)]
  congr 1
  ext x
  simp

theorem setOf_length_le (l : List α) : (setOf l).length ≤ l.length := by
  rw [setOf_length]
  exact List.toFinset_card_le l

theorem setOf_length_iff (l : List α) : (setOf l).length = l.length ↔ l.Nodup := by
  rw [setOf_length]
  constructor
  · intro h
    have := (Multiset.toFinset_card_eq_card_iff_nodup (m := (l : Multiset α))).1 (by simpa using h)
    simpa using this
  · exact List.toFinset_card_of_nodup

theorem setOf_filter_length_iff (p : α → Bool) (l : List α) :
    (setOf (l.filter p)).length = l.length ↔ (∀ x ∈ l, p x = true) ∧ l.Nodup := by
  constructor
  · intro h
    have h1 := setOf_length_le (l.filter p)
    have h2 := List.length_filter_le p l
    have h3 : (l.filter p).length = l.length := by omega
    have h4 : l.filter p = l := List.filter_eq_self.2 (List.length_filter_eq_length_iff.1 h3)
    refine ⟨List.filter_eq_self.1 h4, ?_⟩
    rw [h4] at h
    exact (setOf_length_iff l).1 h
  · rintro ⟨h1, h2⟩
    rw [List.filter_eq_self.2 h1]
    exact (setOf_length_iff l).2 h2

end sets

/-- `idSet` has as many members as there are ids exactly if the ids are non-empty and distinct. -/
theorem idSet_length_iff (ids : List Str) :
    (idSet ids).length = ids.length ↔ (∀ i ∈ ids, i ≠ []) ∧ ids.Nodup := by
  rw [idSet, setOf_filter_length_iff]
  simp

theorem mem_idSet (ids : List Str) (i : Str) : i ∈ idSet ids ↔ i ∈ ids ∧ i ≠ [] := by
  simp [idSet]

/-! ### Sorting -/

/-- With distinct keys there is only one sorted arrangement. -/
theorem sorted_unique {α : Type} (key : α → ℕ) (l m : List α) (hp : l.Perm m)
    (hl : l.Pairwise (fun a b => key a ≤ key b)) (hm : m.Pairwise (fun a b => key a ≤ key b))
    (hk : ∀ a ∈ l, ∀ b ∈ l, key a = key b → a = b) : l = m := by
  refine List.Perm.eq_of_pairwise ?_ hl hm hp
  intro a b ha hb h1 h2
  exact hk a ha b (hp.mem_iff.2 hb) (le_antisymm h1 h2)

theorem sort_of_sorted (S : StdSort) {α : Type} (key : α → ℕ) (l : List α)
    (hl : l.Pairwise (fun a b => key a ≤ key b)) (hk : ∀ a ∈ l, ∀ b ∈ l, key a = key b → a = b) :
    S.sort key l = l :=
  (sorted_unique key l _ (S.perm key l).symm hl (S.sorted key l) hk).symm

theorem key_inj_of_nodup {α : Type} (key : α → ℕ) (l : List α) (h : (l.map key).Nodup) :
    ∀ a ∈ l, ∀ b ∈ l, key a = key b → a = b := by
  intro a ha b hb hab
  exact List.inj_on_of_nodup_map h ha hb hab

@[simp] theorem mem_sort (S : StdSort) {α : Type} (key : α → ℕ) (l : List α) (x : α) :
    x ∈ S.sort key l ↔ x ∈ l := (S.perm key l).mem_iff

@[simp] theorem length_sort (S : StdSort) {α : Type} (key : α → ℕ) (l : List α) :
    (S.sort key l).length = l.length := (S.perm key l).length_eq

/-- A standard library exists. -/
def StdSort.insertion : StdSort where
  sort key l := l.insertionSort (fun a b => key a ≤ key b)
  perm key l := List.perm_insertionSort _ l
  sorted key l := by
    have : Std.Total (fun a b : _ => key a ≤ key b) := ⟨fun a b => le_total _ _⟩
    have : IsTrans _ (fun a b : _ => key a ≤ key b) := ⟨fun a b c => le_trans⟩
    exact List.pairwise_insertionSort _ l

/-! ### Sequences of calls -/

theorem mapRes_eq_ok {α β : Type} (f : α → Res β) (l : List α) (r : List β) :
    mapRes f l = .ok r ↔ List.Forall₂ (fun a b => f a = .ok b) l r := by
  induction l generalizing r with
  | nil => cases r <;> simp [mapRes]
  | cons a l ih =>
    cases r with
    | nil =>
      simp only [mapRes, Res.bind_eq_ok]
      simp
    | cons b r =>
      simp only [mapRes, Res.bind_eq_ok, Res.ok.injEq, List.cons.injEq, List.forall₂_cons]
      constructor
      · rintro ⟨x, hx, xs, hxs, rfl, rfl⟩
        exact ⟨hx, (ih _).1 hxs⟩
      · rintro ⟨h1, h2⟩
        exact ⟨b, h1, r, (ih _).2 h2, rfl, rfl⟩

namespace M

theorem bind_eq_ok {α β : Type} (x : M α) (f : α → M β) (w w'' : World) (b : β) :
    (x >>= f) w = (.ok b, w'') ↔ ∃ a w', x w = (.ok a, w') ∧ f a w' = (.ok b, w'') := by
  change M.bind x f w = _ ↔ _
  unfold M.bind
  rcases h : x w with ⟨r, w1⟩
  cases r <;> simp

@[simp] theorem bind_apply_ok {α β : Type} (x : M α) (f : α → M β) (w w' : World) (a : α)
    (h : x w = (.ok a, w')) : (x >>= f) w = f a w' := by
  change M.bind x f w = _
  unfold M.bind
  rw [h]

end M

end EG
