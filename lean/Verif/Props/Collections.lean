import Verif.Lemmas.Collections

/-!
# C50: the linked list is a sequence
-/

namespace EG.CList

/-- After any history of calls, with any behaviour of `malloc`: no call is undefined, the getters show
exactly the sequence the returned statuses account for, and memory in use before is untouched. -/
theorem C50_history (A : Malloc) (ops : List Op) (m : Mem) :
    ∃ ss l' m' es, runAll A ops m new = .ok (ss, l', m') ∧ Effects ops ss [] es ∧ Shows m' l' es ∧
      (∀ b, m.heap b ≠ none → m'.heap b = m.heap b) := by
  obtain ⟨ss, l', m', xs', es', h1, h2, h3⟩ := runAll_rep A ops (rep_new m)
  refine ⟨ss, l', m', es', h1, h3, h2.shows, fun b hb => h2.frame b (fun hc => hb (h2.unused b hc))⟩

/-- If every call reported success and no getter returns a null pointer, the getters show the sequence
of all appended pairs without the deleted ones. -/
theorem C50_no_failure (A : Malloc) (ops : List Op) (m : Mem) (ss : List Status) (l' : LList) (m' : Mem)
    (h : runAll A ops m new = .ok (ss, l', m')) (hs : ∀ s ∈ ss, s = .success)
    (hn : ∀ i k v, getElementAt m' l' i = .ok (.success, some (k, v)) → k ≠ 0 ∧ v ≠ 0) :
    Shows m' l' ((sequenceOf ops []).map (fun e => (some e.1, some e.2))) := by
  obtain ⟨ss1, l1, m1, xs', es', h1, h2, h3⟩ := runAll_rep A ops (rep_new m)
  rw [h] at h1
  simp only [Res.ok.injEq, Prod.mk.injEq] at h1
  obtain ⟨rfl, rfl, rfl⟩ := h1
  have h4 := effects_success ops ss hs [] es' [] h3 .nil
  have h5 : es' = (sequenceOf ops []).map (fun e => (some e.1, some e.2)) := by
    apply List.ext_getElem (by simpa using h4.length_eq)
    intro i hi hi'
    obtain ⟨k, v, h6, h7, h8⟩ := h2.shows.element i hi
    obtain ⟨hk, hv⟩ := hn i k v h6
    have h9 := (List.forall₂_iff_get.1 h4).2 i hi (by simpa using hi')
    simp only [List.get_eq_getElem] at h9
    rw [List.getElem_map]
    apply Prod.ext
    · rcases h9.1 with h | h
      · rw [h] at h7
        exact absurd h7 hk
      · exact h
    · rcases h9.2 with h | h
      · rw [h] at h8
        exact absurd h8 hv
      · exact h
  exact h5 ▸ h2.shows

/-- Freeing the list after any history terminates after `count` deletions, is never undefined (no
double free) and gives back exactly the heap there was before the list was created (no leak). -/
theorem C50_free (A : Malloc) (ops : List Op) (m : Mem) (ss : List Status) (l' : LList) (m' : Mem)
    (h : runAll A ops m new = .ok (ss, l', m')) :
    ∃ m'', freeLoop l'.count m' l' = some (.ok m'') ∧ m''.heap = m.heap := by
  obtain ⟨ss1, l1, m1, xs', es', h1, h2, _⟩ := runAll_rep A ops (rep_new m)
  rw [h] at h1
  simp only [Res.ok.injEq, Prod.mk.injEq] at h1
  obtain ⟨rfl, rfl, rfl⟩ := h1
  exact freeLoop_rep _ h2 (by rw [h2.count])

/-- A call that reports an error changes nothing the getters show, and `append` reports an error only
if `malloc` fails for the node. -/
theorem C50_append_error (A : Malloc) (ops : List Op) (m : Mem) (ss : List Status) (l l' : LList)
    (m1 m2 : Mem) (key value : List Char) (h : runAll A ops m new = .ok (ss, l, m1)) (s : Status)
    (h2 : append A m1 l key value = .ok (s, l', m2)) :
    (s = .success ∧ getCount l' = getCount l + 1) ∨
      (s = .badAlloc ∧ A.pick m1.time m1.heap = 0 ∧ l' = l ∧ m2.heap = m1.heap) := by
  obtain ⟨ss1, l1, m1', xs', es', h1, hr, _⟩ := runAll_rep A ops (rep_new m)
  rw [h] at h1
  simp only [Res.ok.injEq, Prod.mk.injEq] at h1
  obtain ⟨rfl, rfl, rfl⟩ := h1
  obtain ⟨st, l2, m2', h3, h4⟩ := append_rep A hr key value
  rw [h2] at h3
  simp only [Res.ok.injEq, Prod.mk.injEq] at h3
  obtain ⟨rfl, rfl, rfl⟩ := h3
  rcases h4 with ⟨rfl, _, hz⟩ | ⟨rfl, x, e, hr', _⟩
  · right
    refine ⟨rfl, hz, ?_⟩
    simp only [append, malloc, hz, if_true, Res.ok.injEq, Prod.mk.injEq, true_and] at h2
    obtain ⟨rfl, rfl⟩ := h2
    exact ⟨rfl, rfl⟩
  · left
    refine ⟨rfl, ?_⟩
    rw [getCount, getCount, hr'.count, hr.count, List.length_append, List.length_singleton]

/-- The pointers handed out by the getters are not copies: deleting the last element leaves them
dangling, and reading through them is undefined. -/
theorem C50_dangling (A : Malloc) (ops : List Op) (m : Mem) (ss : List Status) (l l' : LList)
    (m1 m2 : Mem) (h : runAll A ops m new = .ok (ss, l, m1)) (s : Status) (v : Addr)
    (hv : getValueAt m1 l (getCount l - 1) = .ok (.success, some v))
    (h2 : deleteLast m1 l = .ok (s, l', m2)) : readStr m2 v = .ub := by
  obtain ⟨ss1, l1, m1', xs, es, h1, hr, _⟩ := runAll_rep A ops (rep_new m)
  rw [h] at h1
  simp only [Res.ok.injEq, Prod.mk.injEq] at h1
  obtain ⟨rfl, rfl, rfl⟩ := h1
  obtain ⟨l2, m2', h3, hr2⟩ := deleteLast_rep hr
  rw [h2] at h3
  simp only [Res.ok.injEq, Prod.mk.injEq] at h3
  obtain ⟨_, rfl, rfl⟩ := h3
  rcases List.eq_nil_or_concat xs with rfl | ⟨ys, y, rfl⟩
  · have hc : l.count = 0 := hr.count
    simp [getValueAt, hc] at hv
  simp only [List.concat_eq_append] at hr hr2
  rw [List.dropLast_concat] at hr2
  have hi : ys.length < (ys ++ [y]).length := by simp
  have hc : l.count = ys.length + 1 := by rw [hr.count]; simp
  obtain ⟨pv, n, h5⟩ := chain_get hr.chain ys.length hi
  have hw : walk m1 l.head ys.length = .ok y.1 := by
    rw [hr.head, walk_spec hr.chain hr.pos ys.length hi]
    simp
  have hy0 : y.1 ≠ 0 := hr.pos _ (mem_cells_fst (by simp))
  simp only [List.getElem_concat_length] at h5
  have hno : ¬ (l.count = 0 ∨ ys.length ≥ l.count) := by omega
  have hv' : v = y.2.2 := by
    have : getCount l - 1 = ys.length := by rw [getCount, hc]; rfl
    rw [this] at hv
    simp only [getValueAt, hno, if_false, hw, Res.bind_ok, hy0, readNode_of hy0 h5] at hv
    simpa using hv.symm
  subst hv'
  by_cases h0 : y.2.2 = 0
  · simp [readStr, h0]
  · have hmem : y.2.2 ∈ cells [y] := mem_cells_value (by simp) h0
    have hnd := hr.nodup
    rw [cells_append, List.nodup_append'] at hnd
    have hnot : y.2.2 ∉ cells ys := fun hc => hnd.2.2 hc hmem
    have hn : m2.heap y.2.2 = none := by
      rw [hr2.frame _ hnot, hr.unused _ (by rw [cells_append]; simp [hmem])]
    simp [readStr, h0, hn]

/-! ## Non-vacuity -/

/-- An allocator handing out increasing addresses, which fails at the calls `f` selects. -/
def bump (f : ℕ → Bool) : Malloc where
  pick t h := if f t = false ∧ t + 1 < 2 ^ 64 ∧ (h (t + 1)).isNone then t + 1 else 0
  fresh t h := by
    split_ifs with hc
    · intro _
      simpa using hc.2.2
    · intro h0
      exact absurd rfl h0
  bound t h := by
    split_ifs with hc
    · exact hc.2.1
    · exact Nat.two_pow_pos 64

/-- An empty heap. -/
def emptyMem : Mem := ⟨fun _ => none, 0⟩

def sampleOps : List Op :=
  [.append ['k'] ['v'], .append ['a'] ['b'], .deleteLast, .append ['c'] ['d'], .append [] ['e']]

/-- A history with two surviving deletions and a list of three elements; every call succeeds. -/
example : ∃ l m, runAll (bump fun _ => false) sampleOps emptyMem new =
      .ok ([.success, .success, .success, .success, .success], l, m) ∧ l.count = 3 ∧
    sequenceOf sampleOps [] = [(['k'], ['v']), (['c'], ['d']), ([], ['e'])] ∧
    getElementAt m l 0 = .ok (.success, some (2, 3)) ∧
    getElementAt m l 1 = .ok (.success, some (8, 9)) ∧
    getElementAt m l 2 = .ok (.success, some (11, 12)) ∧
    getElementAt m l 3 = .ok (.outOfRange, none) := by
  refine ⟨_, _, rfl, ?_, ?_, ?_, ?_, ?_, ?_⟩ <;> decide

/-- A history in which the node of the second element and the value of the third cannot be
allocated. -/
example : ∃ l m, runAll (bump fun t => t == 3 || t == 6) sampleOps emptyMem new =
      .ok ([.success, .badAlloc, .success, .success, .success], l, m) ∧ l.count = 2 := by
  refine ⟨_, _, rfl, ?_⟩
  decide

/-- The missing string is returned as a null pointer with status success. -/
example : ∃ ss l m, runAll (bump fun t => t == 2) [.append ['k'] ['v']] emptyMem new = .ok (ss, l, m) ∧
    ss = [.success] ∧ getElementAt m l 0 = .ok (.success, some (2, 0)) := by
  refine ⟨_, _, _, rfl, rfl, ?_⟩
  decide

/-- Hypotheses of `C50_dangling`. -/
example : ∃ l m1 l' m2, runAll (bump fun _ => false) [.append ['k'] ['v']] emptyMem new =
      .ok ([.success], l, m1) ∧ getValueAt m1 l (getCount l - 1) = .ok (.success, some 3) ∧
    readStr m1 3 = .ok ['v'] ∧ deleteLast m1 l = .ok (.success, l', m2) ∧ readStr m2 3 = .ub := by
  refine ⟨_, _, _, _, rfl, ?_, ?_, rfl, ?_⟩ <;> decide

end EG.CList
