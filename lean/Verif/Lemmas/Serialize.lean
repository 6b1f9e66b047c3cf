import Verif.Model.Serialize
import Verif.Spec.Json
import Verif.Lemmas.Json
import Verif.Props.Group
import Verif.Props.Manifest

/-!
# Lemmas on documents built and read by the serializers
-/

namespace EG

/-! ## Members -/

theorem mapGet_mapSet {V : Type} (m : List (Str × V)) (k k' : Str) (v : V) :
    mapGet (mapSet m k v) k' = if k = k' then some v else mapGet m k' := by
  induction m with
  | nil => by_cases h : k = k' <;> simp [mapSet, mapGet, h]
  | cons e rest ih =>
    unfold mapSet
    by_cases h1 : k = e.1
    · rw [if_pos h1]
      by_cases h : k = k'
      · simp [mapGet, h]
      · have : e.1 ≠ k' := fun h2 => h (h1.trans h2)
        simp [mapGet, h, this]
    · rw [if_neg h1]
      by_cases h2 : k < e.1
      · rw [if_pos h2]
        by_cases h : k = k' <;> simp [mapGet, h]
      · rw [if_neg h2]
        by_cases h3 : e.1 = k'
        · have : k ≠ k' := fun h => h1 (h.trans h3.symm)
          simp [mapGet, h3, this]
        · have e1 : mapGet (e :: mapSet rest k v) k' = mapGet (mapSet rest k v) k' := by
            simp [mapGet, h3]
          have e2 : mapGet (e :: rest) k' = mapGet rest k' := by simp [mapGet, h3]
          rw [e1, e2, ih]

/-- The value of a member, if the document is an object with that member. -/
def Json.get (j : Json) (k : Str) : Option Json :=
  match j with
  | .obj m => mapGet m k
  | _ => none

/-- Objects. -/
def Json.IsObj (j : Json) : Prop := ∃ m, j = .obj m

/-- Objects and `null`. -/
def Json.IsNode (j : Json) : Prop := j = .null ∨ j.IsObj

theorem Json.IsObj.node {j : Json} (h : j.IsObj) : j.IsNode := .inr h

theorem Json.isObj_object (l : List (Str × Json)) : (Json.object l).IsObj := ⟨_, rfl⟩

theorem Json.isObj_set {j : Json} (h : j.IsNode) (k : Str) (v : Json) : (j.set k v).IsObj := by
  rcases h with rfl | ⟨m, rfl⟩ <;> exact ⟨_, rfl⟩

theorem Json.isNode_setIf {j : Json} (h : j.IsNode) (c : Bool) (k : Str) (v : Json) :
    (j.setIf c k v).IsNode := by
  unfold Json.setIf
  split
  · exact (Json.isObj_set h k v).node
  · exact h

theorem Json.isObj_setIf {j : Json} (h : j.IsObj) (c : Bool) (k : Str) (v : Json) :
    (j.setIf c k v).IsObj := by
  unfold Json.setIf
  split
  · exact Json.isObj_set h.node k v
  · exact h

theorem Json.isObj_setSome {j : Json} (h : j.IsObj) (k : Str) (v : Option Json) :
    (j.setSome k v).IsObj := by
  cases v with
  | none => exact h
  | some v => exact Json.isObj_set h.node k v

theorem Json.get_null (k : Str) : Json.null.get k = none := rfl

theorem Json.get_set {j : Json} (h : j.IsNode) (k k' : Str) (v : Json) :
    (j.set k v).get k' = if k = k' then some v else j.get k' := by
  rcases h with rfl | ⟨m, rfl⟩
  · by_cases h : k = k' <;> simp [Json.set, Json.get, mapGet, h]
  · exact mapGet_mapSet m k k' v

theorem Json.get_setIf {j : Json} (h : j.IsNode) (c : Bool) (k k' : Str) (v : Json) :
    (j.setIf c k v).get k' = if k = k' then (if c then some v else j.get k') else j.get k' := by
  unfold Json.setIf
  by_cases hc : c = true
  · rw [if_pos hc, Json.get_set h, if_pos hc]
  · rw [if_neg hc, if_neg hc, ite_self]

theorem Json.get_setSome {j : Json} (h : j.IsNode) (k k' : Str) (v : Option Json) :
    (j.setSome k v).get k' = if k = k' then (v.or (j.get k')) else j.get k' := by
  cases v with
  | none => simp [Json.setSome]
  | some v => simp [Json.setSome, Json.get_set h]

theorem foldl_get (l : List (Str × Json)) (m : List (Str × Json)) (k : Str) :
    mapGet (l.foldl (fun m e => mapSet m e.1 e.2) m) k
      = ((l.reverse.find? (fun e => e.1 = k)).map (·.2)).or (mapGet m k) := by
  induction l generalizing m with
  | nil => rfl
  | cons e rest ih =>
    rw [List.foldl_cons, ih, mapGet_mapSet, List.reverse_cons, List.find?_append]
    cases hf : rest.reverse.find? (fun e => decide (e.1 = k)) with
    | some x => simp
    | none => by_cases h : e.1 = k <;> simp [h]

theorem key_inj (a b : String) : key a = key b ↔ a = b := String.toList_inj

theorem Json.get_object (l : List (Str × Json)) (k : Str) :
    (Json.object l).get k = (l.reverse.find? (fun e => e.1 = k)).map (·.2) := by
  show mapGet (List.foldl _ _ _) _ = _
  rw [foldl_get]
  simp [mapGet]

theorem Json.at_eq {j : Json} (h : j.IsObj) (k : Str) : j.at k = .ok ((j.get k).getD .null) := by
  obtain ⟨m, rfl⟩ := h; rfl

theorem Json.atConst_eq {j : Json} (h : j.IsObj) (k : Str) {v : Json} (hv : j.get k = some v) :
    j.atConst k = .ok v := by
  obtain ⟨m, rfl⟩ := h
  have : mapGet m k = some v := hv
  simp [Json.atConst, this]

/-- A document other than `null`. -/
def Json.nonNull : Json → Option Json
  | .null => none
  | j => some j

theorem Json.opt_eq (j : Json) (k : Str) : j.opt k = (j.get k).bind Json.nonNull := by
  cases j with
  | obj m =>
    show (match mapGet m k with
      | some .null => none
      | r => r) = (mapGet m k).bind Json.nonNull
    cases mapGet m k with
    | none => rfl
    | some v => cases v <;> rfl
  | _ => rfl

@[simp] theorem Json.nonNull_null : Json.null.nonNull = none := rfl
@[simp] theorem Json.nonNull_bool (b : Bool) : (Json.bool b).nonNull = some (.bool b) := rfl
@[simp] theorem Json.nonNull_num (n : ℕ) : (Json.num n).nonNull = some (.num n) := rfl
@[simp] theorem Json.nonNull_str (s : Str) : (Json.str s).nonNull = some (.str s) := rfl
@[simp] theorem Json.nonNull_arr (l : List Json) : (Json.arr l).nonNull = some (.arr l) := rfl
@[simp] theorem Json.nonNull_obj (m : List (Str × Json)) : (Json.obj m).nonNull = some (.obj m) := rfl
@[simp] theorem Json.nonNull_object (l : List (Str × Json)) :
    (Json.object l).nonNull = some (.object l) := rfl

theorem Json.pushed_items (l : List Json) : (Json.pushed l).items = l := by
  unfold Json.pushed
  cases l <;> rfl

/-! ## Well formed documents -/

theorem wfArr_iff (l : List Json) : wfArr l ↔ ∀ x ∈ l, x.WF := by
  induction l with
  | nil => simp [wfArr]
  | cons x rest ih => simp [wfArr, ih]

theorem wfMembers_iff (m : List (Str × Json)) : wfMembers m ↔ ∀ e ∈ m, e.2.WF := by
  induction m with
  | nil => simp [wfMembers]
  | cons e rest ih => obtain ⟨k, x⟩ := e; simp [wfMembers, ih]

theorem mem_mapSet {V : Type} {m : List (Str × V)} {k : Str} {v : V} {e : Str × V}
    (h : e ∈ mapSet m k v) : e = (k, v) ∨ e ∈ m := by
  induction m with
  | nil => left; simpa [mapSet] using h
  | cons d rest ih =>
    unfold mapSet at h
    split at h
    · rcases List.mem_cons.1 h with h | h
      · exact .inl h
      · exact .inr (List.mem_cons_of_mem _ h)
    · split at h
      · rcases List.mem_cons.1 h with h | h
        · exact .inl h
        · exact .inr h
      · rcases List.mem_cons.1 h with h | h
        · exact .inr (h ▸ List.mem_cons_self)
        · rcases ih h with h | h
          · exact .inl h
          · exact .inr (List.mem_cons_of_mem _ h)

theorem str_lt_of_not {a b : Str} (h1 : a ≠ b) (h2 : ¬ a < b) : b < a := by
  by_contra h3
  exact h1 (List.le_antisymm h3 h2)

theorem mapSet_sorted {V : Type} (m : List (Str × V)) (k : Str) (v : V)
    (h : (m.map (·.1)).Pairwise (· < ·)) : ((mapSet m k v).map (·.1)).Pairwise (· < ·) := by
  induction m with
  | nil => simp [mapSet]
  | cons e rest ih =>
    rw [List.map_cons, List.pairwise_cons] at h
    unfold mapSet
    split
    · next h1 =>
      rw [List.map_cons, List.pairwise_cons]
      exact ⟨fun x hx => h1 ▸ h.1 x hx, h.2⟩
    · next h1 =>
      split
      · next h2 =>
        rw [List.map_cons, List.pairwise_cons, List.map_cons, List.pairwise_cons]
        refine ⟨?_, h⟩
        intro x hx
        rcases List.mem_cons.1 hx with rfl | hx
        · exact h2
        · exact List.lt_trans h2 (h.1 x hx)
      · next h2 =>
        rw [List.map_cons, List.pairwise_cons]
        refine ⟨?_, ih h.2⟩
        intro x hx
        obtain ⟨d, hd, rfl⟩ := List.mem_map.1 hx
        rcases mem_mapSet hd with rfl | hd
        · exact str_lt_of_not h1 h2
        · exact h.1 _ (List.mem_map_of_mem hd)

theorem wf_obj_iff (m : List (Str × Json)) :
    (Json.obj m).WF ↔ (m.map (·.1)).Pairwise (· < ·) ∧ ∀ e ∈ m, e.2.WF := by
  rw [← wfMembers_iff]; rfl

theorem wf_mapSet {m : List (Str × Json)} (h : (Json.obj m).WF) (k : Str) {v : Json} (hv : v.WF) :
    (Json.obj (mapSet m k v)).WF := by
  rw [wf_obj_iff] at h ⊢
  refine ⟨mapSet_sorted m k v h.1, ?_⟩
  intro e he
  rcases mem_mapSet he with rfl | he
  · exact hv
  · exact h.2 e he

theorem wf_foldl (l : List (Str × Json)) (hl : ∀ e ∈ l, e.2.WF) (m : List (Str × Json))
    (hm : (Json.obj m).WF) : (Json.obj (l.foldl (fun m e => mapSet m e.1 e.2) m)).WF := by
  induction l generalizing m with
  | nil => exact hm
  | cons e rest ih =>
    exact ih (fun x hx => hl x (List.mem_cons_of_mem _ hx)) _
      (wf_mapSet hm e.1 (hl e List.mem_cons_self))

theorem Json.wf_object {l : List (Str × Json)} (hl : ∀ e ∈ l, e.2.WF) : (Json.object l).WF :=
  wf_foldl l hl [] (by rw [wf_obj_iff]; simp)

theorem Json.wf_set {j : Json} (hj : j.WF) (k : Str) {v : Json} (hv : v.WF) : (j.set k v).WF := by
  cases j with
  | obj m => exact wf_mapSet hj k hv
  | null =>
    show (Json.obj [(k, v)]).WF
    rw [wf_obj_iff]
    refine ⟨List.pairwise_singleton _ _, ?_⟩
    intro e he
    rw [List.mem_singleton.1 he]
    exact hv
  | _ => exact hj

theorem Json.wf_setIf {j : Json} (hj : j.WF) (c : Bool) (k : Str) {v : Json} (hv : v.WF) :
    (j.setIf c k v).WF := by
  unfold Json.setIf
  split
  · exact Json.wf_set hj k hv
  · exact hj

theorem Json.wf_setSome {j : Json} (hj : j.WF) (k : Str) {v : Option Json}
    (hv : ∀ x, v = some x → x.WF) : (j.setSome k v).WF := by
  cases v with
  | none => exact hj
  | some v => exact Json.wf_set hj k (hv v rfl)

theorem Json.wf_arr {l : List Json} (h : ∀ x ∈ l, x.WF) : (Json.arr l).WF := (wfArr_iff l).2 h

theorem Json.wf_pushed {l : List Json} (h : ∀ x ∈ l, x.WF) : (Json.pushed l).WF := by
  unfold Json.pushed
  split
  · trivial
  · exact Json.wf_arr h

/-- A text written from a well formed document is read as that document. -/
theorem readText_dump {α : Type} (ofDoc : Json → Res α) (j : Json) (hj : j.WF) :
    readText ofDoc j.dump = ofDoc j := by
  unfold readText
  rw [parse_dump j hj, Res.bind_ok]

/-! ## Reading lists -/

theorem mapRes_map_ok {α β : Type} {f : β → Res α} {g : α → β} {l : List α}
    (h : ∀ x ∈ l, f (g x) = .ok x) : mapRes f (l.map g) = .ok l := by
  induction l with
  | nil => rfl
  | cons x rest ih =>
    rw [List.map_cons]
    unfold mapRes
    rw [h x List.mem_cons_self, ih (fun y hy => h y (List.mem_cons_of_mem _ hy))]
    rfl

theorem mapRes_mapRes_ok {α β γ : Type} {f : β → Res γ} {g : α → Res β} {n : α → γ} {l : List α}
    {ds : List β} (hd : mapRes g l = .ok ds) (h : ∀ x ∈ l, ∀ d, g x = .ok d → f d = .ok (n x)) :
    mapRes f ds = .ok (l.map n) := by
  induction l generalizing ds with
  | nil =>
    cases hd
    rfl
  | cons x rest ih =>
    unfold mapRes at hd
    obtain ⟨y, hy, hd⟩ := (Res.bind_eq_ok _ _ _).1 hd
    obtain ⟨ys, hys, hd⟩ := (Res.bind_eq_ok _ _ _).1 hd
    cases hd
    unfold mapRes
    rw [h x List.mem_cons_self y hy, ih hys (fun z hz => h z (List.mem_cons_of_mem _ hz))]
    rfl

theorem mapRes_total {α β : Type} {g : α → Res β} {l : List α} (h : ∀ x ∈ l, ∃ d, g x = .ok d) :
    ∃ ds, mapRes g l = .ok ds := by
  induction l with
  | nil => exact ⟨[], rfl⟩
  | cons x rest ih =>
    obtain ⟨d, hd⟩ := h x List.mem_cons_self
    obtain ⟨ds, hds⟩ := ih (fun y hy => h y (List.mem_cons_of_mem _ hy))
    refine ⟨d :: ds, ?_⟩
    unfold mapRes
    rw [hd, hds]
    rfl

theorem mapRes_forall {α β : Type} {g : α → Res β} {l : List α} {ds : List β} {P : β → Prop}
    (hd : mapRes g l = .ok ds) (h : ∀ x ∈ l, ∀ d, g x = .ok d → P d) : ∀ d ∈ ds, P d := by
  induction l generalizing ds with
  | nil =>
    cases hd
    simp
  | cons x rest ih =>
    unfold mapRes at hd
    obtain ⟨y, hy, hd⟩ := (Res.bind_eq_ok _ _ _).1 hd
    obtain ⟨ys, hys, hd⟩ := (Res.bind_eq_ok _ _ _).1 hd
    cases hd
    intro d hd
    rcases List.mem_cons.1 hd with rfl | hd
    · exact h x List.mem_cons_self _ hy
    · exact ih hys (fun z hz => h z (List.mem_cons_of_mem _ hz)) d hd

theorem mapRes_asStr (l : List Str) : mapRes Json.asStr (l.map Json.str) = .ok l :=
  mapRes_map_ok (fun _ _ => rfl)

theorem mapRes_asNat (l : List ℕ) : mapRes Json.asNat (l.map Json.num) = .ok l :=
  mapRes_map_ok (fun _ _ => rfl)

end EG
