import Verif.Spec.Record
import Verif.Props.EncryptTotal
import Verif.Props.Serialize

/-!
# The record of overvotes and write-ins

C65.
-/

namespace EG

variable (S : StdSort)

/-! ## Folds over maps -/

theorem foldl_mapGet {α V : Type} (f : List (Str × V) → α → List (Str × V)) (Q : α → Prop) (k : Str)
    (v : V) (k' : Str) (l : List α)
    (hf : ∀ acc, ∀ x ∈ l, (Q x ∧ k = k' → mapGet (f acc x) k' = some v) ∧
      (¬ (Q x ∧ k = k') → mapGet (f acc x) k' = mapGet acc k'))
    (acc : List (Str × V)) :
    ((∃ x ∈ l, Q x) ∧ k = k' → mapGet (l.foldl f acc) k' = some v) ∧
      (¬ ((∃ x ∈ l, Q x) ∧ k = k') → mapGet (l.foldl f acc) k' = mapGet acc k') := by
  induction l generalizing acc with
  | nil => exact ⟨fun h => absurd h.1 (by simp), fun _ => rfl⟩
  | cons x l ih =>
    rw [List.foldl_cons]
    obtain ⟨i1, i2⟩ := ih (fun acc y hy => hf acc y (List.mem_cons_of_mem _ hy)) (f acc x)
    obtain ⟨f1, f2⟩ := hf acc x (List.mem_cons_self ..)
    constructor
    · rintro ⟨⟨y, hy, hq⟩, hk⟩
      by_cases hl : ∃ y ∈ l, Q y
      · exact i1 ⟨hl, hk⟩
      · rw [i2 (fun h => hl h.1)]
        rcases List.mem_cons.1 hy with rfl | hy
        · exact f1 ⟨hq, hk⟩
        · exact absurd ⟨y, hy, hq⟩ hl
    · intro h
      rw [i2 (fun ⟨⟨y, hy, hq⟩, hk⟩ => h ⟨⟨y, List.mem_cons_of_mem _ hy, hq⟩, hk⟩)]
      exact f2 (fun ⟨hq, hk⟩ => h ⟨⟨x, List.mem_cons_self .., hq⟩, hk⟩)

theorem foldl_invariant {α β : Type} (P : β → Prop) (f : β → α → β) (l : List α)
    (hf : ∀ acc x, P acc → P (f acc x)) (acc : β) (h : P acc) : P (l.foldl f acc) := by
  induction l generalizing acc with
  | nil => exact h
  | cons x l ih => exact ih _ (hf _ _ h)

/-! ## The contest in the manifest -/

theorem manifestSelections_mem (m : IManifest) (id : Str)
    (hn : (m.contests.map (·.desc.objectId)).Nodup) (sd : SelectionDesc) :
    sd ∈ manifestSelections S m id ↔
      ∃ d ∈ m.contests, d.desc.objectId = id ∧ sd ∈ d.desc.selections := by
  have hg : ∀ (l : List ContestDescP) (acc : List SelectionDesc),
      (l.map (·.desc.objectId)).Nodup →
      (sd ∈ l.foldl (fun acc c => if id = c.desc.objectId then c.desc.getSelections S else acc) acc ↔
        (∃ d ∈ l, d.desc.objectId = id ∧ sd ∈ d.desc.selections) ∨
          ((∀ d ∈ l, d.desc.objectId ≠ id) ∧ sd ∈ acc)) := by
    intro l
    induction l with
    | nil => intro acc _; simp
    | cons d l ih =>
      intro acc hn
      rw [List.map_cons, List.nodup_cons] at hn
      rw [List.foldl_cons, ih _ hn.2]
      by_cases hd : id = d.desc.objectId
      · rw [if_pos hd]
        have hl : ∀ x ∈ l, x.desc.objectId ≠ id := by
          intro x hx he
          exact hn.1 (List.mem_map.2 ⟨x, hx, by rw [he, hd]⟩)
        constructor
        · rintro (⟨x, hx, h, -⟩ | ⟨-, h⟩)
          · exact absurd h (hl x hx)
          · exact .inl ⟨d, List.mem_cons_self .., hd.symm, (mem_sort S _ _ _).1 h⟩
        · rintro (⟨x, hx, h, hs⟩ | ⟨h, -⟩)
          · rcases List.mem_cons.1 hx with rfl | hx
            · exact .inr ⟨hl, (mem_sort S _ _ _).2 hs⟩
            · exact absurd h (hl x hx)
          · exact absurd hd.symm (h d (List.mem_cons_self ..))
      · rw [if_neg hd]
        constructor
        · rintro (⟨x, hx, h⟩ | ⟨h, hs⟩)
          · exact .inl ⟨x, List.mem_cons_of_mem _ hx, h⟩
          · refine .inr ⟨?_, hs⟩
            intro x hx
            rcases List.mem_cons.1 hx with rfl | hx
            · exact fun h => hd h.symm
            · exact h x hx
        · rintro (⟨x, hx, h, hs⟩ | ⟨h, hs⟩)
          · rcases List.mem_cons.1 hx with rfl | hx
            · exact absurd h.symm hd
            · exact .inl ⟨x, hx, h, hs⟩
          · exact .inr ⟨fun x hx => h x (List.mem_cons_of_mem _ hx), hs⟩
  have hp : ((m.getContests S).map (·.desc.objectId)).Perm (m.contests.map (·.desc.objectId)) :=
    (S.perm _ _).map _
  unfold manifestSelections
  rw [hg _ _ (hp.nodup_iff.2 hn)]
  simp [IManifest.getContests]

/-- The write-ins, by selection. -/
theorem writeInsOf_get (m : IManifest) (c : PContest)
    (hn : (m.contests.map (·.desc.objectId)).Nodup) (hc : (c.selections.map (·.objectId)).Nodup)
    (id text : Str) :
    mapGet (writeInsOf S m c) id = some text ↔ WroteIn m c id text := by
  have step : ∀ (s : PSelection) (id : Str) (acc : List (Str × Str)),
      (IsWriteInSelection m c.objectId s.objectId ∧ s.objectId = id →
        mapGet ((manifestSelections S m c.objectId).foldl (fun acc bs =>
          if s.objectId = bs.objectId then
            m.candidates.foldl (fun acc cand =>
              if bs.candidateId = cand.objectId then
                if cand.isWriteIn then mapSet acc s.objectId s.writeIn else acc
              else acc) acc
          else acc) acc) id = some s.writeIn) ∧
      (¬ (IsWriteInSelection m c.objectId s.objectId ∧ s.objectId = id) →
        mapGet ((manifestSelections S m c.objectId).foldl (fun acc bs =>
          if s.objectId = bs.objectId then
            m.candidates.foldl (fun acc cand =>
              if bs.candidateId = cand.objectId then
                if cand.isWriteIn then mapSet acc s.objectId s.writeIn else acc
              else acc) acc
          else acc) acc) id = mapGet acc id) := by
    intro s id acc
    have hq : IsWriteInSelection m c.objectId s.objectId ↔
        ∃ bs ∈ manifestSelections S m c.objectId, s.objectId = bs.objectId ∧
          ∃ cand ∈ m.candidates, bs.candidateId = cand.objectId ∧ cand.isWriteIn = true := by
      constructor
      · rintro ⟨d, hd, h1, sd, hsd, h2, cand, h3, h4, h5⟩
        exact ⟨sd, (manifestSelections_mem S m _ hn sd).2 ⟨d, hd, h1, hsd⟩, h2.symm, cand, h3,
          h4.symm, h5⟩
      · rintro ⟨sd, hsd, h2, cand, h3, h4, h5⟩
        obtain ⟨d, hd, h1, hsd⟩ := (manifestSelections_mem S m _ hn sd).1 hsd
        exact ⟨d, hd, h1, sd, hsd, h2.symm, cand, h3, h4.symm, h5⟩
    rw [hq]
    refine foldl_mapGet _ _ _ _ _ _ ?_ acc
    intro acc bs _
    obtain ⟨g1, g2⟩ := foldl_mapGet (fun acc (cand : Candidate) =>
        if bs.candidateId = cand.objectId then
          if cand.isWriteIn then mapSet acc s.objectId s.writeIn else acc
        else acc) (fun cand => bs.candidateId = cand.objectId ∧ cand.isWriteIn = true) s.objectId
      s.writeIn id m.candidates (by
        intro acc cand _
        constructor
        · rintro ⟨⟨h1, h2⟩, rfl⟩
          rw [if_pos h1, if_pos h2, mapGet_mapSet, if_pos rfl]
        · intro h
          split
          · next h1 =>
            split
            · next h2 =>
              rw [mapGet_mapSet, if_neg (fun hk => h ⟨⟨h1, h2⟩, hk⟩)]
            · rfl
          · rfl) acc
    constructor
    · rintro ⟨⟨h1, h2⟩, h3⟩
      rw [if_pos h1]
      exact g1 ⟨h2, h3⟩
    · intro h
      split
      · next h1 => exact g2 (fun h' => h ⟨⟨h1, h'.1⟩, h'.2⟩)
      · rfl
  have outer : ∀ (l : List PSelection) (acc : List (Str × Str)), (l.map (·.objectId)).Nodup →
      (mapGet (l.foldl (fun acc s =>
        if s.vote = 1 then
          (manifestSelections S m c.objectId).foldl (fun acc bs =>
            if s.objectId = bs.objectId then
              m.candidates.foldl (fun acc cand =>
                if bs.candidateId = cand.objectId then
                  if cand.isWriteIn then mapSet acc s.objectId s.writeIn else acc
                else acc) acc
            else acc) acc
        else acc) acc) id = some text ↔
      (∃ s ∈ l, s.objectId = id ∧ s.vote = 1 ∧ s.writeIn = text ∧
        IsWriteInSelection m c.objectId id) ∨
      ((¬ ∃ s ∈ l, s.objectId = id ∧ s.vote = 1 ∧ IsWriteInSelection m c.objectId id) ∧
        mapGet acc id = some text)) := by
    intro l
    induction l with
    | nil => intro acc _; simp
    | cons s l ih =>
      intro acc hl
      rw [List.map_cons, List.nodup_cons] at hl
      rw [List.foldl_cons, ih _ hl.2]
      obtain ⟨s1, s2⟩ := step s id acc
      by_cases hs : s.objectId = id ∧ s.vote = 1 ∧ IsWriteInSelection m c.objectId id
      · obtain ⟨h1, h2, h3⟩ := hs
        have hno : ∀ x ∈ l, x.objectId ≠ id := fun x hx he =>
          hl.1 (List.mem_map.2 ⟨x, hx, by rw [he, h1]⟩)
        rw [if_pos h2, s1 ⟨h1 ▸ h3, h1⟩]
        constructor
        · rintro (⟨x, hx, he, -⟩ | ⟨-, he⟩)
          · exact absurd he (hno x hx)
          · exact .inl ⟨s, List.mem_cons_self .., h1, h2, Option.some.inj he, h3⟩
        · rintro (⟨x, hx, he, -, ht, -⟩ | ⟨he, -⟩)
          · rcases List.mem_cons.1 hx with rfl | hx
            · exact .inr ⟨fun ⟨y, hy, he, _⟩ => hno y hy he, by rw [ht]⟩
            · exact absurd he (hno x hx)
          · exact absurd ⟨s, List.mem_cons_self .., h1, h2, h3⟩ he
      · have hacc : mapGet (if s.vote = 1 then
          (manifestSelections S m c.objectId).foldl (fun acc bs =>
            if s.objectId = bs.objectId then
              m.candidates.foldl (fun acc cand =>
                if bs.candidateId = cand.objectId then
                  if cand.isWriteIn then mapSet acc s.objectId s.writeIn else acc
                else acc) acc
            else acc) acc
          else acc) id = mapGet acc id := by
          split
          · next h2 =>
            refine s2 (fun h => hs ⟨h.2, h2, h.2 ▸ h.1⟩)
          · rfl
        rw [hacc]
        constructor
        · rintro (⟨x, hx, h⟩ | ⟨h, he⟩)
          · exact .inl ⟨x, List.mem_cons_of_mem _ hx, h⟩
          · refine .inr ⟨?_, he⟩
            rintro ⟨x, hx, h'⟩
            rcases List.mem_cons.1 hx with rfl | hx
            · exact hs h'
            · exact h ⟨x, hx, h'⟩
        · rintro (⟨x, hx, h1, h2, h3, h4⟩ | ⟨h, he⟩)
          · rcases List.mem_cons.1 hx with rfl | hx
            · exact absurd ⟨h1, h2, h4⟩ hs
            · exact .inl ⟨x, hx, h1, h2, h3, h4⟩
          · exact .inr ⟨fun ⟨x, hx, h'⟩ => h ⟨x, List.mem_cons_of_mem _ hx, h'⟩, he⟩
  unfold writeInsOf WroteIn
  rw [outer c.selections [] hc]
  constructor
  · rintro (⟨s, h1, h2, h3, h4, h5⟩ | ⟨-, h⟩)
    · exact ⟨h5, s, h1, h2, h3, h4⟩
    · cases h
  · rintro ⟨h5, s, h1, h2, h3, h4⟩
    exact .inl ⟨s, h1, h2, h3, h4, h5⟩

theorem writeInsOf_sorted (m : IManifest) (c : PContest) :
    ((writeInsOf S m c).map (·.1)).Pairwise (· < ·) := by
  unfold writeInsOf
  refine foldl_invariant (fun l : List (Str × Str) => (l.map (·.1)).Pairwise (· < ·)) _ _ ?_ [] (by simp)
  intro acc s h
  split
  · refine foldl_invariant (fun l : List (Str × Str) => (l.map (·.1)).Pairwise (· < ·)) _ _ ?_ acc h
    intro acc bs h
    split
    · refine foldl_invariant (fun l : List (Str × Str) => (l.map (·.1)).Pairwise (· < ·)) _ _ ?_ acc h
      intro acc cand h
      split
      · split
        · exact mapSet_sorted _ _ _ h
        · exact h
      · exact h
    · exact h
  · exact h

/-! ## The text -/

theorem dumpStrs_eq (l : List Str) : dumpStrs l = (Json.arr (l.map .str)).dump := by
  have : ∀ l : List Str, joinComma (l.map dumpStr) = dumpArr (l.map .str) := by
    intro l
    induction l with
    | nil => rfl
    | cons x l ih =>
      cases l with
      | nil => rfl
      | cons y l =>
        simp only [List.map_cons, joinComma, dumpArr, Json.dump] at ih ⊢
        rw [ih]
  rw [dumpStrs, this, Json.dump]

theorem dumpObj_eq (l : List (Str × Json)) :
    dumpObj (l.map (fun e => (e.1, e.2.dump))) = (Json.obj l).dump := by
  have : ∀ l : List (Str × Json), joinComma ((l.map (fun e => (e.1, e.2.dump))).map
      (fun e => dumpMember e.1 e.2)) = dumpMembers l := by
    intro l
    induction l with
    | nil => rfl
    | cons x l ih =>
      cases l with
      | nil => rfl
      | cons y l =>
        simp only [List.map_cons, joinComma, dumpMembers, dumpMember] at ih ⊢
        rw [ih]
        simp
  rw [dumpObj, this, Json.dump]

/-- The document the text is the text of. -/
def recordMembers (m : IManifest) (c : PContest) (over : Bool) : List (Str × Json) :=
  (if over then [("error".toList, .str "overvote".toList),
    ("error_data".toList, .pushed ((c.selections.filter (fun s => s.vote = 1)).map
      (fun s => .str s.objectId)))] else []) ++
  (if (writeInsOf S m c).isEmpty then []
   else [("write_ins".toList, .obj ((writeInsOf S m c).map (fun e => (e.1, .str e.2))))])

theorem record_eq (m : IManifest) (c : PContest) (check : ContestCheck) :
    overvoteAndWriteIns S m c check =
      if recordMembers S m c (check = .overvote) = [] then []
      else (Json.obj (recordMembers S m c (check = .overvote))).dump := by
  have h1 : dumpObj ((writeInsOf S m c).map (fun e => (e.1, dumpStr e.2))) =
      (Json.obj ((writeInsOf S m c).map (fun e => (e.1, .str e.2)))).dump := by
    rw [← dumpObj_eq, List.map_map]
    congr 1
  have h2 : (if ((c.selections.filter (fun s => s.vote = 1)).map (·.objectId)).isEmpty then "null".toList
      else dumpStrs ((c.selections.filter (fun s => s.vote = 1)).map (·.objectId))) =
      (Json.pushed ((c.selections.filter (fun s => s.vote = 1)).map (fun s => .str s.objectId))).dump := by
    unfold Json.pushed
    simp only [List.isEmpty_map]
    split
    · rw [Json.dump]; rfl
    · rw [dumpStrs_eq, List.map_map]
      rfl
  unfold overvoteAndWriteIns recordMembers
  dsimp only
  rw [h1, h2]
  generalize Json.pushed _ = E
  generalize Json.obj ((writeInsOf S m c).map _) = W
  have hs : (Json.str "overvote".toList).dump = dumpStr "overvote".toList := by rw [Json.dump]
  by_cases hc : check = .overvote <;> by_cases hw : (writeInsOf S m c).isEmpty = true <;>
    simp only [hc, hw, ← dumpObj_eq, if_true, if_false, List.append_nil, List.nil_append,
      List.cons_append, List.isEmpty_cons, List.isEmpty_nil, List.map_cons, List.map_nil, decide_true,
      decide_false, hs, Bool.false_eq_true, reduceCtorEq]

theorem record_get (o w : Bool) (E W : Json) (k : Str) :
    (Json.obj ((if o = true then [("error".toList, .str "overvote".toList), ("error_data".toList, E)]
      else []) ++ (if w = true then [] else [("write_ins".toList, W)]))).get k =
    if k = "error".toList then (if o = true then some (.str "overvote".toList) else none)
    else if k = "error_data".toList then (if o = true then some E else none)
    else if k = "write_ins".toList then (if w = true then none else some W)
    else none := by
  have h1 : "error_data".toList ≠ "error".toList := by decide
  have h2 : "write_ins".toList ≠ "error".toList := by decide
  have h3 : "write_ins".toList ≠ "error_data".toList := by decide
  generalize "error".toList = a at *
  generalize "error_data".toList = b at *
  generalize "write_ins".toList = c at *
  show mapGet _ _ = _
  unfold mapGet
  by_cases k1 : k = a
  · subst k1
    cases o <;> cases w <;> simp [h2]
  · by_cases k2 : k = b
    · subst k2
      cases o <;> cases w <;> simp [h1, h1.symm, h3]
    · by_cases k3 : k = c
      · subst k3
        cases o <;> cases w <;> simp [h2, h2.symm, h3, h3.symm]
      · cases o <;> cases w <;> simp [k1, k2, k3, Ne.symm k1, Ne.symm k2, Ne.symm k3]

/-- C65: the text recorded for a contest.  It is empty exactly if there is neither an overvote nor a
write-in; otherwise it is JSON, and holds the marked selections of an overvote and the write-ins. -/
theorem C65_record_partial (m : IManifest) (c : PContest) (check : ContestCheck)
    (hn : (m.contests.map (·.desc.objectId)).Nodup) (hc : (c.selections.map (·.objectId)).Nodup) :
    (overvoteAndWriteIns S m c check = [] ↔
      check ≠ .overvote ∧ ∀ id text, ¬ WroteIn m c id text) ∧
    (overvoteAndWriteIns S m c check ≠ [] →
      ∃ doc, Json.parse (overvoteAndWriteIns S m c check) = .ok doc ∧
        doc.get "error".toList = (if check = .overvote then some (.str "overvote".toList) else none) ∧
        doc.get "error_data".toList = (if check = .overvote then some (.pushed
          ((c.selections.filter (fun s => s.vote = 1)).map (fun s => .str s.objectId))) else none) ∧
        (∀ id text, WroteIn m c id text ↔
          ∃ w, doc.get "write_ins".toList = some w ∧ w.get id = some (.str text)) ∧
        ∀ k, k ≠ "error".toList → k ≠ "error_data".toList → k ≠ "write_ins".toList → doc.get k = none) := by
  have hempty : (writeInsOf S m c).isEmpty = true ↔ ∀ id text, ¬ WroteIn m c id text := by
    constructor
    · intro h id text hw
      rw [← writeInsOf_get S m c hn hc, List.isEmpty_iff.1 h] at hw
      cases hw
    · intro h
      cases hw : writeInsOf S m c with
      | nil => rfl
      | cons e l =>
        refine absurd ((writeInsOf_get S m c hn hc e.1 e.2).1 ?_) (h e.1 e.2)
        rw [hw]
        simp [mapGet]
  have hwget : ∀ id text, (Json.obj ((writeInsOf S m c).map (fun e => (e.1, Json.str e.2)))).get id =
      some (.str text) ↔ WroteIn m c id text := by
    intro id text
    rw [← writeInsOf_get S m c hn hc]
    have : (Json.obj ((writeInsOf S m c).map (fun e => (e.1, Json.str e.2)))).get id =
        (mapGet (writeInsOf S m c) id).map .str := by
      show mapGet _ _ = _
      unfold mapGet
      induction writeInsOf S m c with
      | nil => rfl
      | cons e l ih =>
        simp only [List.map_cons, List.find?_cons]
        by_cases he : e.1 = id
        · simp [he]
        · simpa [he] using ih
    rw [this]
    cases mapGet (writeInsOf S m c) id <;> simp
  have hwf : (Json.obj (recordMembers S m c (check = .overvote))).WF := by
    rw [wf_obj_iff]
    constructor
    · unfold recordMembers
      split <;> split <;> (simp; try decide +kernel)
    · intro e he
      unfold recordMembers at he
      rw [List.mem_append] at he
      rcases he with he | he
      · split at he
        · simp only [List.mem_cons, List.not_mem_nil, or_false] at he
          rcases he with rfl | rfl
          · trivial
          · refine Json.wf_pushed ?_
            intro x hx
            obtain ⟨s, -, rfl⟩ := List.mem_map.1 hx
            trivial
        · cases he
      · split at he
        · cases he
        · simp only [List.mem_cons, List.not_mem_nil, or_false] at he
          subst he
          rw [wf_obj_iff]
          refine ⟨by rw [List.map_map]; exact writeInsOf_sorted S m c, ?_⟩
          intro e he
          obtain ⟨x, -, rfl⟩ := List.mem_map.1 he
          trivial
  have hne : (Json.obj (recordMembers S m c (check = .overvote))).dump ≠ [] := by
    simp [Json.dump]
  have hrec : recordMembers S m c (check = .overvote) = [] ↔
      check ≠ .overvote ∧ ∀ id text, ¬ WroteIn m c id text := by
    rw [← hempty]
    unfold recordMembers
    by_cases hc : check = .overvote <;> by_cases hw : (writeInsOf S m c).isEmpty = true <;> simp [hc, hw]
  rw [record_eq]
  refine ⟨?_, ?_⟩
  · rw [← hrec]
    split
    · next h => simp [h]
    · next h => simp [h, hne]
  · intro h
    have hr : recordMembers S m c (check = .overvote) ≠ [] := fun h' => h (by rw [if_pos h'])
    rw [if_neg hr]
    have hget := record_get (check = .overvote) (writeInsOf S m c).isEmpty
      (.pushed ((c.selections.filter (fun s => s.vote = 1)).map (fun s => .str s.objectId)))
      (.obj ((writeInsOf S m c).map (fun e => (e.1, .str e.2))))
    refine ⟨_, parse_dump _ hwf, ?_, ?_, ?_, ?_⟩
    · refine (hget _).trans ?_
      rw [if_pos rfl]
      by_cases hc : check = .overvote
      · rw [if_pos hc, if_pos (by simpa using hc)]
      · rw [if_neg hc, if_neg (by simpa using hc)]
    · refine (hget _).trans ?_
      rw [if_neg (by decide), if_pos rfl]
      by_cases hc : check = .overvote
      · rw [if_pos hc, if_pos (by simpa using hc)]
      · rw [if_neg hc, if_neg (by simpa using hc)]
    · intro id text
      have hw := (hget "write_ins".toList).trans ((if_neg (by decide)).trans ((if_neg (by decide)).trans
        (if_pos rfl)))
      rw [← hwget]
      show _ ↔ ∃ w, (Json.obj _).get _ = some w ∧ _
      unfold recordMembers
      rw [hw]
      by_cases h0 : (writeInsOf S m c).isEmpty = true
      · rw [if_pos h0, List.isEmpty_iff.1 h0]
        constructor
        · intro h
          cases h
        · rintro ⟨w, h, -⟩
          cases h
      · rw [if_neg h0]
        constructor
        · intro h
          exact ⟨_, rfl, h⟩
        · rintro ⟨w, h, hw⟩
          rw [Option.some.inj h]
          exact hw
    · intro k h1 h2 h3
      refine (hget _).trans ?_
      rw [if_neg h1, if_neg h2, if_neg h3]

/-- C65 is violated by votes above 1: such a selection is not in the record of the overvote, and its
write-in is not recorded. -/
theorem C65_violated (text : Str) :
    ∃ (m : IManifest) (c : PContest), (m.contests.map (·.desc.objectId)).Nodup ∧
      (c.selections.map (·.objectId)).Nodup ∧
      c.isValid "c".toList 3 1 1 true = .overvote ∧
      IsWriteInSelection m c.objectId "s1".toList ∧
      c.selections = [⟨"s1".toList, 2, false, text⟩] ∧
      overvoteAndWriteIns S m c .overvote = "{\"error\":\"overvote\",\"error_data\":null}".toList := by
  refine ⟨writeInIM, ⟨"c".toList, [⟨"s1".toList, 2, false, text⟩]⟩, by decide +kernel, by simp, rfl, ?_,
    rfl, ?_⟩
  · exact ⟨exampleContestP, by simp [writeInIM], rfl, exampleContest.selections[0], by
      exact List.getElem_mem _, rfl, ⟨"a".toList, none, [], [], true⟩, by simp [writeInIM], rfl, rfl⟩
  · rfl

/-- A manifest and a contest with a write-in: the record holds it. -/
example : WroteIn writeInIM (writeInContest "Ada".toList) "s1".toList "Ada".toList ∧
    (writeInIM.contests.map (·.desc.objectId)).Nodup ∧
    ((writeInContest "Ada".toList).selections.map (·.objectId)).Nodup := by
  refine ⟨⟨⟨exampleContestP, by simp [writeInIM], rfl, exampleContest.selections[0], by
      exact List.getElem_mem _, rfl, ⟨"a".toList, none, [], [], true⟩, by simp [writeInIM], rfl, rfl⟩,
    ⟨"s1".toList, 1, false, "Ada".toList⟩, by simp [writeInContest], rfl, rfl, rfl⟩, by decide +kernel,
    by decide +kernel⟩

end EG
