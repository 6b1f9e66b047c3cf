import Verif.Model.ContestObj
import Verif.Props.Manifest

/-!
# C103: assigning and moving contests of the internal manifest
-/

namespace EG

open ContestObj

theorem ContestObj.find_perm_none {l l' : List SelectionDesc} (h : l.Perm l') (id : Str)
    (hn : ∀ s ∈ l', s.objectId ≠ id) : l.find? (fun s => id = s.objectId) = none := by
  rw [List.find?_eq_none]
  intro s hs
  simpa [eq_comm] using hn s (h.mem_iff.1 hs)

/-- C103, for contests without placeholders: exactly which contests the target equals after they were
assigned to it, whatever it was before; the others are those of C45. -/
theorem C103_base_partial (a : Option ContestDesc) (c : ContestDesc) :
    assignBase a (some c) = .ok (some c) ↔
      c.primaryPartyIds = [] ∧
        ((c.title ≠ none ∧ c.subtitle ≠ none) ∨
          (c.title = none ∧ c.subtitle = none ∧
            c.votesAllowed = if c.variation = .n_of_m ∨ c.variation = .one_of_m
              then c.numberElected else 0)) := by
  rw [← C45_clone_partial]
  simp only [assignBase, copyBase, deref, Res.bind_ok]
  cases c.clone <;> simp

example : assignBase (some exampleContestP2.desc) (some exampleContest) = .ok (some exampleContest) := by
  decide +kernel

/-- C103: an assignment that comes to an end has the placeholders of the source and the description of
the target, whatever the source is. -/
theorem C103_partial (a b r : ContestObj) (h : a.assign b = .ok r) (S : StdSort) :
    r.getPlaceholders S = b.getPlaceholders S ∧ r.description = a.description := by
  obtain ⟨t, ht, h2⟩ := (Res.bind_eq_ok _ _ _).1 h
  obtain ⟨d, hd, h3⟩ := (Res.bind_eq_ok _ _ _).1 ht
  obtain ⟨p, hp, h4⟩ := (Res.bind_eq_ok _ _ _).1 h3
  cases h4
  cases h2
  refine ⟨?_, rfl⟩
  have : b.own = some p := by
    revert hp
    cases b.own <;> simp [deref]
  simp [ContestObj.getPlaceholders, this]

/-- C103: so the target equals the source afterwards exactly if its description did before. -/
theorem C103_iff_partial (a : ContestObj) (b : ContestDescP) (r : ContestObj)
    (h : a.assign (.of b) = .ok r) : r = .of b ↔ a.base = some b.desc := by
  obtain ⟨t, ht, h2⟩ := (Res.bind_eq_ok _ _ _).1 h
  obtain ⟨d, hd, h3⟩ := (Res.bind_eq_ok _ _ _).1 ht
  obtain ⟨p, hp, h4⟩ := (Res.bind_eq_ok _ _ _).1 h3
  cases h4
  cases h2
  cases hp
  simp [ContestObj.of]

/-- C103 is violated by all pairs of contests with different ids: after the assignment the object has
the id and the selections of its own contest with the placeholders of the other one. -/
theorem C103_violated (a b : ContestDescP) (d : ContestDesc) (hb : b.desc.clone = .ok d)
    (hid : a.desc.objectId ≠ b.desc.objectId) :
    (ContestObj.of a).assign (.of b) = .ok { base := some a.desc, own := some b.placeholders } ∧
      ({ base := some a.desc, own := some b.placeholders } : ContestObj) ≠ .of b := by
  refine ⟨?_, ?_⟩
  · simp [assign, copy, copyBase, deref, ContestObj.of, hb]
  · intro h
    apply hid
    simp only [ContestObj.of, ContestObj.mk.injEq, Option.some.injEq] at h
    rw [h.1]

/-- C103: a placeholder that no selection of the target and no placeholder of the source has the id of
is no longer found after the assignment. -/
theorem C103_lost_violated (S : StdSort) (a b : ContestDescP) (r : ContestObj)
    (h : (ContestObj.of a).assign (.of b) = .ok r) (s : SelectionDesc)
    (hsel : ∀ x ∈ a.desc.selections, x.objectId ≠ s.objectId)
    (hpl : ∀ x ∈ b.placeholders, x.objectId ≠ s.objectId) :
    r.selectionFor S s.objectId = .throw .outOfRange := by
  obtain ⟨h1, h2⟩ := C103_partial _ _ _ h S
  have e1 : deref r.base = .ok a.desc := h2
  have e2 : (a.desc.getSelections S).find? (fun x => s.objectId = x.objectId) = none :=
    find_perm_none (S.perm _ _) _ hsel
  have e3 : r.getPlaceholders S = .ok (S.sort SelectionDesc.seq b.placeholders) := h1
  have e4 : (S.sort SelectionDesc.seq b.placeholders).find? (fun x => s.objectId = x.objectId) = none :=
    find_perm_none (S.perm _ _) _ hpl
  simp [ContestObj.selectionFor, e1, e2, e3, e4]

/-- The two contests of the internal manifest of the example: the first one is assigned the second
one, and its own placeholder is not found any more, that of the other contest is. -/
example (S : StdSort) :
    contestsWithPlaceholders S exampleManifest = .ok [exampleContestP2, exampleContestP] ∧
      ∃ r, (ContestObj.of exampleContestP).assign (.of exampleContestP2) = .ok r ∧
        r.selectionFor S (placeholderFrom "c".toList 3).objectId = .throw .outOfRange ∧
        r.getPlaceholders S = (ContestObj.of exampleContestP2).getPlaceholders S ∧
        r.description = .ok exampleContest := by
  have h := (C103_violated exampleContestP exampleContestP2 exampleContestP2.desc
    (by decide +kernel) (by decide +kernel)).1
  refine ⟨contestsWithPlaceholders_example S _ rfl, _, h, ?_, (C103_partial _ _ _ h S).1, rfl⟩
  exact C103_lost_violated S _ _ _ h (placeholderFrom "c".toList 3) (by decide +kernel)
    (by decide +kernel)

/-- C103: moving a `ContestDescription` gives everything to the new one, also what a copy loses; the source can be given a
new value, but not be copied any more. -/
theorem C103_base_move (c : ContestDesc) :
    (moveBase (some c)).1 = some c ∧ copyBase (moveBase (some c)).2 = .ub ∧
      (∀ a, assignBase a (moveBase (some c)).2 = .ub) ∧
      assignBase (moveBase (some c)).2 (some c) = copyBase (some c) :=
  ⟨rfl, rfl, fun _ => rfl, rfl⟩

example : (moveBase (some { exampleContest with primaryPartyIds := ["p".toList] })).1 ≠ some exampleContest := by
  decide +kernel

/-- C103: moving a contest gives what copying it gives. -/
theorem C103_move (c : ContestDescP) :
    ((ContestObj.of c).moveOut.bind fun x => .ok x.1) = (ContestObj.of c).copy := by
  simp only [moveOut, copy, ContestObj.of]
  cases copyBase (some c.desc) <;> rfl

/-- C103 is violated: a move does not keep the primary parties (nor anything else that a copy loses,
C45); afterwards the description of the source can still be read, but not its placeholders. -/
theorem C103_move_violated (S : StdSort) (c : ContestDescP) (x y : ContestObj)
    (h : (ContestObj.of c).moveOut = .ok (x, y)) :
    (∃ d, x.description = .ok d ∧ d.primaryPartyIds = []) ∧ y.description = .ok c.desc ∧
      y.getPlaceholders S = .ub := by
  obtain ⟨d, hd, h2⟩ := (Res.bind_eq_ok _ _ _).1 h
  cases h2
  obtain ⟨d1, hd1, h3⟩ := (Res.bind_eq_ok _ _ _).1 hd
  obtain ⟨d2, hd2, h4⟩ := (Res.bind_eq_ok _ _ _).1 h3
  cases h4
  refine ⟨⟨d2, rfl, ?_⟩, rfl, rfl⟩
  revert hd2
  unfold ContestDesc.clone
  cases d1.title <;> cases d1.subtitle <;>
    simp [ContestDesc.make7, ContestDesc.make10] <;> rintro rfl <;> rfl

example : ∃ x y, (ContestObj.of { exampleContestP with
      desc := { exampleContest with primaryPartyIds := ["p".toList] } }).moveOut = .ok (x, y) ∧
    x.description = .ok exampleContest := ⟨_, _, rfl, by decide +kernel⟩

end EG
