import Verif.Model.CWalk
import Verif.Props.CJson

/-!
# C136: an encrypted ballot is checked part by part in C#
-/

namespace EG.CWalk

open EG.CGroup (Cs deref throwIfError call handle)

variable {G : Params} {C : Crypto} {S : StdSort}

theorem csContestAt_ok (b : CBallot) (i : UInt64) (c : CContest) :
    csContestAt S (some b) i = .ok c ↔ (b.getContests S)[i.toNat]? = some c := by
  show call throwIfError (contestAt S (some b) i) = _ ↔ _
  simp only [contestAt, deref, Res.bind_ok, at']
  cases (b.getContests S)[i.toNat]? with
  | none => exact ⟨fun h => (by cases h), fun h => (by cases h)⟩
  | some a => exact ⟨fun h => (by cases h; rfl), fun h => (by cases h; rfl)⟩

theorem csSelectionAt_ok (c : CContest) (i : UInt64) (s : CSelection) :
    csSelectionAt S (some c) i = .ok s ↔ (c.getSelections S)[i.toNat]? = some s := by
  show call throwIfError (selectionAt S (some c) i) = _ ↔ _
  simp only [selectionAt, deref, Res.bind_ok, at']
  cases (c.getSelections S)[i.toNat]? with
  | none => exact ⟨fun h => (by cases h), fun h => (by cases h)⟩
  | some a => exact ⟨fun h => (by cases h; rfl), fun h => (by cases h; rfl)⟩

theorem index {α : Type} (l : List α) (hl : l.length < 2 ^ 64) (a : α) :
    a ∈ l ↔ ∃ i : UInt64, l[i.toNat]? = some a := by
  constructor
  · intro h
    obtain ⟨n, hn, rfl⟩ := List.mem_iff_getElem.1 h
    refine ⟨UInt64.ofNat n, ?_⟩
    have : (UInt64.ofNat n).toNat = n := by
      rw [UInt64.toNat_ofNat']
      exact Nat.mod_eq_of_lt (by omega)
    rw [this, List.getElem?_eq_getElem hn]
  · rintro ⟨i, hi⟩
    exact List.mem_of_getElem? hi

/-- `GetContestAt` gives, for the indices below `ContestsSize`, the contests of the ballot, ordered by place, each one
exactly as often as the ballot has it; from the index `ContestsSize` on it ends with an exception, that of lack of
memory. -/
theorem C136_contests (b : CBallot) (hl : b.contests.length < 2 ^ 64) :
    csContestsSize S (some b) = .ok b.contests.length ∧
    (∃ l : List CContest, l.Perm b.contests ∧ l.Pairwise (fun c d => c.seq ≤ d.seq) ∧
      ∀ (i : UInt64) (c : CContest), csContestAt S (some b) i = .ok c ↔ l[i.toNat]? = some c) ∧
    (∀ i : UInt64, b.contests.length ≤ i.toNat → csContestAt S (some b) i = .throw .outOfMemory) ∧
    ∀ c, c ∈ b.contests ↔ ∃ i, csContestAt S (some b) i = .ok c := by
  have hp := S.perm CContest.seq b.contests
  refine ⟨?_, ⟨b.getContests S, hp, S.sorted _ _, fun i c => csContestAt_ok b i c⟩, ?_, ?_⟩
  · show Cs.ok (b.getContests S).length = _
    rw [show (b.getContests S).length = b.contests.length from hp.length_eq]
  · intro i hi
    have hn : (b.getContests S)[i.toNat]? = none :=
      List.getElem?_eq_none (by rw [show (b.getContests S).length = b.contests.length from hp.length_eq]; exact hi)
    show call throwIfError (contestAt S (some b) i) = _
    simp only [contestAt, deref, Res.bind_ok, at', hn]
    rfl
  · intro c
    have hlen : (b.getContests S).length < 2 ^ 64 :=
      lt_of_eq_of_lt hp.length_eq hl
    rw [← hp.mem_iff]
    refine (index _ hlen c).trans ?_
    simp only [csContestAt_ok]

/-- The same for the selections of a contest. -/
theorem C136_selections (c : CContest) (hl : c.selections.length < 2 ^ 64) :
    csSelectionsSize S (some c) = .ok c.selections.length ∧
    (∃ l : List CSelection, l.Perm c.selections ∧ l.Pairwise (fun s t => s.seq ≤ t.seq) ∧
      ∀ (i : UInt64) (s : CSelection), csSelectionAt S (some c) i = .ok s ↔ l[i.toNat]? = some s) ∧
    (∀ i : UInt64, c.selections.length ≤ i.toNat → csSelectionAt S (some c) i = .throw .outOfMemory) ∧
    ∀ s, s ∈ c.selections ↔ ∃ i, csSelectionAt S (some c) i = .ok s := by
  have hp := S.perm CSelection.seq c.selections
  refine ⟨?_, ⟨c.getSelections S, hp, S.sorted _ _, fun i s => csSelectionAt_ok c i s⟩, ?_, ?_⟩
  · show Cs.ok (c.getSelections S).length = _
    rw [show (c.getSelections S).length = c.selections.length from hp.length_eq]
  · intro i hi
    have hn : (c.getSelections S)[i.toNat]? = none :=
      List.getElem?_eq_none (by rw [show (c.getSelections S).length = c.selections.length from hp.length_eq]; exact hi)
    show call throwIfError (selectionAt S (some c) i) = _
    simp only [selectionAt, deref, Res.bind_ok, at', hn]
    rfl
  · intro s
    have hlen : (c.getSelections S).length < 2 ^ 64 :=
      lt_of_eq_of_lt hp.length_eq hl
    rw [← hp.mem_iff]
    refine (index _ hlen s).trans ?_
    simp only [csSelectionAt_ok]

theorem csContestValid_iff (c : CContest) (seed k x : ℕ) :
    csContestValid G C S (some c) (some (some seed)) (some (some k)) (some (some x)) = .ok true ↔
      c.isValid G C S seed k x = .ok true := by
  show CProof.callBool (contestValid G C S (some c) (some seed) (some k) (some x)) = .ok true ↔ _
  simp only [contestValid, deref, Res.bind_ok]
  cases c.isValid G C S seed k x with
  | ok v => cases v <;> simp [CProof.callBool]
  | throw e => simp [CProof.callBool]
  | ub => simp [CProof.callBool]

theorem csSelectionValid_eq (s : CSelection) (seed k x : ℕ) :
    csSelectionValid G C (some s) (some (some seed)) (some (some k)) (some (some x)) =
      .ok (s.isValid G C seed k x) := rfl

/-- `IsValidEncryption` of a ballot says yes exactly if the hash of the manifest is that of the ballot, the hash of the
ballot is the one the library computes for it, and every contest and every selection obtained by index says yes for its
own description hash: a program that checks the parts comes to the verdict of the library.  Missing: ballots whose
result names repeat, see `C36_violated`. -/
theorem C136_parts_partial (b : CBallot) (mh k x : ℕ) (hn : b.keys.Nodup) (hl : b.contests.length < 2 ^ 64)
    (hs : ∀ c ∈ b.contests, c.selections.length < 2 ^ 64) :
    CJson.isValidEncryption G C S (some b) (some (some mh)) (some (some k)) (some (some x)) = .ok true ↔
      mh = b.manifestHash ∧ ballotHashWith G C S (some b) (some mh) = .ok (.success, some b.cryptoHash) ∧
      ∀ i c, csContestAt S (some b) i = .ok c →
        csContestValid G C S (some c) (some (some c.descHash)) (some (some k)) (some (some x)) = .ok true ∧
        ∀ j s, csSelectionAt S (some c) j = .ok s →
          csSelectionValid G C (some s) (some (some s.descHash)) (some (some k)) (some (some x)) = .ok true := by
  rw [CJson.isValidEncryption_iff, ballot_isValid_iff G C S mh k x b hn]
  have hh : ballotHashWith G C S (some b) (some mh) = .ok (.success, some b.cryptoHash) ↔
      ballotHash G C b.objectId (b.getContests S) mh = .ok b.cryptoHash := by
    simp only [ballotHashWith, deref, Res.bind_ok]
    cases ballotHash G C b.objectId (b.getContests S) mh with
    | ok v => simp [CGroup.caught]
    | throw e => simp [CGroup.caught]
    | ub => simp [CGroup.caught]
  rw [hh]
  refine and_congr_right fun _ => and_congr_right fun _ => ?_
  have hc := (C136_contests (S := S) b hl).2.2.2
  constructor
  · intro h i c hi
    have hm := (hc c).2 ⟨i, hi⟩
    refine ⟨(csContestValid_iff c _ _ _).2 (h c hm).1, fun j s hj => ?_⟩
    have hsm := ((C136_selections (S := S) c (hs c hm)).2.2.2 s).2 ⟨j, hj⟩
    rw [csSelectionValid_eq, (h c hm).2 s hsm]
  · intro h c hm
    obtain ⟨i, hi⟩ := (hc c).1 hm
    obtain ⟨h1, h2⟩ := h i c hi
    refine ⟨(csContestValid_iff c _ _ _).1 h1, fun s hsm => ?_⟩
    obtain ⟨j, hj⟩ := ((C136_selections (S := S) c (hs c hm)).2.2.2 s).1 hsm
    have := h2 j s hj
    rw [csSelectionValid_eq] at this
    exact Cs.ok.inj this

theorem mapRes_nonces (f : CSelection → ℕ) (l : List CSelection) (h : ∀ s ∈ l, s.nonce = some (f s)) :
    mapRes CSelection.nonceOf l = .ok (l.map f) := by
  induction l with
  | nil => rfl
  | cons s l ih =>
    have h1 : s.nonceOf = .ok (f s) := by
      unfold CSelection.nonceOf
      rw [h s (by simp)]
    simp only [mapRes, h1, Res.bind_ok, ih (fun x hx => h x (by simp [hx])), List.map_cons]

theorem mapRes_missing (l : List CSelection) (h : ∃ s ∈ l, s.nonce = none) : mapRes CSelection.nonceOf l = .ub := by
  induction l with
  | nil => simp at h
  | cons s l ih =>
    cases hs : s.nonce with
    | none =>
      have h1 : s.nonceOf = .ub := by
        unfold CSelection.nonceOf
        rw [hs]
      simp only [mapRes, h1]
      rfl
    | some n =>
      have h1 : s.nonceOf = .ok n := by
        unfold CSelection.nonceOf
        rw [hs]
      have h2 : ∃ s ∈ l, s.nonce = none := by
        obtain ⟨t, ht, hn⟩ := h
        rcases List.mem_cons.1 ht with rfl | ht
        · rw [hs] at hn; cases hn
        · exact ⟨t, ht, hn⟩
      simp only [mapRes, h1, Res.bind_ok, ih h2]
      rfl

/-- `AggregateNonce` of a contest with all its nonces gives their sum; if one is missing, a null pointer is followed. -/
theorem C136_nonces (hG : G.Valid) (c : CContest) :
    (∀ f : CSelection → ℕ, c.selections ≠ [] → (∀ s ∈ c.selections, s.nonce = some (f s) ∧ f s < G.q) →
      csNonceSum G S (some c) = .ok ((c.selections.map f).sum % G.q)) ∧
    ((∃ s ∈ c.selections, s.nonce = none) → csNonceSum G S (some c) = .ub) := by
  have hp := S.perm CSelection.seq c.selections
  constructor
  · intro f hne h
    have h1 := mapRes_nonces f (c.getSelections S) (fun s hs => (h s (hp.mem_iff.1 hs)).1)
    have hne' : (c.getSelections S).map f ≠ [] := by
      intro h0
      have h0 : c.getSelections S = [] := List.map_eq_nil_iff.1 h0
      rw [CContest.getSelections] at h0
      rw [h0] at hp
      exact hne hp.symm.eq_nil
    have hlt : ∀ x ∈ (c.getSelections S).map f, x < G.q := by
      intro x hx
      obtain ⟨s, hs, rfl⟩ := List.mem_map.1 hx
      exact (h s (hp.mem_iff.1 hs)).2
    have h2 := C01_add_mod_q_vector G hG _ (fun x hx => (hlt x hx).le)
    rw [if_neg hne', show ((c.getSelections S).map f).sum = (c.selections.map f).sum from (hp.map f).sum_eq] at h2
    show call throwIfError (nonceSum G S (some c)) = _
    simp only [nonceSum, deref, Res.bind_ok, aggregateNonce, h1, h2]
    rfl
  · intro h
    obtain ⟨s, hs, hn⟩ := h
    have h1 := mapRes_missing (c.getSelections S) ⟨s, hp.mem_iff.2 hs, hn⟩
    show call throwIfError (nonceSum G S (some c)) = _
    simp only [nonceSum, deref, Res.bind_ok, aggregateNonce, h1]
    rfl

/-- Objects that are null or disposed end with an exception. -/
theorem C136_null (i : UInt64) (seed pub ext : Option ℕ) :
    csContestsSize S none = .throw .argumentNull ∧ csContestAt S none i = .throw .argumentNull ∧
    csSelectionsSize S none = .throw .argumentNull ∧ csSelectionAt S none i = .throw .argumentNull ∧
    csNonceSum G S none = .throw .argumentNull ∧
    (∀ c s, none ∈ [seed, pub, ext] →
      csContestValid G C S c (some seed) (some pub) (some ext) = .throw .argumentNull ∧
      csSelectionValid G C s (some seed) (some pub) (some ext) = .throw .argumentNull) ∧
    csContestValid G C S none (some seed) (some pub) (some ext) = .throw .argumentNull ∧
    csSelectionValid G C none (some seed) (some pub) (some ext) = .throw .argumentNull := by
  refine ⟨rfl, rfl, rfl, rfl, rfl, ?_, rfl, rfl⟩
  intro c s h
  rcases c with _ | c <;> rcases s with _ | s <;> rcases seed with _ | a <;> rcases pub with _ | k <;>
    rcases ext with _ | x <;> first | (simp at h; done) | exact ⟨rfl, rfl⟩

/-! The hypotheses can be met. -/

/-- A ballot with two selections. -/
example : wholeBallot.keys.Nodup ∧ wholeBallot.contests.length < 2 ^ 64 ∧
    (∀ c ∈ wholeBallot.contests, c.selections.length < 2 ^ 64 ∧ c.selections.length = 2) := by
  decide +kernel

/-- A contest with all its nonces. -/
example : ∃ c ∈ wholeBallot.contests, c.selections ≠ [] ∧
    ∀ s ∈ c.selections, s.nonce = some (s.nonce.elim 0 id) ∧ s.nonce.elim 0 id < Params.test.q := by
  refine ⟨_, List.mem_singleton.2 rfl, ?_⟩
  decide +kernel

end EG.CWalk
