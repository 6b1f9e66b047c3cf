import Verif.Props.Mediator

/-!
# C39: compact ballots
-/

namespace EG

variable (G : Params) (C : Crypto) (S : StdSort)

/-! ## What a compact ballot forgets -/

/-- The mark that a selection is a placeholder is not kept in compact form. -/
def PSelection.unmark (s : PSelection) : PSelection := { s with isPlaceholder := false }

def PContest.unmark (c : PContest) : PContest := { c with selections := c.selections.map PSelection.unmark }

def PBallot.unmark (b : PBallot) : PBallot := { b with contests := b.contests.map PContest.unmark }

theorem countVotes_unmark (l : List PSelection) (n v : ℕ) :
    countVotes (l.map PSelection.unmark) n v = countVotes l n v := by
  induction l generalizing n v with
  | nil => rfl
  | cons s l ih => simp only [List.map_cons, countVotes, ih]; rfl

theorem isValid_unmark (c : PContest) (id : Str) (a b d : ℕ) (o : Bool) :
    c.unmark.isValid id a b d o = c.isValid id a b d o := by
  unfold PContest.isValid
  simp only [PContest.unmark, List.length_map, countVotes_unmark]

theorem find_unmark (l : List PSelection) (id : Str) :
    (l.map PSelection.unmark).find? (fun s => s.objectId = id) =
      (l.find? (fun s => s.objectId = id)).map PSelection.unmark := by
  induction l with
  | nil => rfl
  | cons s l ih =>
    rw [List.map_cons]
    by_cases h : s.objectId = id
    · rw [List.find?_cons_of_pos (by simp [PSelection.unmark, h]),
        List.find?_cons_of_pos (by simpa using h)]
      rfl
    · rw [List.find?_cons_of_neg (by simp [PSelection.unmark, h]),
        List.find?_cons_of_neg (by simpa using h), ih]

theorem emplaceSelection_unmark (c : PContest) (sd : SelectionDesc) :
    emplaceSelection c.unmark sd = (emplaceSelection c sd).unmark := by
  unfold emplaceSelection
  rw [PContest.unmark, find_unmark]
  cases c.selections.find? (fun s => s.objectId = sd.objectId) <;> rfl

theorem emplaceContest_unmark (c : PContest) (d : ContestDesc) :
    emplaceContest S c.unmark d = (emplaceContest S c d).unmark := by
  unfold emplaceContest PContest.unmark
  simp only [List.map_map, PContest.mk.injEq, true_and]
  exact List.map_congr_left (fun sd _ => emplaceSelection_unmark c sd)

theorem encryptSelection_unmark (s : PSelection) (d : SelectionDesc) (pub ext seed : ℕ) (p v : Bool) :
    encryptSelection G C s.unmark d pub ext seed p v = encryptSelection G C s d pub ext seed p v := rfl

theorem encryptReal_unmark (pub ext n : ℕ) (verify over : Bool) (l : List PSelection)
    (ds : List SelectionDesc) (count : ℕ) :
    encryptReal G C pub ext n verify over (l.map PSelection.unmark) ds count =
      encryptReal G C pub ext n verify over l ds count := by
  induction ds generalizing count with
  | nil => rfl
  | cons d ds ih =>
    unfold encryptReal
    rw [find_unmark]
    cases l.find? (fun s => s.objectId = d.objectId) with
    | none => rfl
    | some s =>
      simp only [Option.map_some, ih]
      cases over <;> rfl

theorem writeInsOf_unmark (m : IManifest) (c : PContest) : writeInsOf S m c.unmark = writeInsOf S m c := by
  unfold writeInsOf
  simp only [PContest.unmark, List.foldl_map]
  rfl

theorem overvoteAndWriteIns_unmark (m : IManifest) (c : PContest) (k : ContestCheck) :
    overvoteAndWriteIns S m c.unmark k = overvoteAndWriteIns S m c k := by
  have h : (c.unmark.selections.filter (fun s => s.vote = 1)).map (·.objectId) =
      (c.selections.filter (fun s => s.vote = 1)).map (·.objectId) := by
    rw [PContest.unmark]
    dsimp only
    rw [List.filter_map, List.map_map]
    rfl
  unfold overvoteAndWriteIns
  rw [writeInsOf_unmark, h]

theorem encryptContest_unmark (c : PContest) (m : IManifest) (d : ContestDescP) (pub ext seed : ℕ)
    (v : Bool) : encryptContest G C S c.unmark m d pub ext seed v = encryptContest G C S c m d pub ext seed v := by
  unfold encryptContest
  simp only [isValid_unmark, overvoteAndWriteIns_unmark, emplaceContest_unmark]
  have : ∀ x : PContest, x.unmark.selections = x.selections.map PSelection.unmark := fun _ => rfl
  simp only [this, encryptReal_unmark]
  rfl

theorem find_unmark_contest (l : List PContest) (id : Str) :
    (l.map PContest.unmark).find? (fun s => s.objectId = id) =
      (l.find? (fun s => s.objectId = id)).map PContest.unmark := by
  induction l with
  | nil => rfl
  | cons s l ih =>
    rw [List.map_cons]
    by_cases h : s.objectId = id
    · rw [List.find?_cons_of_pos (by simp [PContest.unmark, h]),
        List.find?_cons_of_pos (by simpa using h)]
      rfl
    · rw [List.find?_cons_of_neg (by simp [PContest.unmark, h]),
        List.find?_cons_of_neg (by simpa using h), ih]

theorem emplaceFrom_unmark (b : PBallot) (d : ContestDescP) :
    emplaceFrom S b.unmark d = (emplaceFrom S b d).unmark := by
  unfold emplaceFrom
  rw [PBallot.unmark, find_unmark_contest]
  cases b.contests.find? (fun c => c.objectId = d.desc.objectId) with
  | some c => exact emplaceContest_unmark S c d.desc
  | none =>
    simp only [Option.map_none, contestFrom, PContest.unmark, List.map_map]
    rfl

theorem emplaceBallot_unmark (b : PBallot) (m : IManifest) :
    emplaceBallot S b.unmark m = (emplaceBallot S b m).bind (fun b => .ok b.unmark) := by
  unfold emplaceBallot
  have h1 : b.unmark.styleId = b.styleId := rfl
  have h2 : b.unmark.objectId = b.objectId := rfl
  rw [h1, h2]
  cases m.getBallotStyle b.styleId with
  | none => rfl
  | some style =>
    dsimp only
    cases m.getContestsFor S style.objectId with
    | ok ds =>
      simp only [Res.bind_ok]
      unfold Res.bind PBallot.unmark
      simp only [List.map_map, Res.ok.injEq, PBallot.mk.injEq, true_and]
      exact List.map_congr_left (fun d _ => emplaceFrom_unmark S b d)
    | throw e => rfl
    | ub => rfl

theorem forEach_congr {α β : Type} (f g : α → M β) (l : List α) (h : ∀ x ∈ l, f x = g x) :
    M.forEach f l = M.forEach g l := by
  induction l with
  | nil => rfl
  | cons x l ih =>
    unfold M.forEach
    rw [h x (by simp), ih (fun y hy => h y (by simp [hy]))]

/-- Encryption of a ballot does not depend on marks of placeholders in the ballot. -/
theorem encryptBallot_unmark (b : PBallot) (m : IManifest) (ctx : Context) (seed : ℕ) (nonce : Option ℕ)
    (t : ℕ) (v : Bool) :
    encryptBallot G C S b.unmark m ctx seed nonce t v = encryptBallot G C S b m ctx seed nonce t v := by
  have key : ∀ n, encryptContests G C S b.unmark m ctx n v = encryptContests G C S b m ctx n v := by
    intro n
    unfold encryptContests
    rw [emplaceBallot_unmark]
    have h1 : b.unmark.styleId = b.styleId := rfl
    rw [h1]
    cases hb : emplaceBallot S b m with
    | ok b' =>
      funext w
      simp only [Res.bind]
      rw [M.bind_apply_ok (M.lift (Res.ok b'.unmark)) _ w w _ rfl, M.bind_apply_ok (M.lift (Res.ok b')) _ w w _ rfl]
      cases m.getBallotStyle b.styleId with
      | none => rfl
      | some style =>
        dsimp only
        refine congrFun (congrArg (M.lift (m.getContestsFor S style.objectId) >>= ·) (funext fun ds => ?_)) w
        refine forEach_congr _ _ ds (fun d _ => ?_)
        rw [PBallot.unmark, find_unmark_contest]
        cases b'.contests.find? (fun c => c.objectId = d.desc.objectId) with
        | none => rfl
        | some c => exact encryptContest_unmark G C S c m d _ _ _ _
    | throw e => rfl
    | ub => rfl
  unfold encryptBallot
  simp only [key]
  rfl

/-- Encryption of a normalised ballot is encryption of the ballot. -/
theorem encryptBallot_normalized (b b' : PBallot) (m : IManifest) (ctx : Context) (seed : ℕ)
    (nonce : Option ℕ) (t : ℕ) (v : Bool) (ds : List ContestDescP)
    (hds : m.getContestsFor S b.styleId = .ok ds)
    (hinj : ∀ x ∈ ds, ∀ y ∈ ds, x.desc.objectId = y.desc.objectId → x = y)
    (h : emplaceBallot S b m = .ok b') :
    encryptBallot G C S b' m ctx seed nonce t v = encryptBallot G C S b m ctx seed nonce t v := by
  have h2 := C34_idempotent S b b' m ds hds hinj h
  have hid : b'.styleId = b.styleId ∧ b'.objectId = b.objectId := by
    unfold emplaceBallot at h
    cases hst : m.getBallotStyle b.styleId with
    | none => rw [hst] at h; simp at h
    | some style =>
      rw [hst] at h
      simp only [Res.bind_eq_ok, Res.ok.injEq] at h
      obtain ⟨_, _, rfl⟩ := h
      exact ⟨rfl, rfl⟩
  unfold encryptBallot encryptContests
  rw [h, h2, hid.1, hid.2]

/-! ## Plaintext round trip -/

theorem expandSelections_spec (p : CompactPlain) (sds : List SelectionDesc)
    (ss : List PSelection) (pv qv : List ℕ) (pw qw : List Str)
    (hs : List.Forall₂ (fun (sd : SelectionDesc) s => s.objectId = sd.objectId) sds ss)
    (hv : p.selections = pv ++ (ss.map (·.vote) ++ qv))
    (hw : p.writeIns = pw ++ (ss.map (·.writeIn) ++ qw)) (hl : pw.length = pv.length) :
    expandSelections p sds pv.length = .ok (ss.map PSelection.unmark) := by
  induction hs generalizing pv pw with
  | nil => rfl
  | @cons sd s sds ss h0 hs ih =>
    unfold expandSelections
    have e1 : p.selections[pv.length]? = some s.vote := by rw [hv]; simp
    have e2 : p.writeIns[pv.length]? = some s.writeIn := by rw [hw, ← hl]; simp
    have e3 := ih (pv ++ [s.vote]) (pw ++ [s.writeIn]) (by rw [hv]; simp) (by rw [hw]; simp) (by simp [hl])
    rw [List.length_append, List.length_singleton] at e3
    rw [e1, e2]
    dsimp only
    rw [e3, Res.bind_ok, ← h0]
    rfl

theorem expandContests_spec (p : CompactPlain) (ds : List ContestDescP) (cs : List PContest)
    (pv qv : List ℕ) (pw qw : List Str)
    (hs : List.Forall₂ (fun (d : ContestDescP) c => c.objectId = d.desc.objectId ∧
      List.Forall₂ (fun (sd : SelectionDesc) (s : PSelection) => s.objectId = sd.objectId)
        (d.desc.getSelections S) c.selections) ds cs)
    (hv : p.selections = pv ++ (cs.flatMap (fun c => c.selections.map (·.vote)) ++ qv))
    (hw : p.writeIns = pw ++ (cs.flatMap (fun c => c.selections.map (·.writeIn)) ++ qw))
    (hl : pw.length = pv.length) :
    expandContests S p ds pv.length = .ok (cs.map PContest.unmark) := by
  induction hs generalizing pv pw with
  | nil => rfl
  | @cons d c ds cs h0 hs ih =>
    unfold expandContests
    have e1 := expandSelections_spec p (d.desc.getSelections S) c.selections pv
      (cs.flatMap (fun c => c.selections.map (·.vote)) ++ qv) pw
      (cs.flatMap (fun c => c.selections.map (·.writeIn)) ++ qw) h0.2 (by rw [hv]; simp) (by rw [hw]; simp) hl
    have e2 := ih (pv ++ c.selections.map (·.vote)) (pw ++ c.selections.map (·.writeIn))
      (by rw [hv]; simp) (by rw [hw]; simp) (by simp [hl])
    rw [List.length_append, List.length_map, ← h0.2.length_eq] at e2
    rw [e1, Res.bind_ok, e2, Res.bind_ok, ← h0.1]
    rfl

/-- C39: expanding the compressed normalised ballot gives back its contests, selections, votes and
write-ins; only marks of placeholders are lost. -/
theorem C39_plaintext (b b' : PBallot) (m : IManifest) (ds : List ContestDescP)
    (hds : m.getContestsFor S b.styleId = .ok ds) (h : emplaceBallot S b m = .ok b') :
    expandPlain S (compressPlain b') m = .ok b'.unmark := by
  unfold emplaceBallot at h
  cases hst : m.getBallotStyle b.styleId with
  | none => rw [hst] at h; simp at h
  | some style =>
    have hid : style.objectId = b.styleId := by
      have := List.find?_some hst
      simpa using this
    rw [hst] at h
    dsimp only at h
    rw [hid, hds, Res.bind_ok, Res.ok.injEq] at h
    subst h
    unfold expandPlain
    have e1 : (compressPlain ⟨b.objectId, b.styleId, ds.map (emplaceFrom S b)⟩).styleId = b.styleId := rfl
    rw [e1, hds, Res.bind_ok]
    have := expandContests_spec S (compressPlain ⟨b.objectId, b.styleId, ds.map (emplaceFrom S b)⟩) ds
      (ds.map (emplaceFrom S b)) [] [] [] [] ?_ (by simp [compressPlain]) (by simp [compressPlain]) rfl
    · rw [List.length_nil] at this
      rw [this, Res.bind_ok]
      rfl
    · rw [List.forall₂_map_right_iff, List.forall₂_same]
      intro d _
      refine ⟨emplaceFrom_id S b d, ?_⟩
      have hsel : (emplaceFrom S b d).selections =
          (d.desc.getSelections S).map (emplaceSelection (emplaceFrom S b d)) := by
        conv_lhs => rw [← emplaceFrom_idem S b d]
        rfl
      rw [hsel, List.forall₂_map_right_iff, List.forall₂_same]
      exact fun sd _ => emplaceSelection_id _ sd

/-! ## Determinism -/

/-- Nothing is precomputed. -/
def World.Empty (w : World) : Prop := w.pre.triples = [] ∧ w.pre.quads = []

/-- Two computations that start without precomputed values return related values if both succeed. -/
def Agree {α β : Type} (R : α → β → Prop) (x : M α) (y : M β) : Prop :=
  ∀ w v w' v' a b, w.Empty → v.Empty → x w = (.ok a, w') → y v = (.ok b, v') →
    R a b ∧ w'.Empty ∧ v'.Empty

theorem Agree.bind {α β γ δ : Type} {R : α → β → Prop} {T : γ → δ → Prop} {x : M α} {y : M β}
    {f : α → M γ} {g : β → M δ} (h : Agree R x y) (hf : ∀ a b, R a b → Agree T (f a) (g b)) :
    Agree T (x >>= f) (y >>= g) := by
  intro w v w' v' a b hw hv hx hy
  rw [M.bind_eq_ok] at hx hy
  obtain ⟨a1, w1, hx1, hx2⟩ := hx
  obtain ⟨b1, v1, hy1, hy2⟩ := hy
  obtain ⟨h1, hw1, hv1⟩ := h w v w1 v1 a1 b1 hw hv hx1 hy1
  exact hf a1 b1 h1 w1 v1 w' v' a b hw1 hv1 hx2 hy2

theorem Agree.ret {α β : Type} {R : α → β → Prop} {a : α} {b : β} (h : R a b) :
    Agree R (M.ret a) (M.ret b) := by
  intro w v w' v' a' b' hw hv hx hy
  simp only [M.ret, Prod.mk.injEq, Res.ok.injEq] at hx hy
  obtain ⟨rfl, rfl⟩ := hx
  obtain ⟨rfl, rfl⟩ := hy
  exact ⟨h, hw, hv⟩

theorem Agree.raise_left {α β : Type} {R : α → β → Prop} {e : Exn} {y : M β} :
    Agree R (M.raise e : M α) y := by
  intro w v w' v' a' b' hw hv hx hy
  simp [M.raise] at hx

theorem Agree.raise_right {α β : Type} {R : α → β → Prop} {e : Exn} {x : M α} :
    Agree R x (M.raise e : M β) := by
  intro w v w' v' a' b' hw hv hx hy
  simp [M.raise] at hy

theorem Agree.lift {α β : Type} {R : α → β → Prop} {r : Res α} {s : Res β}
    (h : ∀ a b, r = .ok a → s = .ok b → R a b) : Agree R (M.lift r) (M.lift s) := by
  intro w v w' v' a' b' hw hv hx hy
  simp only [M.lift, Prod.mk.injEq] at hx hy
  obtain ⟨rfl, rfl⟩ := hx
  obtain ⟨rfl, rfl⟩ := hy
  exact ⟨h _ _ rfl rfl, hw, hv⟩

theorem Agree.lift_same {α : Type} {r : Res α} : Agree (· = ·) (M.lift r) (M.lift r) :=
  Agree.lift (fun a b ha hb => by rw [ha] at hb; simpa using hb)

theorem Agree.rand : Agree (fun _ _ => True) M.rand M.rand := by
  intro w v w' v' a' b' hw hv hx hy
  simp only [M.rand, Prod.mk.injEq, Res.ok.injEq] at hx hy
  obtain ⟨rfl, rfl⟩ := hx
  obtain ⟨rfl, rfl⟩ := hy
  exact ⟨trivial, hw, hv⟩

theorem Agree.triple : Agree (fun a b => a = none ∧ b = none) M.getTriple M.getTriple := by
  intro w v w' v' a' b' hw hv hx hy
  simp only [M.getTriple, PreState.getTriple, hw.1, hv.1, Prod.mk.injEq, Res.ok.injEq] at hx hy
  obtain ⟨rfl, rfl⟩ := hx
  obtain ⟨rfl, rfl⟩ := hy
  exact ⟨⟨rfl, rfl⟩, hw, hv⟩

theorem Agree.quad : Agree (fun a b => a = none ∧ b = none) M.getQuad M.getQuad := by
  intro w v w' v' a' b' hw hv hx hy
  simp only [M.getQuad, PreState.getQuad, hw.2, hv.2, Prod.mk.injEq, Res.ok.injEq] at hx hy
  obtain ⟨rfl, rfl⟩ := hx
  obtain ⟨rfl, rfl⟩ := hy
  exact ⟨⟨rfl, rfl⟩, hw, hv⟩

/-- A check of the result, which may be left out, does not matter. -/
theorem Agree.checked {α β : Type} {R : α → β → Prop} {a : α} {b : β} (h : R a b) (v v' : Bool)
    (r s : Res Bool) :
    Agree R
      (if !v then M.ret a else M.lift r >>= fun ok => if ok then M.ret a else M.raise .runtimeError)
      (if !v' then M.ret b else M.lift s >>= fun ok => if ok then M.ret b else M.raise .runtimeError) := by
  have h1 : Agree R (M.ret a) (M.ret b) := Agree.ret h
  have key : ∀ (γ : Type) (v : Bool) (r : Res Bool) (a : γ) (w w' : World) (x : γ),
      (if !v then M.ret a else M.lift r >>= fun ok => if ok then M.ret a else M.raise .runtimeError : M γ) w =
        (.ok x, w') → M.ret a w = (.ok x, w') := by
    intro γ v r a w w' x hx
    cases v with
    | false => exact hx
    | true =>
      simp only [Bool.not_true, Bool.false_eq_true, if_false, M.bind_eq_ok, M.lift, Prod.mk.injEq] at hx
      obtain ⟨ok, w1, ⟨h1, rfl⟩, hx⟩ := hx
      cases ok with
      | false => simp [M.raise] at hx
      | true => exact hx
  intro w u w' u' x y hw hu hx hy
  exact h1 w u w' u' x y hw hu (key _ _ _ _ _ _ _ hx) (key _ _ _ _ _ _ _ hy)

/-- The same selection, up to the (randomised) proof. -/
def SameSelection (x y : CSelection) : Prop := { x with proof := none } = { y with proof := none }

/-- The same contest, up to the proofs of the selections. -/
structure SameContest (x y : CContest) : Prop where
  selections : List.Forall₂ SameSelection x.selections y.selections
  rest : { x with selections := [] } = { y with selections := [] }

/-- The same ballot, up to the proofs of the selections. -/
structure SameBallot (x y : CBallot) : Prop where
  contests : List.Forall₂ SameContest x.contests y.contests
  rest : { x with contests := [] } = { y with contests := [] }

theorem agree_encryptSelection (s : PSelection) (d : SelectionDesc) (pub ext seed : ℕ) (p v v' : Bool) :
    Agree (fun x y => SameSelection x y ∧ x.seq = d.seq) (encryptSelection G C s d pub ext seed p v)
      (encryptSelection G C s d pub ext seed p v') := by
  unfold encryptSelection
  by_cases h : (!s.isValid d.objectId) = true
  · rw [if_pos h, if_pos h]
    exact Agree.raise_left
  rw [if_neg h, if_neg h]
  have core : Agree (fun x y => SameSelection x y ∧ x.seq = d.seq) (encryptSelectionCore G C s d pub ext seed p)
      (encryptSelectionCore G C s d pub ext seed p) := by
    unfold encryptSelectionCore
    dsimp only
    refine Agree.quad.bind ?_
    rintro _ _ ⟨rfl, rfl⟩
    refine Agree.lift_same.bind ?_
    rintro c _ rfl
    unfold CSelection.make
    refine Agree.bind (R := fun _ _ => True) ?_ (fun π π' _ => Agree.ret ⟨rfl, rfl⟩)
    unfold disjMakeM
    split
    · exact Agree.raise_left
    · exact Agree.rand.bind (fun _ _ _ => Agree.rand.bind (fun _ _ _ => Agree.rand.bind
        (fun _ _ _ => Agree.lift (fun _ _ _ _ => trivial))))
  refine core.bind (fun a b hab => ?_)
  intro w u w' u' x y hw hu hx hy
  have key : ∀ (v : Bool) (k : Bool) (a : CSelection) (w w' : World) (x : CSelection),
      (if !v then M.ret a else if k then M.ret a else M.raise .runtimeError : M CSelection) w =
        (.ok x, w') → M.ret a w = (.ok x, w') := by
    intro v k a w w' x hx
    cases v <;> cases k <;> first | exact hx | simp [M.raise] at hx
  exact Agree.ret (R := fun x y => SameSelection x y ∧ x.seq = d.seq) hab w u w' u' x y hw hu (key _ _ _ _ _ _ hx) (key _ _ _ _ _ _ hy)

theorem agree_encryptReal (pub ext n : ℕ) (v v' over : Bool) (l : List PSelection)
    (ds : List SelectionDesc) (count : ℕ) :
    Agree (fun x y => List.Forall₂ SameSelection x.1 y.1 ∧ x.2 = y.2 ∧ x.1.map (·.seq) = ds.map (·.seq))
      (encryptReal G C pub ext n v over l ds count) (encryptReal G C pub ext n v' over l ds count) := by
  induction ds generalizing count with
  | nil => exact Agree.ret ⟨.nil, rfl, rfl⟩
  | cons d ds ih =>
    unfold encryptReal
    cases l.find? (fun s => s.objectId = d.objectId) with
    | none => exact Agree.raise_left
    | some s =>
      dsimp only
      refine (agree_encryptSelection G C _ d pub ext n false v v').bind (fun e e' he => ?_)
      refine (ih _).bind (fun r r' hr => Agree.ret ⟨.cons he.1 hr.1, hr.2.1, ?_⟩)
      simp only [List.map_cons, he.2, hr.2.2]

theorem agree_encryptPlaceholders (pub ext n : ℕ) (v v' over : Bool) (k : ℕ)
    (ds : List SelectionDesc) (count : ℕ) :
    Agree (fun x y => List.Forall₂ SameSelection x y ∧ x.map (·.seq) = ds.map (·.seq))
      (encryptPlaceholders G C pub ext n v over k ds count)
      (encryptPlaceholders G C pub ext n v' over k ds count) := by
  induction ds generalizing count with
  | nil => exact Agree.ret ⟨.nil, rfl⟩
  | cons d ds ih =>
    unfold encryptPlaceholders
    dsimp only
    refine (agree_encryptSelection G C _ d pub ext n true v v').bind (fun e e' he => ?_)
    refine (ih _).bind (fun r r' hr => Agree.ret ⟨.cons he.1 hr.1, ?_⟩)
    simp only [List.map_cons, he.2, hr.2]

theorem agree_encryptExtended (data : Str) (n pub ext : ℕ) :
    Agree (· = ·) (encryptExtended G C data n pub ext) (encryptExtended G C data n pub ext) := by
  unfold encryptExtended
  dsimp only
  refine Agree.triple.bind ?_
  rintro _ _ ⟨rfl, rfl⟩
  exact Agree.lift_same

theorem forall₂_map_iff {α β : Type} (f : α → β) (l m : List α) :
    List.Forall₂ (fun x y => f x = f y) l m ↔ l.map f = m.map f := by
  rw [← List.forall₂_eq_eq_eq, List.forall₂_map_left_iff, List.forall₂_map_right_iff]

/-- A selection without its proof. -/
def CSelection.strip (s : CSelection) : CSelection := { s with proof := none }

theorem same_sort (l m : List CSelection) (h : List.Forall₂ SameSelection l m)
    (hn : (l.map (·.seq)).Nodup) :
    (S.sort CSelection.seq l).map CSelection.strip = (S.sort CSelection.seq m).map CSelection.strip := by
  have h1 : l.map CSelection.strip = m.map CSelection.strip := (forall₂_map_iff _ l m).1 h
  have hm : (m.map (·.seq)).Nodup := by
    have : m.map (·.seq) = (m.map CSelection.strip).map (·.seq) := by rw [List.map_map]; rfl
    rw [this, ← h1, List.map_map]
    exact hn
  rw [← sort_map S CSelection.seq CSelection.seq CSelection.strip l (fun _ => rfl) hn,
    ← sort_map S CSelection.seq CSelection.seq CSelection.strip m (fun _ => rfl) hm, h1]

theorem mapRes_of_map {α β γ : Type} (f : β → Res γ) (g : α → β) (l : List α) :
    mapRes f (l.map g) = mapRes (fun a => f (g a)) l := by
  induction l with
  | nil => rfl
  | cons a l ih => simp only [List.map_cons, mapRes, ih]

theorem agree_contestMake (id : Str) (seq dh pub ext ps k : ℕ) (n : Option ℕ) (x : Option HashedCiphertext)
    (l m : List CSelection) (h : List.Forall₂ SameSelection l m) (hn : (l.map (·.seq)).Nodup) :
    Agree SameContest (CContest.make G C S id seq dh l pub ext ps k n x)
      (CContest.make G C S id seq dh m pub ext ps k n x) := by
  have hs := same_sort S l m h hn
  unfold CContest.make
  dsimp only
  generalize hl' : S.sort CSelection.seq l = l' at hs
  generalize hm' : S.sort CSelection.seq m = m' at hs
  have e1 : contestHash G C id l' dh = contestHash G C id m' dh := by
    have a1 : l'.map (fun s => HElem.q s.cryptoHash) = m'.map (fun s => HElem.q s.cryptoHash) := by
      have := congrArg (List.map (fun s : CSelection => HElem.q s.cryptoHash)) hs
      rw [List.map_map, List.map_map] at this
      exact this
    have a2 : l'.isEmpty = m'.isEmpty := by
      have := congrArg List.isEmpty hs
      simpa using this
    unfold contestHash
    rw [a1, a2]
  have e2 : accumulate G l' = accumulate G m' := by
    have := congrArg (List.map (fun s : CSelection => s.ciphertext)) hs
    rw [List.map_map, List.map_map] at this
    unfold accumulate
    exact congrArg _ this
  have e3 : aggregateNonce G l' = aggregateNonce G m' := by
    have := congrArg (mapRes CSelection.nonceOf) hs
    rw [mapRes_of_map, mapRes_of_map] at this
    unfold aggregateNonce
    exact congrArg (· >>= addModQVec G) this
  rw [e1, e2, e3]
  refine Agree.lift_same.bind ?_
  rintro ch _ rfl
  refine Agree.lift_same.bind ?_
  rintro ac _ rfl
  refine Agree.lift_same.bind ?_
  rintro ag _ rfl
  refine Agree.triple.bind ?_
  rintro _ _ ⟨rfl, rfl⟩
  refine Agree.lift_same.bind ?_
  rintro π _ rfl
  exact Agree.ret ⟨h, rfl⟩

theorem agree_encryptContest (c : PContest) (m : IManifest) (d : ContestDescP) (pub ext seed : ℕ)
    (v v' : Bool) (hn : ((d.desc.selections ++ d.placeholders).map (·.seq)).Nodup) :
    Agree SameContest (encryptContest G C S c m d pub ext seed v)
      (encryptContest G C S c m d pub ext seed v') := by
  unfold encryptContest
  dsimp only
  split
  · exact Agree.raise_left
  refine Agree.lift_same.bind ?_
  rintro dh _ rfl
  refine (agree_encryptReal G C pub ext _ v v' _ _ _ 0).bind ?_
  rintro ⟨r1, r2⟩ ⟨s1, s2⟩ ⟨h1, h2, h3⟩
  dsimp only at h1 h2 h3
  subst h2
  refine (agree_encryptPlaceholders G C pub ext _ v v' _ _ _ _).bind ?_
  rintro p1 p2 ⟨k1, k2⟩
  refine (agree_encryptExtended G C _ _ pub ext).bind ?_
  rintro x _ rfl
  refine (agree_contestMake G C S _ _ _ _ _ _ _ _ _ _ _ (List.rel_append h1 k1) ?_).bind ?_
  · rw [List.map_append, h3, k2]
    have : ((d.desc.getSelections S).map (·.seq) ++ (d.getPlaceholders S).map (·.seq)).Perm
        ((d.desc.selections ++ d.placeholders).map (·.seq)) := by
      rw [List.map_append]
      exact ((S.perm _ _).map _).append ((S.perm _ _).map _)
    exact this.nodup_iff.2 hn
  · intro a b hab
    exact Agree.checked hab v v' _ _

theorem agree_forEach {α β : Type} (R : β → β → Prop) (f g : α → M β) (l : List α)
    (h : ∀ x ∈ l, Agree R (f x) (g x)) : Agree (List.Forall₂ R) (M.forEach f l) (M.forEach g l) := by
  induction l with
  | nil => exact Agree.ret .nil
  | cons x l ih =>
    unfold M.forEach
    exact (h x (by simp)).bind (fun a b hab => (ih (fun y hy => h y (by simp [hy]))).bind
      (fun as bs habs => Agree.ret (.cons hab habs)))

theorem agree_encryptContests (b : PBallot) (m : IManifest) (ctx : Context) (seed : ℕ) (v v' : Bool)
    (ds : List ContestDescP) (hds : m.getContestsFor S b.styleId = .ok ds)
    (hn : ∀ d ∈ ds, ((d.desc.selections ++ d.placeholders).map (·.seq)).Nodup) :
    Agree (List.Forall₂ SameContest) (encryptContests G C S b m ctx seed v)
      (encryptContests G C S b m ctx seed v') := by
  unfold encryptContests
  refine Agree.lift_same.bind ?_
  rintro nb _ rfl
  cases hst : m.getBallotStyle b.styleId with
  | none =>
    intro w u w' u' a b hw hu hx hy
    simp [M.lift] at hx
  | some style =>
    have hid : style.objectId = b.styleId := by
      have := List.find?_some hst
      simpa using this
    dsimp only
    rw [hid, hds]
    refine (Agree.lift (R := fun a b => a = ds ∧ b = ds) ?_).bind ?_
    · intro a b ha hb
      simp only [Res.ok.injEq] at ha hb
      exact ⟨ha.symm, hb.symm⟩
    rintro _ _ ⟨rfl, rfl⟩
    refine agree_forEach _ _ _ _ (fun d hd => ?_)
    cases nb.contests.find? (fun c => c.objectId = d.desc.objectId) with
    | none => exact Agree.raise_left
    | some c => exact agree_encryptContest G C S c m d _ _ _ v v' (hn d hd)

theorem same_hash (l m : List CContest) (h : List.Forall₂ SameContest l m) :
    l.map (fun c => HElem.q c.cryptoHash) = m.map (fun c => HElem.q c.cryptoHash) := by
  induction h with
  | nil => rfl
  | cons hab _ ih =>
    rw [List.map_cons, List.map_cons, ih]
    have := congrArg CContest.cryptoHash hab.rest
    simp only at this
    rw [this]

theorem nonceOr_empty (nonce : Option ℕ) (w w' : World) (n : ℕ) (hw : w.Empty)
    (h : nonceOr nonce w = (.ok n, w')) : w'.Empty := by
  cases nonce with
  | none =>
    simp only [nonceOr, M.rand, Prod.mk.injEq, Res.ok.injEq] at h
    rw [← h.2]; exact hw
  | some x =>
    simp only [nonceOr, M.ret, Prod.mk.injEq, Res.ok.injEq] at h
    rw [← h.2]; exact hw

/-- The steps of a successful encryption. -/
theorem encryptBallot_steps (b : PBallot) (m : IManifest) (ctx : Context) (seed : ℕ) (nonce : Option ℕ)
    (t : ℕ) (v : Bool) (w w' : World) (e : CBallot)
    (h : encryptBallot G C S b m ctx seed nonce t v w = (.ok e, w')) :
    ∃ n w1 w2, nonceOr nonce w = (.ok n, w1) ∧
      encryptContests G C S b m ctx (nonceSeedOf G C m.manifestHash b.objectId n) v w1 =
        (.ok e.contests, w2) ∧ e.objectId = b.objectId ∧ e.styleId = b.styleId ∧
      e.manifestHash = m.manifestHash ∧ e.nonce = some n ∧
      e.cryptoHash = hashElems G C (.str b.objectId :: .q m.manifestHash ::
        e.contests.map (fun c => .q c.cryptoHash)) ∧
      e.ballotCodeSeed = seed ∧
      e.ballotCode = hashElems G C [.q seed, .u64 e.timestamp, .q e.cryptoHash] := by
  unfold encryptBallot at h
  cases hst : m.getBallotStyle b.styleId with
  | none => rw [hst] at h; simp [M.raise] at h
  | some style =>
    rw [hst] at h
    dsimp only at h
    simp only [M.bind_eq_ok] at h
    obtain ⟨n, w1, h1, es, w2, h2, ts, w3, h3, e', w4, h4, h⟩ := h
    rw [cballot_make_ok] at h4
    have hee : e = e' := by
      cases v with
      | false =>
        simp only [Bool.not_false, if_true, M.ret, Prod.mk.injEq, Res.ok.injEq] at h
        exact h.1.symm
      | true =>
        simp only [Bool.not_true, Bool.false_eq_true, if_false, M.bind_eq_ok, M.lift,
          Prod.mk.injEq] at h
        obtain ⟨v, w5, ⟨hv, rfl⟩, h⟩ := h
        cases v with
        | false => simp [M.raise] at h
        | true =>
          simp only [if_true, M.ret, Prod.mk.injEq, Res.ok.injEq] at h
          exact h.1.symm
    subst hee
    obtain ⟨-, -, f1, f2, f3, f4, f5, f6, f7, -, f9⟩ := h4
    simp only [Option.getD_some, Option.getD_none] at f7 f9
    refine ⟨n, w1, w2, h1, by rw [f4]; exact h2, f1, f2, f3, f5, by rw [f6, f4], f7, by rw [f9, f7]⟩

theorem encryptBallot_time (b : PBallot) (m : IManifest) (ctx : Context) (seed : ℕ) (nonce : Option ℕ)
    (t : ℕ) (v : Bool) (w w' : World) (e : CBallot) (ht : t ≠ 0)
    (h : encryptBallot G C S b m ctx seed nonce t v w = (.ok e, w')) : e.timestamp = t := by
  unfold encryptBallot at h
  cases hst : m.getBallotStyle b.styleId with
  | none => rw [hst] at h; simp [M.raise] at h
  | some style =>
    rw [hst] at h
    dsimp only at h
    simp only [M.bind_eq_ok] at h
    obtain ⟨n, w1, h1, es, w2, h2, ts, w3, h3, e', w4, h4, h⟩ := h
    rw [cballot_make_ok] at h4
    rw [timestampOr, if_neg ht] at h3
    simp only [M.ret, Prod.mk.injEq, Res.ok.injEq] at h3
    obtain ⟨rfl, rfl⟩ := h3
    have f8 := h4.2.2.2.2.2.2.2.2.2.1
    rw [if_neg ht] at f8
    rw [← f8]
    cases v with
    | false =>
      simp only [Bool.not_false, if_true, M.ret, Prod.mk.injEq, Res.ok.injEq] at h
      rw [h.1]
    | true =>
      simp only [Bool.not_true, Bool.false_eq_true, if_false, M.bind_eq_ok, M.lift,
        Prod.mk.injEq] at h
      obtain ⟨v, w5, ⟨hv, rfl⟩, h⟩ := h
      cases v with
      | false => simp [M.raise] at h
      | true =>
        simp only [if_true, M.ret, Prod.mk.injEq, Res.ok.injEq] at h
        rw [h.1]

/-- Two encryptions of a ballot with the same nonce, seed and time agree up to the proofs of the
selections if nothing is precomputed. -/
theorem same_encryptBallot (b : PBallot) (m : IManifest) (ctx : Context) (seed t t' : ℕ)
    (nonce nonce' : Option ℕ) (v v' : Bool) (ds : List ContestDescP)
    (hds : m.getContestsFor S b.styleId = .ok ds)
    (hn : ∀ d ∈ ds, ((d.desc.selections ++ d.placeholders).map (·.seq)).Nodup)
    (w w' u u' : World) (e e' : CBallot) (hw : w.Empty) (hu : u.Empty)
    (hx : encryptBallot G C S b m ctx seed nonce t v w = (.ok e, w'))
    (hy : encryptBallot G C S b m ctx seed nonce' t' v' u = (.ok e', u'))
    (hnonce : e.nonce = e'.nonce) (htime : e.timestamp = e'.timestamp) : SameBallot e e' := by
  obtain ⟨n, w1, w2, a1, a2, a3, a4, a5, a6, a7, a8, a9⟩ := encryptBallot_steps G C S _ _ _ _ _ _ _ _ _ _ hx
  obtain ⟨n', u1, u2, b1, b2, b3, b4, b5, b6, b7, b8, b9⟩ := encryptBallot_steps G C S _ _ _ _ _ _ _ _ _ _ hy
  have hnn : n = n' := by
    rw [a6, b6] at hnonce
    simpa using hnonce
  subst hnn
  obtain ⟨hc, -, -⟩ := agree_encryptContests G C S b m ctx _ v v' ds hds hn w1 u1 w2 u2 _ _
    (nonceOr_empty _ _ _ _ hw a1) (nonceOr_empty _ _ _ _ hu b1) a2 b2
  have e1 : e.cryptoHash = e'.cryptoHash := by rw [a7, b7, same_hash _ _ hc]
  refine ⟨hc, ?_⟩
  have e2 : e.ballotCode = e'.ballotCode := by rw [a9, b9, e1, htime]
  cases e; cases e'
  simp only at *
  simp only [CBallot.mk.injEq]
  exact ⟨by rw [a3, b3], by rw [a4, b4], by rw [a5, b5], by rw [a8, b8], trivial, e2, htime, hnonce, e1⟩

/-- C39, the part that holds: when nothing is precomputed, a compact ballot expands to an encryption of
the same ballot with the same nonce and time, the comparison of the codes never fails, and what comes
back is the original ciphertext ballot up to the proofs of the selections.  (Full statement: for every
state of the precompute buffers; see `C39_precomputed_violated`.) -/
theorem C39_ciphertext_partial (b : PBallot) (m : IManifest) (ctx : Context) (seed t : ℕ)
    (nonce : Option ℕ) (verify : Bool) (ds : List ContestDescP)
    (hds : m.getContestsFor S b.styleId = .ok ds)
    (hinj : ∀ x ∈ ds, ∀ y ∈ ds, x.desc.objectId = y.desc.objectId → x = y)
    (hn : ∀ d ∈ ds, ((d.desc.selections ++ d.placeholders).map (·.seq)).Nodup)
    (w w' : World) (hw : w.Empty) (c : CompactCipher)
    (h : encryptCompactBallot G C S b m ctx seed nonce t verify w = (.ok c, w'))
    (ht : c.timestamp ≠ 0) :
    ∃ e, encryptBallot G C S b m ctx seed nonce t verify w = (.ok e, w') ∧
      e.ballotCode = c.ballotCode ∧ e.ballotCodeSeed = c.ballotCodeSeed ∧
      e.timestamp = c.timestamp ∧ e.nonce = some c.nonce ∧
      ∀ u, u.Empty →
        expandCipher G C S c m ctx u =
          encryptBallot G C S b m ctx seed (some c.nonce) c.timestamp true u ∧
        ∀ e' u', expandCipher G C S c m ctx u = (.ok e', u') → SameBallot e e' := by
  unfold encryptCompactBallot at h
  simp only [M.bind_eq_ok] at h
  obtain ⟨nb, w1, h1, e, w2, h2, h3⟩ := h
  simp only [M.lift, Prod.mk.injEq] at h1 h3
  obtain ⟨h1, rfl⟩ := h1
  obtain ⟨h3, rfl⟩ := h3
  rw [encryptBallot_normalized G C S b nb m ctx seed nonce t verify ds hds hinj h1] at h2
  have hseed := (encryptBallot_code G C S _ _ _ _ _ _ _ _ _ _ h2).1
  unfold compressCipher at h3
  cases hen : e.nonce with
  | none => rw [hen] at h3; simp at h3
  | some n =>
    rw [hen] at h3
    simp only [Res.bind_eq_ok, Res.ok.injEq] at h3
    obtain ⟨s, hs, cd, hcd, n', hn', rfl⟩ := h3
    have hs' := cloneQ_eq_ok G _ _ hs
    have hcd' := cloneQ_eq_ok G _ _ hcd
    have hnn := cloneQ_eq_ok G _ _ hn'
    subst hs' hcd' hnn
    refine ⟨e, h2, rfl, rfl, rfl, hen, ?_⟩
    intro u hu
    have key : ∀ e' u', encryptBallot G C S b m ctx seed (some n') e.timestamp true u = (.ok e', u') →
        SameBallot e e' := by
      intro e' u' he'
      obtain ⟨n2, u1, u2, b1, -, -, -, -, b6, -⟩ := encryptBallot_steps G C S _ _ _ _ _ _ _ _ _ _ he'
      simp only [nonceOr, M.ret, Prod.mk.injEq, Res.ok.injEq] at b1
      refine same_encryptBallot G C S b m ctx seed t e.timestamp nonce (some n') verify true ds hds hn
        w w2 u u' e e' hw hu h2 he' (by rw [hen, b6, b1.1]) ?_
      exact (encryptBallot_time G C S _ _ _ _ _ _ _ _ _ _ ht he').symm
    have heq : expandCipher G C S ⟨compressPlain nb, .unknown, e.ballotCodeSeed, e.ballotCode, e.timestamp,
        n'⟩ m ctx u =
        encryptBallot G C S b m ctx seed (some n') e.timestamp true u := by
      unfold expandCipher
      dsimp only
      rw [C39_plaintext S b nb m ds hds h1, hn',
        M.bind_apply_ok (M.lift (Res.ok nb.unmark)) _ u u _ rfl,
        M.bind_apply_ok (M.lift (Res.ok n')) _ u u _ rfl, hseed, encryptBallot_unmark,
        encryptBallot_normalized G C S b nb m ctx seed _ _ _ ds hds hinj h1]
      rcases hr : encryptBallot G C S b m ctx seed (some n') e.timestamp true u with ⟨r, u'⟩
      cases r with
      | ok e' =>
        rw [M.bind_apply_ok _ _ u u' e' hr]
        have := congrArg CBallot.ballotCode (key e' u' hr).rest
        simp only at this
        rw [if_neg (by rw [← this]; exact fun k => k rfl)]
        rfl
      | throw x =>
        change M.bind _ _ u = _
        unfold M.bind
        rw [hr]
      | ub =>
        change M.bind _ _ u = _
        unfold M.bind
        rw [hr]
    rw [heq]
    exact ⟨rfl, key⟩


end EG
