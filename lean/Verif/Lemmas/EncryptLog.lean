import Verif.Model.EncryptLog
import Verif.Props.EncryptBallot

/-!
# The encryption with its log: relation to the encryption without, and the lines of a successful one
-/

namespace EG.Log

theorem _root_.EG.M.bind_assoc {α β γ : Type} (x : M α) (f : α → M β) (g : β → M γ) :
    ((x >>= f) >>= g) = (x >>= fun a => f a >>= g) := by
  funext w
  change M.bind (M.bind x f) g w = M.bind x (fun a => M.bind (f a) g) w
  unfold M.bind
  rcases x w with ⟨r, w1⟩
  cases r <;> rfl

namespace W

theorem bind_eq_ok {α β : Type} (x : W α) (f : α → W β) (w w'' : World) (b : β) (l : List Line) :
    (x >>= f) w = (.ok b, w'', l) ↔ ∃ a w' l1 l2, x w = (.ok a, w', l1) ∧ f a w' = (.ok b, w'', l2) ∧
      l = l1 ++ l2 := by
  change W.bind x f w = _ ↔ _
  unfold W.bind
  rcases h : x w with ⟨r, w1, l1⟩
  cases r with
  | ok a =>
    dsimp only
    rcases h2 : f a w1 with ⟨r2, w2, l2⟩
    constructor
    · intro h3
      simp only [Prod.mk.injEq] at h3
      obtain ⟨rfl, rfl, rfl⟩ := h3
      exact ⟨a, w1, l1, l2, rfl, h2, rfl⟩
    · rintro ⟨a', w', k1, k2, h3, h4, rfl⟩
      simp only [Prod.mk.injEq, Res.ok.injEq] at h3
      obtain ⟨rfl, rfl, rfl⟩ := h3
      rw [h2] at h4
      simp only [Prod.mk.injEq] at h4
      obtain ⟨rfl, rfl, rfl⟩ := h4
      rfl
  | throw e => simp
  | ub => simp

theorem tell_eq_ok (k l : List Line) (w w' : World) (u : Unit) :
    tell k w = (.ok u, w', l) ↔ w = w' ∧ k = l := by simp [tell]

theorem ret_eq_ok {α : Type} (a b : α) (w w' : World) (l : List Line) :
    ret a w = (.ok b, w', l) ↔ a = b ∧ w = w' ∧ l = [] := by simp [ret, eq_comm]

theorem lift_eq_ok {α : Type} (x : M α) (a : α) (w w' : World) (l : List Line) :
    lift x w = (.ok a, w', l) ↔ x w = (.ok a, w') ∧ l = [] := by
  simp only [lift, Prod.mk.injEq]
  rw [Prod.ext_iff]
  simp [and_assoc, eq_comm]

theorem lift_raise {α : Type} (e : Exn) (a : α) (w w' : World) (l : List Line) :
    ¬ lift (M.raise e) w = (.ok a, w', l) := by simp [lift, M.raise]

@[simp] theorem run_bind {α β : Type} (x : W α) (f : α → W β) :
    run (x >>= f) = run x >>= fun a => run (f a) := by
  funext w
  change run (W.bind x f) w = M.bind (run x) _ w
  unfold run W.bind M.bind
  dsimp only
  rcases h : x w with ⟨r, w1, l⟩
  cases r <;> rfl

@[simp] theorem run_lift {α : Type} (x : M α) : run (lift x) = x := rfl
@[simp] theorem run_ret {α : Type} (a : α) : run (ret a) = M.ret a := rfl
@[simp] theorem run_tell (l : List Line) : run (tell l) = M.ret () := rfl

theorem ret_bind {α β : Type} (a : α) (f : α → M β) : (M.ret a >>= f) = f a := rfl

theorem run_forEach {α β : Type} (f : α → W β) (g : α → M β) (h : ∀ a, run (f a) = g a) (l : List α) :
    run (forEach f l) = M.forEach g l := by
  induction l with
  | nil => rfl
  | cons a l ih =>
    rw [forEach, M.forEach, run_bind, h]
    congr 1
    funext y
    rw [run_bind, ih]
    rfl

end W

variable (G : Params) (C : Crypto) (S : StdSort)

/-! ## Without the log it is the encryption -/

theorem run_core (s : PSelection) (d : SelectionDesc) (pub ext seed : ℕ) (ph : Bool) :
    (encryptSelectionCore G C s d pub ext seed ph).run = EG.encryptSelectionCore G C s d pub ext seed ph := by
  unfold encryptSelectionCore EG.encryptSelectionCore
  simp only [W.run_bind, W.run_tell, W.ret_bind, W.run_lift]
  congr 1
  funext pre
  cases pre with
  | none =>
    simp only [W.run_bind, W.run_tell, W.ret_bind, W.run_lift]
  | some t => simp only [W.run_bind, W.run_tell, W.ret_bind, W.run_lift]

theorem run_encryptSelection (s : PSelection) (d : SelectionDesc) (pub ext seed : ℕ) (ph verify : Bool) :
    (encryptSelection G C s d pub ext seed ph verify).run =
      EG.encryptSelection G C s d pub ext seed ph verify := by
  unfold encryptSelection EG.encryptSelection
  rw [W.run_bind, W.run_tell, W.ret_bind]
  by_cases h : (!s.isValid d.objectId) = true
  · rw [if_pos h, if_pos h, W.run_lift]
  · rw [if_neg h, if_neg h, W.run_bind, run_core]
    congr 1
    funext e
    by_cases hv : (!verify) = true
    · rw [if_pos hv, if_pos hv, W.run_ret]
    · rw [if_neg hv, if_neg hv]
      split
      · rfl
      · rfl

theorem run_encryptReal (pub ext n : ℕ) (verify over : Bool) (l : List PSelection)
    (ds : List SelectionDesc) : ∀ count,
    (encryptReal G C pub ext n verify over l ds count).run =
      EG.encryptReal G C pub ext n verify over l ds count := by
  induction ds with
  | nil => intro count; rfl
  | cons d ds ih =>
    intro count
    rw [encryptReal, EG.encryptReal]
    cases l.find? (fun s => s.objectId = d.objectId) with
    | none => rfl
    | some s =>
      dsimp only
      rw [W.run_bind, run_encryptSelection]
      congr 1
      funext e
      rw [W.run_bind, ih]
      rfl

theorem run_encryptPlaceholders (pub ext n : ℕ) (verify over : Bool) (k : ℕ)
    (ds : List SelectionDesc) : ∀ count,
    ((encryptPlaceholders G C pub ext n verify over k ds count).run >>= fun r => M.ret r.1) =
      EG.encryptPlaceholders G C pub ext n verify over k ds count := by
  induction ds with
  | nil => intro count; rfl
  | cons d ds ih =>
    intro count
    rw [encryptPlaceholders, EG.encryptPlaceholders]
    rw [W.run_bind, run_encryptSelection, M.bind_assoc]
    congr 1
    funext e
    rw [← ih, W.run_bind, M.bind_assoc, M.bind_assoc]
    rfl

theorem run_encryptContest (c : PContest) (m : IManifest) (d : ContestDescP) (pub ext seed : ℕ)
    (verify : Bool) :
    (encryptContest G C S c m d pub ext seed verify).run =
      EG.encryptContest G C S c m d pub ext seed verify := by
  unfold encryptContest EG.encryptContest
  rw [W.run_bind, W.run_tell, W.ret_bind]
  by_cases hc : c.isValid d.desc.objectId (d.desc.getSelections S).length d.desc.numberElected
      d.desc.votesAllowed true ≠ .success ∧ c.isValid d.desc.objectId (d.desc.getSelections S).length
      d.desc.numberElected d.desc.votesAllowed true ≠ .overvote
  · rw [if_pos hc, if_pos hc, W.run_lift]
  · rw [if_neg hc, if_neg hc, W.run_bind, W.run_lift]
    congr 1
    funext hash
    rw [W.run_bind, W.run_tell, W.ret_bind, W.run_bind, run_encryptReal]
    congr 1
    funext r
    rw [← run_encryptPlaceholders, W.run_bind, M.bind_assoc]
    congr 1
    funext p
    rw [W.ret_bind, W.run_bind, W.run_lift]
    congr 1
    funext x
    rw [W.run_bind, W.run_tell, W.ret_bind, W.run_bind, W.run_lift]
    congr 1
    funext e
    rw [W.run_bind, W.run_tell, W.ret_bind]
    by_cases hb : (!verify) = true
    · rw [if_pos hb, if_pos hb, W.run_ret]
    · rw [if_neg hb, if_neg hb, W.run_bind, W.run_lift]
      congr 1
      funext v
      cases v <;> rfl

theorem run_encryptContests (b : PBallot) (m : IManifest) (ctx : Context) (seed : ℕ) (verify : Bool) :
    (encryptContests G C S b m ctx seed verify).run = EG.encryptContests G C S b m ctx seed verify := by
  unfold encryptContests EG.encryptContests
  rw [W.run_bind, W.run_lift]
  congr 1
  funext n
  cases m.getBallotStyle b.styleId with
  | none => rfl
  | some style =>
    dsimp only
    rw [W.run_bind, W.run_lift]
    congr 1
    funext ds
    refine W.run_forEach _ _ (fun d => ?_) ds
    cases n.contests.find? (fun c => c.objectId = d.desc.objectId) with
    | none => rfl
    | some c => exact run_encryptContest G C S _ _ _ _ _ _ _

theorem run_encryptBallot (b : PBallot) (m : IManifest) (ctx : Context) (codeSeed : ℕ)
    (nonce : Option ℕ) (timestamp : ℕ) (verify : Bool) :
    (encryptBallot G C S b m ctx codeSeed nonce timestamp verify).run =
      EG.encryptBallot G C S b m ctx codeSeed nonce timestamp verify := by
  unfold encryptBallot EG.encryptBallot
  rw [W.run_bind, W.run_tell, W.ret_bind]
  cases m.getBallotStyle b.styleId with
  | none => rfl
  | some style =>
    dsimp only
    rw [W.run_bind, W.run_lift]
    congr 1
    funext n
    rw [W.run_bind, W.run_tell, W.ret_bind, W.run_bind, run_encryptContests]
    congr 1
    funext cs
    rw [W.run_bind, W.run_lift]
    congr 1
    funext t
    rw [W.run_bind, W.run_lift]
    congr 1
    funext e
    by_cases hb : (!verify) = true
    · rw [if_pos hb, if_pos hb]
      rfl
    · rw [if_neg hb, if_neg hb, W.run_bind, W.run_lift]
      congr 1
      funext v
      cases v <;> rfl

/-- A call that succeeds without its log succeeds with it. -/
theorem exists_log {α : Type} (x : W α) (w w' : World) (a : α) (h : x.run w = (.ok a, w')) :
    ∃ l, x w = (.ok a, w', l) := by
  unfold W.run at h
  simp only [Prod.mk.injEq] at h
  exact ⟨(x w).2.2, by rw [← h.1, ← h.2]⟩

/-! ## The lines of a selection -/

/-- The lines of a successful encryption of a selection with a vote. -/
def selLines (pub : ℕ) (verify : Bool) (d : SelectionDesc) (vote : ℕ) (quad : Bool) (c : Ciphertext) :
    List Line :=
  selectionDesc G C d ++
  [valued .trace "encryptSelection"
    ("encryptSelection: for ".toList ++ d.objectId ++ " hash: ".toList) (toHexQ (d.hash G C))] ++
  (if quad then elgamalPrecomputed c ++ proofStart ++ proofPrecomputed vote c
    else elgamal pub c ++ proofStart) ++
  (if verify then proofValid else [])

theorem getQuad_quads (p : PreState) : p.getQuad.2.quads = p.quads.drop 1 ∧
    (p.getQuad.1.isSome = decide (0 < p.quads.length)) := by
  unfold PreState.getQuad
  cases h : p.quads <;> simp [h]

theorem make_ok (id : Str) (seq dh : ℕ) (c : Ciphertext) (pub ext v : ℕ) (ph : Bool) (n : ℕ)
    (w w' : World) (e : CSelection) (h : CSelection.make G C id seq dh c pub ext v ph n w = (.ok e, w')) :
    e.ciphertext = c ∧ w'.pre = w.pre := by
  unfold CSelection.make at h
  rw [M.bind_eq_ok] at h
  obtain ⟨π, w1, h1, h2⟩ := h
  simp only [M.ret, Prod.mk.injEq, Res.ok.injEq] at h2
  obtain ⟨rfl, rfl⟩ := h2
  refine ⟨rfl, ?_⟩
  unfold disjMakeM at h1
  by_cases hv : v > 1
  · rw [if_pos hv] at h1; simp [M.raise] at h1
  · rw [if_neg hv] at h1
    simp only [M.bind_eq_ok, M.rand, M.lift, Prod.mk.injEq, Res.ok.injEq] at h1
    obtain ⟨_, _, ⟨-, rfl⟩, _, _, ⟨-, rfl⟩, _, _, ⟨-, rfl⟩, -, rfl⟩ := h1
    rfl

theorem makePrecomputed_ok (id : Str) (seq dh : ℕ) (c : Ciphertext) (ext v : ℕ) (t : TwoTriplesQuad)
    (ph : Bool) (e : CSelection) (h : CSelection.makePrecomputed G C id seq dh c ext v t ph = .ok e) :
    e.ciphertext = c := by
  unfold CSelection.makePrecomputed at h
  rw [Res.bind_eq_ok] at h
  obtain ⟨π, -, h2⟩ := h
  simp only [Res.ok.injEq] at h2
  rw [← h2]

theorem core_ok (s : PSelection) (d : SelectionDesc) (pub ext seed : ℕ) (ph : Bool) (w w' : World)
    (e : CSelection) (l : List Line)
    (h : encryptSelectionCore G C s d pub ext seed ph w = (.ok e, w', l)) :
    w'.pre.quads = w.pre.quads.drop 1 ∧
    l = selLines G C pub false d s.vote (decide (0 < w.pre.quads.length)) e.ciphertext := by
  unfold encryptSelectionCore at h
  simp only [W.bind_eq_ok, W.tell_eq_ok, W.lift_eq_ok, M.getQuad, Prod.mk.injEq, Res.ok.injEq] at h
  obtain ⟨_, _, l1, r1, ⟨rfl, rfl⟩, ⟨_, _, l2, r2, ⟨rfl, rfl⟩, ⟨pre, w1, l3, r3, ⟨⟨hp, hw1⟩, rfl⟩, h,
    rfl⟩, rfl⟩, rfl⟩ := h
  obtain ⟨g1, g2⟩ := getQuad_quads w.pre
  rw [hp] at g2
  cases pre with
  | none =>
    simp only [W.bind_eq_ok, W.tell_eq_ok, W.lift_eq_ok, M.lift, Prod.mk.injEq] at h
    obtain ⟨c, w2, l4, r4, ⟨⟨-, rfl⟩, rfl⟩, ⟨_, _, l5, r5, ⟨rfl, rfl⟩, ⟨_, _, l6, r6, ⟨rfl, rfl⟩,
      ⟨h, rfl⟩, rfl⟩, rfl⟩, rfl⟩ := h
    obtain ⟨rfl, k⟩ := make_ok G C _ _ _ _ _ _ _ _ _ _ _ _ h
    refine ⟨by rw [k, ← hw1]; exact g1, ?_⟩
    rw [← g2]
    simp [selLines]
  | some t =>
    simp only [W.bind_eq_ok, W.tell_eq_ok, W.lift_eq_ok, M.lift, Prod.mk.injEq] at h
    obtain ⟨_, _, l4, r4, ⟨rfl, rfl⟩, ⟨_, _, l5, r5, ⟨rfl, rfl⟩, ⟨_, _, l6, r6, ⟨rfl, rfl⟩,
      ⟨⟨h, rfl⟩, rfl⟩, rfl⟩, rfl⟩, rfl⟩ := h
    have k := makePrecomputed_ok G C _ _ _ _ _ _ _ _ _ h
    refine ⟨by rw [← hw1]; exact g1, ?_⟩
    rw [← g2, k]
    simp [selLines]

theorem selection_ok (s : PSelection) (d : SelectionDesc) (pub ext seed : ℕ) (ph verify : Bool)
    (w w' : World) (e : CSelection) (l : List Line)
    (h : encryptSelection G C s d pub ext seed ph verify w = (.ok e, w', l)) :
    s.vote ≤ 1 ∧ w'.pre.quads = w.pre.quads.drop 1 ∧
    l = selLines G C pub verify d s.vote (decide (0 < w.pre.quads.length)) e.ciphertext := by
  unfold encryptSelection at h
  rw [W.bind_eq_ok] at h
  obtain ⟨_, w1, l1, r1, h1, h, rfl⟩ := h
  rw [W.tell_eq_ok] at h1
  obtain ⟨rfl, rfl⟩ := h1
  by_cases hv : (!s.isValid d.objectId) = true
  · rw [if_pos hv] at h
    exact absurd h (W.lift_raise _ _ _ _ _)
  · rw [if_neg hv, W.bind_eq_ok] at h
    obtain ⟨e1, w2, l2, r2, h2, h, rfl⟩ := h
    obtain ⟨k1, k2⟩ := core_ok G C _ _ _ _ _ _ _ _ _ _ h2
    have hval : s.objectId = d.objectId ∧ s.vote ≤ 1 := by
      have hv' : s.isValid d.objectId = true := by simpa using hv
      unfold PSelection.isValid at hv'
      simpa using hv'
    have hchk : selectionCheck s d.objectId = [] := by
      unfold selectionCheck
      rw [if_neg (by simp [hval.1]), if_neg (by omega)]
    rw [hchk, k2]
    by_cases hb : (!verify) = true
    · rw [if_pos hb, W.ret_eq_ok] at h
      obtain ⟨rfl, rfl, rfl⟩ := h
      have : verify = false := by simpa using hb
      subst this
      exact ⟨hval.2, k1, by simp⟩
    · rw [if_neg hb] at h
      have : verify = true := by simpa using hb
      subst this
      by_cases hq : e1.isValid G C (d.hash G C) pub ext = true
      · rw [if_pos hq, W.bind_eq_ok] at h
        obtain ⟨_, w3, l3, r3, h3, h, rfl⟩ := h
        rw [W.tell_eq_ok] at h3
        obtain ⟨rfl, rfl⟩ := h3
        rw [W.ret_eq_ok] at h
        obtain ⟨rfl, rfl, rfl⟩ := h
        exact ⟨hval.2, k1, by simp [selLines]⟩
      · rw [if_neg hq] at h
        exact absurd h (W.lift_raise _ _ _ _ _)

/-! ## The lines of the loops of a contest -/

/-- A selection that was encrypted: its description, the vote and the ciphertext. -/
structure Item where
  desc : SelectionDesc
  vote : ℕ
  ciphertext : Ciphertext

/-- The lines of the items, with `quads` precomputed values at the start. -/
def itemLines (pub : ℕ) (verify : Bool) : List Item → ℕ → List Line
  | [], _ => []
  | i :: rest, quads =>
    selLines G C pub verify i.desc i.vote (decide (0 < quads)) i.ciphertext ++
      itemLines pub verify rest (quads - 1)

theorem itemLines_append (pub : ℕ) (verify : Bool) (a b : List Item) (quads : ℕ) :
    itemLines G C pub verify (a ++ b) quads =
      itemLines G C pub verify a quads ++ itemLines G C pub verify b (quads - a.length) := by
  induction a generalizing quads with
  | nil => rfl
  | cons i a ih =>
    rw [List.cons_append, itemLines, itemLines, ih, List.append_assoc, List.length_cons]
    congr 3
    omega

theorem real_ok (pub ext n : ℕ) (verify over : Bool) (normalized : List PSelection)
    (f : SelectionDesc → PSelection) (ds : List SelectionDesc) :
    (∀ d ∈ ds, normalized.find? (fun s => s.objectId = d.objectId) = some (f d)) →
    ∀ (count : ℕ) (w w' : World) (es : List CSelection) (cnt : ℕ) (l : List Line),
      encryptReal G C pub ext n verify over normalized ds count w = (.ok (es, cnt), w', l) →
      ∃ items : List Item, items.map Item.desc = ds ∧
        items.map Item.vote = ds.map (fun d => if over then 0 else (f d).vote) ∧
        items.map Item.ciphertext = es.map CSelection.ciphertext ∧ (∀ i ∈ items, i.vote ≤ 1) ∧
        w'.pre.quads = w.pre.quads.drop ds.length ∧
        l = itemLines G C pub verify items w.pre.quads.length ∧
        (count < 2 ^ 64 →
          cnt = (count + (ds.map (fun d => if over then 0 else (f d).vote)).sum) % 2 ^ 64) := by
  induction ds with
  | nil =>
    intro _ count w w' es cnt l h
    rw [encryptReal, W.ret_eq_ok] at h
    simp only [Prod.mk.injEq] at h
    obtain ⟨⟨rfl, rfl⟩, rfl, rfl⟩ := h
    refine ⟨[], rfl, rfl, rfl, by simp, by simp, rfl, fun hc => ?_⟩
    simp only [List.map_nil, List.sum_nil, Nat.add_zero]
    exact (Nat.mod_eq_of_lt hc).symm
  | cons d ds ih =>
    intro hf count w w' es cnt l h
    rw [encryptReal, hf d (by simp)] at h
    dsimp only at h
    rw [W.bind_eq_ok] at h
    obtain ⟨e, w1, l1, r1, h1, h, rfl⟩ := h
    rw [W.bind_eq_ok] at h
    obtain ⟨⟨es', cnt'⟩, w2, l2, r2, h2, h, rfl⟩ := h
    rw [W.ret_eq_ok] at h
    simp only [Prod.mk.injEq] at h
    obtain ⟨⟨rfl, rfl⟩, rfl, rfl⟩ := h
    have ev : (if over = true then (⟨(f d).objectId, 0, false, []⟩ : PSelection) else f d).vote =
        if over then 0 else (f d).vote := by
      split <;> rfl
    obtain ⟨k1, k2, k3⟩ := selection_ok G C _ _ _ _ _ _ _ _ _ _ _ h1
    obtain ⟨items, i1, i2, i3, i4, i5, i6, i7⟩ := ih (fun d' hd' => hf d' (by simp [hd'])) _ _ _ _ _ _ h2
    rw [ev] at k1 k3 i7
    refine ⟨⟨d, if over then 0 else (f d).vote, e.ciphertext⟩ :: items, by simp [i1], ?_, by simp [i3],
      ?_, ?_, ?_, ?_⟩
    · rw [List.map_cons, List.map_cons, i2]
    · intro i hi
      rcases List.mem_cons.1 hi with rfl | hi
      · exact k1
      · exact i4 i hi
    · rw [i5, k2, List.drop_drop]
      simp [Nat.add_comm]
    · rw [itemLines, k3, i6, k2, List.length_drop, List.append_nil]
    · intro _
      rw [i7 (Nat.mod_lt _ (by norm_num)), List.map_cons, List.sum_cons, Nat.mod_add_mod, Nat.add_assoc]

/-- `selectionCount` after the loop over the placeholders. -/
def finalCount (over : Bool) (elected total n : ℕ) : ℕ :=
  if over then total else if total < elected then min (total + n) elected else total

theorem placeholders_ok (pub ext k : ℕ) (verify over : Bool) (elected : ℕ) (hel : elected < 2 ^ 64)
    (ds : List SelectionDesc) :
    ∀ (count : ℕ) (w w' : World) (es : List CSelection) (cnt : ℕ) (l : List Line),
      encryptPlaceholders G C pub ext k verify over elected ds count w = (.ok (es, cnt), w', l) →
      ∃ items : List Item, items.map Item.desc = ds ∧
        items.map Item.vote = placeholderVotes over elected count ds.length ∧
        items.map Item.ciphertext = es.map CSelection.ciphertext ∧
        w'.pre.quads = w.pre.quads.drop ds.length ∧
        l = itemLines G C pub verify items w.pre.quads.length ∧
        cnt = finalCount over elected count ds.length := by
  induction ds with
  | nil =>
    intro count w w' es cnt l h
    rw [encryptPlaceholders, W.ret_eq_ok] at h
    simp only [Prod.mk.injEq] at h
    obtain ⟨⟨rfl, rfl⟩, rfl, rfl⟩ := h
    refine ⟨[], rfl, by simp [placeholderVotes], rfl, by simp, rfl, ?_⟩
    unfold finalCount
    simp only [List.length_nil, Nat.add_zero]
    split
    · rfl
    · split
      · omega
      · rfl
  | cons d ds ih =>
    intro count w w' es cnt l h
    rw [encryptPlaceholders] at h
    rw [W.bind_eq_ok] at h
    obtain ⟨e, w1, l1, r1, h1, h, rfl⟩ := h
    rw [W.bind_eq_ok] at h
    obtain ⟨⟨es', cnt'⟩, w2, l2, r2, h2, h, rfl⟩ := h
    rw [W.ret_eq_ok] at h
    simp only [Prod.mk.injEq] at h
    obtain ⟨⟨rfl, rfl⟩, rfl, rfl⟩ := h
    obtain ⟨k1, k2, k3⟩ := selection_ok G C _ _ _ _ _ _ _ _ _ _ _ h1
    obtain ⟨items, i1, i2, i3, i5, i6, i7⟩ := ih _ _ _ _ _ _ h2
    have ev : (selectionFrom d true (over || decide (count < elected))).vote =
        if over = true ∨ count < elected then 1 else 0 := by
      unfold selectionFrom
      cases over <;> simp
    have em : (if over = true then count else if count < elected then (count + 1) % 2 ^ 64 else count) =
        (if over = true then count else if count < elected then count + 1 else count) := by
      by_cases hc : count < elected
      · rw [if_pos hc, if_pos hc, Nat.mod_eq_of_lt (by omega)]
      · rw [if_neg hc, if_neg hc]
    rw [ev] at k3
    rw [em] at i2 i7
    refine ⟨⟨d, if over = true ∨ count < elected then 1 else 0, e.ciphertext⟩ :: items, by simp [i1], ?_,
      by simp [i3], ?_, ?_, ?_⟩
    · rw [List.map_cons, i2, List.length_cons, placeholderVotes_succ]
    · rw [i5, k2, List.drop_drop]
      simp [Nat.add_comm]
    · rw [itemLines, k3, i6, k2, List.length_drop, List.append_nil]
    · rw [i7]
      unfold finalCount
      cases over
      · simp only [Bool.false_eq_true, if_false, List.length_cons]
        by_cases hc : count < elected
        · simp only [hc, if_true]
          split <;> omega
        · simp only [hc, if_false]
      · rfl

/-! ## The lines of a contest -/

theorem extended_quads (data : Str) (n pub ext : ℕ) (w w' : World) (x : HashedCiphertext)
    (h : encryptExtended G C data n pub ext w = (.ok x, w')) : w'.pre.quads = w.pre.quads := by
  unfold encryptExtended at h
  simp only [M.bind_eq_ok, M.getTriple, M.lift, Prod.mk.injEq, Res.ok.injEq] at h
  obtain ⟨t, w1, ⟨rfl, rfl⟩, hx, rfl⟩ := h
  unfold PreState.getTriple
  cases w.pre.triples <;> rfl

theorem contestMake_ok (id : Str) (seq dh : ℕ) (sels : List CSelection) (pub ext ps n : ℕ)
    (nonce : Option ℕ) (x : Option HashedCiphertext) (w w' : World) (e : CContest)
    (h : CContest.make G C S id seq dh sels pub ext ps n nonce x w = (.ok e, w')) :
    e.selections = sels ∧ e.seq = seq ∧ w'.pre.quads = w.pre.quads := by
  unfold CContest.make at h
  simp only [M.bind_eq_ok, M.getTriple, M.lift, M.ret, Prod.mk.injEq, Res.ok.injEq] at h
  obtain ⟨_, _, ⟨-, rfl⟩, _, _, ⟨-, rfl⟩, _, _, ⟨-, rfl⟩, t, w1, ⟨rfl, rfl⟩, _, _, ⟨-, rfl⟩, rfl, rfl⟩ := h
  refine ⟨rfl, rfl, ?_⟩
  unfold PreState.getTriple
  cases w.pre.triples <;> rfl

/-- Whether the contest is treated as overvoted. -/
def isOver (c : PContest) (d : ContestDescP) : Bool :=
  decide (c.isValid d.desc.objectId (d.desc.getSelections S).length d.desc.numberElected
    d.desc.votesAllowed true = .overvote)

/-- The votes that are encrypted, with those of the placeholders. -/
def contestVotes (c : PContest) (d : ContestDescP) : List ℕ :=
  realVotes S c d (isOver S c d) ++ placeholderVotes (isOver S c d) d.desc.numberElected
    ((realVotes S c d (isOver S c d)).sum % 2 ^ 64) (d.getPlaceholders S).length

/-- The lines of a successful encryption of a contest. -/
def contestLines (pub : ℕ) (verify : Bool) (c : PContest) (d : ContestDescP) (hash : ℕ)
    (items : List Item) (quads : ℕ) : List Line :=
  contestCheck c d.desc.objectId (d.desc.getSelections S).length d.desc.numberElected
    d.desc.votesAllowed ++
  contestDesc G C d.desc hash ++
  itemLines G C pub verify items quads ++
  countWarning (if isOver S c d then 0 else d.desc.numberElected) d.desc.votesAllowed ++
  constStart ++
  (if verify then constValid else [])

/-- What the descriptions ask of a contest; valid manifests provide it. -/
structure GoodContest (d : ContestDescP) : Prop where
  elected : d.desc.numberElected < 2 ^ 64
  selections : (d.desc.selections.map (·.objectId)).Nodup
  placeholders : d.placeholders.length = d.desc.numberElected

theorem realVotes_le (c : PContest) (d : ContestDescP) (hn : (d.desc.selections.map (·.objectId)).Nodup)
    (hv : ∀ sd ∈ d.desc.getSelections S, c.voteFor sd.objectId ≤ 1)
    (hs : c.isValid d.desc.objectId (d.desc.getSelections S).length d.desc.numberElected
      d.desc.votesAllowed true = .success) :
    (realVotes S c d false).sum ≤ d.desc.numberElected := by
  have hn' : ((d.desc.getSelections S).map (·.objectId)).Nodup :=
    ((S.perm SelectionDesc.seq d.desc.selections).map _).nodup_iff.2 hn
  refine le_trans ?_ (success_marked c _ _ _ _ _ hs)
  refine le_trans (le_of_eq ?_) (votes_le_marked c.selections c.objectId _ hn')
  unfold realVotes
  rw [List.map_map]
  congr 1
  apply List.map_congr_left
  intro sd hsd
  have := hv sd hsd
  change c.voteFor sd.objectId = min 1 (c.voteFor sd.objectId)
  omega

theorem contest_ok (c : PContest) (m : IManifest) (d : ContestDescP) (pub ext seed : ℕ)
    (verify : Bool) (w w' : World) (e : CContest) (l : List Line) (hd : GoodContest d)
    (h : encryptContest G C S c m d pub ext seed verify w = (.ok e, w', l)) :
    ∃ (hash : ℕ) (items : List Item), d.desc.hash G C = .ok hash ∧
      items.map Item.desc = d.desc.getSelections S ++ d.getPlaceholders S ∧
      items.map Item.vote = contestVotes S c d ∧
      items.map Item.ciphertext = e.selections.map CSelection.ciphertext ∧
      w'.pre.quads = w.pre.quads.drop items.length ∧ e.seq = d.desc.seq ∧
      l = contestLines G C S pub verify c d hash items w.pre.quads.length ∧
      ∀ i ∈ items, i.vote ≤ 1 := by
  unfold encryptContest at h
  rw [W.bind_eq_ok] at h
  obtain ⟨_, _, l1, r1, h1, h, rfl⟩ := h
  rw [W.tell_eq_ok] at h1
  obtain ⟨rfl, rfl⟩ := h1
  by_cases hc : c.isValid d.desc.objectId (d.desc.getSelections S).length d.desc.numberElected
      d.desc.votesAllowed true ≠ .success ∧ c.isValid d.desc.objectId (d.desc.getSelections S).length
      d.desc.numberElected d.desc.votesAllowed true ≠ .overvote
  · rw [if_pos hc] at h
    exact absurd h (W.lift_raise _ _ _ _ _)
  · rw [if_neg hc, W.bind_eq_ok] at h
    obtain ⟨hash, _, l2, r2, h2, h, rfl⟩ := h
    simp only [W.lift_eq_ok, M.lift, Prod.mk.injEq] at h2
    obtain ⟨⟨hhash, rfl⟩, rfl⟩ := h2
    rw [W.bind_eq_ok] at h
    obtain ⟨_, _, l3, r3, h3, h, rfl⟩ := h
    rw [W.tell_eq_ok] at h3
    obtain ⟨rfl, rfl⟩ := h3
    rw [W.bind_eq_ok] at h
    obtain ⟨⟨rs, cnt⟩, w1, l4, r4, h4, h, rfl⟩ := h
    rw [W.bind_eq_ok] at h
    obtain ⟨⟨ps, fin⟩, w2, l5, r5, h5, h, rfl⟩ := h
    rw [W.bind_eq_ok] at h
    obtain ⟨x, w3, l6, r6, h6, h, rfl⟩ := h
    rw [W.lift_eq_ok] at h6
    obtain ⟨h6, rfl⟩ := h6
    rw [W.bind_eq_ok] at h
    obtain ⟨_, _, l7, r7, h7, h, rfl⟩ := h
    rw [W.tell_eq_ok] at h7
    obtain ⟨rfl, rfl⟩ := h7
    rw [W.bind_eq_ok] at h
    obtain ⟨e1, w4, l8, r8, h8, h, rfl⟩ := h
    rw [W.lift_eq_ok] at h8
    obtain ⟨h8, rfl⟩ := h8
    rw [W.bind_eq_ok] at h
    obtain ⟨_, _, l9, r9, h9, h, rfl⟩ := h
    rw [W.tell_eq_ok] at h9
    obtain ⟨rfl, rfl⟩ := h9
    have hend : e1 = e ∧ w4 = w' ∧ r9 = if verify then constValid else [] := by
      by_cases hb : (!verify) = true
      · rw [if_pos hb, W.ret_eq_ok] at h
        obtain ⟨rfl, rfl, rfl⟩ := h
        have : verify = false := by simpa using hb
        subst this
        exact ⟨rfl, rfl, rfl⟩
      · rw [if_neg hb] at h
        have : verify = true := by simpa using hb
        subst this
        rw [W.bind_eq_ok] at h
        obtain ⟨v, w5, l10, r10, h10, h, rfl⟩ := h
        simp only [W.lift_eq_ok, M.lift, Prod.mk.injEq] at h10
        obtain ⟨⟨-, rfl⟩, rfl⟩ := h10
        cases v with
        | false =>
          rw [if_neg (by simp)] at h
          exact absurd h (W.lift_raise _ _ _ _ _)
        | true =>
          rw [if_pos rfl, W.bind_eq_ok] at h
          obtain ⟨_, _, l11, r11, h11, h, rfl⟩ := h
          rw [W.tell_eq_ok] at h11
          obtain ⟨rfl, rfl⟩ := h11
          rw [W.ret_eq_ok] at h
          obtain ⟨rfl, rfl, rfl⟩ := h
          exact ⟨rfl, rfl, by simp⟩
    obtain ⟨rfl, rfl, rfl⟩ := hend
    obtain ⟨rit, a1, a2, a3, a4, a5, a6, a7⟩ := real_ok G C _ _ _ _ _ _ (emplaceSelection c) _
      (fun sd hsd => find_emplace S c d.desc sd hsd) _ _ _ _ _ _ h4
    dsimp only at h5
    obtain ⟨pit, b1, b2, b3, b5, b6, b7⟩ := placeholders_ok G C _ _ _ _ _ _ hd.elected _ _ _ _ _ _ _ h5
    have hq1 := extended_quads G C _ _ _ _ _ _ _ h6
    obtain ⟨c1, c2, c3⟩ := contestMake_ok G C S _ _ _ _ _ _ _ _ _ _ _ _ _ h8
    have hreal : (d.desc.getSelections S).map (fun sd => if isOver S c d = true then 0
        else (emplaceSelection c sd).vote) = realVotes S c d (isOver S c d) := by
      unfold realVotes
      apply List.map_congr_left
      intro sd _
      rw [emplaceSelection_vote]
    change rit.map Item.vote = (d.desc.getSelections S).map (fun sd => if isOver S c d = true then 0
        else (emplaceSelection c sd).vote) at a2
    rw [hreal] at a2
    have a7' : cnt = (0 + ((d.desc.getSelections S).map (fun sd => if isOver S c d = true then 0
        else (emplaceSelection c sd).vote)).sum) % 2 ^ 64 := a7 (by norm_num)
    rw [hreal, Nat.zero_add] at a7'
    change pit.map Item.vote = placeholderVotes (isOver S c d) _ _ _ at b2
    change fin = finalCount (isOver S c d) _ _ _ at b7
    have hlen : (d.getPlaceholders S).length = d.placeholders.length := (S.perm _ _).length_eq
    have hfin : fin = if isOver S c d then 0 else d.desc.numberElected := by
      rw [b7, a7', hlen, hd.placeholders]
      unfold finalCount
      by_cases ho : isOver S c d = true
      · rw [if_pos ho, if_pos ho, ho]
        simp [realVotes]
      · rw [if_neg ho, if_neg ho]
        have ho' : isOver S c d = false := by simpa using ho
        have hs : c.isValid d.desc.objectId (d.desc.getSelections S).length d.desc.numberElected
            d.desc.votesAllowed true = .success := by
          by_contra hs
          exact hc ⟨hs, by simpa [isOver] using ho'⟩
        have hle := realVotes_le S c d hd.selections (by
          intro sd hsd
          rw [← a1] at hsd
          obtain ⟨i, hi, rfl⟩ := List.mem_map.1 hsd
          rw [ho'] at a2
          unfold realVotes at a2
          rw [← a1, List.map_map] at a2
          have := List.map_inj_left.1 a2 i hi
          have h1 := a4 i hi
          simp only [Function.comp_apply, Bool.false_eq_true, if_false] at this
          omega) hs
        rw [ho', Nat.mod_eq_of_lt (lt_of_le_of_lt hle hd.elected)]
        split
        · omega
        · omega
    have hrl : rit.length = (d.desc.getSelections S).length := by rw [← a1, List.length_map]
    have hpl : pit.length = (d.getPlaceholders S).length := by rw [← b1, List.length_map]
    refine ⟨hash, rit ++ pit, hhash, by rw [List.map_append, a1, b1], ?_, ?_, ?_, c2, ?_, ?_⟩
    · rw [List.map_append, a2, b2, a7']
      rfl
    · rw [List.map_append, a3, b3, c1, List.map_append]
    · rw [c3, hq1, b5, a5, List.drop_drop, List.length_append, hrl, hpl]
    · rw [contestLines, itemLines_append, a6, b6, a5, List.length_drop, hrl, hfin]
      simp only [List.append_assoc, List.nil_append]
    · intro i hi
      rcases List.mem_append.1 hi with hi | hi
      · exact a4 i hi
      · refine placeholderVotes_le (isOver S c d) d.desc.numberElected cnt (d.getPlaceholders S).length i.vote ?_
        rw [← b2]
        exact List.mem_map_of_mem hi

/-! ## The lines of a ballot -/

/-- A contest that was encrypted, with the hash of its description. -/
structure Part where
  desc : ContestDescP
  hash : ℕ
  items : List Item

/-- The items are the selections and placeholders of the contest with the votes of the ballot. -/
structure Part.Of (b : PBallot) (p : Part) : Prop where
  hash : p.desc.desc.hash G C = .ok p.hash
  descs : p.items.map Item.desc = p.desc.desc.getSelections S ++ p.desc.getPlaceholders S
  votes : p.items.map Item.vote = contestVotes S (emplaceFrom S b p.desc) p.desc
  le : ∀ i ∈ p.items, i.vote ≤ 1

/-- The lines of the contests of a ballot. -/
def partLines (pub : ℕ) (verify : Bool) (b : PBallot) : List Part → ℕ → List Line
  | [], _ => []
  | p :: rest, quads =>
    contestLines G C S pub verify (emplaceFrom S b p.desc) p.desc p.hash p.items quads ++
      partLines pub verify b rest (quads - p.items.length)

theorem forEach_ok (b : PBallot) (pub : ℕ) (verify : Bool) (f : ContestDescP → W CContest)
    (ds : List ContestDescP)
    (hf : ∀ d ∈ ds, ∀ w w' e l, f d w = (.ok e, w', l) → ∃ p : Part, p.desc = d ∧ p.Of G C S b ∧
      p.items.map Item.ciphertext = e.selections.map CSelection.ciphertext ∧
      w'.pre.quads = w.pre.quads.drop p.items.length ∧ e.seq = d.desc.seq ∧
      l = contestLines G C S pub verify (emplaceFrom S b p.desc) p.desc p.hash p.items
        w.pre.quads.length) :
    ∀ w w' es l, W.forEach f ds w = (.ok es, w', l) → ∃ parts : List Part,
      parts.map Part.desc = ds ∧ (∀ p ∈ parts, p.Of G C S b) ∧
      parts.map (fun p => p.items.map Item.ciphertext) =
        es.map (fun e => e.selections.map CSelection.ciphertext) ∧
      es.map CContest.seq = ds.map (fun d => d.desc.seq) ∧
      l = partLines G C S pub verify b parts w.pre.quads.length := by
  induction ds with
  | nil =>
    intro w w' es l h
    rw [W.forEach, W.ret_eq_ok] at h
    obtain ⟨rfl, rfl, rfl⟩ := h
    exact ⟨[], rfl, by simp, rfl, rfl, rfl⟩
  | cons d ds ih =>
    intro w w' es l h
    rw [W.forEach, W.bind_eq_ok] at h
    obtain ⟨e, w1, l1, r1, h1, h, rfl⟩ := h
    rw [W.bind_eq_ok] at h
    obtain ⟨es', w2, l2, r2, h2, h, rfl⟩ := h
    rw [W.ret_eq_ok] at h
    obtain ⟨rfl, rfl, rfl⟩ := h
    obtain ⟨p, a1, a2, a3, a4, a5, a6⟩ := hf d (by simp) _ _ _ _ h1
    obtain ⟨ps, b1, b2, b3, b4, b5⟩ := ih (fun d' hd' => hf d' (by simp [hd'])) _ _ _ _ h2
    refine ⟨p :: ps, by rw [List.map_cons, a1, b1], ?_, ?_, ?_, ?_⟩
    · intro q hq
      rcases List.mem_cons.1 hq with rfl | hq
      · exact a2
      · exact b2 q hq
    · rw [List.map_cons, List.map_cons, a3, b3]
    · rw [List.map_cons, List.map_cons, a5, b4]
    · rw [partLines, a6, b5, a4, List.length_drop, List.append_nil]

theorem _root_.EG.GoodContests.good {ds : List ContestDescP} (h : GoodContests ds) :
    ∀ d ∈ ds, GoodContest d :=
  fun d hd => ⟨h.elected d hd, h.selections d hd, h.placeholders d hd⟩

theorem contests_ok (b : PBallot) (m : IManifest) (ctx : Context) (seed : ℕ) (verify : Bool)
    (w w' : World) (es : List CContest) (l : List Line) (ds : List ContestDescP)
    (hds : m.getContestsFor S b.styleId = .ok ds) (hgood : GoodContests ds)
    (h : encryptContests G C S b m ctx seed verify w = (.ok es, w', l)) :
    ∃ parts : List Part, parts.map Part.desc = ds ∧ (∀ p ∈ parts, p.Of G C S b) ∧
      parts.map (fun p => p.items.map Item.ciphertext) =
        es.map (fun e => e.selections.map CSelection.ciphertext) ∧
      es.map CContest.seq = ds.map (fun d => d.desc.seq) ∧
      l = partLines G C S ctx.pub verify b parts w.pre.quads.length := by
  unfold encryptContests at h
  rw [W.bind_eq_ok] at h
  obtain ⟨b', w1, l1, r1, h1, h, rfl⟩ := h
  simp only [W.lift_eq_ok, M.lift, Prod.mk.injEq] at h1
  obtain ⟨⟨h1, rfl⟩, rfl⟩ := h1
  unfold emplaceBallot at h1
  cases hst : m.getBallotStyle b.styleId with
  | none => rw [hst] at h1; simp at h1
  | some style =>
    have hid : style.objectId = b.styleId := by
      have := List.find?_some hst
      simpa using this
    rw [hst] at h1 h
    dsimp only at h1 h
    rw [hid, hds] at h1 h
    simp only [Res.bind_eq_ok, Res.ok.injEq] at h1
    obtain ⟨ds', rfl, rfl⟩ := h1
    rw [W.bind_eq_ok] at h
    obtain ⟨ds', w2, l2, r2, h2, h, rfl⟩ := h
    simp only [W.lift_eq_ok, M.lift, Prod.mk.injEq, Res.ok.injEq] at h2
    obtain ⟨⟨rfl, rfl⟩, rfl⟩ := h2
    refine forEach_ok G C S b ctx.pub verify _ ds ?_ _ _ _ _ h
    intro d hd w w' e l hf
    rw [find_id_map (emplaceFrom S b) (emplaceFrom_id S b) ds hgood.ids d hd] at hf
    dsimp only at hf
    obtain ⟨hash, items, a1, a2, a3, a4, a5, a6, a7, a8⟩ :=
      contest_ok G C S _ _ _ _ _ _ _ _ _ _ _ (hgood.good d hd) hf
    exact ⟨⟨d, hash, items⟩, rfl, ⟨a1, a2, a3, a8⟩, a4, a5, a6, a7⟩

/-- The lines of a successful encryption of a ballot, but for those of its check. -/
def ballotHead (manifestHash encryptionSeed timestamp : ℕ) : List Line :=
  [plain .trace "encryptBallot:: encrypting",
   valued .trace "encryptBallot" "manifestHash   :".toList (toHexQ manifestHash),
   valued .trace "encryptBallot" "encryptionSeed :".toList (toHexQ encryptionSeed),
   valued .trace "encryptBallot" "timestamp      :".toList (placeholderFrom.decimalU64 timestamp)]

def ballotEnd (verify : Bool) (e : CBallot) : List Line :=
  if verify then ballotChecks S e ++ [plain .trace "encryptBallot:: proof verification success"]
  else [plain .trace "encryptBallot:: bypass proof verification"]

theorem ballotMake_ok (id st : Str) (mh : ℕ) (cs : List CContest) (n : Option ℕ) (t : ℕ)
    (s c : Option ℕ) (w w' : World) (e : CBallot)
    (h : CBallot.make G C id st mh cs n t s c w = (.ok e, w')) : e.contests = cs := by
  unfold CBallot.make at h
  by_cases hc : cs.isEmpty = true
  · rw [if_pos hc] at h; simp [M.raise] at h
  · rw [if_neg hc] at h
    rw [M.bind_eq_ok] at h
    obtain ⟨k, w1, -, h⟩ := h
    by_cases ht : t = 0
    · rw [if_pos ht, M.bind_eq_ok] at h
      obtain ⟨k2, w2, -, h⟩ := h
      simp only [M.ret, Prod.mk.injEq, Res.ok.injEq] at h
      rw [← h.1]
    · rw [if_neg ht, M.bind_eq_ok] at h
      obtain ⟨k2, w2, -, h⟩ := h
      simp only [M.ret, Prod.mk.injEq, Res.ok.injEq] at h
      rw [← h.1]

theorem ballot_ok (b : PBallot) (m : IManifest) (ctx : Context) (codeSeed : ℕ) (nonce : Option ℕ)
    (timestamp : ℕ) (verify : Bool) (w w' : World) (e : CBallot) (l : List Line)
    (ds : List ContestDescP) (hds : m.getContestsFor S b.styleId = .ok ds) (hgood : GoodContests ds)
    (h : encryptBallot G C S b m ctx codeSeed nonce timestamp verify w = (.ok e, w', l)) :
    ∃ parts : List Part, parts.map Part.desc = ds ∧ (∀ p ∈ parts, p.Of G C S b) ∧
      parts.map (fun p => p.items.map Item.ciphertext) =
        e.contests.map (fun c => c.selections.map CSelection.ciphertext) ∧
      e.contests.map CContest.seq = ds.map (fun d => d.desc.seq) ∧
      l = ballotHead m.manifestHash codeSeed timestamp ++
        partLines G C S ctx.pub verify b parts w.pre.quads.length ++ ballotEnd S verify e := by
  unfold encryptBallot at h
  rw [W.bind_eq_ok] at h
  obtain ⟨_, _, l1, r1, h1, h, rfl⟩ := h
  rw [W.tell_eq_ok] at h1
  obtain ⟨rfl, rfl⟩ := h1
  cases hst : m.getBallotStyle b.styleId with
  | none =>
    rw [hst] at h
    exact absurd h (W.lift_raise _ _ _ _ _)
  | some style =>
    rw [hst] at h
    dsimp only at h
    rw [W.bind_eq_ok] at h
    obtain ⟨n, w1, l2, r2, h2, h, rfl⟩ := h
    rw [W.lift_eq_ok] at h2
    obtain ⟨h2, rfl⟩ := h2
    have hpre : w1.pre = w.pre := by
      unfold nonceOr at h2
      cases nonce with
      | none =>
        simp only [M.rand, Prod.mk.injEq] at h2
        rw [← h2.2]
      | some k =>
        simp only [M.ret, Prod.mk.injEq] at h2
        rw [← h2.2]
    rw [W.bind_eq_ok] at h
    obtain ⟨_, _, l3, r3, h3, h, rfl⟩ := h
    rw [W.tell_eq_ok] at h3
    obtain ⟨rfl, rfl⟩ := h3
    rw [W.bind_eq_ok] at h
    obtain ⟨cs, w2, l4, r4, h4, h, rfl⟩ := h
    rw [W.bind_eq_ok] at h
    obtain ⟨t, w3, l5, r5, h5, h, rfl⟩ := h
    rw [W.lift_eq_ok] at h5
    obtain ⟨h5, rfl⟩ := h5
    rw [W.bind_eq_ok] at h
    obtain ⟨e1, w4, l6, r6, h6, h, rfl⟩ := h
    rw [W.lift_eq_ok] at h6
    obtain ⟨h6, rfl⟩ := h6
    have hend : e1 = e ∧ r6 = ballotEnd S verify e := by
      by_cases hb : (!verify) = true
      · rw [if_pos hb, W.bind_eq_ok] at h
        obtain ⟨_, _, l7, r7, h7, h, rfl⟩ := h
        rw [W.tell_eq_ok] at h7
        obtain ⟨rfl, rfl⟩ := h7
        rw [W.ret_eq_ok] at h
        obtain ⟨rfl, rfl, rfl⟩ := h
        have : verify = false := by simpa using hb
        subst this
        exact ⟨rfl, by simp [ballotEnd]⟩
      · rw [if_neg hb] at h
        have : verify = true := by simpa using hb
        subst this
        rw [W.bind_eq_ok] at h
        obtain ⟨v, w5, l10, r10, h10, h, rfl⟩ := h
        simp only [W.lift_eq_ok, M.lift, Prod.mk.injEq] at h10
        obtain ⟨⟨-, rfl⟩, rfl⟩ := h10
        cases v with
        | false =>
          rw [if_neg (by simp)] at h
          exact absurd h (W.lift_raise _ _ _ _ _)
        | true =>
          rw [if_pos rfl, W.bind_eq_ok] at h
          obtain ⟨_, _, l11, r11, h11, h, rfl⟩ := h
          rw [W.tell_eq_ok] at h11
          obtain ⟨rfl, rfl⟩ := h11
          rw [W.bind_eq_ok] at h
          obtain ⟨_, _, l12, r12, h12, h, rfl⟩ := h
          rw [W.tell_eq_ok] at h12
          obtain ⟨rfl, rfl⟩ := h12
          rw [W.ret_eq_ok] at h
          obtain ⟨rfl, rfl, rfl⟩ := h
          exact ⟨rfl, by simp [ballotEnd]⟩
    obtain ⟨rfl, rfl⟩ := hend
    obtain ⟨parts, a1, a2, a3, a4, a5⟩ := contests_ok G C S _ _ _ _ _ _ _ _ _ ds hds hgood h4
    have hcs := ballotMake_ok G C _ _ _ _ _ _ _ _ _ _ _ h6
    refine ⟨parts, a1, a2, by rw [hcs, a3], by rw [hcs, a4], ?_⟩
    rw [a5, hpre]
    simp only [ballotHead, List.nil_append, List.cons_append]

end EG.Log
