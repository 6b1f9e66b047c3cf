import Verif.Lemmas.Group
import Verif.Model.PreObjects

/-!
# C125: copies and moves of precomputed values

For every program of constructions, copies, moves, assignments and destructions.
-/

namespace EG.PreObjects

variable {G : Params} {rng : ℕ → ℕ} {K : ℕ}

/-! ## What is claimed -/

/-- The triple of an exponent for the key `K`. -/
def TObj.Of (G : Params) (K r : ℕ) (o : TObj) : Prop :=
  o.exp = some r ∧ o.gToExp = some (G.g ^ r % G.p) ∧ o.pubkeyToExp = some (K ^ r % G.p)

/-- The quadruple of two exponents. -/
def QObj.Of (G : Params) (K r s : ℕ) (o : QObj) : Prop :=
  o.exp1 = some r ∧ o.exp2 = some s ∧ o.gToExp1 = some (G.g ^ r % G.p) ∧
    o.gToExp2MulPubkeyToExp1 = some (G.g ^ s * K ^ r % G.p)

/-- A whole object for the key `K`, of exponents among the first `n` drawn, each drawn for itself. -/
def Obj.Whole (G : Params) (rng : ℕ → ℕ) (K n : ℕ) : Obj → Prop
  | .t o => ∃ i < n, o.Of G K (rng i)
  | .q o => ∃ i j, i < j ∧ j < n ∧ o.Of G K (rng i) (rng j)
  | .w o => ∃ a b c, o = ⟨some a, some b, some c⟩ ∧ ∃ i j k l, i < j ∧ j < k ∧ k < l ∧ l < n ∧
      a.Of G K (rng i) ∧ b.Of G K (rng j) ∧ c.Of G K (rng k) (rng l)

/-- Nothing in it. -/
def Obj.Void : Obj → Prop
  | .t o => o.exp = none ∧ o.gToExp = none ∧ o.pubkeyToExp = none
  | .q o => o.exp1 = none ∧ o.exp2 = none ∧ o.gToExp1 = none ∧ o.gToExp2MulPubkeyToExp1 = none
  | .w o => o.triple1 = none ∧ o.triple2 = none ∧ o.quad = none

/-- The program takes its values from the generating constructors only, for the key `K`. -/
def Op.For (K : ℕ) : Op → Prop
  | .gen _ _ pub => pub = K
  | .make .. => False
  | _ => True

/-- There is such an object with something in it. -/
def Store.Full (s : Store) (y : ℕ) : Prop := ∃ o, s.objs y = some o ∧ ¬ o.Void

/-- What an operation needs. -/
def Op.Fit (s : Store) : Op → Prop
  | .copy _ y => s.Full y
  | .move x y => x ≠ y ∧ s.objs y ≠ none
  | .assign x y => s.Full y ∧ (s.objs x).map Obj.kind = (s.objs y).map Obj.kind
  | .moveAssign x y => s.objs y ≠ none ∧ (s.objs x).map Obj.kind = (s.objs y).map Obj.kind
  | .part _ y _ => s.Full y ∧ (s.objs y).map Obj.kind = some .w
  | .quad _ y => s.Full y ∧ (s.objs y).map Obj.kind = some .w
  | _ => True

/-- The operations that copy nothing. -/
def Op.Moves : Op → Prop
  | .new .. | .gen .. | .move .. | .moveAssign .. | .drop .. => True
  | _ => False

def TObj.exps (o : TObj) : List ℕ := o.exp.toList

def QObj.exps (o : QObj) : List ℕ := o.exp1.toList ++ o.exp2.toList

/-- The exponents that an object holds. -/
def Obj.exps : Obj → List ℕ
  | .t o => o.exps
  | .q o => o.exps
  | .w o => (o.triple1.toList.flatMap TObj.exps) ++ (o.triple2.toList.flatMap TObj.exps) ++
      (o.quad.toList.flatMap QObj.exps)

/-- The objects that an operation may change. -/
def Op.touches : Op → List ℕ
  | .new x _ | .gen x _ _ | .make x _ _ _ | .copy x _ | .assign x _ | .part x _ _ | .quad x _ | .drop x => [x]
  | .move x y | .moveAssign x y => [x, y]

/-! ## Steps -/

theorem objs_set (s : Store) (x y : ℕ) (o : Option Obj) :
    (s.set x o).objs y = if y = x then o else s.objs y := rfl

theorem objs_skip (s : Store) (n y : ℕ) : (s.skip n).objs y = s.objs y := rfl

theorem run_append (s : Store) (a b : List Op) :
    run G rng s (a ++ b) = run G rng s a >>= fun s => run G rng s b := by
  induction a generalizing s with
  | nil => rfl
  | cons o os ih =>
    simp only [List.cons_append, run]
    cases step G rng s o with
    | ok s' => exact ih s'
    | throw => rfl
    | ub => rfl

theorem copyT_of {o : TObj} {r : ℕ} (h : o.Of G K r) : o.copy = .ok o := by
  obtain ⟨a, b, c⟩ := o
  obtain ⟨rfl, rfl, rfl⟩ := h
  rfl

theorem copyQ_of {o : QObj} {r s : ℕ} (h : o.Of G K r s) : o.copy = .ok o := by
  obtain ⟨a, b, c, d⟩ := o
  obtain ⟨rfl, rfl, rfl, rfl⟩ := h
  rfl

theorem copy_whole {o : Obj} {n : ℕ} (h : o.Whole G rng K n) : o.copy = .ok o := by
  cases o with
  | t o =>
    obtain ⟨i, _, h⟩ := h
    simp only [Obj.copy, copyT_of h]
    rfl
  | q o =>
    obtain ⟨i, j, _, _, h⟩ := h
    simp only [Obj.copy, copyQ_of h]
    rfl
  | w o =>
    obtain ⟨a, b, c, rfl, i, j, k, l, _, _, _, _, ha, hb, hc⟩ := h
    simp only [Obj.copy, WObj.copy, copyP, copyT_of ha, copyT_of hb, copyQ_of hc]
    rfl

theorem copy_void {o : Obj} (h : o.Void) : o.copy = .ub := by
  cases o with
  | t o => obtain ⟨a, b, c⟩ := o; obtain ⟨rfl, rfl, rfl⟩ := h; rfl
  | q o => obtain ⟨a, b, c, d⟩ := o; obtain ⟨rfl, rfl, rfl, rfl⟩ := h; rfl
  | w o => obtain ⟨a, b, c⟩ := o; obtain ⟨rfl, rfl, rfl⟩ := h; rfl

theorem void_empty (k : Kind) : (Obj.empty k).Void := by cases k <;> simp [Obj.empty, Obj.Void]

theorem not_void {o : Obj} {n : ℕ} (h : o.Whole G rng K n) : ¬ o.Void := by
  intro hv
  have := copy_void hv
  rw [copy_whole h] at this
  cases this

theorem whole_mono {o : Obj} {n m : ℕ} (h : o.Whole G rng K n) (hm : n ≤ m) : o.Whole G rng K m := by
  cases o with
  | t o =>
    obtain ⟨i, hi, h⟩ := h
    exact ⟨i, by omega, h⟩
  | q o =>
    obtain ⟨i, j, h1, h2, h⟩ := h
    exact ⟨i, j, h1, by omega, h⟩
  | w o =>
    obtain ⟨a, b, c, e, i, j, k, l, h1, h2, h3, h4, h⟩ := h
    exact ⟨a, b, c, e, i, j, k, l, h1, h2, h3, by omega, h⟩

/-- Every object is void or whole. -/
def Store.Sound (G : Params) (rng : ℕ → ℕ) (K : ℕ) (s : Store) : Prop :=
  ∀ x o, s.objs x = some o → o.Void ∨ o.Whole G rng K s.drawn

theorem sound_set {s : Store} (h : s.Sound G rng K) (x : ℕ) (o : Obj) (ho : o.Void ∨ o.Whole G rng K s.drawn) :
    (s.set x (some o)).Sound G rng K := by
  intro y o' e
  rw [objs_set] at e
  split at e
  · exact Option.some.inj e ▸ ho
  · exact h y o' e

theorem sound_skip {s : Store} (h : s.Sound G rng K) (x n : ℕ) (o : Obj) (ho : o.Whole G rng K (s.drawn + n)) :
    ((s.set x (some o)).skip n).Sound G rng K := by
  intro y o' e
  rw [objs_skip, objs_set] at e
  split at e
  · exact .inr (Option.some.inj e ▸ ho)
  · exact (h y o' e).imp id fun h => whole_mono h (Nat.le_add_right _ _)

theorem genT (hG : G.Valid) (hK : K < 2 ^ 4096) {r : ℕ} (hr : r < G.q) : (TObj.gen G K r).Of G K r := by
  have h5 : r < 2 ^ 512 := lt_512_of_lt (lt_trans hr hG.q_lt)
  exact ⟨rfl, congrArg some (gPowP_eq hG _ h5), congrArg some (powModP_eq hG _ _ hK h5)⟩

theorem genQ (hG : G.Valid) (hK : K < 2 ^ 4096) {r s : ℕ} (hr : r < G.q) (hs : s < G.q) :
    (QObj.gen G K r s).Of G K r s := by
  have h5 : r < 2 ^ 512 := lt_512_of_lt (lt_trans hr hG.q_lt)
  have h6 : s < 2 ^ 512 := lt_512_of_lt (lt_trans hs hG.q_lt)
  refine ⟨rfl, rfl, congrArg some (gPowP_eq hG _ h5), congrArg some ?_⟩
  have hp := hG.p_lt
  have h0 : 0 < G.p := by have := hG.p_gt; omega
  rw [gPowP_eq hG _ h6, powModP_eq hG _ _ hK h5, mulModP_eq hG _ _ (lt_trans (Nat.mod_lt _ h0) hp)
    (lt_trans (Nat.mod_lt _ h0) hp), ← Nat.mul_mod]

/-- A step of a sound store: it fits, and leaves a sound store, or is undefined. -/
theorem step_sound (hG : G.Valid) (hK : K < 2 ^ 4096) (hr : ∀ i, rng i < G.q) {s : Store} (h : s.Sound G rng K)
    {op : Op} (hop : op.For K) :
    (op.Fit s ∧ ∃ s', step G rng s op = .ok s' ∧ s'.Sound G rng K) ∨ (¬ op.Fit s ∧ step G rng s op = .ub) := by
  cases op with
  | new x k => exact .inl ⟨trivial, _, rfl, sound_set h _ _ (.inl (void_empty k))⟩
  | gen x k pub =>
    obtain rfl : pub = K := hop
    refine .inl ⟨trivial, ?_⟩
    cases k with
    | t => exact ⟨_, rfl, sound_skip h _ _ _ ⟨_, by omega, genT hG hK (hr _)⟩⟩
    | q => exact ⟨_, rfl, sound_skip h _ _ _ ⟨_, _, by omega, by omega, genQ hG hK (hr _) (hr _)⟩⟩
    | w => exact ⟨_, rfl, sound_skip h _ _ _ ⟨_, _, _, rfl, s.drawn, s.drawn + 1, s.drawn + 2, s.drawn + 3, by omega,
        by omega, by omega, by omega, genT hG hK (hr _), genT hG hK (hr _), genQ hG hK (hr _) (hr _)⟩⟩
  | make x e g p => exact hop.elim
  | copy x y =>
    simp only [step, Op.Fit, Store.Full]
    cases e : s.objs y with
    | none => exact .inr ⟨fun ⟨o, ho, _⟩ => (nomatch ho), rfl⟩
    | some o =>
      rcases h y o e with hv | hw
      · refine .inr ⟨fun ⟨o', ho, hn⟩ => hn (Option.some.inj ho ▸ hv), ?_⟩
        simp only [copy_void hv]
        rfl
      · refine .inl ⟨⟨o, rfl, not_void hw⟩, ?_⟩
        simp only [copy_whole hw]
        exact ⟨_, rfl, sound_set h _ _ (.inr hw)⟩
  | move x y =>
    simp only [step, Op.Fit]
    cases e : s.objs y with
    | none => exact .inr ⟨fun ⟨_, ho⟩ => ho rfl, rfl⟩
    | some o =>
      by_cases hxy : x = y
      · exact .inr ⟨fun ⟨hn, _⟩ => hn hxy, by simp [hxy]⟩
      · refine .inl ⟨⟨hxy, by simp⟩, _, if_neg hxy, ?_⟩
        exact sound_set (sound_set h _ _ (.inl (void_empty _))) _ _ (h y o e)
  | assign x y =>
    simp only [step, Op.Fit, Store.Full]
    cases e : s.objs y with
    | none => exact .inr ⟨fun ⟨⟨o, ho, _⟩, _⟩ => (nomatch ho), by cases s.objs x <;> rfl⟩
    | some o =>
      cases e' : s.objs x with
      | none => exact .inr ⟨fun ⟨_, hk⟩ => (nomatch hk), rfl⟩
      | some a =>
        by_cases hk : a.kind = o.kind
        · rcases h y o e with hv | hw
          · refine .inr ⟨fun ⟨⟨o', ho, hn⟩, _⟩ => hn (Option.some.inj ho ▸ hv), ?_⟩
            simp only [if_pos hk, copy_void hv]
            rfl
          · refine .inl ⟨⟨⟨o, rfl, not_void hw⟩, by simp [hk]⟩, ?_⟩
            simp only [if_pos hk, copy_whole hw]
            exact ⟨_, rfl, sound_set h _ _ (.inr hw)⟩
        · exact .inr ⟨fun ⟨_, hk'⟩ => hk (by simpa using hk'), by simp [hk]⟩
  | moveAssign x y =>
    simp only [step, Op.Fit]
    cases e : s.objs y with
    | none => exact .inr ⟨fun ⟨ho, _⟩ => ho rfl, by cases s.objs x <;> rfl⟩
    | some o =>
      cases e' : s.objs x with
      | none => exact .inr ⟨fun ⟨_, hk⟩ => (nomatch hk), rfl⟩
      | some a =>
        by_cases hk : a.kind = o.kind
        · refine .inl ⟨⟨by simp, by simp [hk]⟩, _, if_pos hk, ?_⟩
          exact sound_set (sound_set h _ _ (.inl (void_empty _))) _ _ (h y o e)
        · exact .inr ⟨fun ⟨_, hk'⟩ => hk (by simpa using hk'), by simp [hk]⟩
  | part x y second =>
    simp only [step, Op.Fit, Store.Full]
    cases e : s.objs y with
    | none => exact .inr ⟨fun ⟨⟨o, ho, _⟩, _⟩ => (nomatch ho), rfl⟩
    | some o =>
      cases o with
      | t o => exact .inr ⟨fun ⟨_, hk⟩ => (nomatch hk), rfl⟩
      | q o => exact .inr ⟨fun ⟨_, hk⟩ => (nomatch hk), rfl⟩
      | w o =>
        rcases h y _ e with hv | hw
        · refine .inr ⟨fun ⟨⟨o', ho, hn⟩, _⟩ => hn (Option.some.inj ho ▸ hv), ?_⟩
          obtain ⟨h1, h2, h3⟩ := hv
          simp only [h1, h2, ite_self, copyP]
          rfl
        · refine .inl ⟨⟨⟨_, rfl, not_void hw⟩, rfl⟩, ?_⟩
          obtain ⟨a, b, c, rfl, i, j, k, l, _, _, _, _, ha, hb, hc⟩ := hw
          cases second with
          | false =>
            simp only [Bool.false_eq_true, if_false, copyP, copyT_of ha]
            exact ⟨_, rfl, sound_set h _ _ (.inr ⟨i, by omega, ha⟩)⟩
          | true =>
            simp only [if_true, copyP, copyT_of hb]
            exact ⟨_, rfl, sound_set h _ _ (.inr ⟨j, by omega, hb⟩)⟩
  | quad x y =>
    simp only [step, Op.Fit, Store.Full]
    cases e : s.objs y with
    | none => exact .inr ⟨fun ⟨⟨o, ho, _⟩, _⟩ => (nomatch ho), rfl⟩
    | some o =>
      cases o with
      | t o => exact .inr ⟨fun ⟨_, hk⟩ => (nomatch hk), rfl⟩
      | q o => exact .inr ⟨fun ⟨_, hk⟩ => (nomatch hk), rfl⟩
      | w o =>
        rcases h y _ e with hv | hw
        · refine .inr ⟨fun ⟨⟨o', ho, hn⟩, _⟩ => hn (Option.some.inj ho ▸ hv), ?_⟩
          obtain ⟨h1, h2, h3⟩ := hv
          simp only [h3, copyP]
          rfl
        · refine .inl ⟨⟨⟨_, rfl, not_void hw⟩, rfl⟩, ?_⟩
          obtain ⟨a, b, c, rfl, i, j, k, l, _, _, _, _, ha, hb, hc⟩ := hw
          simp only [copyP, copyQ_of hc]
          exact ⟨_, rfl, sound_set h _ _ (.inr ⟨k, l, by omega, by omega, hc⟩)⟩
  | drop x =>
    refine .inl ⟨trivial, _, rfl, ?_⟩
    intro y o e
    rw [objs_set] at e
    split at e
    · cases e
    · exact h y o e

theorem run_sound (hG : G.Valid) (hK : K < 2 ^ 4096) (hr : ∀ i, rng i < G.q) {s s' : Store} (h : s.Sound G rng K)
    {ops : List Op} (hops : ∀ op ∈ ops, op.For K) (e : run G rng s ops = .ok s') : s'.Sound G rng K := by
  induction ops generalizing s with
  | nil => cases e; exact h
  | cons o os ih =>
    rw [run] at e
    rcases step_sound hG hK hr h (hops o List.mem_cons_self) with ⟨_, s1, e1, h1⟩ | ⟨_, e1⟩
    · rw [e1] at e
      exact ih h1 (fun op hm => hops op (List.mem_cons_of_mem _ hm)) e
    · rw [e1] at e
      cases e

theorem start_sound : Store.start.Sound G rng K := fun _ _ h => nomatch h

/-! ## The claims -/

/-- C125.  After any program each object holds nothing, or all of what its class needs, with the powers that belong to its
exponents: no operation mixes two objects. -/
theorem C125_whole (hG : G.Valid) (hK : K < 2 ^ 4096) (hr : ∀ i, rng i < G.q) {ops : List Op}
    (hops : ∀ op ∈ ops, op.For K) {s : Store} (e : run G rng .start ops = .ok s) {x : ℕ} {o : Obj}
    (hx : s.objs x = some o) : o.Void ∨ o.Whole G rng K s.drawn :=
  run_sound hG hK hr start_sound hops e x o hx

/-- C125.  An operation is defined just when it fits; to copy, assign from or read an object with nothing in it is
undefined. -/
theorem C125_defined (hG : G.Valid) (hK : K < 2 ^ 4096) (hr : ∀ i, rng i < G.q) {ops : List Op}
    (hops : ∀ op ∈ ops, op.For K) {s : Store} (e : run G rng .start ops = .ok s) {op : Op} (hop : op.For K) :
    (op.Fit s → ∃ s', step G rng s op = .ok s') ∧ (¬ op.Fit s → step G rng s op = .ub) := by
  rcases step_sound hG hK hr (run_sound hG hK hr start_sound hops e) hop with ⟨hf, s', e', _⟩ | ⟨hf, e'⟩
  · exact ⟨fun _ => ⟨s', e'⟩, fun hn => (hn hf).elim⟩
  · exact ⟨fun h => (hf h).elim, fun _ => e'⟩

/-- C125.  A move leaves the source with nothing, and so a second use of it is undefined. -/
theorem C125_moved {s s' : Store} {x y : ℕ} (hxy : x ≠ y) (e : step G rng s (.move x y) = .ok s') (z : ℕ) :
    s'.objs x = s.objs y ∧ step G rng s' (.copy z y) = .ub ∧ step G rng s' (.assign z y) = .ub ∧
      step G rng s' (.quad z y) = .ub ∧ ∀ b, step G rng s' (.part z y b) = .ub := by
  simp only [step] at e
  cases h : s.objs y with
  | none => rw [h] at e; cases e
  | some o =>
    simp only [h, if_neg hxy, Res.ok.injEq] at e
    subst e
    have hy : ((s.set y (some (.empty o.kind))).set x (some o)).objs y = some (.empty o.kind) := by
      rw [objs_set, if_neg (Ne.symm hxy), objs_set, if_pos rfl]
    have hc : (Obj.empty o.kind).copy = .ub := copy_void (void_empty _)
    refine ⟨by rw [objs_set, if_pos rfl], ?_, ?_, ?_, ?_⟩
    · simp only [step, hy, hc]; rfl
    · simp only [step, hy]
      cases ((s.set y (some (.empty o.kind))).set x (some o)).objs z with
      | none => rfl
      | some a => dsimp only; rw [hc]; split <;> rfl
    · simp only [step, hy]; cases o.kind <;> rfl
    · intro b
      simp only [step, hy]; cases o.kind <;> cases b <;> rfl

/-- C125.  An object assigned to itself, by copy or by move, is as before. -/
theorem C125_self {s : Store} {x : ℕ} {o : Obj} {n : ℕ} (hx : s.objs x = some o) (hw : o.Whole G rng K n) :
    ∀ op ∈ [Op.assign x x, Op.moveAssign x x], ∃ s', step G rng s op = .ok s' ∧ s'.drawn = s.drawn ∧
      s'.objs = s.objs := by
  intro op hop
  simp only [List.mem_cons, List.not_mem_nil, or_false] at hop
  rcases hop with rfl | rfl
  · refine ⟨s.set x (some o), by simp only [step, hx, if_true, copy_whole hw]; rfl, rfl, ?_⟩
    funext y
    rw [objs_set]
    split
    · rename_i h; rw [h, hx]
    · rfl
  · refine ⟨(s.set x (some (.empty o.kind))).set x (some o), by simp only [step, hx, if_true], rfl, ?_⟩
    funext y
    rw [objs_set, objs_set]
    split
    · rename_i h; rw [h, hx]
    · rfl

/-! ## Copies -/

theorem step_frame {s s' : Store} {op : Op} (e : step G rng s op = .ok s') {x : ℕ} (hx : x ∉ op.touches) :
    s'.objs x = s.objs x := by
  cases op with
  | new y k => cases e; rw [objs_set, if_neg (by simpa [Op.touches] using hx)]
  | gen y k pub =>
    cases k <;> cases e <;> rw [objs_skip, objs_set, if_neg (by simpa [Op.touches] using hx)]
  | make y a b c => cases e; rw [objs_set, if_neg (by simpa [Op.touches] using hx)]
  | drop y => cases e; rw [objs_set, if_neg (by simpa [Op.touches] using hx)]
  | copy a b =>
    simp only [step] at e
    split at e
    · obtain ⟨o', _, e⟩ := (Res.bind_eq_ok _ _ _).1 e
      cases e; rw [objs_set, if_neg (by simpa [Op.touches] using hx)]
    · cases e
  | move a b =>
    simp only [Op.touches, List.mem_cons, List.not_mem_nil, or_false, not_or] at hx
    simp only [step] at e
    split at e
    · split at e
      · cases e
      · cases e; rw [objs_set, if_neg hx.1, objs_set, if_neg hx.2]
    · cases e
  | assign a b =>
    simp only [step] at e
    split at e
    · split at e
      · obtain ⟨o', _, e⟩ := (Res.bind_eq_ok _ _ _).1 e
        cases e; rw [objs_set, if_neg (by simpa [Op.touches] using hx)]
      · cases e
    · cases e
  | moveAssign a b =>
    simp only [Op.touches, List.mem_cons, List.not_mem_nil, or_false, not_or] at hx
    simp only [step] at e
    split at e
    · split at e
      · cases e; rw [objs_set, if_neg hx.1, objs_set, if_neg hx.2]
      · cases e
    · cases e
  | part a b c =>
    simp only [step] at e
    split at e
    · obtain ⟨o', _, e⟩ := (Res.bind_eq_ok _ _ _).1 e
      cases e; rw [objs_set, if_neg (by simpa [Op.touches] using hx)]
    · cases e
  | quad a b =>
    simp only [step] at e
    split at e
    · obtain ⟨o', _, e⟩ := (Res.bind_eq_ok _ _ _).1 e
      cases e; rw [objs_set, if_neg (by simpa [Op.touches] using hx)]
    · cases e

theorem run_frame {s s' : Store} {ops : List Op} (e : run G rng s ops = .ok s') {x : ℕ}
    (hx : ∀ op ∈ ops, x ∉ op.touches) : s'.objs x = s.objs x := by
  induction ops generalizing s with
  | nil => cases e; rfl
  | cons o os ih =>
    rw [run] at e
    obtain ⟨s1, e1, e2⟩ := (Res.bind_eq_ok _ _ _).1 e
    rw [ih e2 fun op h => hx op (List.mem_cons_of_mem _ h), step_frame e1 (hx o List.mem_cons_self)]

/-- C125.  A copy stands alone: whatever is done to other objects afterwards, moving from the original and destroying it
included, the copy stays what the original was.  It holds the same exponents. -/
theorem C125_copy (hG : G.Valid) (hK : K < 2 ^ 4096) (hr : ∀ i, rng i < G.q) {ops : List Op}
    (hops : ∀ op ∈ ops, op.For K) {s s' s'' : Store} (e : run G rng .start ops = .ok s) {x y : ℕ}
    (e' : step G rng s (.copy x y) = .ok s') {later : List Op} (hl : ∀ op ∈ later, x ∉ op.touches)
    (e'' : run G rng s' later = .ok s'') :
    ∃ o, s.objs y = some o ∧ s''.objs x = some o ∧ o.Whole G rng K s.drawn ∧ o.exps ≠ [] := by
  have hs := run_sound hG hK hr start_sound hops e
  rw [run_frame e'' hl]
  simp only [step] at e'
  cases h : s.objs y with
  | none => rw [h] at e'; cases e'
  | some o =>
    rw [h] at e'
    rcases hs y o h with hv | hw
    · simp only [copy_void hv] at e'
      cases e'
    · simp only [copy_whole hw] at e'
      cases e'
      refine ⟨o, rfl, by rw [objs_set, if_pos rfl], hw, ?_⟩
      cases o with
      | t o =>
        obtain ⟨i, _, h1, _⟩ := hw
        simp [Obj.exps, TObj.exps, h1]
      | q o =>
        obtain ⟨i, j, _, _, h1, _⟩ := hw
        simp [Obj.exps, QObj.exps, h1]
      | w o =>
        obtain ⟨a, b, c, rfl, i, j, k, l, _, _, _, _, ha, _⟩ := hw
        simp [Obj.exps, TObj.exps, ha.1]

/-- C125.  What the operations give: a copy or an assignment the value of the source, which keeps it; a move assignment the
value of the source, which loses it; a reading the part asked for.  Nothing else changes. -/
theorem C125_effect (hG : G.Valid) (hK : K < 2 ^ 4096) (hr : ∀ i, rng i < G.q) {ops : List Op}
    (hops : ∀ op ∈ ops, op.For K) {s s' : Store} (e : run G rng .start ops = .ok s) (x y : ℕ) :
    (∀ op ∈ [Op.copy x y, Op.assign x y], step G rng s op = .ok s' →
      s'.objs x = s.objs y ∧ ∀ z ≠ x, s'.objs z = s.objs z) ∧
    (x ≠ y → step G rng s (.moveAssign x y) = .ok s' →
      s'.objs x = s.objs y ∧ (∃ o, s'.objs y = some o ∧ o.Void) ∧ ∀ z, z ≠ x → z ≠ y → s'.objs z = s.objs z) ∧
    (∀ b, step G rng s (.part x y b) = .ok s' → ∃ t u q, s.objs y = some (.w ⟨some t, some u, some q⟩) ∧
      s'.objs x = some (.t (if b then u else t)) ∧ ∀ z ≠ x, s'.objs z = s.objs z) ∧
    (step G rng s (.quad x y) = .ok s' → ∃ t u q, s.objs y = some (.w ⟨some t, some u, some q⟩) ∧
      s'.objs x = some (.q q) ∧ ∀ z ≠ x, s'.objs z = s.objs z) ∧
    (step G rng s (.drop x) = .ok s' → s'.objs x = none ∧ ∀ z ≠ x, s'.objs z = s.objs z) := by
  have hs := run_sound hG hK hr start_sound hops e
  have hpair : ∀ o, s.objs y = some (.w o) → o.triple1 = none ∧ o.triple2 = none ∧ o.quad = none ∨
      ∃ t u q, o = ⟨some t, some u, some q⟩ ∧ t.copy = .ok t ∧ u.copy = .ok u ∧ q.copy = .ok q := by
    intro o ho
    rcases hs y _ ho with hv | ⟨a, b, c, rfl, _, _, _, _, _, _, _, _, ha, hb, hc⟩
    · exact .inl hv
    · exact .inr ⟨a, b, c, rfl, copyT_of ha, copyT_of hb, copyQ_of hc⟩
  refine ⟨?_, ?_, ?_, ?_, ?_⟩
  · intro op hop e'
    have hc : ∀ o, s.objs y = some o → ∀ o', o.copy = .ok o' → o' = o := by
      intro o ho o' ho'
      rcases hs y o ho with hv | hw
      · rw [copy_void hv] at ho'; cases ho'
      · rw [copy_whole hw] at ho'; cases ho'; rfl
    simp only [List.mem_cons, List.not_mem_nil, or_false] at hop
    rcases hop with rfl | rfl
    · refine ⟨?_, fun z hz => step_frame e' (by simpa [Op.touches] using hz)⟩
      simp only [step] at e'
      split at e'
      · rename_i o ho
        obtain ⟨o', h', e'⟩ := (Res.bind_eq_ok _ _ _).1 e'
        cases e'
        rw [objs_set, if_pos rfl, hc o ho o' h', ho]
      · cases e'
    · refine ⟨?_, fun z hz => step_frame e' (by simpa [Op.touches] using hz)⟩
      simp only [step] at e'
      split at e'
      · rename_i a o _ ho
        split at e'
        · obtain ⟨o', h', e'⟩ := (Res.bind_eq_ok _ _ _).1 e'
          cases e'
          rw [objs_set, if_pos rfl, hc o ho o' h', ho]
        · cases e'
      · cases e'
  · intro hxy e'
    have hf : ∀ z, z ≠ x → z ≠ y → s'.objs z = s.objs z := fun z h1 h2 => step_frame e' (by simp [Op.touches, h1, h2])
    refine ⟨?_, ?_, hf⟩
    all_goals
      simp only [step] at e'
      split at e'
      · rename_i a o _ ho
        split at e'
        · cases e'
          first
            | rw [objs_set, if_pos rfl, ho]
            | exact ⟨_, by rw [objs_set, if_neg (Ne.symm hxy), objs_set, if_pos rfl], void_empty _⟩
        · cases e'
      · cases e'
  · intro b e'
    have hf : ∀ z ≠ x, s'.objs z = s.objs z := fun z hz => step_frame e' (by simpa [Op.touches] using hz)
    simp only [step] at e'
    split at e'
    · rename_i o ho
      rcases hpair o ho with ⟨h1, h2, _⟩ | ⟨t, u, q, rfl, h1, h2, _⟩
      · simp only [h1, h2, ite_self, copyP] at e'
        cases e'
      · refine ⟨t, u, q, ho, ?_, hf⟩
        cases b with
        | false =>
          simp only [Bool.false_eq_true, if_false, copyP, h1] at e' ⊢
          cases e'
          rw [objs_set, if_pos rfl]; rfl
        | true =>
          simp only [if_true, copyP, h2] at e' ⊢
          cases e'
          rw [objs_set, if_pos rfl]; rfl
    · cases e'
  · intro e'
    have hf : ∀ z ≠ x, s'.objs z = s.objs z := fun z hz => step_frame e' (by simpa [Op.touches] using hz)
    simp only [step] at e'
    split at e'
    · rename_i o ho
      rcases hpair o ho with ⟨_, _, h3⟩ | ⟨t, u, q, rfl, _, _, h3⟩
      · simp only [h3, copyP] at e'
        cases e'
      · refine ⟨t, u, q, ho, ?_, hf⟩
        simp only [copyP, h3] at e'
        cases e'
        rw [objs_set, if_pos rfl]; rfl
    · cases e'
  · intro e'
    refine ⟨?_, fun z hz => step_frame e' (by simpa [Op.touches] using hz)⟩
    cases e'
    rw [objs_set, if_pos rfl]

/-- C125.  The constructors give an object of their class: with nothing in it, or whole and of exponents drawn now. -/
theorem C125_new (hG : G.Valid) (hK : K < 2 ^ 4096) (hr : ∀ i, rng i < G.q) (s : Store) (x : ℕ) (k : Kind) :
    (∃ s' o, step G rng s (.new x k) = .ok s' ∧ s'.objs x = some o ∧ o.kind = k ∧ o.Void ∧ s'.drawn = s.drawn) ∧
    ∃ s' o, step G rng s (.gen x k K) = .ok s' ∧ s'.objs x = some o ∧ o.kind = k ∧ o.Whole G rng K s'.drawn ∧
      o.exps = (List.range' s.drawn (s'.drawn - s.drawn)).map rng := by
  refine ⟨⟨_, _, rfl, by rw [objs_set, if_pos rfl], by cases k <;> rfl, void_empty k, rfl⟩, ?_⟩
  cases k with
  | t =>
    refine ⟨_, .t _, rfl, by rw [objs_skip, objs_set, if_pos rfl], rfl,
      ⟨s.drawn, Nat.lt_succ_self _, genT hG hK (hr _)⟩, ?_⟩
    simp only [Store.skip, Store.set, Nat.add_sub_cancel_left]
    rfl
  | q =>
    refine ⟨_, .q _, rfl, by rw [objs_skip, objs_set, if_pos rfl], rfl,
      ⟨s.drawn, s.drawn + 1, Nat.lt_succ_self _, Nat.lt_succ_self _, genQ hG hK (hr _) (hr _)⟩, ?_⟩
    simp only [Store.skip, Store.set, Nat.add_sub_cancel_left]
    rfl
  | w =>
    refine ⟨_, .w _, rfl, by rw [objs_skip, objs_set, if_pos rfl], rfl,
      ⟨_, _, _, rfl, s.drawn, s.drawn + 1, s.drawn + 2, s.drawn + 3, by omega, by omega, by omega, Nat.lt_succ_self _,
        genT hG hK (hr _), genT hG hK (hr _), genQ hG hK (hr _) (hr _)⟩, ?_⟩
    simp only [Store.skip, Store.set, Nat.add_sub_cancel_left]
    rfl

/-! ## Without copies -/

/-- Every exponent held has its own draw. -/
def Store.Apart (rng : ℕ → ℕ) (s : Store) : Prop :=
  ∀ x o, s.objs x = some o → o.exps.Nodup ∧ (∀ r ∈ o.exps, ∃ i < s.drawn, r = rng i) ∧
    ∀ y o', y ≠ x → s.objs y = some o' → ∀ r ∈ o.exps, r ∉ o'.exps

theorem exps_empty (k : Kind) : (Obj.empty k).exps = [] := by cases k <;> rfl

theorem apart_none {s : Store} (h : s.Apart rng) (x : ℕ) (o : Option Obj) (ho : ∀ a, o = some a → a.exps = []) :
    (s.set x o).Apart rng := by
  intro y a e
  rw [objs_set] at e
  split at e
  · have := ho a e
    simp [this]
  · obtain ⟨h1, h2, h3⟩ := h y a e
    refine ⟨h1, h2, fun z b hz eb r hr => ?_⟩
    rw [objs_set] at eb
    split at eb
    · simp [ho b eb]
    · exact h3 z b hz eb r hr

theorem apart_fresh (hi : Function.Injective rng) {s : Store} (h : s.Apart rng) (x n : ℕ) (o : Obj)
    (ho : o.exps = (List.range' s.drawn n).map rng) : ((s.set x (some o)).skip n).Apart rng := by
  have hnew : ∀ r ∈ o.exps, ∃ i, s.drawn ≤ i ∧ i < s.drawn + n ∧ r = rng i := by
    intro r hr
    rw [ho, List.mem_map] at hr
    obtain ⟨i, hi', rfl⟩ := hr
    rw [List.mem_range'_1] at hi'
    exact ⟨i, hi'.1, hi'.2, rfl⟩
  intro y a e
  rw [objs_skip, objs_set] at e
  split at e
  · cases e
    rename_i hy
    refine ⟨?_, fun r hr => ?_, fun z b hz eb r hr hb => ?_⟩
    · rw [ho]
      exact (List.nodup_range').map hi
    · obtain ⟨i, _, h2, h3⟩ := hnew r hr
      exact ⟨i, h2, h3⟩
    · rw [objs_skip, objs_set, if_neg (hy ▸ hz)] at eb
      obtain ⟨i, h1, _, h3⟩ := hnew r hr
      obtain ⟨j, h4, h5⟩ := (h z b eb).2.1 r hb
      have := hi (h3.symm.trans h5)
      omega
  · obtain ⟨h1, h2, h3⟩ := h y a e
    refine ⟨h1, fun r hr => ?_, fun z b hz eb r hr hb => ?_⟩
    · obtain ⟨i, hi', e'⟩ := h2 r hr
      exact ⟨i, Nat.lt_of_lt_of_le hi' (Nat.le_add_right _ _), e'⟩
    · rw [objs_skip, objs_set] at eb
      split at eb
      · cases eb
        obtain ⟨i, h4, _, h5⟩ := hnew r hb
        obtain ⟨j, h6, h7⟩ := h2 r hr
        have := hi (h5.symm.trans h7)
        omega
      · exact h3 z b hz eb r hr hb

theorem apart_move {s : Store} (h : s.Apart rng) {x y : ℕ} {o : Obj} (hy : s.objs y = some o) :
    ((s.set y (some (.empty o.kind))).set x (some o)).Apart rng := by
  obtain ⟨h1, h2, h3⟩ := h y o hy
  intro z a e
  rw [objs_set] at e
  split at e
  · cases e
    rename_i hz
    refine ⟨h1, h2, fun w b hw eb r hr hb => ?_⟩
    rw [objs_set, if_neg (hz ▸ hw), objs_set] at eb
    split at eb
    · cases eb
      simp [exps_empty] at hb
    · rename_i hwy
      exact h3 w b hwy eb r hr hb
  · rw [objs_set] at e
    split at e
    · cases e
      simp [exps_empty]
    · rename_i hzx hzy
      obtain ⟨g1, g2, g3⟩ := h z a e
      refine ⟨g1, g2, fun w b hw eb r hr hb => ?_⟩
      rw [objs_set] at eb
      split at eb
      · cases eb
        exact g3 y o (Ne.symm hzy) hy r hr hb
      · rw [objs_set] at eb
        split at eb
        · cases eb
          simp [exps_empty] at hb
        · exact g3 w b hw eb r hr hb

theorem step_apart (hi : Function.Injective rng) {s s' : Store} (h : s.Apart rng) {op : Op} (hop : op.Moves)
    (e : step G rng s op = .ok s') : s'.Apart rng := by
  cases op with
  | new x k => cases e; exact apart_none h _ _ fun a ha => Option.some.inj ha ▸ exps_empty k
  | gen x k pub =>
    cases k <;> cases e <;> exact apart_fresh hi h _ _ _ rfl
  | drop x => cases e; exact apart_none h _ _ fun a ha => nomatch ha
  | move x y =>
    simp only [step] at e
    split at e
    · split at e
      · cases e
      · cases e
        rename_i hy _
        exact apart_move h hy
    · cases e
  | moveAssign x y =>
    simp only [step] at e
    split at e
    · split at e
      · cases e
        rename_i hy _
        exact apart_move h hy
      · cases e
    · cases e
  | make => exact hop.elim
  | copy => exact hop.elim
  | assign => exact hop.elim
  | part => exact hop.elim
  | quad => exact hop.elim

/-- C125.  In a program that copies nothing no exponent is held twice, by two objects or by one, as long as `rand_q` does
not repeat itself. -/
theorem C125_once (hi : Function.Injective rng) {ops : List Op} (hops : ∀ op ∈ ops, op.Moves) {s : Store}
    (e : run G rng .start ops = .ok s) {x : ℕ} {o : Obj} (hx : s.objs x = some o) :
    o.exps.Nodup ∧ ∀ y o', y ≠ x → s.objs y = some o' → ∀ r ∈ o.exps, r ∉ o'.exps := by
  have : ∀ (ops : List Op) (s0 : Store), s0.Apart rng → (∀ op ∈ ops, op.Moves) → run G rng s0 ops = .ok s →
      s.Apart rng := by
    intro ops
    induction ops with
    | nil => intro s0 h0 _ e; cases e; exact h0
    | cons o os ih =>
      intro s0 h0 hm e
      rw [run] at e
      obtain ⟨s1, e1, e2⟩ := (Res.bind_eq_ok _ _ _).1 e
      exact ih s1 (step_apart hi h0 (hm o List.mem_cons_self) e1) (fun op h => hm op (List.mem_cons_of_mem _ h)) e2
  obtain ⟨h1, _, h3⟩ := this ops .start (fun _ _ h => nomatch h) hops e x o hx
  exact ⟨h1, h3⟩

/-- C125, what fails.  A triple made from pointers, one of them null, is neither void nor whole; it can be moved, and its
getters are undefined. -/
theorem C125_pointers (g p : ℕ) (x y : ℕ) (hxy : x ≠ y) (s : Store) :
    ∃ s' t, run G rng s [.make y none (some g) (some p), .move x y] = .ok s' ∧ s'.objs x = some (.t t) ∧
      ¬ (Obj.t t).Void ∧ (∀ n, ¬ (Obj.t t).Whole G rng K n) ∧ getters t = .ub := by
  refine ⟨((s.set y (some (.t ⟨none, some g, some p⟩))).set y (some (.empty .t))).set x (some (.t ⟨none, some g, some p⟩)),
    ⟨none, some g, some p⟩, ?_, ?_, ?_, ?_, rfl⟩
  · simp only [run, step, Res.bind_ok, objs_set, if_true, if_neg hxy]
    rfl
  · rw [objs_set, if_pos rfl]
  · rintro ⟨_, h, _⟩
    cases h
  · rintro n ⟨i, _, h, _⟩
    cases h

/-! ## Cases -/

/-- One of each class, a triple and a quadruple taken out of the pair, the pair moved and a triple assigned. -/
def work : List Op :=
  [.gen 0 .w 3, .gen 1 .t 3, .gen 2 .q 3, .part 3 0 true, .quad 4 0, .new 5 .w, .moveAssign 5 0, .copy 6 5,
    .assign 1 3, .move 7 1, .drop 2]

example : ∀ op ∈ work, op.For 3 := by simp [work, Op.For]

example : ∃ s, run .std id .start work = .ok s ∧ s.drawn = 7 ∧ (∃ o, s.objs 0 = some o ∧ o.Void) ∧
    (∃ o, s.objs 7 = some o ∧ o.exps = [1]) ∧ (∃ o, s.objs 6 = some o ∧ o.exps = [0, 1, 2, 3]) := by
  refine ⟨_, rfl, rfl, ⟨_, rfl, rfl, rfl, rfl⟩, ⟨_, rfl, rfl⟩, ⟨_, rfl, rfl⟩⟩

/-- Moves only. -/
def moving : List Op := [.gen 0 .w 3, .gen 1 .t 3, .move 2 1, .gen 1 .t 3, .moveAssign 2 1, .drop 1]

example : ∀ op ∈ moving, op.Moves := by simp [moving, Op.Moves]

example : ∃ s, run .std id .start moving = .ok s ∧ (∃ o, s.objs 0 = some o ∧ o.exps = [0, 1, 2, 3]) ∧
    (∃ o, s.objs 2 = some o ∧ o.exps = [5]) ∧ s.objs 1 = none :=
  ⟨_, rfl, ⟨_, rfl, rfl⟩, ⟨_, rfl, rfl⟩, rfl⟩

end EG.PreObjects
