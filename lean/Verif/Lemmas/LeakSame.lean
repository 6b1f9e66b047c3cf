import Verif.Lemmas.Leak

/-!
# What is observed depends on the lengths of the arrays only
-/

namespace EG.Leak

open Limbs

/-- The same is observed, and the results are related. -/
def Same {α : Type} (R : α → α → Prop) (x y : L α) : Prop := x.trace = y.trace ∧ R x.val y.val

theorem Same.pure {α : Type} {R : α → α → Prop} {x y : α} (h : R x y) :
    Same R (pure x : L α) (pure y : L α) := ⟨rfl, h⟩

theorem Same.bind {α β : Type} {R : α → α → Prop} {Q : β → β → Prop} {x y : L α} {f g : α → L β}
    (h : Same R x y) (hf : ∀ a b, R a b → Same Q (f a) (g b)) : Same Q (x >>= f) (y >>= g) := by
  obtain ⟨h1, h2⟩ := h
  obtain ⟨h3, h4⟩ := hf _ _ h2
  exact ⟨by change x.trace ++ _ = y.trace ++ _; rw [h1, h3], h4⟩

theorem Same.refl {α : Type} (x : L α) : Same Eq x x := ⟨rfl, rfl⟩

theorem Same.mono {α : Type} {R Q : α → α → Prop} {x y : L α} (h : Same R x y) (hi : ∀ a b, R a b → Q a b) :
    Same Q x y := ⟨h.1, hi _ _ h.2⟩

/-- Nothing is known about the results. -/
def Any {α : Type} (_ _ : α) : Prop := True

/-- Arrays of the same length. -/
def Len (a b : Arr) : Prop := a.length = b.length

def Len1 {σ : Type} (a b : Arr × σ) : Prop := a.1.length = b.1.length

theorem Same.loop {σ : Type} {R : σ → σ → Prop} {f g : σ → ℕ → L σ} {l : List ℕ}
    (hf : ∀ i ∈ l, ∀ s t, R s t → Same R (f s i) (g t i)) {s t : σ} (h : R s t) :
    Same R (loop f l s) (Leak.loop g l t) := by
  induction l generalizing s t with
  | nil => exact ⟨rfl, h⟩
  | cons i l ih =>
    exact (hf i (by simp) s t h).bind (fun a b hab => ih (fun j hj => hf j (by simp [hj])) hab)

theorem zipLoop_same {σ : Type} (w : String) (f g : σ → UInt64 → UInt64 → UInt64 × σ) (i : ℕ) (s t : σ)
    {a b a' b' : Arr} (ha : Len a a') (hb : Len b b') :
    Same Len1 (zipLoop w f i s a b) (zipLoop w g i t a' b') := by
  induction a generalizing i s t b a' b' with
  | nil =>
    cases a' with
    | nil => exact ⟨rfl, rfl⟩
    | cons x a' => cases ha
  | cons x a ih =>
    cases a' with
    | nil => cases ha
    | cons x' a' =>
      cases b with
      | nil =>
        cases b' with
        | nil => exact ⟨rfl, rfl⟩
        | cons y b' => cases hb
      | cons y b =>
        cases b' with
        | nil => cases hb
        | cons y' b' =>
          refine (Same.refl (mem w i)).bind (fun _ _ _ => ?_)
          refine (ih (i + 1) (f s x y).2 (g t x' y').2 (Nat.succ.inj ha) (Nat.succ.inj hb)).bind ?_
          intro r r' hr
          exact .pure (congrArg Nat.succ hr)

theorem scanLoop_same (w : String) (f g : UInt64 → UInt64 → UInt64 → UInt64) (i : ℕ) (s t : UInt64)
    {a b a' b' : Arr} (ha : Len a a') (hb : Len b b') :
    Same Any (scanLoop w f i s a b) (scanLoop w g i t a' b') := by
  induction a generalizing i s t b a' b' with
  | nil =>
    cases a' with
    | nil => exact ⟨rfl, trivial⟩
    | cons x a' => cases ha
  | cons x a ih =>
    cases a' with
    | nil => cases ha
    | cons x' a' =>
      cases b with
      | nil =>
        cases b' with
        | nil => exact ⟨rfl, trivial⟩
        | cons y b' => cases hb
      | cons y b =>
        cases b' with
        | nil => cases hb
        | cons y' b' =>
          exact (Same.refl (mem w i)).bind (fun _ _ _ => ih _ _ _ (Nat.succ.inj ha) (Nat.succ.inj hb))

section

variable {a b a' b' : Arr}

theorem add_same (ha : Len a a') (hb : Len b b') : Same Len1 (add a b) (add a' b') :=
  zipLoop_same _ _ _ _ _ _ ha hb

theorem sub_same (ha : Len a a') (hb : Len b b') : Same Len1 (sub a b) (sub a' b') :=
  zipLoop_same _ _ _ _ _ _ ha hb

theorem ltMask_same (ha : Len a a') (hb : Len b b') : Same Any (ltMask a b) (ltMask a' b') :=
  scanLoop_same _ _ _ _ _ _ ha hb

theorem eqMask_same (ha : Len a a') (hb : Len b b') : Same Any (eqMask a b) (eqMask a' b') :=
  scanLoop_same _ _ _ _ _ _ ha hb

theorem selectArr_same (m m' : UInt64) (ha : Len a a') (hb : Len b b') :
    Same Len (selectArr m a b) (selectArr m' a' b') :=
  (zipLoop_same _ _ _ _ _ _ ha hb).bind (fun _ _ h => .pure h)

theorem mulRow_same (l l' : UInt64) (ha : Len a a') (hb : Len b b') :
    Same Len1 (mulRow l a b) (mulRow l' a' b') :=
  zipLoop_same _ _ _ _ _ _ ha hb

theorem len_take (i : ℕ) {j j' : ℕ} (h : Len a a') (hj : j = j') :
    Len ((a.drop i).take j) ((a'.drop i).take j') := by
  unfold Len at *
  simp [h, hj]

theorem len_splice {i i' : ℕ} (h : Len a a') (hb : Len b b') (hi : i = i') :
    Len (splice a i b) (splice a' i' b') := by
  unfold Len at *
  simp [splice, h, hb, hi]

theorem mulStep_same (ha : Len a a') (b b' : Arr) (i : ℕ) {r r' : Arr} (hr : Len r r') :
    Same Len (mulStep a b r i) (mulStep a' b' r' i) := by
  refine (Same.refl _).bind (fun _ _ _ => ?_)
  refine (mulRow_same _ _ ha (len_take i hr ha)).bind (fun s s' hs => ?_)
  rw [show a.length = a'.length from ha]
  refine (Same.refl _).bind (fun _ _ _ => ?_)
  exact .pure (len_splice (len_splice hr hs rfl) rfl rfl)

theorem mul_same (ha : Len a a') (hb : Len b b') : Same Len (mul a b) (mul a' b') := by
  unfold mul
  rw [show b.length = b'.length from hb, show a.length = a'.length from ha]
  exact Same.loop (fun i _ _ _ h => mulStep_same ha _ _ i h) rfl

theorem sqrStep_same (ha : Len a a') (i : ℕ) {r r' : Arr} (hr : Len r r') :
    Same Len (sqrStep a r i) (sqrStep a' r' i) := by
  refine (Same.refl _).bind (fun _ _ _ => ?_)
  refine (mulRow_same _ _ (by unfold Len at *; simp [ha]) (len_take i hr rfl)).bind (fun s s' hs => ?_)
  refine (Same.refl _).bind (fun _ _ _ => ?_)
  exact .pure (len_splice (len_splice hr hs rfl) rfl rfl)

theorem sqrDiag_same (i : ℕ) (ha : Len a a') : Same Len (sqrDiag i a) (sqrDiag i a') := by
  induction a generalizing i a' with
  | nil =>
    cases a' with
    | nil => exact ⟨rfl, rfl⟩
    | cons x a' => cases ha
  | cons x a ih =>
    cases a' with
    | nil => cases ha
    | cons x' a' =>
      refine (Same.refl _).bind (fun _ _ _ => ?_)
      refine (ih (i + 1) (Nat.succ.inj ha)).bind (fun s s' hs => ?_)
      exact .pure (by unfold Len at *; simp [hs])

theorem sqr_same (ha : Len a a') : Same Len (sqr a) (sqr a') := by
  unfold sqr
  rw [show a.length = a'.length from ha]
  refine (Same.loop (fun i _ _ _ h => sqrStep_same ha i h) rfl).bind (fun s s' hs => ?_)
  refine (add_same hs hs).bind (fun t t' ht => ?_)
  refine (sqrDiag_same 0 ha).bind (fun d d' hd => ?_)
  exact (add_same ht hd).bind (fun r r' hr => .pure hr)

theorem absDiff_same (ha : Len a a') (hb : Len b b') : Same Len1 (absDiff a b) (absDiff a' b') := by
  refine (sub_same ha hb).bind (fun d d' hd => ?_)
  refine (sub_same hb ha).bind (fun e e' he => ?_)
  exact (selectArr_same _ _ he hd).bind (fun r r' hr => .pure hr)

theorem addLimb_same (ha : Len a a') (c c' : UInt64) : Same Len (addLimb a c) (addLimb a' c') := by
  cases a with
  | nil =>
    cases a' with
    | nil => exact ⟨rfl, rfl⟩
    | cons x a' => cases ha
  | cons x a =>
    cases a' with
    | nil => cases ha
    | cons x' a' =>
      have h : Len a a' := Nat.succ.inj ha
      refine (Same.refl _).bind (fun _ _ _ => ?_)
      refine (zipLoop_same _ _ _ _ _ _ h (by unfold Len at *; simp [h])).bind (fun t t' ht => ?_)
      exact .pure (congrArg Nat.succ ht)

theorem combine_same {h : ℕ} (ha : Len a a') (hb : Len b b') (c c' : UInt64) :
    Same Len (combine h a b c) (combine h a' b' c') := by
  refine (add_same (len_take h ha hb) hb).bind (fun s s' hs => ?_)
  have h1 : Len (splice a h s.1) (splice a' h s'.1) := len_splice ha hs rfl
  dsimp only
  rw [show b.length = b'.length from hb]
  refine (addLimb_same (by unfold Len at *; simp [h1]) _ _).bind (fun r r' hr => ?_)
  exact .pure (len_splice h1 hr rfl)

theorem karatsubaMul_same (n : ℕ) (ha : Len a a') (hb : Len b b') :
    Same Len (karatsubaMul n a b) (karatsubaMul n a' b') := by
  induction n generalizing a b a' b' with
  | zero => exact mul_same ha hb
  | succ n ih =>
    rw [karatsubaMul, karatsubaMul, show a.length = a'.length from ha]
    refine (Same.refl _).bind ?_
    rintro c _ rfl
    cases c with
    | true => exact mul_same ha hb
    | false =>
      have ht : ∀ k {x x' : Arr}, Len x x' → Len (x.take k) (x'.take k) := by
        intro k x x' h; unfold Len at *; simp [h]
      have hd : ∀ k {x x' : Arr}, Len x x' → Len (x.drop k) (x'.drop k) := by
        intro k x x' h; unfold Len at *; simp [h]
      refine (absDiff_same (ht _ ha) (hd _ ha)).bind (fun t0 t0' h0 => ?_)
      refine (absDiff_same (ht _ hb) (hd _ hb)).bind (fun t1 t1' h1 => ?_)
      refine (ih h0 h1).bind (fun t23 t23' h23 => ?_)
      refine (ih (ht _ ha) (ht _ hb)).bind (fun r01 r01' hr01 => ?_)
      refine (ih (hd _ ha) (hd _ hb)).bind (fun r23 r23' hr23 => ?_)
      refine (add_same hr01 hr23).bind (fun t01 t01' h01 => ?_)
      refine (sub_same h01 h23).bind (fun t67 t67' h67 => ?_)
      refine (add_same h01 h23).bind (fun t45 t45' h45 => ?_)
      refine (selectArr_same _ _ h45 h67).bind (fun m m' hm => ?_)
      exact combine_same (by unfold Len at *; simp [hr01, hr23]) hm _ _

theorem karatsubaSqr_same (n : ℕ) (ha : Len a a') : Same Len (karatsubaSqr n a) (karatsubaSqr n a') := by
  induction n generalizing a a' with
  | zero => exact sqr_same ha
  | succ n ih =>
    rw [karatsubaSqr, karatsubaSqr, show a.length = a'.length from ha]
    refine (Same.refl _).bind ?_
    rintro c _ rfl
    cases c with
    | true => exact sqr_same ha
    | false =>
      have ht : ∀ k {x x' : Arr}, Len x x' → Len (x.take k) (x'.take k) := by
        intro k x x' h; unfold Len at *; simp [h]
      have hd : ∀ k {x x' : Arr}, Len x x' → Len (x.drop k) (x'.drop k) := by
        intro k x x' h; unfold Len at *; simp [h]
      refine (absDiff_same (ht _ ha) (hd _ ha)).bind (fun t0 t0' h0 => ?_)
      refine (ih h0).bind (fun t23 t23' h23 => ?_)
      refine (ih (ht _ ha)).bind (fun r01 r01' hr01 => ?_)
      refine (ih (hd _ ha)).bind (fun r23 r23' hr23 => ?_)
      refine (add_same hr01 hr23).bind (fun t01 t01' h01 => ?_)
      refine (sub_same h01 h23).bind (fun t45 t45' h45 => ?_)
      exact combine_same (by unfold Len at *; simp [hr01, hr23]) h45 _ _

theorem redcStep_same (n : Arr) (m : UInt64) (i : ℕ) {st st' : Arr × UInt64} (h : Len1 st st') :
    Same Len1 (redcStep n m st i) (redcStep n m st' i) := by
  refine (Same.refl _).bind (fun _ _ _ => ?_)
  refine (mulRow_same _ _ rfl (len_take i h rfl)).bind (fun s s' hs => ?_)
  refine (Same.refl _).bind (fun _ _ _ => ?_)
  exact .pure (len_splice (len_splice h hs rfl) rfl rfl)

theorem redcLoop_same (n : Arr) (m : UInt64) (h : Len a a') : Same Len1 (redcLoop n m a) (redcLoop n m a') := by
  refine (Same.loop (R := Len1) (s := (a, 0)) (t := (a', 0)) (fun i _ _ _ h => redcStep_same n m i h) h).bind (fun s s' hs => ?_)
  exact .pure (by unfold Len1 at *; simp [hs])

theorem reduction_same (n : Arr) (m : UInt64) (h : Len a a') : Same Len (reduction n m a) (reduction n m a') := by
  refine (redcLoop_same n m h).bind (fun s s' hs => ?_)
  exact (sub_same hs rfl).bind (fun t t' ht => selectArr_same _ _ hs ht)

theorem areduction_same (n : Arr) (m : UInt64) (h : Len a a') :
    Same Len (areduction n m a) (areduction n m a') := by
  refine (redcLoop_same n m h).bind (fun s s' hs => ?_)
  exact (sub_same hs rfl).bind (fun t t' ht => selectArr_same _ _ ht hs)

theorem mulFull_same (ha : Len a a') (hb : Len b b') : Same Len (mulFull a b) (mulFull a' b') := by
  unfold mulFull
  rw [show a.length = a'.length from ha]
  exact karatsubaMul_same _ ha hb

theorem sqrFull_same (ha : Len a a') : Same Len (sqrFull a) (sqrFull a') := by
  unfold sqrFull
  rw [show a.length = a'.length from ha]
  exact karatsubaSqr_same _ ha

variable (c : Ctx)

theorem amontMul_same (ha : Len a a') (hb : Len b b') : Same Len (amontMul c a b) (amontMul c a' b') :=
  (mulFull_same ha hb).bind (fun _ _ h => areduction_same _ _ h)

theorem amontSqr_same (ha : Len a a') : Same Len (amontSqr c a) (amontSqr c a') :=
  (sqrFull_same ha).bind (fun _ _ h => areduction_same _ _ h)

theorem toMont_same (ha : Len a a') : Same Len (toMont c a) (toMont c a') :=
  (mulFull_same ha rfl).bind (fun _ _ h => reduction_same _ _ h)

theorem fromMont_same (ha : Len a a') : Same Len (fromMont c a) (fromMont c a') :=
  reduction_same _ _ (by unfold Len at *; simp [ha])

theorem modPrecomp_same (ha : Len a a') : Same Len (modPrecomp c a) (modPrecomp c a') :=
  (areduction_same _ _ ha).bind (fun _ _ h => toMont_same c h)

theorem fieldMul_same (ha : Len a a') (hb : Len b b') : Same Len (fieldMul c a b) (fieldMul c a' b') :=
  (mulFull_same ha hb).bind (fun _ _ h => reduction_same _ _ h)

theorem getBit_same (b b' : Arr) (i : ℕ) : Same Any (getBit b i) (getBit b' i) := ⟨rfl, trivial⟩

theorem getWindow_same (b b' : Arr) (len pos : ℕ) : Same Any (getWindow b len pos) (getWindow b' len pos) := by
  refine (Same.refl _).bind (fun _ _ _ => (Same.refl _).bind ?_)
  rintro x _ rfl
  cases x with
  | true => exact (Same.refl _).bind (fun _ _ _ => .pure trivial)
  | false => exact .pure trivial

/-- Tables with the same number of entries of the same lengths. -/
def LenT (t t' : List Arr) : Prop := t.map List.length = t'.map List.length

theorem LenT.getD {t t' : List Arr} (h : LenT t t') (i : ℕ) : Len (t.getD i []) (t'.getD i []) := by
  have := congrArg (fun l => l.getD i 0) h
  simp only [List.getD_eq_getElem?_getD, List.getElem?_map] at this ⊢
  unfold Len
  cases h1 : t[i]? <;> cases h2 : t'[i]? <;> simp [h1, h2] at this ⊢ <;> exact this

theorem LenT.set {t t' : List Arr} (h : LenT t t') (i : ℕ) (hx : Len a a') : LenT (t.set i a) (t'.set i a') := by
  unfold LenT at *
  rw [List.map_set, List.map_set, h, show a.length = a'.length from hx]

theorem expTable_same (ha : Len a a') (hb : Len b b') : Same LenT (expTable c a b) (expTable c a' b') := by
  refine (Same.refl _).bind (fun _ _ _ => (Same.refl _).bind (fun _ _ _ => ?_))
  refine Same.loop (fun i _ t t' ht => ?_) (by unfold LenT Len at *; simp [ha, hb])
  refine (Same.refl _).bind (fun _ _ _ => ?_)
  refine (amontMul_same c ha (ht.getD i)).bind (fun x x' hx => ?_)
  exact (Same.refl _).bind (fun _ _ _ => .pure (ht.set _ hx))

theorem lookConsttime_same {t t' : List Arr} (ht : LenT t t') (w w' : UInt64) :
    Same Len (lookConsttime t w) (lookConsttime t' w') := by
  refine (Same.refl _).bind (fun _ _ _ => ?_)
  refine Same.loop (fun i _ r r' hr => ?_) (ht.getD 0)
  exact (Same.refl _).bind (fun _ _ _ => selectArr_same _ _ (ht.getD _) hr)

theorem squarings_same (ha : Len a a') :
    Same Len (loop (fun r _ => amontSqr c r) (List.range 4) a) (loop (fun r _ => amontSqr c r) (List.range 4) a') :=
  Same.loop (fun _ _ _ _ h => amontSqr_same c h) ha

theorem expWindow_consttime_same (ha : Len a a') (k : ℕ) (b b' : Arr) :
    Same Len (expWindow c lookConsttime a k b) (expWindow c lookConsttime a' k b') := by
  refine (toMont_same c ha).bind (fun m m' hm => ?_)
  refine (Same.refl _).bind (fun _ _ _ => ?_)
  refine (fromMont_same c (a := c.r2) rfl).bind (fun o o' ho => ?_)
  refine (expTable_same c hm ho).bind (fun t t' ht => ?_)
  refine Same.bind (R := Len) ?_ (fun r r' hr => ?_)
  · refine (Same.refl _).bind ?_
    rintro x _ rfl
    cases x with
    | true => exact (getWindow_same _ _ _ _).bind (fun _ _ _ => lookConsttime_same ht _ _)
    | false => exact .pure ho
  · refine Same.bind (R := Len) (Same.loop (fun i _ s s' hs => ?_) hr) (fun _ _ h => fromMont_same c h)
    refine (squarings_same c hs).bind (fun q q' hq => ?_)
    refine (getWindow_same _ _ _ _).bind (fun _ _ _ => ?_)
    exact (lookConsttime_same ht _ _).bind (fun _ _ h => amontMul_same c hq h)

theorem cswap_same (s s' : UInt64) (ha : Len a a') (hb : Len b b') :
    Same (fun x y => Len x.1 y.1 ∧ Len x.2 y.2) (cswap s a b) (cswap s' a' b') := by
  refine (zipLoop_same _ _ _ _ _ _ ha hb).bind (fun t t' ht => .pure ⟨ht, ?_⟩)
  unfold Len at *
  simp [ha, hb]

theorem expLadder_same (ha : Len a a') (k : ℕ) (b b' : Arr) :
    Same Len (expLadder c a k b) (expLadder c a' k b') := by
  refine (toMont_same c ha).bind (fun m m' hm => ?_)
  refine (fromMont_same c (a := c.r2) rfl).bind (fun o o' ho => ?_)
  refine Same.bind (R := fun x y => Len x.1.1 y.1.1 ∧ Len x.1.2 y.1.2) (Same.loop (fun i _ s s' hs => ?_) ?_)
    (fun s s' hs => ?_)
  · refine (getBit_same _ _ _).bind (fun _ _ _ => ?_)
    refine (cswap_same _ _ hs.1 hs.2).bind (fun x x' hx => ?_)
    refine (amontMul_same c hx.2 hx.1).bind (fun y y' hy => ?_)
    exact (amontSqr_same c hx.1).bind (fun z z' hz => .pure ⟨hz, hy⟩)
  · exact ⟨ho, hm⟩
  · exact (cswap_same _ _ hs.1 hs.2).bind (fun x x' hx => fromMont_same c hx.1)

theorem modExpConsttime_same (ha : Len a a') (k : ℕ) (b b' : Arr) :
    Same Len (modExpConsttime c a k b) (modExpConsttime c a' k b') := by
  refine (Same.refl _).bind ?_
  rintro x _ rfl
  cases x with
  | true => exact expLadder_same c ha k b b'
  | false => exact expWindow_consttime_same c ha k b b'

/-- With the same exponent, the variable-time functions too. -/
theorem expWindow_vartime_same (ha : Len a a') (k : ℕ) (b : Arr) :
    Same Len (expWindow c lookVartime a k b) (expWindow c lookVartime a' k b) := by
  have look : ∀ {t t' : List Arr}, LenT t t' → ∀ w, Same Len (lookVartime t w) (lookVartime t' w) :=
    fun ht w => (Same.refl _).bind (fun _ _ _ => .pure (ht.getD _))
  refine (toMont_same c ha).bind (fun m m' hm => ?_)
  refine (Same.refl _).bind (fun _ _ _ => ?_)
  refine (fromMont_same c (a := c.r2) rfl).bind (fun o o' ho => ?_)
  refine (expTable_same c hm ho).bind (fun t t' ht => ?_)
  refine Same.bind (R := Len) ?_ (fun r r' hr => ?_)
  · refine (Same.refl _).bind ?_
    rintro x _ rfl
    cases x with
    | true =>
      refine (Same.refl _).bind ?_
      rintro w _ rfl
      exact look ht w
    | false => exact .pure ho
  · refine Same.bind (R := Len) (Same.loop (fun i _ s s' hs => ?_) hr) (fun _ _ h => fromMont_same c h)
    refine (squarings_same c hs).bind (fun q q' hq => ?_)
    refine (Same.refl _).bind ?_
    rintro w _ rfl
    exact (look ht _).bind (fun _ _ h => amontMul_same c hq h)

theorem expBinary_same (ha : Len a a') (k : ℕ) (b : Arr) : Same Len (expBinary c a k b) (expBinary c a' k b) := by
  refine (toMont_same c ha).bind (fun m m' hm => ?_)
  refine (fromMont_same c (a := c.r2) rfl).bind (fun o o' ho => ?_)
  refine Same.bind (R := fun x y => Len x.1 y.1 ∧ Len x.2 y.2) (Same.loop (fun i _ s s' hs => ?_) ⟨ho, hm⟩)
    (fun s s' hs => fromMont_same c hs.1)
  refine (Same.refl _).bind ?_
  rintro w _ rfl
  refine Same.bind (R := Len) ?_ (fun r r' hr => ?_)
  · refine (Same.refl _).bind ?_
    rintro x _ rfl
    cases x with
    | true => exact .pure hs.1
    | false => exact amontMul_same c hs.1 hs.2
  · exact (amontSqr_same c hs.2).bind (fun z z' hz => .pure ⟨hr, hz⟩)

theorem modExpVartime_same (ha : Len a a') (k : ℕ) (b : Arr) :
    Same Len (modExpVartime c a k b) (modExpVartime c a' k b) := by
  refine (Same.refl _).bind ?_
  rintro x _ rfl
  cases x with
  | true => exact expBinary_same c ha k b
  | false => exact expWindow_vartime_same c ha k b

end

end EG.Leak
