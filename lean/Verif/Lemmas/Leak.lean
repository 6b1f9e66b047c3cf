import Verif.Model.Leak

/-!
# The results of the functions with observations are those of the functions without
-/

namespace EG.Leak

open Limbs

@[simp] theorem val_pure {α : Type} (x : α) : (pure x : L α).val = x := rfl
@[simp] theorem val_bind {α β : Type} (x : L α) (f : α → L β) : (x >>= f).val = (f x.val).val := rfl
@[simp] theorem val_mem (s : String) (i : ℕ) : (mem s i).val = () := rfl
@[simp] theorem val_cond (b : Bool) : (cond b).val = b := rfl
@[simp] theorem val_ite {α : Type} (p : Prop) [Decidable p] (x y : L α) :
    (if p then x else y).val = if p then x.val else y.val := by split <;> rfl

@[simp] theorem val_loop {σ : Type} (f : σ → ℕ → L σ) (l : List ℕ) (s : σ) :
    (loop f l s).val = l.foldl (fun s i => (f s i).val) s := by
  induction l generalizing s with
  | nil => rfl
  | cons i l ih => exact ih _

@[simp] theorem add_val (a b : Arr) : (add a b).val = Limbs.add a b := by
  have h : ∀ (a b : Arr) (i : ℕ) (c : UInt64),
      (zipLoop "add" (fun c x y => addCarry c x y) i c a b).val = addLoop c a b := by
    intro a
    induction a with
    | nil => intros; rfl
    | cons x a ih =>
      intro b i c
      cases b with
      | nil => rfl
      | cons y b => simp [zipLoop, addLoop, ih]
  exact h a b 0 0

@[simp] theorem sub_val (a b : Arr) : (sub a b).val = Limbs.sub a b := by
  have h : ∀ (a b : Arr) (i : ℕ) (c : UInt64),
      (zipLoop "sub" (fun c x y => subBorrow c x y) i c a b).val = subLoop c a b := by
    intro a
    induction a with
    | nil => intros; rfl
    | cons x a ih =>
      intro b i c
      cases b with
      | nil => rfl
      | cons y b => simp [zipLoop, subLoop, ih]
  exact h a b 0 0

@[simp] theorem carry_val (a b : Arr) (i : ℕ) (c : UInt64) :
    (zipLoop "carry" (fun c x y => addCarry c x y) i c a b).val = addLoop c a b := by
  induction a generalizing b i c with
  | nil => rfl
  | cons x a ih =>
    cases b with
    | nil => rfl
    | cons y b => simp [zipLoop, addLoop, ih]

@[simp] theorem ltMask_val (a b : Arr) : (ltMask a b).val = Limbs.ltMask a b := by
  have h : ∀ (a b : Arr) (i : ℕ) (c : UInt64),
      (scanLoop "lt" (fun acc x y =>
        let beq := eqMask1 x y
        let blt := ~~~(gteMask1 x y)
        (beq &&& acc) ||| (~~~beq &&& ((blt &&& 0xFFFFFFFFFFFFFFFF) ||| (~~~blt &&& 0)))) i c a b).val =
        ltLoop c a b := by
    intro a
    induction a with
    | nil => intros; rfl
    | cons x a ih =>
      intro b i c
      cases b with
      | nil => rfl
      | cons y b => exact ih _ _ _
  exact h a b 0 0

@[simp] theorem eqMask_val (a b : Arr) : (eqMask a b).val = Limbs.eqMask a b := by
  have h : ∀ (a b : Arr) (i : ℕ) (c : UInt64),
      (scanLoop "eq" (fun mask x y => eqMask1 x y &&& mask) i c a b).val = eqLoop c a b := by
    intro a
    induction a with
    | nil => intros; rfl
    | cons x a ih =>
      intro b i c
      cases b with
      | nil => rfl
      | cons y b => exact ih _ _ _
  exact h a b 0 _

@[simp] theorem topIndex_val (b : Arr) : (topIndex b).val = Limbs.topIndex b := by
  have h : ∀ (b : Arr) (i : ℕ) (c : UInt64), (topLoop c i b).val = Limbs.topLoop c i b := by
    intro b
    induction b with
    | nil => intros; rfl
    | cons x b ih => intro i c; exact ih _ _
  exact h b 0 0

theorem zipLoop_map_val (what : String) (g : UInt64 → UInt64 → UInt64) (a b : Arr) (i : ℕ) :
    (zipLoop what (fun (_ : Unit) x y => (g x y, ())) i () a b).val.1 = List.zipWith g a b := by
  induction a generalizing b i with
  | nil => rfl
  | cons x a ih =>
    cases b with
    | nil => rfl
    | cons y b => simp [zipLoop, ih]

@[simp] theorem selectArr_val (m : UInt64) (a b : Arr) : (selectArr m a b).val = Limbs.selectArr m a b := by
  simp [selectArr, Limbs.selectArr, zipLoop_map_val]

@[simp] theorem mulRow_val (l : UInt64) (a b : Arr) : (mulRow l a b).val = Limbs.mulRow l 0 a b := by
  have h : ∀ (a b : Arr) (i : ℕ) (c : UInt64),
      (zipLoop "row" (fun c x o => mulWideAdd2 x l c o) i c a b).val = Limbs.mulRow l c a b := by
    intro a
    induction a with
    | nil => intros; rfl
    | cons x a ih =>
      intro b i c
      cases b with
      | nil => rfl
      | cons y b => simp [zipLoop, Limbs.mulRow, ih]
  exact h a b 0 0

@[simp] theorem mulStep_val (a b r : Arr) (i : ℕ) : (mulStep a b r i).val = Limbs.mulStep a b r i := by
  simp [mulStep, Limbs.mulStep]

@[simp] theorem mul_val (a b : Arr) : (mul a b).val = Limbs.mul a b := by
  simp [mul, Limbs.mul]

@[simp] theorem sqrStep_val (a r : Arr) (i : ℕ) : (sqrStep a r i).val = Limbs.sqrStep a r i := by
  simp [sqrStep, Limbs.sqrStep]

@[simp] theorem sqrDiag_val (i : ℕ) (a : Arr) : (sqrDiag i a).val = Limbs.sqrDiag a := by
  induction a generalizing i with
  | nil => rfl
  | cons x a ih => simp [sqrDiag, Limbs.sqrDiag, ih]

@[simp] theorem sqr_val (a : Arr) : (sqr a).val = Limbs.sqr a := by
  simp [sqr, Limbs.sqr]

@[simp] theorem absDiff_val (a b : Arr) : (absDiff a b).val = Limbs.absDiff a b := by
  simp [absDiff, Limbs.absDiff]

@[simp] theorem addLimb_val (r : Arr) (c : UInt64) : (addLimb r c).val = Limbs.addLimb r c := by
  cases r with
  | nil => rfl
  | cons x r => simp [addLimb, Limbs.addLimb]

@[simp] theorem combine_val (h : ℕ) (r t : Arr) (c : UInt64) :
    (combine h r t c).val = Limbs.combine h r t c := by
  simp [combine, Limbs.combine]

@[simp] theorem karatsubaMul_val (n : ℕ) (a b : Arr) :
    (karatsubaMul n a b).val = Limbs.karatsubaMul n a b := by
  induction n generalizing a b with
  | zero => simp [karatsubaMul, Limbs.karatsubaMul]
  | succ n ih =>
    rw [karatsubaMul, Limbs.karatsubaMul, val_bind, val_cond]
    by_cases h : a.length < 32 ∨ a.length % 2 = 1
    · rw [if_pos (by simpa using h), if_pos h, mul_val]
    · rw [if_neg (by simpa using h), if_neg h]
      dsimp only
      rw [val_bind, absDiff_val]
      rw [val_bind, absDiff_val]
      rw [val_bind, ih]
      rw [val_bind, ih]
      rw [val_bind, ih]
      rw [val_bind, add_val]
      rw [val_bind, sub_val]
      rw [val_bind, add_val]
      rw [val_bind, selectArr_val, combine_val]

@[simp] theorem karatsubaSqr_val (n : ℕ) (a : Arr) : (karatsubaSqr n a).val = Limbs.karatsubaSqr n a := by
  induction n generalizing a with
  | zero => simp [karatsubaSqr, Limbs.karatsubaSqr]
  | succ n ih =>
    rw [karatsubaSqr, Limbs.karatsubaSqr, val_bind, val_cond]
    by_cases h : a.length < 32 ∨ a.length % 2 = 1
    · rw [if_pos (by simpa using h), if_pos h, sqr_val]
    · rw [if_neg (by simpa using h), if_neg h]
      dsimp only
      rw [val_bind, absDiff_val]
      rw [val_bind, ih]
      rw [val_bind, ih]
      rw [val_bind, ih]
      rw [val_bind, add_val]
      rw [val_bind, sub_val, combine_val]

@[simp] theorem redcStep_val (n : Arr) (m : UInt64) (st : Arr × UInt64) (i : ℕ) :
    (redcStep n m st i).val = Limbs.redcStep n m st i := by
  simp [redcStep, Limbs.redcStep]

@[simp] theorem redcLoop_val (n : Arr) (m : UInt64) (c : Arr) :
    (redcLoop n m c).val = Limbs.redcLoop n m c := by
  simp [redcLoop, Limbs.redcLoop]

@[simp] theorem reduction_val (n : Arr) (m : UInt64) (c : Arr) :
    (reduction n m c).val = Limbs.reduction n m c := by
  simp [reduction, Limbs.reduction]

@[simp] theorem areduction_val (n : Arr) (m : UInt64) (c : Arr) :
    (areduction n m c).val = Limbs.areduction n m c := by
  simp [areduction, Limbs.areduction]

@[simp] theorem addMod_val (n a b : Arr) : (addMod n a b).val = Limbs.addMod n a b := by
  simp [addMod, Limbs.addMod]

@[simp] theorem precompR2_val (n : Arr) (k : ℕ) : (precompR2 n k).val = Limbs.precompR2 n k := by
  simp [precompR2, Limbs.precompR2]

@[simp] theorem ctxInit_val (n : Arr) : (ctxInit n).val = Limbs.ctxInit n := by
  simp [ctxInit, Limbs.ctxInit]

@[simp] theorem mulFull_val (a b : Arr) : (mulFull a b).val = Limbs.mulFull a b := by
  simp [mulFull, Limbs.mulFull]

@[simp] theorem sqrFull_val (a : Arr) : (sqrFull a).val = Limbs.sqrFull a := by
  simp [sqrFull, Limbs.sqrFull]

@[simp] theorem amontMul_val (c : Ctx) (a b : Arr) : (amontMul c a b).val = Limbs.amontMul c a b := by
  simp [amontMul, Limbs.amontMul]

@[simp] theorem amontSqr_val (c : Ctx) (a : Arr) : (amontSqr c a).val = Limbs.amontSqr c a := by
  simp [amontSqr, Limbs.amontSqr]

@[simp] theorem toMont_val (c : Ctx) (a : Arr) : (toMont c a).val = Limbs.toMont c a := by
  simp [toMont, Limbs.toMont]

@[simp] theorem fromMont_val (c : Ctx) (a : Arr) : (fromMont c a).val = Limbs.fromMont c a := by
  simp [fromMont, Limbs.fromMont]

@[simp] theorem modPrecomp_val (c : Ctx) (a : Arr) : (modPrecomp c a).val = Limbs.modPrecomp c a := by
  simp [modPrecomp, Limbs.modPrecomp]

@[simp] theorem getBit_val (b : Arr) (i : ℕ) : (getBit b i).val = Limbs.getBit b i := by
  simp [getBit, Limbs.getBit]

@[simp] theorem getWindow_val (b : Arr) (len pos : ℕ) :
    (getWindow b len pos).val = Limbs.getWindow b len pos := by
  simp only [getWindow, Limbs.getWindow, val_bind, val_cond, val_ite, val_pure, decide_eq_true_eq]
  split <;> rfl

@[simp] theorem expTable_val (c : Ctx) (a one : Arr) : (expTable c a one).val = Limbs.expTable c a one := by
  simp [expTable, tableStep, Limbs.expTable]

theorem expWindow_val (c : Ctx) (look : List Arr → UInt64 → L Arr) (a : Arr) (k : ℕ) (b : Arr) :
    (expWindow c look a k b).val = Limbs.expWindow c (fun t w => (look t w).val) a k b := by
  have h : (fun (s : Arr) (i : ℕ) => (expStep c (look (Limbs.expTable c (Limbs.toMont c a)
      (Limbs.fromMont c c.r2))) b (bLen k) (k - k % 4) s i).val) =
      Limbs.expStep c (fun w => (look (Limbs.expTable c (Limbs.toMont c a)
      (Limbs.fromMont c c.r2)) w).val) b (bLen k) (k - k % 4) := by
    funext s i
    simp [expStep, Limbs.expStep]
  simp only [expWindow, Limbs.expWindow, expStart, val_bind, val_cond, val_ite, val_pure, val_loop, toMont_val,
    fromMont_val, expTable_val, getWindow_val, h, decide_eq_true_eq]

@[simp] theorem lookVartime_val (t : List Arr) (w : UInt64) :
    (lookVartime t w).val = Limbs.lookVartime t w := rfl

@[simp] theorem lookConsttime_val (t : List Arr) (w : UInt64) :
    (lookConsttime t w).val = Limbs.lookConsttime t w := by
  simp [lookConsttime, Limbs.lookConsttime]

@[simp] theorem expBinary_val (c : Ctx) (a : Arr) (k : ℕ) (b : Arr) :
    (expBinary c a k b).val = Limbs.expBinary c a k b := by
  simp [expBinary, binaryStep, Limbs.expBinary]

@[simp] theorem cswap_val (sw : UInt64) (x y : Arr) : (cswap sw x y).val = Limbs.cswap sw x y := by
  simp [cswap, Limbs.cswap, zipLoop_map_val]

@[simp] theorem ladderStep_val (c : Ctx) (k : ℕ) (b : Arr) (st : (Arr × Arr) × UInt64) (i : ℕ) :
    (ladderStep c k b st i).val = Limbs.ladderStep c k b st i := by
  rw [ladderStep, val_bind, getBit_val, val_bind, cswap_val, val_bind, amontMul_val, val_bind, amontSqr_val]
  rfl

@[simp] theorem expLadder_val (c : Ctx) (a : Arr) (k : ℕ) (b : Arr) :
    (expLadder c a k b).val = Limbs.expLadder c a k b := by
  simp [expLadder, Limbs.expLadder]

@[simp] theorem modExpVartime_val (c : Ctx) (a : Arr) (k : ℕ) (b : Arr) :
    (modExpVartime c a k b).val = Limbs.modExpVartime c a k b := by
  simp only [modExpVartime, Limbs.modExpVartime, val_bind, val_cond, val_ite, expBinary_val, expWindow_val,
    decide_eq_true_eq, lookVartime_val]

@[simp] theorem modExpConsttime_val (c : Ctx) (a : Arr) (k : ℕ) (b : Arr) :
    (modExpConsttime c a k b).val = Limbs.modExpConsttime c a k b := by
  simp only [modExpConsttime, Limbs.modExpConsttime, val_bind, val_cond, val_ite, expLadder_val, expWindow_val,
    decide_eq_true_eq, lookConsttime_val]

@[simp] theorem modCheck_val (n : Arr) : (modCheck n).val = Limbs.modCheck n := by
  simp [modCheck, Limbs.modCheck]

@[simp] theorem expCheck_val (n a : Arr) (k : ℕ) (b : Arr) :
    (expCheck n a k b).val = Limbs.expCheck n a k b := by
  simp [expCheck, Limbs.expCheck]

@[simp] theorem checked_val (m : UInt64) (k : ℕ) (r : L Arr) :
    (checked m k r).val = Limbs.checked m k r.val := by
  simp [checked, Limbs.checked]

@[simp] theorem mod_val (n a : Arr) : (mod n a).val = Limbs.mod n a := by
  simp [mod, Limbs.mod]

@[simp] theorem modExpConsttimeChecked_val (n a : Arr) (k : ℕ) (b : Arr) :
    (modExpConsttimeChecked n a k b).val = Limbs.modExpConsttimeChecked n a k b := by
  simp [modExpConsttimeChecked, Limbs.modExpConsttimeChecked]

@[simp] theorem modInvPrime_val (n a : Arr) : (modInvPrime n a).val = Limbs.modInvPrime n a := by
  simp [modInvPrime, Limbs.modInvPrime]

@[simp] theorem elemEq_val (i : ℕ) (a b : Arr) : (elemEq i a b).val = Limbs.elemEq a b := by
  induction a generalizing i b with
  | nil => rfl
  | cons x a ih =>
    cases b with
    | nil => rfl
    | cons y b => simp [elemEq, Limbs.elemEq, ih]

@[simp] theorem powModPP_val (P : PArrs) (a e : Arr) : (powModPP P a e).val = Limbs.powModPP P a e := by
  simp [powModPP, Limbs.powModPP]

@[simp] theorem fieldMul_val (c : Ctx) (a b : Arr) : (fieldMul c a b).val = Limbs.fieldMul c a b := by
  simp [fieldMul, Limbs.fieldMul]

@[simp] theorem lutLoop_val (c : Ctx) (i : ℕ) (t : List (List Arr)) (bs : List UInt8) (acc : Arr) :
    (lutLoop c i t bs acc).val = Limbs.lutLoop c t bs acc := by
  induction t generalizing i bs acc with
  | nil => rfl
  | cons row t ih =>
    cases bs with
    | nil => rfl
    | cons x bs =>
      simp only [lutLoop, Limbs.lutLoop, val_bind, val_cond, val_ite, ih, decide_eq_true_eq]
      split
      · rfl
      · cases row[x.toNat]? <;> simp [ih]

@[simp] theorem lutPow_val (c : Ctx) (t : List (List Arr) × Arr) (e : Arr) :
    (lutPow c t e).val = Limbs.lutPow c t e := by
  simp only [lutPow, Limbs.lutPow, val_bind, lutLoop_val]
  cases Limbs.lutLoop c t.1 (toBytesBE e).reverse t.2 <;> simp

@[simp] theorem powModP_val (P : PArrs) (fixed : Bool) (a e : Arr) :
    (powModP P fixed a e).val = Limbs.powModP P fixed a e := by
  cases fixed <;> simp [powModP, Limbs.powModP]

end EG.Leak
