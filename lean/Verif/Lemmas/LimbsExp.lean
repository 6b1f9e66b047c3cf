import Verif.Lemmas.LimbsMont
import Verif.Model.LimbsExp

/-!
# Limb loops: contexts and exponentiation compute what `Model/Hacl.lean` says
-/

namespace EG.Limbs

open Hacl (R iter)

/-! ## The inverse of a limb -/

theorem and_one_toNat (x : UInt64) : (x &&& 1).toNat = x.toNat % 2 := by
  rw [UInt64.toNat_and]; exact Nat.and_one_is_mod _

theorem and_one_cases (x : UInt64) :
    (x.toNat % 2 = 0 ∧ x &&& 1 = 0) ∨ (x.toNat % 2 = 1 ∧ x &&& 1 = 1) := by
  have h := and_one_toNat x
  rcases bit_cases (x &&& 1) (by omega) with h' | h' <;> rw [h'] at h ⊢
  · left; exact ⟨h.symm, rfl⟩
  · right; exact ⟨h.symm, rfl⟩

theorem and_ones (x : UInt64) : x &&& 0xFFFFFFFFFFFFFFFF = x := by
  apply UInt64.toBitVec_inj.1
  have h1 : (0xFFFFFFFFFFFFFFFF : UInt64).toBitVec = BitVec.allOnes 64 := by decide
  rw [UInt64.toBitVec_and, h1, BitVec.and_allOnes]

theorem and_zero' (x : UInt64) : x &&& 0 = 0 := UInt64.and_zero

theorem shr1 (x : UInt64) : (x >>> 1).toNat = x.toNat >>> 1 := by
  rw [UInt64.toNat_shiftRight]; rfl

theorem modInvLimbStep_val (n0 : UInt64) (uv : UInt64 × UInt64) :
    ((modInvLimbStep n0 uv).1.toNat, (modInvLimbStep n0 uv).2.toNat) =
      Hacl.modInvLimbStep n0.toNat (uv.1.toNat, uv.2.toNat) := by
  unfold modInvLimbStep Hacl.modInvLimbStep
  dsimp only
  rcases and_one_cases uv.1 with ⟨h, h'⟩ | ⟨h, h'⟩ <;> rw [h']
  · rw [mask_zero, and_zero', and_zero', if_neg (by omega), if_neg (by omega), UInt64.toNat_add,
      UInt64.toNat_add, shr1, shr1, UInt64.toNat_xor, UInt64.toNat_and,
      show (0 : UInt64).toNat = 0 from rfl, Nat.and_zero, Nat.and_zero]
  · rw [mask_one, and_ones, and_ones, if_pos h, if_pos h, UInt64.toNat_add,
      UInt64.toNat_add, shr1, shr1, UInt64.toNat_xor, UInt64.toNat_and]
    rfl

theorem modInvLimb_val (n0 : UInt64) : (modInvLimb n0).toNat = Hacl.modInvLimb n0.toNat := by
  unfold modInvLimb Hacl.modInvLimb
  rw [foldl_const_iter]
  have : ∀ j uv, ((iter (modInvLimbStep n0) j uv).1.toNat, (iter (modInvLimbStep n0) j uv).2.toNat) =
      iter (Hacl.modInvLimbStep n0.toNat) j (uv.1.toNat, uv.2.toNat) := by
    intro j
    induction j with
    | zero => intro uv; rfl
    | succ j ih => intro uv; rw [iter, ih, iter, modInvLimbStep_val]
  have h := this 64 (1, 0)
  exact congrArg Prod.snd h

/-! ## The index of the highest limb -/

theorem topLoop_snoc (priv : UInt64) (i : ℕ) (b : Arr) (x : UInt64) :
    topLoop priv i (b ++ [x]) = if x = 0 then topLoop priv i b else UInt64.ofNat (i + b.length) := by
  induction b generalizing priv i with
  | nil =>
    rw [List.nil_append, topLoop, eqMask1_eq]
    by_cases h : x = 0
    · simp only [if_pos h, topLoop]
      exact select_ones priv (UInt64.ofNat i)
    · simp only [if_neg h, topLoop, List.length_nil, Nat.add_zero]
      exact select_zero priv (UInt64.ofNat i)
  | cons y b ih =>
    rw [List.cons_append, topLoop, ih, topLoop, List.length_cons,
      show i + 1 + b.length = i + (b.length + 1) by omega]

theorem topIndex_take (c : Arr) (hc : c.length < 2 ^ 64) (j : ℕ) (hj : j ≤ c.length) :
    (topIndex (c.take j)).toNat = Hacl.topIndex (val c) j := by
  induction j with
  | zero => rfl
  | succ j ih =>
    have h1 := ih (by omega)
    unfold topIndex at h1 ⊢
    rw [take_succ_getD c j (by omega), topLoop_snoc, Hacl.topIndex, ← getD_val c j (by omega), ← h1,
      List.length_take, Nat.min_eq_left (by omega), Nat.zero_add]
    have heq : c.getD j 0 = 0 ↔ (c.getD j 0).toNat = 0 := UInt64.toNat_inj.symm
    by_cases hz : (c.getD j 0).toNat = 0
    · rw [if_pos (heq.2 hz), if_pos hz]
    · rw [if_neg (fun h => hz (heq.1 h)), if_neg hz, UInt64.toNat_ofNat', Nat.mod_eq_of_lt (by omega)]

theorem topIndex_val (c : Arr) (hc : c.length < 2 ^ 64) :
    (topIndex c).toNat = Hacl.topIndex (val c) c.length := by
  have := topIndex_take c hc c.length le_rfl
  rwa [List.take_length] at this

theorem topIndex_lt' (b k : ℕ) (hk : 0 < k) : Hacl.topIndex b k < k := by
  induction k with
  | zero => omega
  | succ k ih =>
    rw [Hacl.topIndex]
    split_ifs
    · rcases Nat.eq_zero_or_pos k with h | h
      · subst h; simp [Hacl.topIndex]
      · have := ih h; omega
    · omega

/-! ## Contexts -/

theorem GoodMod.length_pos {n : Arr} (h : Hacl.GoodMod n.length (val n)) : 0 < n.length := by
  rcases Nat.eq_zero_or_pos n.length with h0 | h0
  · have := List.length_eq_zero_iff.1 h0
    have hg := h.gt
    rw [this] at hg
    simp [val] at hg
  · exact h0

theorem double_val (n r : Arr) (hn : 0 < val n) (hr : r.length = n.length) (hlt : val r < val n) (j : ℕ) :
    (iter (fun r => addMod n r r) j r).length = n.length ∧
      val (iter (fun r => addMod n r r) j r) = val r * 2 ^ j % val n := by
  induction j generalizing r with
  | zero => exact ⟨hr, by simp [iter, Nat.mod_eq_of_lt hlt]⟩
  | succ j ih =>
    obtain ⟨a1, a2⟩ := addMod_spec n r r hr hr (by omega)
    obtain ⟨h1, h2⟩ := ih (addMod n r r) a1 (by rw [a2]; exact Nat.mod_lt _ hn)
    refine ⟨h1, ?_⟩
    rw [iter, h2, a2, Nat.mod_mul_mod]
    congr 1
    ring

theorem precompR2_val (n : Arr) (hn : Hacl.GoodMod n.length (val n)) (hl : n.length < 2 ^ 64) :
    (precompR2 n (64 * (topIndex n).toNat)).length = n.length ∧
      val (precompR2 n (64 * (topIndex n).toNat)) = R n.length * R n.length % val n := by
  have hpos := GoodMod.length_pos hn
  rw [topIndex_val n hl]
  have htop := topIndex_lt' (val n) n.length hpos
  have hle := Hacl.topIndex_le (val n) n.length (by have := hn.gt; omega)
  have hodd := hn.odd
  have hgt := hn.gt
  generalize Hacl.topIndex (val n) n.length = t at *
  have hlt : 2 ^ (64 * t) < val n := by
    rcases Nat.lt_or_ge (2 ^ (64 * t)) (val n) with h | h
    · exact h
    · exfalso
      have he : val n = 2 ^ (64 * t) := by omega
      rcases Nat.eq_zero_or_pos t with h0 | h0
      · rw [h0] at he; simp at he; omega
      · have : 2 ^ (64 * t) % 2 = 0 := by
          rw [show 64 * t = (64 * t - 1) + 1 by omega, pow_succ]
          simp
        omega
  unfold precompR2
  dsimp only
  have e1 : 64 * t / 64 = t := by omega
  have e2 : 64 * t % 64 = 0 := by omega
  rw [e1, e2]
  have hrep : List.replicate n.length (0 : UInt64) =
      List.replicate t 0 ++ [0] ++ List.replicate (n.length - (t + 1)) 0 := by
    have h1 : n.length = t + (1 + (n.length - (t + 1))) := by omega
    conv_lhs => rw [h1, List.replicate_add, List.replicate_add]
    rw [List.append_assoc]
    rfl
  have hg : (List.replicate n.length (0 : UInt64)).getD t 0 = 0 := by
    rw [List.getD_eq_getElem?_getD, List.getElem?_replicate]
    split_ifs
    rfl
  rw [hg, foldl_const_iter]
  have hs : splice (List.replicate n.length (0 : UInt64)) t [0 ||| (1 : UInt64) <<< UInt64.ofNat 0] =
      List.replicate t 0 ++ [1] ++ List.replicate (n.length - (t + 1)) 0 := by
    rw [hrep, splice_one _ _ _ _ t (by simp)]
    rfl
  rw [hs]
  have hv : val (List.replicate t (0 : UInt64) ++ [1] ++ List.replicate (n.length - (t + 1)) 0) =
      2 ^ (64 * t) := by
    rw [val_append, val_append, val_replicate, val_replicate, val_singleton, List.length_replicate]
    have : (1 : UInt64).toNat = 1 := rfl
    rw [this]; ring
  obtain ⟨d1, d2⟩ := double_val n _ (by omega) (by simp; omega : (List.replicate t (0 : UInt64) ++ [1] ++
    List.replicate (n.length - (t + 1)) 0).length = n.length) (by rw [hv]; exact hlt)
    (128 * n.length - 64 * t)
  refine ⟨d1, ?_⟩
  rw [d2, hv]
  unfold R
  rw [← pow_add, ← pow_add]
  congr 2
  omega

/-- The context whose numbers the arrays denote. -/
def Ctx.toHacl (c : Ctx) : Hacl.Ctx := ⟨c.n.length, val c.n, c.mu.toNat, val c.r2⟩

/-- What every context made by `ctxInit` satisfies. -/
structure Ctx.Good (c : Ctx) : Prop where
  good : Hacl.GoodCtx c.toHacl
  r2len : c.r2.length = c.n.length

theorem ctxInit_good (n : Arr) (hn : Hacl.GoodMod n.length (val n)) (hl : n.length < 2 ^ 64) :
    (ctxInit n).Good := by
  obtain ⟨p1, p2⟩ := precompR2_val n hn hl
  have hpos := GoodMod.length_pos hn
  refine ⟨⟨hn, ?_, p2⟩, p1⟩
  show ((modInvLimb (n.getD 0 0)).toNat * (val n % 2 ^ 64) + 1) % 2 ^ 64 = 0
  rw [modInvLimb_val, getD_val n 0 hpos, Nat.mul_zero, pow_zero, Nat.div_one]
  apply Hacl.modInvLimb_spec
  · have := hn.odd
    omega
  · exact Nat.mod_lt _ (by norm_num)

theorem mulFull_spec (a b : Arr) (h : a.length = b.length) :
    (mulFull a b).length = a.length + b.length ∧ val (mulFull a b) = val a * val b :=
  karatsubaMul_spec _ a b h

theorem sqrFull_spec (a : Arr) :
    (sqrFull a).length = a.length + a.length ∧ val (sqrFull a) = val a * val a :=
  karatsubaSqr_spec _ a

theorem amontMul_val (c : Ctx) (a b : Arr) (ha : a.length = c.n.length) (hb : b.length = c.n.length) :
    (amontMul c a b).length = c.n.length ∧
      val (amontMul c a b) = Hacl.amontMul c.toHacl (val a) (val b) := by
  obtain ⟨m1, m2⟩ := mulFull_spec a b (by omega)
  obtain ⟨r1, r2⟩ := areduction_val c.n (mulFull a b) c.mu (by omega)
  exact ⟨r1, by rw [amontMul, r2, m2]; rfl⟩

theorem amontSqr_val (c : Ctx) (a : Arr) (ha : a.length = c.n.length) :
    (amontSqr c a).length = c.n.length ∧
      val (amontSqr c a) = Hacl.amontMul c.toHacl (val a) (val a) := by
  obtain ⟨m1, m2⟩ := sqrFull_spec a
  obtain ⟨r1, r2⟩ := areduction_val c.n (sqrFull a) c.mu (by omega)
  exact ⟨r1, by rw [amontSqr, r2, m2]; rfl⟩

theorem toMont_val (c : Ctx) (h : c.Good) (a : Arr) (ha : a.length = c.n.length) :
    (toMont c a).length = c.n.length ∧
      val (toMont c a) = Hacl.reduction c.n.length (val c.n) c.mu.toNat (val a * val c.r2) := by
  obtain ⟨m1, m2⟩ := mulFull_spec a c.r2 (by rw [h.r2len, ha])
  have hr := Hacl.r2_lt h.good
  have hr2 := h.r2len
  have hal := val_lt a
  rw [ha] at hal
  have hr' : val c.r2 < val c.n := hr
  obtain ⟨r1, r2⟩ := reduction_val c.n (mulFull a c.r2) c.mu (by omega) h.good.toGoodMod h.good.mu (by
    rw [m2, Nat.mul_comm]; exact Nat.mul_le_mul hr'.le hal.le)
  exact ⟨r1, by rw [toMont, r2, m2]⟩

theorem fromMont_val (c : Ctx) (h : c.Good) (a : Arr) (ha : a.length = c.n.length) :
    (fromMont c a).length = c.n.length ∧
      val (fromMont c a) = Hacl.reduction c.n.length (val c.n) c.mu.toNat (val a) := by
  have hv : val (a ++ List.replicate c.n.length 0) = val a := by
    rw [val_append, val_replicate]; simp
  have hal := val_lt a
  rw [ha] at hal
  have hg : 1 < val c.n := h.good.gt
  obtain ⟨r1, r2⟩ := reduction_val c.n (a ++ List.replicate c.n.length 0) c.mu (by simp [ha])
    h.good.toGoodMod h.good.mu (by
      rw [hv]
      unfold R
      calc val a ≤ 1 * 2 ^ (64 * c.n.length) := by omega
        _ ≤ _ := Nat.mul_le_mul_right _ hg.le)
  exact ⟨r1, by rw [fromMont, r2, hv]⟩

/-! ## Bits of the exponent -/

theorem shr_toNat (x : UInt64) (j : ℕ) (hj : j < 64) : (x >>> UInt64.ofNat j).toNat = x.toNat / 2 ^ j := by
  rw [UInt64.toNat_shiftRight, UInt64.toNat_ofNat', Nat.shiftRight_eq_div_pow]
  congr 2
  omega

theorem shl_toNat (x : UInt64) (j : ℕ) (hj : j < 64) :
    (x <<< UInt64.ofNat j).toNat = x.toNat * 2 ^ j % 2 ^ 64 := by
  rw [UInt64.toNat_shiftLeft, UInt64.toNat_ofNat', Nat.shiftLeft_eq]
  congr 3
  omega

theorem limb_div (b : Arr) (pos : ℕ) (h : pos / 64 < b.length) :
    (b.getD (pos / 64) 0).toNat / 2 ^ (pos % 64) = val b / 2 ^ pos % 2 ^ (64 - pos % 64) := by
  rw [getD_val b _ h]
  have e : pos = 64 * (pos / 64) + pos % 64 := by omega
  have hm : pos % 64 < 64 := Nat.mod_lt _ (by norm_num)
  generalize pos / 64 = q at *
  generalize pos % 64 = r at *
  subst e
  rw [pow_add, ← Nat.div_div_eq_div_mul]
  conv_lhs => rw [show 64 = r + (64 - r) by omega, pow_add]
  have : 2 ^ (64 * q) = 2 ^ ((r + (64 - r)) * q) := by congr 2; omega
  rw [← this, Nat.mod_mul_right_div_self]

theorem getBit_val (b : Arr) (i : ℕ) (h : i / 64 < b.length) :
    (getBit b i).toNat = val b / 2 ^ i % 2 := by
  unfold getBit
  rw [and_one_toNat, shr_toNat _ _ (Nat.mod_lt _ (by norm_num)), limb_div b i h]
  have hm : i % 64 < 64 := Nat.mod_lt _ (by norm_num)
  have e : 2 ^ (64 - i % 64) = 2 * 2 ^ (63 - i % 64) := by
    rw [← pow_succ']; congr 1; omega
  rw [e, Nat.mod_mul_right_mod]

theorem getWindow_val (b : Arr) (len pos : ℕ) (h : pos / 64 < b.length) (h4 : pos % 4 = 0) :
    (getWindow b len pos).toNat = Hacl.window4 (val b) pos := by
  rw [Hacl.window4_eq]
  have hm : pos % 64 < 64 := Nat.mod_lt _ (by norm_num)
  have hp : ((b.getD (pos / 64) 0) >>> UInt64.ofNat (pos % 64)).toNat % 16 = val b / 2 ^ pos % 16 := by
    rw [shr_toNat _ _ hm, limb_div b pos h]
    have e : 2 ^ (64 - pos % 64) = 16 * 2 ^ (60 - pos % 64) := by
      rw [show 64 - pos % 64 = 4 + (60 - pos % 64) by omega, pow_add]
      norm_num
    rw [e, Nat.mod_mul_right_mod]
  unfold getWindow
  dsimp only
  have h15 : ∀ x : UInt64, (x &&& 15).toNat = x.toNat % 16 := by
    intro x
    rw [UInt64.toNat_and]
    exact Nat.and_two_pow_sub_one_eq_mod _ 4
  rw [h15]
  split_ifs with hc
  · rw [UInt64.toNat_or]
    have hor : ∀ x y : ℕ, y % 16 = 0 → (x ||| y) % 16 = x % 16 := by
      intro x y hy
      have := Nat.or_mod_two_pow (a := x) (b := y) (n := 4)
      rw [show (2 : ℕ) ^ 4 = 16 by norm_num] at this
      rw [this, hy, Nat.or_zero]
    rw [hor _ _ ?_, hp]
    rw [shl_toNat _ _ (by omega)]
    obtain ⟨m, hm'⟩ : ∃ m, 2 ^ (64 - pos % 64) = 16 * m := by
      refine ⟨2 ^ (60 - pos % 64), ?_⟩
      rw [show 64 - pos % 64 = 4 + (60 - pos % 64) by omega, pow_add]
      norm_num
    rw [hm', show (b.getD (pos / 64 + 1) 0).toNat * (16 * m) = 16 * ((b.getD (pos / 64 + 1) 0).toNat * m) by
      ring]
    generalize (b.getD (pos / 64 + 1) 0).toNat * m = z
    omega
  · exact hp

/-! ## The table -/

/-- Entry `i` of the table. -/
def tab (c : Ctx) (aM one : Arr) : ℕ → Arr
  | 0 => one
  | i + 1 => amontMul c aM (tab c aM one i)

theorem tab_val (c : Ctx) (aM one : Arr) (ha : aM.length = c.n.length) (ho : one.length = c.n.length)
    (i : ℕ) : (tab c aM one i).length = c.n.length ∧
      val (tab c aM one i) = Hacl.expTable c.toHacl (val aM) (val one) i := by
  induction i with
  | zero => exact ⟨ho, rfl⟩
  | succ i ih =>
    obtain ⟨h1, h2⟩ := amontMul_val c aM (tab c aM one i) ha ih.1
    exact ⟨h1, by rw [tab, h2, ih.2]; rfl⟩

theorem expTable_fold (c : Ctx) (aM one : Arr) (t0 : List Arr) (h0 : t0.length = 16)
    (h1 : t0.getD 0 [] = one) (j : ℕ) (hj : j ≤ 15) :
    ((List.range j).foldl (fun t i => t.set (i + 1) (amontMul c aM (t.getD i []))) t0).length = 16 ∧
      ∀ i ≤ j, ((List.range j).foldl
        (fun t i => t.set (i + 1) (amontMul c aM (t.getD i []))) t0).getD i [] = tab c aM one i := by
  induction j with
  | zero =>
    refine ⟨h0, ?_⟩
    intro i hi
    have : i = 0 := by omega
    subst this
    exact h1
  | succ j ih =>
    obtain ⟨i1, i2⟩ := ih (by omega)
    rw [List.range_succ, List.foldl_append, List.foldl_cons, List.foldl_nil]
    generalize (List.range j).foldl (fun t i => t.set (i + 1) (amontMul c aM (t.getD i []))) t0 = t at *
    refine ⟨by simp [i1], ?_⟩
    intro i hi
    rw [List.getD_eq_getElem?_getD, List.getElem?_set]
    by_cases he : j + 1 = i
    · subst he
      rw [if_pos rfl, if_pos (by omega), Option.getD_some, tab, i2 j le_rfl]
    · rw [if_neg he, ← List.getD_eq_getElem?_getD]
      exact i2 i (by omega)

theorem expTable_get (c : Ctx) (aM one : Arr) (i : ℕ) (hi : i < 16) :
    (expTable c aM one).getD i [] = tab c aM one i :=
  (expTable_fold c aM one _ (by simp) rfl 15 le_rfl).2 i (by omega)

theorem lookVartime_eq (c : Ctx) (aM one : Arr) (w : UInt64) (hw : w.toNat < 16) :
    lookVartime (expTable c aM one) w = tab c aM one w.toNat := expTable_get c aM one _ hw

theorem lookConsttime_eq (c : Ctx) (aM one : Arr) (ha : aM.length = c.n.length)
    (ho : one.length = c.n.length) (w : UInt64) (hw : w.toNat < 16) :
    lookConsttime (expTable c aM one) w = tab c aM one w.toNat := by
  unfold lookConsttime
  have key : ∀ j ≤ 15, (List.range j).foldl
      (fun r i => selectArr (eqMask1 w (UInt64.ofNat (i + 1))) ((expTable c aM one).getD (i + 1) []) r)
      ((expTable c aM one).getD 0 []) =
      if w.toNat ≤ j then tab c aM one w.toNat else tab c aM one 0 := by
    intro j hj
    induction j with
    | zero =>
      rw [List.range_zero, List.foldl_nil, expTable_get c aM one 0 (by norm_num)]
      split_ifs with h
      · rw [show w.toNat = 0 by omega]
      · rfl
    | succ j ih =>
      rw [List.range_succ, List.foldl_append, List.foldl_cons, List.foldl_nil, ih (by omega),
        expTable_get c aM one (j + 1) (by omega), eqMask1_eq]
      have hl : ∀ i, (tab c aM one i).length = c.n.length := fun i => (tab_val c aM one ha ho i).1
      have heq : w = UInt64.ofNat (j + 1) ↔ w.toNat = j + 1 := by
        rw [← UInt64.toNat_inj, UInt64.toNat_ofNat', Nat.mod_eq_of_lt (by omega)]
      by_cases hwj : w.toNat = j + 1
      · rw [if_pos (heq.2 hwj), if_neg (by omega), selectArr_ones _ _ (by rw [hl, hl]), if_pos (by omega), hwj]
      · rw [if_neg (fun h => hwj (heq.1 h))]
        by_cases hle : w.toNat ≤ j
        · rw [if_pos hle, selectArr_zero _ _ (by rw [hl, hl]), if_pos (by omega)]
        · rw [if_neg hle, selectArr_zero _ _ (by rw [hl, hl]), if_neg (by omega)]
  rw [key 15 le_rfl, if_pos (by omega)]

/-! ## The windowed exponentiation -/

theorem sq4_val (c : Ctx) (r : Arr) (hr : r.length = c.n.length) (j : ℕ) :
    ((List.range j).foldl (fun r _ => amontSqr c r) r).length = c.n.length ∧
      val ((List.range j).foldl (fun r _ => amontSqr c r) r) =
        iter (fun r => Hacl.amontMul c.toHacl r r) j (val r) := by
  induction j with
  | zero => exact ⟨hr, rfl⟩
  | succ j ih =>
    rw [List.range_succ, List.foldl_append, List.foldl_cons, List.foldl_nil, iter_succ, ← ih.2]
    exact amontSqr_val c _ ih.1

theorem expLoop_val (c : Ctx) (look : UInt64 → Arr) (aM one b : Arr) (len bk : ℕ)
    (ha : aM.length = c.n.length) (ho : one.length = c.n.length)
    (hlook : ∀ w : UInt64, w.toNat < 16 → look w = tab c aM one w.toNat)
    (hbk : bk ≤ 64 * b.length) (h4 : bk % 4 = 0) (start : Arr) (hs : start.length = c.n.length) (m : ℕ)
    (hm : 4 * m ≤ bk) :
    ((List.range m).foldl (expStep c look b len bk) start).length = c.n.length ∧
      val ((List.range m).foldl (expStep c look b len bk) start) =
        (List.range m).foldl (Hacl.expStep c.toHacl (val aM) (val one) (val b) bk) (val start) := by
  induction m with
  | zero => exact ⟨hs, rfl⟩
  | succ m ih =>
    obtain ⟨i1, i2⟩ := ih (by omega)
    rw [List.range_succ, List.foldl_append, List.foldl_append, List.foldl_cons, List.foldl_nil,
      List.foldl_cons, List.foldl_nil, ← i2]
    generalize (List.range m).foldl (expStep c look b len bk) start = acc at *
    unfold expStep Hacl.expStep
    dsimp only
    have hw := getWindow_val b len (bk - 4 * m - 4) (by omega) (by omega)
    have hlt : (getWindow b len (bk - 4 * m - 4)).toNat < 16 := by
      rw [hw, Hacl.window4_eq]; exact Nat.mod_lt _ (by norm_num)
    obtain ⟨s1, s2⟩ := sq4_val c acc i1 4
    rw [hlook _ hlt, hw, ← s2]
    obtain ⟨t1, t2⟩ := tab_val c aM one ha ho (Hacl.window4 (val b) (bk - 4 * m - 4))
    obtain ⟨r1, r2⟩ := amontMul_val c _ _ s1 t1
    exact ⟨r1, by rw [r2, t2]⟩

theorem expWindow_val (c : Ctx) (hc : c.Good) (look : List Arr → UInt64 → Arr)
    (hlook : ∀ aM one : Arr, aM.length = c.n.length → one.length = c.n.length → ∀ w : UInt64,
      w.toNat < 16 → look (expTable c aM one) w = tab c aM one w.toNat)
    (a b : Arr) (bBits : ℕ) (ha : a.length = c.n.length) (hb : bBits ≤ 64 * b.length) :
    (expWindow c look a bBits b).length = c.n.length ∧
      val (expWindow c look a bBits b) = Hacl.expWindow c.toHacl (val a) bBits (val b) := by
  obtain ⟨a1, a2⟩ := toMont_val c hc a ha
  obtain ⟨o1, o2⟩ := fromMont_val c hc c.r2 hc.r2len
  unfold expWindow Hacl.expWindow
  dsimp only
  rw [show c.toHacl.k = c.n.length from rfl, show c.toHacl.n = val c.n from rfl,
    show c.toHacl.mu = c.mu.toNat from rfl, show c.toHacl.r2 = val c.r2 from rfl, ← a2, ← o2]
  have hstart : ∃ s : Arr, (if bBits % 4 ≠ 0 then look (expTable c (toMont c a) (fromMont c c.r2))
        (getWindow b (bLen bBits) (bBits / 4 * 4)) else fromMont c c.r2) = s ∧ s.length = c.n.length ∧
      val s = if bBits % 4 ≠ 0 then Hacl.expTable c.toHacl (val (toMont c a)) (val (fromMont c c.r2))
        (Hacl.window4 (val b) (bBits / 4 * 4)) else val (fromMont c c.r2) := by
    refine ⟨_, rfl, ?_⟩
    split_ifs with h4
    · have hw := getWindow_val b (bLen bBits) (bBits / 4 * 4) (by omega) (by omega)
      have hlt : (getWindow b (bLen bBits) (bBits / 4 * 4)).toNat < 16 := by
        rw [hw, Hacl.window4_eq]; exact Nat.mod_lt _ (by norm_num)
      rw [hlook _ _ a1 o1 _ hlt, hw]
      exact tab_val c _ _ a1 o1 _
    · exact ⟨o1, rfl⟩
  obtain ⟨s, hs, s1, s2⟩ := hstart
  rw [hs, ← s2]
  obtain ⟨l1, l2⟩ := expLoop_val c (look (expTable c (toMont c a) (fromMont c c.r2))) _ _ b (bLen bBits)
    (bBits - bBits % 4) a1 o1 (hlook _ _ a1 o1) (by omega) (by omega) s s1 (bBits / 4) (by omega)
  obtain ⟨f1, f2⟩ := fromMont_val c hc _ l1
  exact ⟨f1, by rw [f2, l2]⟩

/-! ## Short exponents -/

theorem expBinary_val (c : Ctx) (hc : c.Good) (a b : Arr) (bBits : ℕ) (ha : a.length = c.n.length)
    (hb : bBits ≤ 64 * b.length) :
    (expBinary c a bBits b).length = c.n.length ∧
      val (expBinary c a bBits b) = Hacl.expBinary c.toHacl (val a) bBits (val b) := by
  obtain ⟨a1, a2⟩ := toMont_val c hc a ha
  obtain ⟨o1, o2⟩ := fromMont_val c hc c.r2 hc.r2len
  unfold expBinary Hacl.expBinary
  dsimp only
  rw [show c.toHacl.k = c.n.length from rfl, show c.toHacl.n = val c.n from rfl,
    show c.toHacl.mu = c.mu.toNat from rfl, show c.toHacl.r2 = val c.r2 from rfl, ← a2, ← o2]
  generalize toMont c a = aM at *
  generalize fromMont c c.r2 = one at *
  have key : ∀ m ≤ bBits,
      ((List.range m).foldl (fun (st : Arr × Arr) i =>
        (if getBit b i = 0 then st.1 else amontMul c st.1 st.2, amontSqr c st.2)) (one, aM)).1.length =
          c.n.length ∧
      ((List.range m).foldl (fun (st : Arr × Arr) i =>
        (if getBit b i = 0 then st.1 else amontMul c st.1 st.2, amontSqr c st.2)) (one, aM)).2.length =
          c.n.length ∧
      (val ((List.range m).foldl (fun (st : Arr × Arr) i =>
        (if getBit b i = 0 then st.1 else amontMul c st.1 st.2, amontSqr c st.2)) (one, aM)).1,
       val ((List.range m).foldl (fun (st : Arr × Arr) i =>
        (if getBit b i = 0 then st.1 else amontMul c st.1 st.2, amontSqr c st.2)) (one, aM)).2) =
        (List.range m).foldl (Hacl.expBinStep c.toHacl (val b)) (val one, val aM) := by
    intro m hm
    induction m with
    | zero => exact ⟨o1, a1, rfl⟩
    | succ m ih =>
      obtain ⟨i1, i2, i3⟩ := ih (by omega)
      rw [List.range_succ, List.foldl_append, List.foldl_append, List.foldl_cons, List.foldl_nil,
        List.foldl_cons, List.foldl_nil, ← i3]
      generalize (List.range m).foldl (fun (st : Arr × Arr) i =>
        (if getBit b i = 0 then st.1 else amontMul c st.1 st.2, amontSqr c st.2)) (one, aM) = st at *
      obtain ⟨q1, q2⟩ := amontSqr_val c st.2 i2
      obtain ⟨p1, p2⟩ := amontMul_val c st.1 st.2 i1 i2
      unfold Hacl.expBinStep
      dsimp only
      have hbit : (getBit b m).toNat = (val b >>> m) &&& 1 := by
        rw [getBit_val b m (by omega), Nat.shiftRight_eq_div_pow, Nat.and_one_is_mod]
      have heq : getBit b m = 0 ↔ (val b >>> m) &&& 1 = 0 := by
        rw [← hbit, ← UInt64.toNat_inj]; rfl
      rw [q2]
      by_cases hz : (val b >>> m) &&& 1 = 0
      · rw [if_pos (heq.2 hz), if_pos hz]
        exact ⟨i1, q1, rfl⟩
      · rw [if_neg (fun h => hz (heq.1 h)), if_neg hz, p2]
        exact ⟨p1, q1, rfl⟩
  obtain ⟨k1, k2, k3⟩ := key bBits le_rfl
  obtain ⟨f1, f2⟩ := fromMont_val c hc _ k1
  refine ⟨f1, ?_⟩
  rw [f2, ← k3]

theorem xor_cancel (a b : UInt64) : a ^^^ (a ^^^ b) = b := by
  rw [← UInt64.xor_assoc, UInt64.xor_self, UInt64.zero_xor]

theorem xor_cancel' (a b : UInt64) : b ^^^ (a ^^^ b) = a := by
  rw [UInt64.xor_comm a b, ← UInt64.xor_assoc, UInt64.xor_self, UInt64.zero_xor]

theorem cswap_zero (x y : Arr) (h : x.length = y.length) : cswap 0 x y = (x, y) := by
  unfold cswap
  have h1 : ∀ a b : UInt64, a ^^^ ((0 - 0) &&& (a ^^^ b)) = a := by
    intro a b; rw [mask_zero, UInt64.zero_and, UInt64.xor_zero]
  have h2 : ∀ a b : UInt64, b ^^^ ((0 - 0) &&& (a ^^^ b)) = b := by
    intro a b; rw [mask_zero, UInt64.zero_and, UInt64.xor_zero]
  simp only [h1, h2]
  induction x generalizing y with
  | nil => cases y with
    | nil => rfl
    | cons _ _ => simp at h
  | cons a x ih => cases y with
    | nil => simp at h
    | cons b y =>
      have := ih y (by simpa using h)
      rw [Prod.mk.injEq] at this
      rw [List.zipWith_cons_cons, List.zipWith_cons_cons, this.1, this.2]

theorem cswap_one (x y : Arr) (h : x.length = y.length) : cswap 1 x y = (y, x) := by
  unfold cswap
  have ho : ∀ z : UInt64, (0xFFFFFFFFFFFFFFFF : UInt64) &&& z = z := by
    intro z; rw [UInt64.and_comm]; exact and_ones z
  have h1 : ∀ a b : UInt64, a ^^^ ((0 - 1) &&& (a ^^^ b)) = b := by
    intro a b; rw [mask_one, ho, xor_cancel]
  have h2 : ∀ a b : UInt64, b ^^^ ((0 - 1) &&& (a ^^^ b)) = a := by
    intro a b; rw [mask_one, ho, xor_cancel']
  simp only [h1, h2]
  induction x generalizing y with
  | nil => cases y with
    | nil => rfl
    | cons _ _ => simp at h
  | cons a x ih => cases y with
    | nil => simp at h
    | cons b y =>
      have := ih y (by simpa using h)
      rw [Prod.mk.injEq] at this
      rw [List.zipWith_cons_cons, List.zipWith_cons_cons, this.1, this.2]

/-- What holds between two iterations of the ladder: after exchanging, the arrays represent the power
for the bits used so far, and the next power. -/
structure LadderInv (c : Ctx) (a : ZMod c.toHacl.n) (m : ℕ) (st : (Arr × Arr) × UInt64) : Prop where
  l1 : st.1.1.length = c.n.length
  l2 : st.1.2.length = c.n.length
  sw : st.2 = 0 ∨ st.2 = 1
  r1 : Hacl.Rep c.toHacl (val (cswap st.2 st.1.1 st.1.2).1) (a ^ m)
  r2 : Hacl.Rep c.toHacl (val (cswap st.2 st.1.1 st.1.2).2) (a ^ (m + 1))

theorem val_ltR (c : Ctx) (x : Arr) (h : x.length = c.n.length) : val x < R c.toHacl.k := by
  have := val_lt x
  rw [h] at this
  exact this

theorem ladderStep_inv (c : Ctx) (hc : c.Good) (a : ZMod c.toHacl.n) (m bBits i : ℕ) (b : Arr)
    (st : (Arr × Arr) × UInt64) (h : LadderInv c a m st) (hbit : (bBits - i - 1) / 64 < b.length) :
    LadderInv c a (2 * m + val b / 2 ^ (bBits - i - 1) % 2) (ladderStep c bBits b st i) := by
  have hg := getBit_val b (bBits - i - 1) hbit
  obtain ⟨⟨x, y⟩, sw⟩ := st
  obtain ⟨l1, l2, hsw, r1, r2⟩ := h
  dsimp only at l1 l2 hsw r1 r2
  unfold ladderStep
  dsimp only
  have hxy : x.length = y.length := by omega
  -- the arrays in order
  obtain ⟨u, v, hu, hul, hvl, ru, rv, hswap⟩ : ∃ u v : Arr, cswap sw x y = (u, v) ∧ u.length = c.n.length ∧
      v.length = c.n.length ∧ Hacl.Rep c.toHacl (val u) (a ^ m) ∧ Hacl.Rep c.toHacl (val v) (a ^ (m + 1)) ∧
      ∀ bit : UInt64, bit = 0 ∨ bit = 1 → cswap (bit ^^^ sw) x y = if bit = 0 then (u, v) else (v, u) := by
    rcases hsw with rfl | rfl
    · rw [cswap_zero x y hxy] at r1 r2
      refine ⟨x, y, cswap_zero x y hxy, l1, l2, r1, r2, ?_⟩
      rintro bit (rfl | rfl)
      · exact cswap_zero x y hxy
      · exact cswap_one x y hxy
    · rw [cswap_one x y hxy] at r1 r2
      refine ⟨y, x, cswap_one x y hxy, l2, l1, r1, r2, ?_⟩
      rintro bit (rfl | rfl)
      · exact cswap_one x y hxy
      · exact cswap_zero x y hxy
  have hbc := bit_cases (getBit b (bBits - i - 1)) (by rw [hg]; omega)
  rw [hswap _ hbc, ← hg]
  rcases hbc with hb | hb <;> rw [hb]
  · rw [if_pos rfl]
    obtain ⟨s1, s2⟩ := amontSqr_val c u hul
    obtain ⟨m1, m2⟩ := amontMul_val c v u hvl hul
    refine ⟨s1, m1, Or.inl rfl, ?_, ?_⟩ <;> dsimp only <;> rw [cswap_zero _ _ (by omega)]
    · dsimp only
      rw [s2]
      have := (Hacl.amontMul_spec hc.good _ _ _ _ (val_ltR c u hul) (val_ltR c u hul) ru ru).2
      rw [show (0 : UInt64).toNat = 0 from rfl, Nat.add_zero, two_mul, pow_add]
      exact this
    · dsimp only
      rw [m2]
      have := (Hacl.amontMul_spec hc.good _ _ _ _ (val_ltR c v hvl) (val_ltR c u hul) rv ru).2
      rw [show (0 : UInt64).toNat = 0 from rfl, Nat.add_zero, show 2 * m + 1 = (m + 1) + m by ring, pow_add]
      exact this
  · rw [if_neg (by decide)]
    obtain ⟨s1, s2⟩ := amontSqr_val c v hvl
    obtain ⟨m1, m2⟩ := amontMul_val c u v hul hvl
    refine ⟨s1, m1, Or.inr rfl, ?_, ?_⟩ <;> dsimp only <;> rw [cswap_one _ _ (by omega)]
    · dsimp only
      rw [m2]
      have := (Hacl.amontMul_spec hc.good _ _ _ _ (val_ltR c u hul) (val_ltR c v hvl) ru rv).2
      rw [show (1 : UInt64).toNat = 1 from rfl, show 2 * m + 1 = m + (m + 1) by ring, pow_add]
      exact this
    · dsimp only
      rw [s2]
      have := (Hacl.amontMul_spec hc.good _ _ _ _ (val_ltR c v hvl) (val_ltR c v hvl) rv rv).2
      rw [show (1 : UInt64).toNat = 1 from rfl, show 2 * m + 1 + 1 = (m + 1) + (m + 1) by ring, pow_add]
      exact this

theorem expLadder_val (c : Ctx) (hc : c.Good) (a b : Arr) (bBits : ℕ) (ha : a.length = c.n.length)
    (hb : bBits ≤ 64 * b.length) (hlt : val b < 2 ^ bBits) :
    (expLadder c a bBits b).length = c.n.length ∧
      val (expLadder c a bBits b) = val a ^ val b % val c.n := by
  obtain ⟨a1, a2⟩ := toMont_val c hc a ha
  obtain ⟨o1, o2⟩ := fromMont_val c hc c.r2 hc.r2len
  obtain ⟨-, at2⟩ := Hacl.toField_spec hc.good (val a) (val_ltR c a ha)
  obtain ⟨-, ot2⟩ := Hacl.one_spec hc.good
  have ra : Hacl.Rep c.toHacl (val (toMont c a)) (val a : ℕ) := by rw [a2]; exact at2
  have ro : Hacl.Rep c.toHacl (val (fromMont c c.r2)) 1 := by rw [o2]; exact ot2
  unfold expLadder
  dsimp only
  generalize toMont c a = aM at *
  generalize fromMont c c.r2 = one at *
  have key : ∀ i ≤ bBits, LadderInv c ((val a : ℕ) : ZMod c.toHacl.n) (val b / 2 ^ (bBits - i))
      ((List.range i).foldl (ladderStep c bBits b) ((one, aM), 0)) := by
    intro i hi
    induction i with
    | zero =>
      refine ⟨o1, a1, Or.inl rfl, ?_, ?_⟩ <;> rw [List.range_zero, List.foldl_nil] <;>
        dsimp only <;> rw [cswap_zero _ _ (by omega), Nat.sub_zero, Nat.div_eq_of_lt hlt]
      · rw [pow_zero]; exact ro
      · rw [Nat.zero_add, pow_one]; exact ra
    | succ i ih =>
      rw [List.range_succ, List.foldl_append, List.foldl_cons, List.foldl_nil]
      have := ladderStep_inv c hc _ _ bBits i b _ (ih (by omega)) (by omega)
      have e : val b / 2 ^ (bBits - (i + 1)) =
          2 * (val b / 2 ^ (bBits - i)) + val b / 2 ^ (bBits - i - 1) % 2 := by
        have h1 : bBits - i = (bBits - i - 1) + 1 := by omega
        have h2 : bBits - (i + 1) = bBits - i - 1 := by omega
        rw [h2]
        have h3 : val b / 2 ^ (bBits - i) = val b / 2 ^ (bBits - i - 1) / 2 := by
          rw [Nat.div_div_eq_div_mul, ← pow_succ, ← h1]
        rw [h3]
        omega
      rw [e]
      exact this
  obtain ⟨l1, l2, hsw, r1, -⟩ := key bBits le_rfl
  generalize (List.range bBits).foldl (ladderStep c bBits b) ((one, aM), 0) = st at *
  have hl : (cswap st.2 st.1.1 st.1.2).1.length = c.n.length := by
    rcases hsw with h | h <;> rw [h]
    · rw [cswap_zero _ _ (by omega)]; exact l1
    · rw [cswap_one _ _ (by omega)]; exact l2
  obtain ⟨f1, f2⟩ := fromMont_val c hc _ hl
  refine ⟨f1, ?_⟩
  rw [f2]
  rw [Nat.sub_self, pow_zero, Nat.div_one, ← Nat.cast_pow] at r1
  exact Hacl.fromMont_eq hc.good _ _ (val_ltR c _ hl) r1

end EG.Limbs
