import Verif.Model.LimbsGroup
import Verif.Model.LookupTable
import Verif.Props.Limbs
import Verif.Lemmas.Group
import Verif.Lemmas.LookupTable

/-! # The group operations on limbs compute the operations on numbers -/

namespace EG.Limbs

theorem add_val (a b : Arr) (k : ℕ) (ha : a.length = k) (hb : b.length = k) :
    (add a b).1.length = k ∧ val (add a b).1 = (Hacl.add k (val a) (val b)).1 ∧
      (add a b).2.toNat = (Hacl.add k (val a) (val b)).2 := by
  obtain ⟨h1, h2, h3⟩ := C67_add a b (by omega)
  have hlt := val_lt (add a b).1
  rw [h1, ha] at hlt
  rw [ha] at h1 h3
  refine ⟨h1, ?_, ?_⟩
  · show _ = (val a + val b) % 2 ^ (64 * k)
    rw [← h3, Nat.add_mul_mod_self_left, Nat.mod_eq_of_lt hlt]
  · show _ = (val a + val b) / 2 ^ (64 * k)
    rw [← h3, Nat.add_mul_div_left _ _ (by positivity), Nat.div_eq_of_lt hlt, Nat.zero_add]

theorem sub_val (a b : Arr) (k : ℕ) (ha : a.length = k) (hb : b.length = k) :
    (sub a b).1.length = k ∧ val (sub a b).1 = (Hacl.sub k (val a) (val b)).1 ∧
      (sub a b).2.toNat = (Hacl.sub k (val a) (val b)).2 := by
  obtain ⟨h1, h2⟩ := C67_sub a b (by omega)
  have la := val_lt a
  have lb := val_lt b
  rw [ha] at la h1 h2
  rw [hb] at lb
  refine ⟨h1, ?_⟩
  unfold Hacl.sub Hacl.R
  generalize 2 ^ (64 * k) = M at *
  rcases h2 with ⟨q1, q2, q3⟩ | ⟨q1, q2, q3⟩
  · rw [q2, q3, if_neg (by omega)]
    refine ⟨?_, rfl⟩
    rw [show val a + M - val b = val a - val b + M by omega, Nat.add_mod_right,
      Nat.mod_eq_of_lt (by omega)]
  · rw [q2, q3, if_pos q1]
    refine ⟨?_, rfl⟩
    rw [Nat.mod_eq_of_lt (by omega)]
    omega

theorem isMax_val (a : Arr) : isMax a = decide (val a = 2 ^ (64 * a.length) - 1) := by
  induction a with
  | nil => rfl
  | cons x a ih =>
    have hx := x.toNat_lt
    have la := val_lt a
    have hs : val (x :: a) = x.toNat + 2 ^ 64 * val a := rfl
    have hl : 2 ^ (64 * (x :: a).length) = 2 ^ 64 * 2 ^ (64 * a.length) := by
      rw [← pow_add, List.length_cons]; congr 1; ring
    rw [hs, hl, isMax, ih]
    generalize 2 ^ (64 * a.length) = M at *
    by_cases h : x = 0xFFFFFFFFFFFFFFFF
    · subst h
      rw [show UInt64.toNat 0xFFFFFFFFFFFFFFFF = 2 ^ 64 - 1 from rfl] at *
      simp only [bne_self_eq_false, Bool.false_eq_true, if_false, decide_eq_decide]
      omega
    · have hne : x.toNat ≠ 2 ^ 64 - 1 := fun e => h (UInt64.toNat_inj.1 e)
      rw [if_pos (by simpa using h), eq_comm, decide_eq_false_iff_not]
      omega

theorem elemLt_val (a b : Arr) (h : a.length = b.length) : elemLt a b = EG.elemLt (val a) (val b) := by
  unfold elemLt EG.elemLt Hacl.ltMask
  rw [(C67_compare a b h).1]
  split_ifs <;> decide

theorem elemEq_iff (a b : Arr) (h : a.length = b.length) : elemEq a b = true ↔ a = b := by
  induction a generalizing b with
  | nil => cases b with
    | nil => simp [elemEq]
    | cons y b => simp at h
  | cons x a ih => cases b with
    | nil => simp at h
    | cons y b =>
      rw [elemEq]
      have h' : a.length = b.length := by simpa using h
      by_cases hx : x = y
      · subst hx; simp [ih b h']
      · simp [hx]

theorem val_zeros (k : ℕ) : val (zeros k) = 0 := val_replicate k

theorem elemEq_zeros (a : Arr) : elemEq a (zeros a.length) = decide (val a = 0) := by
  rw [Bool.eq_iff_iff, elemEq_iff a _ (by simp [zeros]), decide_eq_true_iff]
  constructor
  · intro h; rw [h]; exact val_zeros _
  · intro h; exact val_inj _ _ (by simp [zeros]) (by rw [h, val_zeros])

theorem val_pad (a : Arr) (k : ℕ) : val (a ++ zeros k) = val a := by
  rw [val_append, val_zeros, Nat.mul_zero, Nat.add_zero]

/-- The arrays denote the numbers of `G`. -/
structure PArrs.Denotes (P : PArrs) (G : Params) : Prop where
  plen : P.p.length = 64
  qlen : P.q.length = 4
  glen : P.g.length = 64
  qOlen : P.qOff.length = 4
  pOlen : P.pOff.length = 64
  p_eq : val P.p = G.p
  q_eq : val P.q = G.q
  g_eq : val P.g = G.g
  qO_eq : val P.qOff = G.qOff
  pO_eq : val P.pOff = G.pOff

variable {P : PArrs} {G : Params}

theorem PArrs.Denotes.oddQ (h : P.Denotes G) (hG : G.Valid) : OddMod P.q := by
  refine ⟨?_, ?_⟩
  · rw [h.q_eq]
    exact (hG.q_prime.eq_two_or_odd).resolve_left (by have := hG.q_gt; omega)
  · rw [h.q_eq]; have := hG.q_gt; omega

theorem PArrs.Denotes.oddP (h : P.Denotes G) (hG : G.Valid) : OddMod P.p :=
  ⟨by rw [h.p_eq]; exact hG.p_odd, by rw [h.p_eq]; exact hG.p_gt⟩

theorem modQ_val (h : P.Denotes G) (hG : G.Valid) (s : Arr) (hs : s.length = 4) :
    (modPrecomp (ctxInit P.q) (s ++ zeros 4)).length = 4 ∧
      val (modPrecomp (ctxInit P.q) (s ++ zeros 4)) = Hacl.modPrecomp (ctxQ G) (val s) := by
  have hq := h.qlen
  obtain ⟨h1, h2⟩ := C68_mod_precomp P.q (s ++ zeros 4) (h.oddQ hG) (by omega) (by simp [zeros, hs, hq])
  have hlt := val_lt s
  refine ⟨by omega, ?_⟩
  rw [h2, val_pad, h.q_eq, Hacl.modPrecomp_eq (ctxQ_good hG)]
  · rfl
  · change val s < Hacl.R 4 * Hacl.R 4
    rw [hs] at hlt
    exact lt_of_lt_of_le hlt (Nat.le_mul_of_pos_right _ (by unfold Hacl.R; positivity))

theorem modP_val (h : P.Denotes G) (hG : G.Valid) (s : Arr) (hs : s.length = 128) :
    (modPrecomp (ctxInit P.p) s).length = 64 ∧
      val (modPrecomp (ctxInit P.p) s) = Hacl.modPrecomp (ctxP G) (val s) := by
  have hq := h.plen
  obtain ⟨h1, h2⟩ := C68_mod_precomp P.p s (h.oddP hG) (by omega) (by omega)
  have hlt := val_lt s
  refine ⟨by omega, ?_⟩
  rw [h2, h.p_eq, Hacl.modPrecomp_eq (ctxP_good hG)]
  · rfl
  · change val s < Hacl.R 64 * Hacl.R 64
    rw [hs] at hlt
    unfold Hacl.R
    rwa [← pow_add]

theorem addOffset_val (k : ℕ) (hk : 0 < k) (off inv : Arr) (h1 : off.length = k) (h2 : inv.length = k) :
    (addOffset off inv).length = k ∧
      val (addOffset off inv) = (Hacl.add k (Hacl.add k (val off) (val inv)).1 1).1 := by
  obtain ⟨a1, a2, -⟩ := add_val off inv k h1 h2
  obtain ⟨o1, o2⟩ := oneArr_spec k hk
  obtain ⟨b1, b2, -⟩ := add_val (add off inv).1 (oneArr k) k a1 o1
  unfold addOffset
  rw [h1]
  exact ⟨b1, by rw [b2, a2, o2]⟩

theorem u64_pos (c : UInt64) : decide (c > 0) = decide (c.toNat > 0) := by
  rw [decide_eq_decide, gt_iff_lt, UInt64.lt_iff_toNat_lt]; rfl

theorem isMax_256 (a : Arr) (h : a.length = 4) : isMax a = isMax256 (val a) := by
  have hlt := val_lt a
  rw [isMax_val, h]
  rw [h] at hlt
  unfold isMax256
  rw [Nat.mod_eq_of_lt (show val a < 2 ^ 256 from hlt)]

theorem isMax_4096 (a : Arr) (h : a.length = 64) : isMax a = isMax4096 (val a) := by
  have hlt := val_lt a
  rw [isMax_val, h]
  rw [h] at hlt
  unfold isMax4096
  rw [Nat.mod_eq_of_lt (show val a < 2 ^ 4096 from hlt)]

/-- The offset that is added for operands that exceed the modulus. -/
theorem offset_val (k : ℕ) (hk : 0 < k) (inv : Arr) (h : inv.length = k) (bigA bigB : Bool) :
    (if bigB then addOffset (if bigA then addOffset (zeros k) inv else zeros k) inv
      else if bigA then addOffset (zeros k) inv else zeros k).length = k ∧
    val (if bigB then addOffset (if bigA then addOffset (zeros k) inv else zeros k) inv
      else if bigA then addOffset (zeros k) inv else zeros k) =
      (if bigB then (Hacl.add k (Hacl.add k
        (if bigA then (Hacl.add k (Hacl.add k 0 (val inv)).1 1).1 else 0) (val inv)).1 1).1
      else if bigA then (Hacl.add k (Hacl.add k 0 (val inv)).1 1).1 else 0) := by
  have hz : (zeros k).length = k := by simp [zeros]
  obtain ⟨a1, a2⟩ := addOffset_val k hk (zeros k) inv hz h
  rw [val_zeros] at a2
  have hA : (if bigA then addOffset (zeros k) inv else zeros k).length = k ∧
      val (if bigA then addOffset (zeros k) inv else zeros k) =
        if bigA then (Hacl.add k (Hacl.add k 0 (val inv)).1 1).1 else 0 := by
    cases bigA
    · exact ⟨hz, val_zeros k⟩
    · exact ⟨a1, a2⟩
  obtain ⟨b1, b2⟩ := addOffset_val k hk _ inv hA.1 h
  rw [hA.2] at b2
  cases bigB
  · exact hA
  · exact ⟨b1, b2⟩

theorem addModQ_val (h : P.Denotes G) (hG : G.Valid) (a b : Arr) (ha : a.length = 4) (hb : b.length = 4) :
    (addModQ P a b).length = 4 ∧ val (addModQ P a b) = EG.addModQ G (val a) (val b) := by
  obtain ⟨s1, s2, s3⟩ := add_val a b 4 ha hb
  have key : ∀ s : Arr, s.length = 4 → ∀ n, val s = n →
      (modPrecomp (ctxInit P.q) (s ++ zeros 4)).length = 4 ∧
        val (modPrecomp (ctxInit P.q) (s ++ zeros 4)) = Hacl.modPrecomp (ctxQ G) n := by
    intro s hs n hn; rw [← hn]; exact modQ_val h hG s hs
  unfold addModQ EG.addModQ
  dsimp only
  rw [u64_pos, isMax_256 _ s1, s2, s3, elemLt_val _ _ (by rw [ha]; exact h.qlen),
    elemLt_val _ _ (by rw [hb]; exact h.qlen), h.q_eq]
  obtain ⟨o1, o2⟩ := offset_val 4 (by norm_num) P.qOff h.qOlen (EG.elemLt G.q (val a)) (EG.elemLt G.q (val b))
  rw [h.qO_eq] at o2
  by_cases c1 : (decide ((Hacl.add 4 (val a) (val b)).2 > 0) ||
      isMax256 (Hacl.add 4 (val a) (val b)).1) = true
  · rw [if_pos c1, if_pos c1]
    by_cases c2 : (EG.elemLt G.q (val a) || EG.elemLt G.q (val b)) = true
    · rw [if_pos c2, if_pos c2]
      obtain ⟨r1, r2, -⟩ := add_val (add a b).1 _ 4 s1 o1
      exact key _ r1 _ (by rw [r2, s2, o2])
    · rw [if_neg c2, if_neg c2]
      obtain ⟨r1, r2, -⟩ := add_val (add a b).1 P.qOff 4 s1 h.qOlen
      exact key _ r1 _ (by rw [r2, s2, h.qO_eq])
  · rw [if_neg c1, if_neg c1]
    exact key _ s1 _ s2

theorem subModQ_val (h : P.Denotes G) (hG : G.Valid) (a b : Arr) (ha : a.length = 4) (hb : b.length = 4) :
    (subModQ P a b).length = 4 ∧ val (subModQ P a b) = EG.subModQ G (val a) (val b) := by
  obtain ⟨s1, s2, s3⟩ := sub_val a b 4 ha hb
  have key : ∀ s : Arr, s.length = 4 → ∀ n, val s = n →
      (modPrecomp (ctxInit P.q) (s ++ zeros 4)).length = 4 ∧
        val (modPrecomp (ctxInit P.q) (s ++ zeros 4)) = Hacl.modPrecomp (ctxQ G) n := by
    intro s hs n hn; rw [← hn]; exact modQ_val h hG s hs
  have hpos : ((sub a b).2 > 0) ↔ ((Hacl.sub 4 (val a) (val b)).2 > 0) := by
    rw [← s3]; exact decide_eq_decide.1 (u64_pos _)
  unfold subModQ EG.subModQ
  dsimp only
  rw [elemLt_val _ _ (by rw [ha]; exact h.qlen), elemLt_val _ _ (by rw [hb]; exact h.qlen), h.q_eq]
  obtain ⟨o1, o2⟩ := addOffset_val 4 (by norm_num) (zeros 4) P.qOff (by simp [zeros]) h.qOlen
  rw [h.qO_eq, val_zeros] at o2
  simp only [hpos]
  split_ifs with c1 c2
  · obtain ⟨r1, r2, -⟩ := sub_val (sub a b).1 _ 4 s1 o1
    exact key _ r1 _ (by rw [r2, s2, o2])
  · obtain ⟨r1, r2, -⟩ := sub_val (sub a b).1 P.qOff 4 s1 h.qOlen
    exact key _ r1 _ (by rw [r2, s2, h.qO_eq])
  · exact key _ s1 _ s2

theorem mod_ok (n a : Arr) (h : OddMod n) (hl : n.length ≤ 2 ^ 24) (ha : a.length = n.length + n.length) :
    (mod n a).1 = true ∧ (mod n a).2.length = n.length ∧ val (mod n a).2 = val a % val n := by
  obtain ⟨h1, h2, -⟩ := C68_mod n a h.pos hl ha
  refine ⟨h1.2 h, ?_, h2 h⟩
  unfold mod
  rw [modCheck_eq n h.pos, checked_mask]
  have h' := h
  unfold OddMod at h'
  rw [if_pos h']
  exact (C68_mod_precomp n a h hl ha).1

theorem aPlusBcModQ_val (h : P.Denotes G) (hG : G.Valid) (a b c : Arr) (ha : a.length = 4)
    (hb : b.length = 4) (hc : c.length = 4) :
    ∃ r, aPlusBcModQ P a b c = .ok r ∧ r.length = 4 ∧ val r = (val a + val b * val c) % G.q := by
  have hq := h.qlen
  obtain ⟨m1, m2⟩ := mulFull_spec b c (by omega)
  obtain ⟨r1, r2, r3⟩ := mod_ok P.q (mulFull b c) (h.oddQ hG) (by omega) (by omega)
  obtain ⟨s1, -, s3⟩ := C67_add a (mod P.q (mulFull b c)).2 (by omega)
  rw [ha] at s1 s3
  obtain ⟨t1, t2, t3⟩ := mod_ok P.q ((add a (mod P.q (mulFull b c)).2).1 ++
    (add a (mod P.q (mulFull b c)).2).2 :: zeros 3) (h.oddQ hG) (by omega) (by simp [s1, zeros, hq])
  refine ⟨_, ?_, by rw [t2]; exact hq, ?_⟩
  · unfold aPlusBcModQ
    dsimp only
    rw [r1, t1]
    rfl
  · have e : val ((add a (mod P.q (mulFull b c)).2).1 ++ (add a (mod P.q (mulFull b c)).2).2 :: zeros 3) =
        val a + val (mod P.q (mulFull b c)).2 := by
      rw [val_append, s1, ← s3]
      show _ + _ * (_ + 2 ^ 64 * val (zeros 3)) = _
      rw [val_zeros, Nat.mul_zero, Nat.add_zero]
    rw [t3, e, r3, m2, h.q_eq, Nat.add_mod_mod]

theorem subFromQ_val (h : P.Denotes G) (a : Arr) (ha : a.length = 4) :
    (subFromQ P a).length = 4 ∧ val (subFromQ P a) = EG.subFromQ G (val a) := by
  obtain ⟨s1, s2, -⟩ := sub_val P.q a 4 h.qlen ha
  exact ⟨s1, by unfold subFromQ EG.subFromQ; rw [s2, h.q_eq]⟩

theorem mulModP_val (h : P.Denotes G) (hG : G.Valid) (a b : Arr) (ha : a.length = 64) (hb : b.length = 64) :
    (mulModP P a b).length = 64 ∧ val (mulModP P a b) = val a * val b % G.p := by
  have hp := h.plen
  obtain ⟨m1, m2⟩ := mulFull_spec a b (by omega)
  obtain ⟨r1, r2⟩ := C68_mod_precomp P.p (mulFull a b) (h.oddP hG) (by omega) (by omega)
  exact ⟨by unfold mulModP; rw [r1, hp], by unfold mulModP; rw [r2, m2, h.p_eq]⟩

theorem addModP_val (h : P.Denotes G) (hG : G.Valid) (a b : Arr) (ha : a.length = 64) (hb : b.length = 64) :
    (addModP P a b = .ub ∧ EG.addModP G (val a) (val b) = .ub) ∨
      ∃ r, addModP P a b = .ok r ∧ r.length = 64 ∧ EG.addModP G (val a) (val b) = .ok (val r) := by
  obtain ⟨s1, s2, s3⟩ := add_val a b 64 ha hb
  have hp := h.plen
  have key : ∀ s : Arr, s.length = 64 → ∀ n, val s = n →
      (modPrecomp (ctxInit P.p) (s ++ zeros 64)).length = 64 ∧
        Hacl.modPrecomp (ctxP G) n = val (modPrecomp (ctxInit P.p) (s ++ zeros 64)) := by
    intro s hs n hn
    have := modP_val h hG (s ++ zeros 64) (by simp [zeros, hs])
    rw [val_pad, hn] at this
    exact ⟨this.1, this.2.symm⟩
  unfold addModP EG.addModP
  dsimp only
  rw [u64_pos, isMax_4096 _ s1, s2, s3, elemLt_val _ _ (by rw [ha]; exact h.plen),
    elemLt_val _ _ (by rw [hb]; exact h.plen), h.p_eq]
  obtain ⟨o1, o2⟩ := offset_val 64 (by norm_num) P.pOff h.pOlen (EG.elemLt G.p (val a)) (EG.elemLt G.p (val b))
  rw [h.pO_eq] at o2
  by_cases c1 : (decide ((Hacl.add 64 (val a) (val b)).2 > 0) ||
      isMax4096 (Hacl.add 64 (val a) (val b)).1) = true
  · rw [if_pos c1, if_pos c1]
    by_cases c2 : (EG.elemLt G.p (val a) || EG.elemLt G.p (val b)) = true
    · rw [if_pos c2, if_pos c2]
      obtain ⟨r1, r2, -⟩ := add_val (add a b).1 _ 64 s1 o1
      have := key _ r1 _ (by rw [r2, s2, o2])
      exact Or.inr ⟨_, rfl, this.1, by rw [this.2]⟩
    · rw [if_neg c2, if_neg c2]
      exact Or.inl ⟨rfl, rfl⟩
  · rw [if_neg c1, if_neg c1]
    have := key _ s1 _ s2
    exact Or.inr ⟨_, rfl, this.1, by rw [this.2]⟩

theorem powModPP_val (h : P.Denotes G) (hG : G.Valid) (a e : Arr) (ha : a.length = 64) (he : e.length = 64) :
    (powModPP P a e).length = 64 ∧
      val (powModPP P a e) = if val e = 0 then 1 else val a ^ (val e % 2 ^ 512) % G.p := by
  have hp := h.plen
  have hodd := h.oddP hG
  have hg := hodd.ctx (by omega)
  have hz := elemEq_zeros e
  rw [he] at hz
  unfold powModPP
  rw [hz]
  by_cases h0 : val e = 0
  · rw [if_pos (by simpa using h0), if_pos h0]
    exact oneArr_spec 64 (by norm_num)
  · rw [if_neg (by simpa using h0), if_neg h0]
    have e1 := Hacl.modExpPrecomp_mod hg.good (val a) 512 (val e)
      (val_ltR (ctxInit P.p) a (by rw [ha]; exact hp.symm)) (by norm_num)
    unfold Hacl.modExpPrecomp at e1
    unfold modExpVartime
    rw [if_neg (by norm_num)] at e1 ⊢
    obtain ⟨h1, h2⟩ := expWindow_val (ctxInit P.p) hg lookVartime
      (fun aM one _ _ w hw => lookVartime_eq _ aM one w hw) a e 512
      (by rw [ha]; exact hp.symm) (by rw [he]; norm_num)
    refine ⟨h1.trans hp, h2.trans (e1.trans ?_)⟩
    rw [← h.p_eq]
    rfl

/-! ## Fixed-base tables -/

/-- The array is the reduced Montgomery form of `b`. -/
def ARep (c : Ctx) (x : Arr) (b : ZMod c.toHacl.n) : Prop :=
  x.length = c.n.length ∧ val x < val c.n ∧ Hacl.Rep c.toHacl (val x) b

theorem fieldMul_val {c : Ctx} (hc : c.Good) (x y : Arr) (a b : ZMod c.toHacl.n) (hx : ARep c x a)
    (hy : ARep c y b) : ARep c (fieldMul c x y) (a * b) := by
  obtain ⟨x1, x2, x3⟩ := hx
  obtain ⟨y1, y2, y3⟩ := hy
  obtain ⟨m1, m2⟩ := mulFull_spec x y (by omega)
  have hlt : val c.n < Hacl.R c.n.length := hc.good.lt
  obtain ⟨r1, r2⟩ := reduction_val c.n (mulFull x y) c.mu (by omega) hc.good.toGoodMod hc.good.mu
    (by rw [m2]; exact Nat.mul_le_mul x2.le (lt_trans y2 hlt).le)
  obtain ⟨f1, f2⟩ := Hacl.fieldMul_spec hc.good (val x) (val y) a b x2 y2 x3 y3
  have e : val (fieldMul c x y) = Hacl.fieldMul c.toHacl (val x) (val y) := by
    unfold fieldMul; rw [r2, m2]; rfl
  exact ⟨r1, by rw [e]; exact f1, by rw [e]; exact f2⟩

theorem toMont_rep {c : Ctx} (hc : c.Good) (a : Arr) (ha : a.length = c.n.length) :
    ARep c (toMont c a) ((val a : ℕ) : ZMod c.toHacl.n) := by
  obtain ⟨t1, t2⟩ := toMont_val c hc a ha
  obtain ⟨f1, f2⟩ := Hacl.toField_spec hc.good (val a) (val_ltR c a ha)
  have e : val (toMont c a) = Hacl.toField c.toHacl (val a) := t2
  exact ⟨t1, by rw [e]; exact f1, by rw [e]; exact f2⟩

theorem genRow_val {c : Ctx} (hc : c.Good) (rowBase : Arr) (b : ZMod c.toHacl.n)
    (hb : ARep c rowBase b) (n : ℕ) : ∀ (running : Arr) (j : ℕ), ARep c running (b ^ j) →
    ARep c (genRow c rowBase n running).2 (b ^ (j + n)) ∧
    ∀ i < n, ∃ x, (genRow c rowBase n running).1[i]? = some x ∧ ARep c x (b ^ (j + i)) := by
  induction n with
  | zero => intro running j h2; exact ⟨h2, by simp⟩
  | succ n ih =>
    intro running j h2
    have h4 := fieldMul_val hc running rowBase _ _ h2 hb
    rw [← pow_succ] at h4
    obtain ⟨h6, h7⟩ := ih _ (j + 1) h4
    refine ⟨?_, ?_⟩
    · rw [show j + (n + 1) = j + 1 + n by omega]; exact h6
    · intro i hi
      cases i with
      | zero => exact ⟨running, rfl, h2⟩
      | succ i =>
        obtain ⟨x, hx1, hx3⟩ := h7 i (by omega)
        refine ⟨x, hx1, ?_⟩
        rw [show j + (i + 1) = j + 1 + i by omega]; exact hx3

/-- Row `i` holds at entry `j ∈ [1,255]` the Montgomery form of `b^(256^i * j)`. -/
def GoodRows (c : Ctx) : List (List Arr) → ZMod c.toHacl.n → Prop
  | [], _ => True
  | row :: rows, b =>
    (∀ j, 0 < j → j < 256 → ∃ x, row[j]? = some x ∧ ARep c x (b ^ j)) ∧ GoodRows c rows (b ^ 256)

theorem genRows_val {c : Ctx} (hc : c.Good) (n : ℕ) : ∀ (rb : Arr) (b : ZMod c.toHacl.n),
    ARep c rb b → (genRows c n rb rb).length = n ∧ GoodRows c (genRows c n rb rb) b := by
  induction n with
  | zero => intro rb b _; exact ⟨rfl, trivial⟩
  | succ n ih =>
    intro rb b h2
    obtain ⟨h4, h5⟩ := genRow_val hc rb b h2 255 rb 1 (by rw [pow_one]; exact h2)
    obtain ⟨h6, h7⟩ := ih _ _ h4
    refine ⟨?_, ?_, ?_⟩
    · simp only [genRows, List.length_cons, h6]
    · intro j hj0 hj
      obtain ⟨j', rfl⟩ : ∃ j', j = j' + 1 := ⟨j - 1, by omega⟩
      obtain ⟨x, hx1, hx3⟩ := h5 j' (by omega)
      refine ⟨x, hx1, ?_⟩
      rw [Nat.add_comm]; exact hx3
    · exact h7

theorem lutLoop_val {c : Ctx} (hc : c.Good) : ∀ (rows : List (List Arr)) (bytes : List UInt8)
    (b a : ZMod c.toHacl.n) (acc : Arr), GoodRows c rows b → bytes.length = rows.length →
    ARep c acc a → ∃ x, lutLoop c rows bytes acc = .ok x ∧ ARep c x (a * b ^ ofBytesLE bytes) := by
  intro rows
  induction rows with
  | nil =>
    intro bytes b a acc _ hl h2
    have : bytes = [] := by simpa using hl
    subst this
    exact ⟨acc, rfl, by simpa [ofBytesLE] using h2⟩
  | cons row rows ih =>
    intro bytes b a acc hg hl h2
    match bytes, hl with
    | s :: bytes, hl =>
      have hl' : bytes.length = rows.length := by simpa using hl
      have hexp : a * b ^ ofBytesLE (s :: bytes) =
          a * b ^ s.toNat * (b ^ 256) ^ ofBytesLE bytes := by
        rw [ofBytesLE, pow_add, pow_mul]; ring
      rw [hexp]
      by_cases hs : s = 0
      · subst hs
        obtain ⟨x, hx⟩ := ih bytes (b ^ 256) a acc hg.2 hl' h2
        refine ⟨x, ?_⟩
        simpa [lutLoop] using hx
      · have hne : s.toNat ≠ 0 := fun h => hs (UInt8.toNat_inj.1 (by simpa using h))
        obtain ⟨y, hy1, hy3⟩ := hg.1 s.toNat (by omega) s.toNat_lt
        have h4 := fieldMul_val hc acc y _ _ h2 hy3
        obtain ⟨x, hx⟩ := ih bytes (b ^ 256) _ _ hg.2 hl' h4
        refine ⟨x, ?_⟩
        simpa [lutLoop, hs, hy1] using hx

theorem lutPow_val {c : Ctx} (hc : c.Good) (base e : Arr) (hb : base.length = c.n.length)
    (he : e.length = 4) :
    ∃ r, lutPow c (genLut c base) e = .ok r ∧ r.length = c.n.length ∧
      val r = val base ^ val e % val c.n := by
  have hpos := GoodMod.length_pos hc.good.toGoodMod
  obtain ⟨o1, o2⟩ := oneArr_spec c.n.length hpos
  have ho := toMont_rep hc (oneArr c.n.length) o1
  rw [o2] at ho
  obtain ⟨g1, g2⟩ := genRows_val hc 32 _ _ (toMont_rep hc base hb)
  obtain ⟨t1, t2⟩ := toBytesBE_val e
  obtain ⟨x, hx1, hx2, hx3, hx4⟩ := lutLoop_val hc _ (toBytesBE e).reverse _ _ _ g2
    (by rw [List.length_reverse, t1, he, g1]) ho
  have he2 : ofBytesLE (toBytesBE e).reverse = val e := t2
  rw [he2, ← Nat.cast_pow, ← Nat.cast_mul, Nat.one_mul] at hx4
  obtain ⟨f1, f2⟩ := fromMont_val c hc x hx2
  refine ⟨fromMont c x, ?_, f1, ?_⟩
  · unfold lutPow genLut
    dsimp only
    rw [hx1]; rfl
  · rw [f2]
    exact Hacl.fromMont_eq hc.good (val x) _ (val_ltR c x hx2) hx4

theorem powModP_val (h : P.Denotes G) (hG : G.Valid) (fixed : Bool) (a e : Arr) (ha : a.length = 64)
    (he : e.length = 4) :
    ∃ r, powModP P fixed a e = .ok r ∧ r.length = 64 ∧ val r = val a ^ val e % G.p := by
  have hp := h.plen
  have hg := (h.oddP hG).ctx (by omega)
  have hz := elemEq_zeros e
  rw [he] at hz
  unfold powModP
  rw [hz]
  by_cases h0 : val e = 0
  · rw [if_pos (by simpa using h0)]
    obtain ⟨o1, o2⟩ := oneArr_spec 64 (by norm_num)
    exact ⟨_, rfl, o1, by rw [o2, h0, pow_zero, Nat.mod_eq_of_lt hG.p_gt]⟩
  · rw [if_neg (by simpa using h0)]
    cases fixed
    · obtain ⟨r1, r2⟩ := powModPP_val h hG a (e ++ zeros 60) ha (by simp [zeros, he])
      refine ⟨_, rfl, r1, ?_⟩
      have hlt := val_lt e
      rw [he] at hlt
      rw [r2, val_pad, if_neg h0, Nat.mod_eq_of_lt (lt_512_of_lt hlt)]
    · obtain ⟨r, r1, r2, r3⟩ := lutPow_val hg a e (by rw [ha]; exact hp.symm) he
      exact ⟨r, r1, r2.trans hp, by rw [r3, ← h.p_eq]; rfl⟩

end EG.Limbs
