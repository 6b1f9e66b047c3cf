import Verif.Lemmas.LeakPow
import Verif.Lemmas.ElGamal

/-!
# The values and the observations of `decrypt`
-/

namespace EG.Leak

open Limbs

variable {P : PArrs} {G : Params}

theorem powChecked_spec (h : P.Denotes G) (hG : G.Valid) {pad secret : Arr} (hp : pad.length = 64)
    (hs : secret.length = 4) :
    (Limbs.expCheck P.p pad 512 (secret ++ zeros 60) = maskOf (val pad < G.p)) ∧
    (val pad < G.p → ∃ d, Limbs.modExpConsttimeChecked P.p pad 512 (secret ++ zeros 60) = (true, d) ∧
      d.length = 64 ∧ val d = val pad ^ val secret % G.p) ∧
    (¬val pad < G.p → (Limbs.modExpConsttimeChecked P.p pad 512 (secret ++ zeros 60)).1 = false) := by
  have hl := h.plen
  have hodd := h.oddP hG
  have hc : Limbs.expCheck P.p pad 512 (secret ++ zeros 60) = maskOf (val pad < G.p) := by
    unfold Limbs.expCheck
    dsimp only
    rw [if_neg (by decide), modCheck_eq _ (by omega), ltMask_eq _ _ (by rw [hp, hl]),
      show (0xFFFFFFFFFFFFFFFF : UInt64) = maskOf True from rfl, maskOf_and, maskOf_and, h.p_eq]
    have : (((G.p % 2 = 1 ∧ 1 < G.p) ∧ True ∧ val pad < G.p)) ↔ val pad < G.p :=
      ⟨fun hh => hh.2.2, fun hh => ⟨⟨hG.p_odd, hG.p_gt⟩, trivial, hh⟩⟩
    simp only [maskOf, this]
  refine ⟨hc, ?_, ?_⟩
  · intro hlt
    have hv := val_lt secret
    rw [hs] at hv
    obtain ⟨e1, e2⟩ := C68_exp_consttime P.p pad (secret ++ zeros 60) 512 hodd (by omega) (by omega)
      (by simp [zeros, hs]) (by rw [val_pad]; exact lt_512_of_lt hv)
    refine ⟨_, ?_, e1.trans hl, by rw [e2, val_pad, h.p_eq]⟩
    unfold Limbs.modExpConsttimeChecked
    rw [hc, checked_mask, if_pos hlt]
  · intro hlt
    unfold Limbs.modExpConsttimeChecked
    rw [hc, checked_mask, if_neg hlt]

theorem inverse_spec (h : P.Denotes G) (hG : G.Valid) {a : Arr} (ha : a.length = 64) (hlt : val a < G.p) :
    (val a ≠ 0 → ∃ r, Limbs.modInvPrime P.p a = (true, r) ∧ r.length = 64 ∧ val r = val a ^ (G.p - 2) % G.p) ∧
    (val a = 0 → Limbs.modInvPrime P.p a = (false, List.replicate 64 0)) := by
  have hl := h.plen
  have hodd := h.oddP hG
  have hz : a = List.replicate P.p.length 0 ↔ val a = 0 := by
    constructor
    · intro h; rw [h]; exact val_replicate _
    · intro h; exact val_inj _ _ (by simp [ha, hl]) (by rw [h, val_replicate])
  unfold Limbs.modInvPrime
  dsimp only
  rw [modCheck_eq _ (by omega), eqMask_eq a _ (by simp [ha, hl]), maskOf_not, ltMask_eq a P.p (by omega), maskOf_and,
    maskOf_and, checked_mask]
  refine ⟨fun h0 => ?_, fun h0 => ?_⟩
  · rw [if_pos ⟨⟨hodd, fun hh => h0 (hz.1 hh)⟩, by rw [h.p_eq]; exact hlt⟩]
    have h2len : (2 :: List.replicate (P.p.length - 1) (0 : UInt64)).length = P.p.length := by simp; omega
    have h2val : val (2 :: List.replicate (P.p.length - 1) (0 : UInt64)) = 2 := by
      rw [val, val_replicate]; rfl
    have hn3 : 2 < val P.p := by have := hodd.1; have := hodd.2; omega
    obtain ⟨s1, hs⟩ := C67_sub P.p (2 :: List.replicate (P.p.length - 1) (0 : UInt64)) h2len.symm
    rw [h2val] at hs
    have hexp : val (Limbs.sub P.p (2 :: List.replicate (P.p.length - 1) 0)).1 = val P.p - 2 := by
      rcases hs with ⟨-, -, h⟩ | ⟨h, -⟩
      · exact h
      · omega
    obtain ⟨e1, e2⟩ := C68_exp_vartime P.p a (Limbs.sub P.p (2 :: List.replicate (P.p.length - 1) 0)).1
      (64 * P.p.length) hodd (by omega) (by omega) (by rw [s1]) (by
        have := val_lt (Limbs.sub P.p (2 :: List.replicate (P.p.length - 1) (0 : UInt64))).1
        rwa [s1] at this)
    exact ⟨_, rfl, e1.trans hl, by rw [e2, hexp, h.p_eq]⟩
  · rw [if_neg (fun hh => hh.1.2 (hz.2 h0)), hl]

theorem modChecked_spec (h : P.Denotes G) (hG : G.Valid) {a : Arr} (ha : a.length = 128) :
    ∃ r, Limbs.mod P.p a = (true, r) ∧ r.length = 64 ∧ val r = val a % G.p := by
  have hl := h.plen
  have hodd := h.oddP hG
  obtain ⟨e1, e2⟩ := C68_mod_precomp P.p a hodd (by omega) (by omega)
  refine ⟨_, ?_, e1.trans hl, by rw [e2, h.p_eq]⟩
  unfold Limbs.mod
  rw [modCheck_eq _ (by omega), checked_mask, if_pos (show val P.p % 2 = 1 ∧ 1 < val P.p from hodd)]

/-- The quotient for a pad that is a residue. -/
theorem quotient_spec (h : P.Denotes G) (hG : G.Valid) {pad data secret : Arr} (hp : pad.length = 64)
    (hd : data.length = 64) (hs : secret.length = 4) (hlt : val pad < G.p) :
    ∃ r, (quotient P pad data secret).val = some r ∧ r.length = 64 ∧
      val r = val data * EG.modInvPrime G.p (val pad ^ val secret % G.p) % G.p ∧
      (val pad ^ val secret % G.p = 0 → val r = 0) := by
  obtain ⟨d, d1, d2, d3⟩ := (powChecked_spec h hG hp hs).2.1 hlt
  have hdl : val d < G.p := by rw [d3]; exact Nat.mod_lt _ (by have := hG.p_gt; omega)
  obtain ⟨i1, i2⟩ := inverse_spec h hG d2 hdl
  obtain ⟨i, i3, i4⟩ : ∃ i, (Limbs.modInvPrime P.p d).2 = i ∧ i.length = 64 ∧ val i = EG.modInvPrime G.p (val d) ∧
      (val d = 0 → val i = 0) := by
    by_cases h0 : val d = 0
    · rw [i2 h0]
      refine ⟨_, rfl, by simp, ?_, fun _ => val_replicate _⟩
      rw [val_replicate, EG.modInvPrime, if_neg (by simp [h0])]
    · obtain ⟨r, r1, r2, r3⟩ := i1 h0
      rw [r1]
      exact ⟨_, rfl, r2, by rw [r3, modInvPrime_eq hG _ h0 hdl], fun hh => absurd hh h0⟩
  obtain ⟨i5, i6, i7⟩ := i4
  obtain ⟨m1, m2⟩ := C67_mul data i (by omega)
  obtain ⟨r, r1, r2, r3⟩ := modChecked_spec h hG (a := Limbs.mulFull data i) (by omega)
  refine ⟨r, ?_, r2, by rw [r3, m2, i6, d3], fun h0 => by rw [r3, m2, i7 (by rw [d3, h0]), Nat.mul_zero, Nat.zero_mod]⟩
  unfold quotient
  simp [d1, i3, r1]

theorem outcome_val (r : Arr) : (outcome P r).val = if Limbs.elemEq r (oneArr 64) then 0 else
    if Limbs.elemEq r P.g then 1 else 0xFFFFFFFFFFFFFFFF := by
  unfold outcome
  simp only [val_bind, val_cond, elemEq_val]
  split
  · rfl
  · simp only [val_bind, val_cond, elemEq_val]
    split <;> rfl

/-- The value of `decrypt`. -/
theorem decrypt_val (h : P.Denotes G) (hG : G.Valid) {pad data secret : Arr} (hp : pad.length = 64)
    (hd : data.length = 64) (hs : secret.length = 4) :
    (decrypt P pad data secret).val.toNat = EG.decrypt G ⟨val pad, val data⟩ (val secret) := by
  have hsl := val_lt secret
  rw [hs] at hsl
  have hdl := val_lt data
  rw [hd] at hdl
  obtain ⟨o1, o2⟩ := oneArr_spec 64 (by norm_num)
  by_cases hlt : val pad < G.p
  · obtain ⟨r, q1, q2, q3, -⟩ := quotient_spec h hG hp hd hs hlt
    unfold decrypt
    rw [val_bind, q1]
    change (outcome P r).val.toNat = _
    rw [outcome_val, EG.decrypt]
    dsimp only
    rw [modExpChecked_eq hG _ _ hlt (lt_512_of_lt hsl)]
    dsimp only
    have hmi : EG.modInvPrime G.p (val pad ^ val secret % G.p) < G.p := by
      by_cases h0 : val pad ^ val secret % G.p = 0
      · rw [EG.modInvPrime, if_neg (by simp [h0])]; have := hG.p_gt; omega
      · rw [modInvPrime_eq hG _ h0 (Nat.mod_lt _ (by have := hG.p_gt; omega))]
        exact Nat.mod_lt _ (by have := hG.p_gt; omega)
    rw [modChecked_eq hG _ (mul_lt_8192 hdl (lt_trans hmi hG.p_lt)), ← q3]
    dsimp only
    have e1 : Limbs.elemEq r (oneArr 64) = true ↔ val r = 1 := by
      rw [elemEq_iff _ _ (by omega), ← o2]
      exact ⟨fun e => by rw [e], val_inj _ _ (by omega)⟩
    have hgl := h.glen
    have e2 : Limbs.elemEq r P.g = true ↔ val r = G.g := by
      rw [elemEq_iff _ _ (by omega), ← h.g_eq]
      exact ⟨fun e => by rw [e], val_inj _ _ (by omega)⟩
    simp only [e1, e2]
    split
    · rfl
    · split <;> rfl
  · have hn : (quotient P pad data secret).val = none := by
      unfold quotient
      simp [(powChecked_spec h hG hp hs).2.2 hlt]
    unfold decrypt
    rw [val_bind, hn, EG.decrypt, modExpChecked, if_neg (fun hh => hlt hh.2.2)]
    rfl

/-! ## Observations -/

theorem Same.seq {α β : Type} {Q : β → β → Prop} {x y : L α} {f g : α → L β} (h : x.trace = y.trace)
    (hf : Same Q (f x.val) (g y.val)) : Same Q (x >>= f) (y >>= g) :=
  ⟨by rw [trace_bind, trace_bind, h, hf.1], hf.2⟩

theorem checked_same {m m' : UInt64} (hm : m = 0xFFFFFFFFFFFFFFFF ↔ m' = 0xFFFFFFFFFFFFFFFF) (k : ℕ) {r r' : L Arr}
    (hr : Same Len r r') : (checked m k r).trace = (checked m' k r').trace := by
  unfold checked
  rw [show decide (m = 0xFFFFFFFFFFFFFFFF) = decide (m' = 0xFFFFFFFFFFFFFFFF) by simp only [hm]]
  rw [trace_bind, trace_bind]
  refine congrArg _ ?_
  split
  · exact (Same.seq (Q := Any) hr.1 ⟨rfl, trivial⟩).1
  · rfl

theorem expCheck_same (n : Arr) {a a' b b' : Arr} (ha : Len a a') (hb : Len b b') (k : ℕ) :
    (expCheck n a k b).trace = (expCheck n a' k b').trace := by
  unfold expCheck
  refine (Same.seq (Q := Any) rfl ?_).1
  refine Same.seq rfl ?_
  refine Same.seq ?_ (Same.seq (ltMask_same ha rfl).1 ⟨rfl, trivial⟩)
  refine (Same.seq (Q := Any) rfl ?_).1
  split
  · exact Same.seq rfl (ltMask_same hb rfl)
  · exact ⟨rfl, trivial⟩

theorem modExpConsttimeChecked_same (n : Arr) {a a' b b' : Arr} (ha : Len a a') (hb : Len b b') (k : ℕ)
    (hm : Limbs.expCheck n a k b = 0xFFFFFFFFFFFFFFFF ↔ Limbs.expCheck n a' k b' = 0xFFFFFFFFFFFFFFFF) :
    (modExpConsttimeChecked n a k b).trace = (modExpConsttimeChecked n a' k b').trace := by
  unfold modExpConsttimeChecked
  rw [trace_bind, trace_bind, expCheck_same n ha hb k]
  refine congrArg _ (checked_same (by rw [expCheck_val, expCheck_val]; exact hm) _ ?_)
  exact Same.seq rfl (modExpConsttime_same _ ha k b b')

theorem modInvPrime_same (n : Arr) {a a' : Arr} (ha : Len a a')
    (hm : ((Limbs.modCheck n &&& ~~~Limbs.eqMask a (List.replicate n.length 0)) &&& Limbs.ltMask a n) =
      ((Limbs.modCheck n &&& ~~~Limbs.eqMask a' (List.replicate n.length 0)) &&& Limbs.ltMask a' n)) :
    (modInvPrime n a).trace = (modInvPrime n a').trace := by
  unfold modInvPrime
  refine (Same.seq (Q := Any) rfl ?_).1
  refine Same.seq (eqMask_same ha rfl).1 ?_
  refine Same.seq (ltMask_same ha rfl).1 ⟨?_, trivial⟩
  refine checked_same (by simp only [modCheck_val, eqMask_val, ltMask_val, hm]) _ ?_
  exact Same.seq rfl (Same.seq rfl (modExpVartime_same _ ha _ _))

theorem mod_same (n : Arr) {a a' : Arr} (ha : Len a a') : (mod n a).trace = (mod n a').trace := by
  unfold mod
  rw [trace_bind, trace_bind]
  refine congrArg _ (checked_same Iff.rfl _ ?_)
  exact Same.seq rfl (modPrecomp_same _ ha)

/-- The same is observed for quotients of residues whose divisors are not zero. -/
theorem quotient_same (h : P.Denotes G) (hG : G.Valid) {pad data secret pad' data' secret' : Arr}
    (hp : pad.length = 64) (hd : data.length = 64) (hs : secret.length = 4) (hlt : val pad < G.p)
    (hp' : pad'.length = 64) (hd' : data'.length = 64) (hs' : secret'.length = 4) (hlt' : val pad' < G.p)
    (h0 : val pad ^ val secret % G.p ≠ 0) (h0' : val pad' ^ val secret' % G.p ≠ 0) :
    (quotient P pad data secret).trace = (quotient P pad' data' secret').trace := by
  have hl := h.plen
  obtain ⟨c1, c2, -⟩ := powChecked_spec h hG hp hs
  obtain ⟨c1', c2', -⟩ := powChecked_spec h hG hp' hs'
  obtain ⟨d, d1, d2, d3⟩ := c2 hlt
  obtain ⟨d', d1', d2', d3'⟩ := c2' hlt'
  have hp1 := hG.p_gt
  have hdl : val d < G.p := by rw [d3]; exact Nat.mod_lt _ (by omega)
  have hdl' : val d' < G.p := by rw [d3']; exact Nat.mod_lt _ (by omega)
  obtain ⟨i, i1, i2, i3⟩ := (inverse_spec h hG d2 hdl).1 (by rw [d3]; exact h0)
  obtain ⟨i', i1', i2', i3'⟩ := (inverse_spec h hG d2' hdl').1 (by rw [d3']; exact h0')
  obtain ⟨m1, m2⟩ := C67_mul data i (by omega)
  obtain ⟨m1', m2'⟩ := C67_mul data' i' (by omega)
  obtain ⟨r, r1, r2, r3⟩ := modChecked_spec h hG (a := Limbs.mulFull data i) (by omega)
  obtain ⟨r', r1', r2', r3'⟩ := modChecked_spec h hG (a := Limbs.mulFull data' i') (by omega)
  have hz : ∀ a : Arr, a.length = 64 → val a ≠ 0 → ¬a = List.replicate P.p.length 0 := by
    intro a _ h0 hh; exact h0 (by rw [hh]; exact val_replicate _)
  have e1 : (modExpConsttimeChecked P.p pad 512 (secret ++ zeros 60)).trace =
      (modExpConsttimeChecked P.p pad' 512 (secret' ++ zeros 60)).trace := by
    refine modExpConsttimeChecked_same _ (hp.trans hp'.symm) (by simp [Len, hs, hs']) 512 ?_
    rw [c1, c1', maskOf_eq, maskOf_eq]
    exact ⟨fun _ => hlt', fun _ => hlt⟩
  have e2 : (modInvPrime P.p d).trace = (modInvPrime P.p d').trace := by
    refine modInvPrime_same _ (d2.trans d2'.symm) ?_
    rw [eqMask_eq _ _ (by simp [d2, hl]), eqMask_eq _ _ (by simp [d2', hl]), ltMask_eq _ _ (by omega),
      ltMask_eq _ _ (by omega), h.p_eq]
    simp only [maskOf, hdl, hdl', hz d d2 (by rw [d3]; exact h0), hz d' d2' (by rw [d3']; exact h0')]
  unfold quotient
  refine (Same.seq (Q := Any) e1 ?_).1
  rw [modExpConsttimeChecked_val, modExpConsttimeChecked_val, d1, d1']
  refine Same.seq rfl ?_
  change Same Any (modInvPrime P.p d >>= _) (modInvPrime P.p d' >>= _)
  refine Same.seq e2 ?_
  rw [modInvPrime_val, modInvPrime_val, i1, i1']
  refine Same.seq (mulFull_same (hd.trans hd'.symm) (i2.trans i2'.symm)).1 ?_
  rw [mulFull_val, mulFull_val]
  refine Same.seq (mod_same _ (m1.trans (by rw [m1']; omega))) ?_
  rw [mod_val, mod_val, r1, r1']
  exact ⟨rfl, trivial⟩

/-- What is observed of `decrypt` depends on nothing but the result, if that is a vote. -/
theorem decrypt_same (h : P.Denotes G) (hG : G.Valid) {pad data secret pad' data' secret' : Arr}
    (hp : pad.length = 64) (hd : data.length = 64) (hs : secret.length = 4) (hlt : val pad < G.p)
    (hp' : pad'.length = 64) (hd' : data'.length = 64) (hs' : secret'.length = 4) (hlt' : val pad' < G.p)
    (hv : (decrypt P pad data secret).val = (decrypt P pad' data' secret').val)
    (h01 : (decrypt P pad data secret).val = 0 ∨ (decrypt P pad data secret).val = 1) :
    (decrypt P pad data secret).trace = (decrypt P pad' data' secret').trace := by
  obtain ⟨r, q1, q2, q3, q4⟩ := quotient_spec h hG hp hd hs hlt
  obtain ⟨r', q1', q2', q3', q4'⟩ := quotient_spec h hG hp' hd' hs' hlt'
  have hgl := h.glen
  obtain ⟨o1, o2⟩ := oneArr_spec 64 (by norm_num)
  have hdec : (decrypt P pad data secret).val = (outcome P r).val := by
    unfold decrypt; rw [val_bind, q1]
  have hdec' : (decrypt P pad' data' secret').val = (outcome P r').val := by
    unfold decrypt; rw [val_bind, q1']
  have key : ∀ r : Arr, r.length = 64 → ∀ v, (outcome P r).val = v → (v = 0 ∨ v = 1) →
      (v = 0 → r = oneArr 64) ∧ (v = 1 → r = P.g) := by
    intro r hr v hv h01
    rw [outcome_val] at hv
    by_cases c1 : Limbs.elemEq r (oneArr 64) = true
    · rw [if_pos c1] at hv
      refine ⟨fun _ => (elemEq_iff _ _ (by omega)).1 c1, fun h1 => ?_⟩
      rw [← hv] at h1; exact absurd h1 (by decide)
    · rw [if_neg c1] at hv
      by_cases c2 : Limbs.elemEq r P.g = true
      · rw [if_pos c2] at hv
        refine ⟨fun h1 => ?_, fun _ => (elemEq_iff _ _ (by omega)).1 c2⟩
        rw [← hv] at h1; exact absurd h1 (by decide)
      · rw [if_neg c2] at hv
        rcases h01 with h1 | h1 <;> (rw [← hv] at h1; exact absurd h1 (by decide))
  have k1 := key r q2 _ hdec.symm h01
  have k2 := key r' q2' _ hdec'.symm (by rw [← hv]; exact h01)
  have hg0 : G.g ≠ 0 := by have := hG.g_gt; omega
  have hne : val r ≠ 0 := by
    rcases h01 with h1 | h1
    · rw [k1.1 h1, o2]; norm_num
    · rw [k1.2 h1, h.g_eq]; exact hg0
  have hrr : r = r' := by
    rcases h01 with h1 | h1
    · rw [k1.1 h1, k2.1 (by rw [← hv]; exact h1)]
    · rw [k1.2 h1, k2.2 (by rw [← hv]; exact h1)]
  have hq := quotient_same h hG hp hd hs hlt hp' hd' hs' hlt' (fun h0 => hne (q4 h0))
    (fun h0 => hne (by rw [hrr]; exact q4' h0))
  unfold decrypt
  rw [trace_bind, trace_bind, hq, q1, q1', hrr]

end EG.Leak
