import Verif.Lemmas.ModMem
import Verif.Props.KaratsubaMem

/-!
# C107: reduction and exponentiation from the modulus alone, in memory; unrolled loops
-/

namespace EG.Limbs

/-- C107, loops: four limbs at a time, and then the rest, is the same as limb by limb, for every length. -/
theorem C107_unrolled (k n a b res tmp : ℕ) (m : Mem) :
    addUnrolled k a b res m = addAt k 0 a b res m ∧ subUnrolled k a b res m = subAt k 0 a b res m ∧
    mulUnrolled k a b res m = mulAt k k a b res m ∧
    addModUnrolled k n a b res tmp m = addModAt k n a b res tmp m ∧
    subModUnrolled k n a b res tmp m = subModAt k n a b res tmp m := by
  refine ⟨addUnrolled_eq _ _ _ _ _, subUnrolled_eq _ _ _ _ _, mulUnrolled_eq _ _ _ _ _, ?_, ?_⟩
  · unfold addModUnrolled addModAt
    dsimp only
    rw [addUnrolled_eq, subUnrolled_eq]
  · unfold subModUnrolled subModAt
    dsimp only
    rw [subUnrolled_eq, addUnrolled_eq]

/-- C107, 256 bits: the sum, the carry and the product of the unrolled functions for four limbs. -/
theorem C107_bignum256 (a b res : ℕ) (m : Mem) :
    (Safe 4 a res → Safe 4 b res →
      val ((addUnrolled 4 a b res m).1.read res 4) + 2 ^ 256 * (addUnrolled 4 a b res m).2.toNat =
        val (m.read a 4) + val (m.read b 4)) ∧
    (Safe 4 a res → Safe 4 b res →
      val ((subUnrolled 4 a b res m).1.read res 4) + val (m.read b 4) =
        val (m.read a 4) + 2 ^ 256 * (subUnrolled 4 a b res m).2.toNat) ∧
    (Apart res 8 a 4 → Apart res 8 b 4 →
      val ((mulUnrolled 4 a b res m).read res 8) = val (m.read a 4) * val (m.read b 4)) := by
  have hl : ∀ p, (m.read p 4).length = 4 := fun p => read_length m p 4
  refine ⟨fun ha hb => ?_, fun ha hb => ?_, fun ha hb => ?_⟩
  · obtain ⟨h1, h2, -⟩ := C105_add 4 a b res 0 m ha hb
    obtain ⟨-, -, h⟩ := C67_add (m.read a 4) (m.read b 4) (by rw [hl, hl])
    rw [hl] at h
    rw [addUnrolled_eq, h1, h2]
    exact h
  · obtain ⟨h1, h2, -⟩ := C105_sub 4 a b res 0 m ha hb
    obtain ⟨-, h⟩ := C67_sub (m.read a 4) (m.read b 4) (by rw [hl, hl])
    rw [hl] at h
    rw [subUnrolled_eq, h1, h2]
    change val (sub (m.read a 4) (m.read b 4)).1 + _ = _ + 2 ^ 256 * (sub (m.read a 4) (m.read b 4)).2.toNat
    have hb' := val_lt (m.read b 4)
    rw [hl] at hb'
    rcases h with ⟨h3, h4, h5⟩ | ⟨h3, h4, h5⟩
    · rw [h4, h5]
      change _ = _ + 2 ^ 256 * 0
      omega
    · rw [h4, h5]
      change 2 ^ 256 - _ + _ = _ + 2 ^ 256 * 1
      have : (2 : ℕ) ^ (64 * 4) = 2 ^ 256 := rfl
      omega
  · obtain ⟨h1, -⟩ := C105_mul 4 4 a b res m ha hb
    have h2 := (C67_mul (m.read a 4) (m.read b 4) (by rw [hl, hl])).2
    have h3 : mulFull (m.read a 4) (m.read b 4) = mul (m.read a 4) (m.read b 4) := by
      rw [mulFull, hl]
      rfl
    rw [mulUnrolled_eq, h1, ← h3, h2]

/-- C107, Montgomery product of the unrolled functions: as the functions of any length (C106). -/
theorem C107_mont_mul (k n x y r st : ℕ) (mu : UInt64) (m : Mem) (hk : k < 32)
    (hn : Apart st (3 * k) n k) (hx : Apart st (3 * k) x k) (hy : Apart st (3 * k) y k)
    (hr : Apart st (3 * k) r k) (hrn : Apart r k n k) :
    (amontMulUnrolled k n mu x y r st m).read r k =
      amontMul ⟨m.read n k, mu, []⟩ (m.read x k) (m.read y k) ∧
    ∀ z, (z < r ∨ r + k ≤ z) → (z < st ∨ st + 3 * k ≤ z) → amontMulUnrolled k n mu x y r st m z = m z := by
  unfold amontMulUnrolled amontMul mulFull
  unfold Apart at hn hx hy hr
  rw [areductionUnrolled_eq, mulUnrolled_eq]
  obtain ⟨a1, a3⟩ := C105_mul k k x y st m (by unfold Apart; omega) (by unfold Apart; omega)
  generalize mulAt k k x y st m = m1 at a1 a3 ⊢
  obtain ⟨b1, b3⟩ := areductionAt_spec k n mu st r (st + 2 * k) m1 (by unfold Apart; omega)
    (by unfold Apart; omega) hrn (by unfold Apart; omega) (by unfold Apart; omega)
  refine ⟨?_, ?_⟩
  · rw [b1, a1, a3.read n k (by unfold Apart; omega), read_length]
    dsimp only
    congr 1
    cases k with
    | zero => rfl
    | succ k => rw [karatsubaMul, if_pos (by rw [read_length]; omega)]
  · intro z h1 h2
    rw [b3 z h1 (by omega) (by omega), a3 z (by omega)]

/-- C107, Montgomery square: the local array of the squares is behind that of the product. -/
theorem C107_mont_sqr (k n x r st : ℕ) (mu : UInt64) (m : Mem) (hk : k < 32)
    (hn : Apart st (5 * k) n k) (hx : Apart st (5 * k) x k)
    (hr : Apart st (5 * k) r k) (hrn : Apart r k n k) :
    (amontSqrUnrolled k n mu x r st m).read r k = amontSqr ⟨m.read n k, mu, []⟩ (m.read x k) ∧
    ∀ z, (z < r ∨ r + k ≤ z) → (z < st ∨ st + 5 * k ≤ z) → amontSqrUnrolled k n mu x r st m z = m z := by
  unfold amontSqrUnrolled amontSqr sqrFull
  unfold Apart at hn hx hr
  rw [areductionUnrolled_eq, sqrUnrolled_eq]
  obtain ⟨a1, a3⟩ := sqrAt_spec k x st (st + 3 * k) m (by unfold Apart; omega) (by unfold Apart; omega)
    (by unfold Apart; omega)
  generalize sqrAt k x st (st + 3 * k) m = m1 at a1 a3 ⊢
  obtain ⟨b1, b3⟩ := areductionAt_spec k n mu st r (st + 2 * k) m1 (by unfold Apart; omega)
    (by unfold Apart; omega) hrn (by unfold Apart; omega) (by unfold Apart; omega)
  refine ⟨?_, ?_⟩
  · rw [b1, a1, a3.read n k (by unfold Apart; omega) (by unfold Apart; omega), read_length]
    dsimp only
    congr 1
    cases k with
    | zero => rfl
    | succ k => rw [karatsubaSqr, if_pos (by rw [read_length]; omega)]
  · intro z h1 h2
    rw [b3 z h1 (by omega) (by omega), a3 z (by omega) (by omega)]

/-- C107, reduction: `mod` returns true exactly if the modulus is odd and greater than one; then the
result is the remainder, else zero.  The result may overlap the number in any way. -/
theorem C107_mod (k n a res st : ℕ) (m : Mem) (h0 : 0 < k) (hl : k ≤ 2 ^ 24)
    (hn : Apart st (13 * k) n k) (ha : Apart st (13 * k) a (2 * k)) (hr : Apart st (13 * k) res k)
    (hrn : Apart res k n k) :
    ((modAt k n a res st m).1 = true ↔ val (m.read n k) % 2 = 1 ∧ 1 < val (m.read n k)) ∧
    val ((modAt k n a res st m).2.read res k) =
      (if val (m.read n k) % 2 = 1 ∧ 1 < val (m.read n k) then val (m.read a (2 * k)) % val (m.read n k)
       else 0) ∧
    ∀ z, (z < res ∨ res + k ≤ z) → (z < st ∨ st + 13 * k ≤ z) → (modAt k n a res st m).2 z = m z := by
  unfold modAt
  rw [modCheck_eq (m.read n k) (by rwa [read_length])]
  by_cases h : val (m.read n k) % 2 = 1 ∧ 1 < val (m.read n k)
  · rw [if_pos ((maskOf_eq _).2 h), if_pos h]
    dsimp only
    obtain ⟨c1, c2⟩ := precomp_ctx k n st (13 * k) m h0 hl (by omega) hn
    generalize precompR2At k n (nBitsAt k n m) st (st + k) (zeroAt k st m) = m1 at c1 c2 ⊢
    unfold Apart at hn ha hr
    obtain ⟨d1, d2⟩ := slowPrecompAt_spec k n (modInvLimb (m n)) st a res (st + 2 * k) m1 _ c1
      (by unfold Apart; omega) (by unfold Apart; omega) (by unfold Apart; omega) (by unfold Apart; omega) hrn
    refine ⟨⟨fun _ => h, fun _ => rfl⟩, ?_, ?_⟩
    · rw [d1, c2.read a (2 * k) (by unfold Apart; omega)]
      exact (C68_mod_precomp (m.read n k) (m.read a (2 * k)) h (by rwa [read_length])
        (by rw [read_length, read_length]; omega)).2
    · intro z h1 h2
      rw [d2 z h1 (by omega), c2 z (by omega)]
  · have hm : ¬maskOf (val (m.read n k) % 2 = 1 ∧ 1 < val (m.read n k)) = 0xFFFFFFFFFFFFFFFF := by
      rw [maskOf, if_neg h]
      decide
    rw [if_neg hm, if_neg h]
    dsimp only
    obtain ⟨z1, z2⟩ := zeroAt_spec k res m
    refine ⟨⟨fun e => by simp at e, fun e => absurd e h⟩, ?_, fun z h1 _ => z2 z h1⟩
    rw [z1, val_replicate]

/-- The arrays of an exponentiation that is given the modulus only. -/
structure ModExpMem (k n a b l res st : ℕ) : Prop where
  hn : Apart st (34 * k) n k
  ha : Apart st (34 * k) a k
  hb : Apart st (34 * k) b l
  hres : Apart st (34 * k) res k
  modulus : Apart res k n k

/-- C107, exponentiation: both functions return true exactly if the documented conditions hold; then the
result is the power, else zero; the result may be the base or (a part of) the exponent. -/
theorem C107_mod_exp (k n a bBits b res st : ℕ) (m : Mem) (h0 : 0 < k) (hl : k ≤ 2 ^ 24)
    (h : ModExpMem k n a b (bLen bBits) res st) :
    (((modExpVartimeAt k n a bBits b res st m).1 = true ↔
      ExpArgs (m.read n k) (m.read a k) bBits (m.read b (bLen bBits))) ∧
     ((modExpConsttimeAt k n a bBits b res st m).1 = true ↔
      ExpArgs (m.read n k) (m.read a k) bBits (m.read b (bLen bBits)))) ∧
    (ExpArgs (m.read n k) (m.read a k) bBits (m.read b (bLen bBits)) →
      val ((modExpVartimeAt k n a bBits b res st m).2.read res k) =
        val (m.read a k) ^ val (m.read b (bLen bBits)) % val (m.read n k) ∧
      val ((modExpConsttimeAt k n a bBits b res st m).2.read res k) =
        val (m.read a k) ^ val (m.read b (bLen bBits)) % val (m.read n k)) ∧
    (¬ExpArgs (m.read n k) (m.read a k) bBits (m.read b (bLen bBits)) →
      val ((modExpVartimeAt k n a bBits b res st m).2.read res k) = 0 ∧
      val ((modExpConsttimeAt k n a bBits b res st m).2.read res k) = 0) ∧
    ∀ z, (z < res ∨ res + k ≤ z) → (z < st ∨ st + 34 * k ≤ z) →
      (modExpVartimeAt k n a bBits b res st m).2 z = m z ∧
      (modExpConsttimeAt k n a bBits b res st m).2 z = m z := by
  unfold modExpVartimeAt modExpConsttimeAt
  rw [expCheck_eq (m.read n k) (m.read a k) (m.read b (bLen bBits)) bBits (by rwa [read_length])
    (by rw [read_length, read_length]) (by rw [read_length])]
  by_cases hx : ExpArgs (m.read n k) (m.read a k) bBits (m.read b (bLen bBits))
  · have hx' := hx
    unfold ExpArgs OddMod at hx'
    have hm := (maskOf_eq _).2 hx'
    rw [if_pos hm, if_pos hm]
    dsimp only
    obtain ⟨c1, c2⟩ := precomp_ctx k n st (34 * k) m h0 hl (by omega) h.hn
    generalize precompR2At k n (nBitsAt k n m) st (st + k) (zeroAt k st m) = m1 at c1 c2 ⊢
    obtain ⟨gn, ga, gb, gr, gm⟩ := h
    unfold Apart at gn ga gb gr
    have hmem : ExpMem k n st a b (bLen bBits) res (st + 2 * k) := by
      constructor <;> first | exact gm | (unfold Apart; omega)
    have en : m1.read n k = m.read n k := c2.read n k (by unfold Apart; omega)
    have ea : m1.read a k = m.read a k := c2.read a k (by unfold Apart; omega)
    have eb : m1.read b (bLen bBits) = m.read b (bLen bBits) := c2.read b _ (by unfold Apart; omega)
    have emn : m1 n = m n := by
      have := congrArg (fun r : Arr => r.getD 0 0) en
      simp only [getD_read _ _ _ _ h0, Nat.add_zero] at this
      exact this
    obtain ⟨d1, d2⟩ := C106_exp k n st a bBits b (bLen bBits) res (st + 2 * k) m1 hmem (by rw [en]; exact hx.1)
      hl (by rw [en, ← c1.r2]) (bLen_pos bBits).1 (by rw [eb]; exact hx.2.1)
    rw [en, ea, eb, emn] at d1
    rw [emn] at d2
    refine ⟨⟨⟨fun _ => hx, fun _ => rfl⟩, ⟨fun _ => hx, fun _ => rfl⟩⟩, fun _ => d1, fun hh => absurd hx hh, ?_⟩
    intro z h1 h2
    obtain ⟨e1, e2⟩ := d2 z h1 (by omega)
    exact ⟨by rw [e1, c2 z (by omega)], by rw [e2, c2 z (by omega)]⟩
  · have hx' := hx
    unfold ExpArgs OddMod at hx'
    have hm : ¬maskOf ((val (m.read n k) % 2 = 1 ∧ 1 < val (m.read n k)) ∧
        val (m.read b (bLen bBits)) < 2 ^ bBits ∧ val (m.read a k) < val (m.read n k)) = 0xFFFFFFFFFFFFFFFF := by
      rw [maskOf, if_neg hx']
      decide
    rw [if_neg hm, if_neg hm]
    dsimp only
    obtain ⟨z1, z2⟩ := zeroAt_spec k res m
    refine ⟨⟨⟨fun e => by simp at e, fun e => absurd e hx⟩, ⟨fun e => by simp at e, fun e => absurd e hx⟩⟩,
      fun e => absurd e hx, fun _ => ?_, fun z h1 _ => ⟨z2 z h1, z2 z h1⟩⟩
    rw [z1, val_replicate]
    exact ⟨rfl, rfl⟩

/-- C107, contexts: the new context holds the modulus and its constants, so that the functions that take a
context (C106) can be called with it, also after the memory of the argument has changed. -/
theorem C107_context (k n n1 r2 st : ℕ) (m : Mem) (h0 : 0 < k) (hl : k ≤ 2 ^ 24)
    (h1 : Apart n1 k n k) (h2 : Apart r2 k n k) (h3 : Apart n1 k r2 k) (h4 : Apart st k n k)
    (h5 : Apart st k r2 k) (h6 : Apart st k n1 k) :
    (ctxInitAt k n n1 r2 st m).2.read n1 k = m.read n k ∧
    (ctxInitAt k n n1 r2 st m).1 = modInvLimb ((ctxInitAt k n n1 r2 st m).2 n1) ∧
    (ctxInitAt k n n1 r2 st m).2.read r2 k = (ctxInit ((ctxInitAt k n n1 r2 st m).2.read n1 k)).r2 := by
  unfold ctxInitAt
  dsimp only
  obtain ⟨-, z1⟩ := zeroAt_spec k r2 m
  generalize zeroAt k r2 m = m1 at z1 ⊢
  obtain ⟨-, z2⟩ := zeroAt_spec k n1 m1
  generalize zeroAt k n1 m1 = m2 at z2 ⊢
  have en2 : m2.read n k = m.read n k := by rw [z2.read n k h1, z1.read n k h2]
  obtain ⟨a1, a2⟩ := copyAt_spec k n1 n m2 h1.safe
  generalize copyAt k n1 n m2 = m3 at a1 a2 ⊢
  have en3 : m3.read n k = m.read n k := by rw [a2.read n k h1, en2]
  obtain ⟨p1, p2⟩ := precompR2At_spec k n (nBitsAt k n m3) r2 st m3 (nBitsAt_lt k n m3 h0 hl) h2 h5 h4
  have e1 : (precompR2At k n (nBitsAt k n m3) r2 st m3).read n1 k = m.read n k := by
    rw [p2.read n1 k (by unfold Apart at *; omega) h6, a1, en2]
  refine ⟨e1, ?_, ?_⟩
  · have hn1 : (precompR2At k n (nBitsAt k n m3) r2 st m3) n1 = m3 n := by
      have := congrArg (fun r : Arr => r.getD 0 0) (e1.trans en3.symm)
      simp only [getD_read _ _ _ _ h0, Nat.add_zero] at this
      exact this
    rw [hn1]
  · rw [p1, e1, en3]
    show precompR2 (m.read n k) (nBitsAt k n m3) = precompR2 (m.read n k) (64 * (topIndex (m.read n k)).toNat)
    unfold nBitsAt
    rw [en3]

/-- The layout of group.cpp:751-783: `q`, the product of eight limbs, the result of four. -/
example : Apart 100 (13 * 4) 0 4 ∧ Apart 100 (13 * 4) 4 (2 * 4) ∧ Apart 100 (13 * 4) 12 4 ∧ Apart 12 4 0 4 := by
  unfold Apart; omega

/-- The result over the number that is reduced. -/
example : Apart 100 (13 * 4) 4 (2 * 4) ∧ Apart 4 4 0 4 := by unfold Apart; omega

example : ModExpMem 64 0 64 128 (bLen 256) 64 1000 := by
  constructor <;> unfold Apart <;> decide

example : (modAt 1 0 1 3 10 (fun x => if x = 0 then 7 else if x = 1 then 5 else if x = 2 then 1 else 9)).1 = true := by
  rw [(C107_mod 1 0 1 3 10 _ (by decide) (by decide) (by unfold Apart; decide) (by unfold Apart; decide)
    (by unfold Apart; decide) (by unfold Apart; decide)).1]
  decide +kernel

end EG.Limbs
