import Verif.Lemmas.ExpMem
import Verif.Props.Limbs

/-!
# C106: multiplication and exponentiation in memory, with scratch arrays and results over arguments
-/

namespace EG.Limbs

/-- C106, product: with a scratch array of four times the length, apart from the other arrays and with any
contents, the result is the product; only the result and the scratch array change.  `a` and `b` may
overlap in any way. -/
theorem C106_mul (k a b tmp res : ℕ) (m : Mem)
    (ha : Apart res (2 * k) a k) (hb : Apart res (2 * k) b k)
    (hta : Apart tmp (4 * k) a k) (htb : Apart tmp (4 * k) b k) (htr : Apart tmp (4 * k) res (2 * k)) :
    val ((karatsubaMulAt k k a b tmp res m).read res (2 * k)) = val (m.read a k) * val (m.read b k) ∧
    ∀ x, (x < res ∨ res + 2 * k ≤ x) → (x < tmp ∨ tmp + 4 * k ≤ x) →
      karatsubaMulAt k k a b tmp res m x = m x := by
  rw [Nat.two_mul] at *
  obtain ⟨h1, h2⟩ := karatsubaMulAt_spec k k a b tmp res m ha hb hta htb htr
  refine ⟨?_, h2⟩
  have h := (C67_mul (m.read a k) (m.read b k) (by rw [read_length, read_length])).2
  rw [mulFull, read_length] at h
  rw [h1, h]

/-- C106, square: with one more array, for the squares of the limbs. -/
theorem C106_sqr (k a tmp res loc : ℕ) (m : Mem)
    (ha : Apart res (2 * k) a k) (hta : Apart tmp (4 * k) a k) (htr : Apart tmp (4 * k) res (2 * k))
    (hla : Apart loc (2 * k) a k) (hlr : Apart loc (2 * k) res (2 * k)) (hlt : Apart loc (2 * k) tmp (4 * k)) :
    val ((karatsubaSqrAt loc k k a tmp res m).read res (2 * k)) = val (m.read a k) * val (m.read a k) ∧
    ∀ x, (x < res ∨ res + 2 * k ≤ x) → (x < tmp ∨ tmp + 4 * k ≤ x) → (x < loc ∨ loc + 2 * k ≤ x) →
      karatsubaSqrAt loc k k a tmp res m x = m x := by
  rw [Nat.two_mul] at *
  obtain ⟨h1, h2⟩ := karatsubaSqrAt_spec loc k k a tmp res m ha hta htr hla hlr hlt
  refine ⟨?_, h2⟩
  have h := (C67_sqr (m.read a k)).1
  rw [sqrFull, read_length] at h
  rw [h1, h]

/-- C106, Montgomery product: `r` may be `x`, `y` or both, or overlap them in any way.  The result times
`2^(64 k)` is the product modulo `n`; only the result and the local arrays change. -/
theorem C106_mont_mul (k n x y r st : ℕ) (m : Mem) (hn : OddMod (m.read n k)) (hl : k ≤ 2 ^ 24)
    (hsn : Apart st (9 * k) n k) (hsx : Apart st (9 * k) x k) (hsy : Apart st (9 * k) y k)
    (hsr : Apart st (9 * k) r k) (hrn : Apart r k n k) :
    val ((amontMulAt k n (modInvLimb (m n)) x y r st m).read r k) * 2 ^ (64 * k) % val (m.read n k) =
      val (m.read x k) * val (m.read y k) % val (m.read n k) ∧
    ∀ z, (z < r ∨ r + k ≤ z) → (z < st ∨ st + 9 * k ≤ z) →
      amontMulAt k n (modInvLimb (m n)) x y r st m z = m z := by
  have hk : 0 < k := by have := hn.pos; rwa [read_length] at this
  have hg := hn.ctx (by rwa [read_length])
  obtain ⟨h1, h2⟩ := amontMulAt_spec k n (modInvLimb (m n)) x y r st m (ctxInit (m.read n k)) rfl
    (by show modInvLimb ((m.read n k).getD 0 0) = _; rw [getD_read _ _ _ _ hk, Nat.add_zero])
    hsn hsx hsy hsr hrn
  refine ⟨?_, h2⟩
  rw [h1, (amontMul_val _ _ _ (by rw [read_length]; exact (read_length _ _ _).symm)
    (by rw [read_length]; exact (read_length _ _ _).symm)).2]
  have hx : val (m.read x k) < Hacl.R k := by have := val_lt (m.read x k); rwa [read_length] at this
  have hy : val (m.read y k) < Hacl.R k := by have := val_lt (m.read y k); rwa [read_length] at this
  have hkk : (ctxInit (m.read n k)).toHacl.k = k := read_length _ _ _
  have := (Hacl.areduction_spec _ _ _ _ hg.good.toGoodMod hg.good.mu
    (show val (m.read x k) * val (m.read y k) < Hacl.R (ctxInit (m.read n k)).toHacl.k *
      Hacl.R (ctxInit (m.read n k)).toHacl.k by
        rw [hkk]; exact Nat.mul_lt_mul_of_lt_of_lt hx hy)).2
  rw [hkk] at this
  refine (ZMod.natCast_eq_natCast_iff' _ _ _).1 ?_
  rw [Nat.cast_mul]
  have e : Hacl.amontMul (ctxInit (m.read n k)).toHacl (val (m.read x k)) (val (m.read y k)) =
      Hacl.areduction k (ctxInit (m.read n k)).toHacl.n (ctxInit (m.read n k)).toHacl.mu
        (val (m.read x k) * val (m.read y k)) := by
    rw [Hacl.amontMul, hkk]
  rw [e]
  exact this

/-- The arrays of an exponentiation: the modulus and its constants, the base, the exponent and the result
are apart from the local arrays (which begin at `st`); the result is apart from the modulus.  Everything
else may overlap: the result may be the base or (a part of) the exponent. -/
structure ExpMem (k n r2 a b l res st : ℕ) : Prop where
  hn : Apart st (32 * k) n k
  hr2 : Apart st (32 * k) r2 k
  ha : Apart st (32 * k) a k
  hb : Apart st (32 * k) b l
  hres : Apart st (32 * k) res k
  modulus : Apart res k n k

theorem ExpMem.env {k n r2 a b l res st : ℕ} (h : ExpMem k n r2 a b l res st) (m : Mem) (hk : 0 < k)
    (hr2 : m.read r2 k = (ctxInit (m.read n k)).r2) :
    Env m k n (modInvLimb (m n)) r2 st (ctxInit (m.read n k)) where
  ctx := {
    n := rfl
    mu := by show modInvLimb ((m.read n k).getD 0 0) = _; rw [getD_read _ _ _ _ hk, Nat.add_zero]
    r2 := hr2.symm }
  n := h.hn
  r2 := h.hr2

/-- C106, exponentiation: with the constants of the modulus in memory, both functions write the power to the
result, whatever the local arrays held before, and change nothing but the result and the local arrays. -/
theorem C106_exp (k n r2 a bBits b l res st : ℕ) (m : Mem) (h : ExpMem k n r2 a b l res st)
    (hn : OddMod (m.read n k)) (hl : k ≤ 2 ^ 24) (hr2 : m.read r2 k = (ctxInit (m.read n k)).r2)
    (hb : bBits ≤ 64 * l) (hlt : val (m.read b l) < 2 ^ bBits) :
    (val ((expVartimeAt k n (modInvLimb (m n)) r2 a bBits b res st m).read res k) =
      val (m.read a k) ^ val (m.read b l) % val (m.read n k) ∧
     val ((expConsttimeAt k n (modInvLimb (m n)) r2 a bBits b res st m).read res k) =
      val (m.read a k) ^ val (m.read b l) % val (m.read n k)) ∧
    ∀ z, (z < res ∨ res + k ≤ z) → (z < st ∨ st + 32 * k ≤ z) →
      expVartimeAt k n (modInvLimb (m n)) r2 a bBits b res st m z = m z ∧
      expConsttimeAt k n (modInvLimb (m n)) r2 a bBits b res st m z = m z := by
  have hk : 0 < k := by have := hn.pos; rwa [read_length] at this
  have env := h.env m hk hr2
  have hv := (C68_exp_vartime (m.read n k) (m.read a k) (m.read b l) bBits hn (by rwa [read_length])
    (by rw [read_length, read_length]) (by rwa [read_length]) hlt).2
  have hc := (C68_exp_consttime (m.read n k) (m.read a k) (m.read b l) bBits hn (by rwa [read_length])
    (by rw [read_length, read_length]) (by rwa [read_length]) hlt).2
  unfold modExpVartime at hv
  unfold modExpConsttime at hc
  unfold expVartimeAt expConsttimeAt
  by_cases h200 : bBits < 200
  · rw [if_pos h200] at hv hc
    rw [if_pos h200, if_pos h200]
    obtain ⟨v1, v2⟩ := env.expBinary a bBits b l res h.ha h.hb hb h.hres h.modulus
    obtain ⟨c1, c2⟩ := env.expLadder a bBits b l res h.ha h.hb hb h.hres h.modulus
    exact ⟨⟨by rw [v1, hv], by rw [c1, hc]⟩, fun z h1 h2 => ⟨v2 z h1 h2, c2 z h1 h2⟩⟩
  · rw [if_neg h200] at hv hc
    rw [if_neg h200, if_neg h200]
    obtain ⟨v1, v2⟩ := env.expWindow lookVartimeAt lookVartime lookVartime_ok a bBits b l res h.ha h.hb hb
      (by omega) h.hres h.modulus
    obtain ⟨c1, c2⟩ := env.expWindow lookConsttimeAt lookConsttime lookConsttime_ok a bBits b l res h.ha h.hb hb
      (by omega) h.hres h.modulus
    exact ⟨⟨by rw [v1, hv], by rw [c1, hc]⟩, fun z h1 h2 => ⟨v2 z h1 h2, c2 z h1 h2⟩⟩

/-- A caller may give the base as the result: then the base is the power afterwards. -/
theorem C106_exp_in_place (k n r2 a bBits b l st : ℕ) (m : Mem) (h : ExpMem k n r2 a b l a st)
    (hn : OddMod (m.read n k)) (hl : k ≤ 2 ^ 24) (hr2 : m.read r2 k = (ctxInit (m.read n k)).r2)
    (hb : bBits ≤ 64 * l) (hlt : val (m.read b l) < 2 ^ bBits) :
    val ((expVartimeAt k n (modInvLimb (m n)) r2 a bBits b a st m).read a k) =
      val (m.read a k) ^ val (m.read b l) % val (m.read n k) :=
  (C106_exp k n r2 a bBits b l a st m h hn hl hr2 hb hlt).1.1

/-- One limb: the modulus 3 at address 0, a number at address 1. -/
def threeMem : Mem := fun x => if x = 0 then 3 else if x = 1 then 1 else 0

/-- The result must be apart from the modulus: the last step compares with the modulus after it wrote the
result. -/
theorem C106_modulus_needed :
    (fromMontAt 1 0 (modInvLimb 3) 1 8 2 16 threeMem).read 2 1 = [1] ∧
    (fromMontAt 1 0 (modInvLimb 3) 1 8 0 16 threeMem).read 0 1 = [0] := by
  decide +kernel

/-- The layout of a call with 4096 bits: modulus, constants, base, exponent of 256 bits, result over the
base. -/
example : ExpMem 64 0 64 128 192 4 128 1000 := by
  constructor <;> unfold Apart <;> omega

/-- The power `2^5` modulo 3, over the base: the hypotheses of C106 hold in this memory. -/
def powMem : Mem := fun x => if x = 0 then 3 else if x = 1 then 1 else if x = 2 then 2 else if x = 3 then 5 else 7

example : ExpMem 1 0 1 2 3 1 2 8 ∧ OddMod (powMem.read 0 1) ∧
    powMem.read 1 1 = (ctxInit (powMem.read 0 1)).r2 ∧ val (powMem.read 3 1) < 2 ^ 3 := by
  refine ⟨by constructor <;> unfold Apart <;> omega, ?_, ?_, ?_⟩
  · unfold OddMod; decide +kernel
  · decide +kernel
  · decide +kernel

example : Apart 1000 (9 * 64) 0 64 ∧ Apart 64 64 0 64 := by unfold Apart; omega

end EG.Limbs
