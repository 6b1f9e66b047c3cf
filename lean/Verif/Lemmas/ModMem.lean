import Verif.Model.ModMem
import Verif.Lemmas.ExpMem
import Verif.Props.Limbs

/-! # Lemmas about unrolled loops and the functions that compute the constants of the modulus -/

namespace EG.Limbs

theorem foldl_four {σ : Type} (f : σ → ℕ → σ) (q : ℕ) (s : σ) :
    (List.range q).foldl (fun s i => f (f (f (f s (4 * i)) (4 * i + 1)) (4 * i + 2)) (4 * i + 3)) s =
      (List.range (q * 4)).foldl f s := by
  induction q generalizing s with
  | zero => rfl
  | succ q ih =>
    rw [List.range_succ, List.foldl_append, ih, show (q + 1) * 4 = q * 4 + 1 + 1 + 1 + 1 by omega,
      List.range_succ, List.range_succ, List.range_succ, List.range_succ]
    simp only [List.foldl_append, List.foldl_cons, List.foldl_nil, Nat.mul_comm 4 q]

theorem unrolled_eq {σ : Type} (f : σ → ℕ → σ) (len : ℕ) (s : σ) :
    unrolled f len s = (List.range len).foldl f s := by
  unfold unrolled
  dsimp only
  rw [foldl_four, ← List.foldl_append]
  congr 1
  rw [List.range_eq_range', List.range_eq_range']
  have h := List.range'_append_1 (s := 0) (m := len / 4 * 4) (n := len - len / 4 * 4)
  rw [Nat.zero_add] at h
  rw [h]
  congr 1
  omega

theorem foldl_shift {σ : Type} (f : σ → ℕ → σ) (n : ℕ) (s : σ) :
    (List.range (n + 1)).foldl f s = (List.range n).foldl (fun s i => f s (i + 1)) (f s 0) := by
  rw [List.range_succ_eq_map, List.foldl_cons, List.foldl_map]

theorem addAt_eq_foldl (n : ℕ) (c : UInt64) (a b res : ℕ) (m : Mem) :
    addAt n c a b res m = (List.range n).foldl (addStep a b res) (m, c) := by
  induction n generalizing c a b res m with
  | zero => rfl
  | succ n ih =>
    rw [foldl_shift, addAt, ih]
    congr 1
    funext s i
    unfold addStep
    rw [Nat.add_assoc a, Nat.add_assoc b, Nat.add_assoc res, Nat.add_comm 1 i]

theorem subAt_eq_foldl (n : ℕ) (c : UInt64) (a b res : ℕ) (m : Mem) :
    subAt n c a b res m = (List.range n).foldl (subStep a b res) (m, c) := by
  induction n generalizing c a b res m with
  | zero => rfl
  | succ n ih =>
    rw [foldl_shift, subAt, ih]
    congr 1
    funext s i
    unfold subStep
    rw [Nat.add_assoc a, Nat.add_assoc b, Nat.add_assoc res, Nat.add_comm 1 i]

theorem rowAt_eq_foldl (l : UInt64) (n : ℕ) (c : UInt64) (a res : ℕ) (m : Mem) :
    rowAt l n c a res m = (List.range n).foldl (rowStep l a res) (m, c) := by
  induction n generalizing c a res m with
  | zero => rfl
  | succ n ih =>
    rw [foldl_shift, rowAt, ih]
    congr 1
    funext s i
    unfold rowStep
    rw [Nat.add_assoc a, Nat.add_assoc res, Nat.add_comm 1 i]

theorem addUnrolled_eq (k a b res : ℕ) (m : Mem) : addUnrolled k a b res m = addAt k 0 a b res m := by
  rw [addUnrolled, unrolled_eq, addAt_eq_foldl]

theorem subUnrolled_eq (k a b res : ℕ) (m : Mem) : subUnrolled k a b res m = subAt k 0 a b res m := by
  rw [subUnrolled, unrolled_eq, subAt_eq_foldl]

theorem rowUnrolled_eq (l : UInt64) (k a res : ℕ) (m : Mem) :
    rowUnrolled l k a res m = rowAt l k 0 a res m := by
  rw [rowUnrolled, unrolled_eq, rowAt_eq_foldl]

theorem mulUnrolled_eq (k a b res : ℕ) (m : Mem) : mulUnrolled k a b res m = mulAt k k a b res m := by
  unfold mulUnrolled mulAt
  congr 1
  funext m i
  rw [rowUnrolled_eq]
  rfl

theorem sqrUnrolled_eq (k a res loc : ℕ) (m : Mem) : sqrUnrolled k a res loc m = sqrAt k a res loc m := by
  unfold sqrUnrolled sqrAt
  dsimp only
  rw [addUnrolled_eq, addUnrolled_eq]
  have h : (fun (m : Mem) i =>
      (rowUnrolled (m (a + i)) i a (res + i) m).1.set (res + (i + i))
        (rowUnrolled (m (a + i)) i a (res + i) m).2) = sqrStepAt a res := by
    funext m i
    rw [rowUnrolled_eq]
    rfl
  rw [h]

theorem redcUnrolled_eq (k n : ℕ) (nInv : UInt64) (c : ℕ) (m : Mem) :
    redcUnrolled k n nInv c m = (List.range k).foldl (redcStepAt k n nInv c) (m, 0) := by
  unfold redcUnrolled
  congr 1
  funext s i
  rw [rowUnrolled_eq]
  rfl

theorem reductionUnrolled_eq (k n : ℕ) (nInv : UInt64) (c res tmp : ℕ) (m : Mem) :
    reductionUnrolled k n nInv c res tmp m = reductionAt k n nInv c res tmp m := by
  unfold reductionUnrolled reductionAt
  dsimp only
  rw [redcUnrolled_eq, subUnrolled_eq]

theorem areductionUnrolled_eq (k n : ℕ) (nInv : UInt64) (c res tmp : ℕ) (m : Mem) :
    areductionUnrolled k n nInv c res tmp m = areductionAt k n nInv c res tmp m := by
  unfold areductionUnrolled areductionAt
  dsimp only
  rw [redcUnrolled_eq, subUnrolled_eq]

/-! ## The constants of the modulus -/

theorem doublingsAt_frame (k n res tmp i : ℕ) (m : Mem)
    (hn : Apart res k n k) (ht : Apart tmp k res k) (htn : Apart tmp k n k) :
    Frame2 m (doublingsAt k n res tmp i m) res k tmp k := by
  induction i generalizing m with
  | zero => exact fun _ _ _ => rfl
  | succ i ih =>
    obtain ⟨-, h2⟩ := C105_addMod k n res res res tmp m (safe_self _ _) (safe_self _ _) hn ht htn
    intro x hx hy
    rw [doublingsAt, ih _ x hx hy, h2 x hx hy]

theorem nBitsAt_lt (k n : ℕ) (m : Mem) (hk : 0 < k) (hl : k ≤ 2 ^ 24) : nBitsAt k n m / 64 < k := by
  unfold nBitsAt
  rw [topIndex_val _ (by rw [read_length]; omega), read_length]
  have := topIndex_lt' (val (m.read n k)) k hk
  omega

theorem precompR2At_spec (k n nBits res tmp : ℕ) (m : Mem) (hb : nBits / 64 < k)
    (hn : Apart res k n k) (ht : Apart tmp k res k) (htn : Apart tmp k n k) :
    (precompR2At k n nBits res tmp m).read res k = precompR2 (m.read n k) nBits ∧
    Frame2 m (precompR2At k n nBits res tmp m) res k tmp k := by
  unfold precompR2At precompR2
  dsimp only
  obtain ⟨z0, z1⟩ := zeroAt_spec k res m
  generalize zeroAt k res m = m1 at z0 z1 ⊢
  have hg : m1 (res + nBits / 64) = (List.replicate (m.read n k).length (0 : UInt64)).getD (nBits / 64) 0 := by
    rw [read_length, ← z0, getD_read _ _ _ _ hb]
  rw [hg]
  generalize (List.replicate (m.read n k).length (0 : UInt64)).getD (nBits / 64) 0 |||
    (1 : UInt64) <<< UInt64.ofNat (nBits % 64) = w
  have hs : (m1.set (res + nBits / 64) w).read res k = splice (m1.read res k) (nBits / 64) [w] := by
    apply read_splice m1 _ res k (nBits / 64) [w] (by simpa using hb)
    · show [(m1.set (res + nBits / 64) w) (res + nBits / 64 + 0)] = [w]
      rw [Nat.add_zero, set_self]
    · intro x hx
      rw [set_other]
      simp only [List.length_cons, List.length_nil] at hx
      omega
  have hf : Frame m (m1.set (res + nBits / 64) w) res k := by
    intro x hx
    rw [set_other _ _ _ _ (by omega), z1 x hx]
  generalize m1.set (res + nBits / 64) w = m2 at hs hf ⊢
  refine ⟨?_, ?_⟩
  · rw [C105_doublings k n res tmp _ m2 hn ht htn, hf.read n k hn, hs, z0, read_length]
  · intro x hx hy
    rw [doublingsAt_frame k n res tmp _ m2 hn ht htn x hx hy, hf x hx]

theorem slowPrecompAt_spec (k n : ℕ) (mu : UInt64) (r2 a res st : ℕ) (m : Mem) (c : Ctx)
    (hc : CtxAt m k n mu r2 c) (hn : Apart st (11 * k) n k) (hr2 : Apart st (11 * k) r2 k)
    (ha : Apart st (11 * k) a (2 * k)) (hr : Apart st (11 * k) res k) (hrn : Apart res k n k) :
    (slowPrecompAt k n mu r2 a res st m).read res k = modPrecomp c (m.read a (2 * k)) ∧
    Frame2 m (slowPrecompAt k n mu r2 a res st m) res k st (11 * k) := by
  unfold slowPrecompAt modPrecomp toMont mulFullAt
  dsimp only
  unfold Apart at hn hr2 ha hr
  obtain ⟨-, z1⟩ := zeroAt_spec k st m
  generalize zeroAt k st m = m1 at z1 ⊢
  obtain ⟨-, z2⟩ := zeroAt_spec (2 * k) (st + k) m1
  generalize zeroAt (2 * k) (st + k) m1 = m2 at z2 ⊢
  obtain ⟨a1, a3⟩ := copyAt_spec (2 * k) (st + k) a m2 (by unfold Safe; omega)
  rw [z2.read a (2 * k) (by unfold Apart; omega), z1.read a (2 * k) (by unfold Apart; omega)] at a1
  generalize copyAt (2 * k) (st + k) a m2 = m3 at a1 a3 ⊢
  obtain ⟨b1, b3⟩ := areductionAt_spec k n mu (st + k) st (st + 3 * k) m3 (by unfold Apart; omega)
    (by unfold Apart; omega) (by unfold Apart; omega) (by unfold Apart; omega) (by unfold Apart; omega)
  have f3 : ∀ q, Apart st (11 * k) q k → m3.read q k = m.read q k := by
    intro q hq
    unfold Apart at hq
    rw [a3.read q k (by unfold Apart; omega), z2.read q k (by unfold Apart; omega),
      z1.read q k (by unfold Apart; omega)]
  rw [← Nat.two_mul, a1, f3 n (by unfold Apart; omega), ← hc.n, ← hc.mu] at b1
  rw [← hc.mu] at b3 ⊢
  generalize areductionAt k n c.mu (st + k) st (st + 3 * k) m3 = m4 at b1 b3 ⊢
  obtain ⟨-, z5⟩ := zeroAt_spec (2 * k) (st + 4 * k) m4
  generalize zeroAt (2 * k) (st + 4 * k) m4 = m5 at z5 ⊢
  obtain ⟨-, z6⟩ := zeroAt_spec (4 * k) (st + 6 * k) m5
  generalize zeroAt (4 * k) (st + 6 * k) m5 = m6 at z6 ⊢
  have f6 : ∀ q, Apart st (11 * k) q k → m6.read q k = m.read q k := by
    intro q hq
    rw [← f3 q hq]
    unfold Apart at hq
    rw [z6.read q k (by unfold Apart; omega), z5.read q k (by unfold Apart; omega),
      b3.read q k (by unfold Apart; omega) (by unfold Apart; omega) (by unfold Apart; omega)]
  obtain ⟨c1, c3⟩ := karatsubaMulAt_spec k k st r2 (st + 6 * k) (st + 4 * k) m6 (by unfold Apart; omega)
    (by unfold Apart; omega) (by unfold Apart; omega) (by unfold Apart; omega) (by unfold Apart; omega)
  rw [z6.read st k (by unfold Apart; omega), z5.read st k (by unfold Apart; omega), b1,
    f6 r2 (by unfold Apart; omega), ← hc.r2] at c1
  generalize karatsubaMulAt k k st r2 (st + 6 * k) (st + 4 * k) m6 = m7 at c1 c3 ⊢
  obtain ⟨d1, d3⟩ := reductionAt_spec k n c.mu (st + 4 * k) res (st + 10 * k) m7 (by unfold Apart; omega)
    (by unfold Apart; omega) hrn (by unfold Apart; omega) (by unfold Apart; omega)
  have hlen : (areduction c.n c.mu (m.read a (2 * k))).length = k := by rw [← b1, read_length]
  refine ⟨?_, ?_⟩
  · rw [d1, c1, c3.read n k (by unfold Apart; omega) (by unfold Apart; omega), f6 n (by unfold Apart; omega),
      ← hc.n, mulFull, hlen]
  · intro z h1 h2
    rw [d3 z h1 (by omega) (by omega), c3 z (by omega) (by omega), z6 z (by omega), z5 z (by omega),
      b3 z (by omega) (by omega) (by omega), a3 z (by omega), z2 z (by omega), z1 z (by omega)]

/-- The constants are computed in the array at `st` (the scratch array of the doublings behind it). -/
theorem precomp_ctx (k n st w : ℕ) (m : Mem) (hk : 0 < k) (hl : k ≤ 2 ^ 24) (hw : 2 * k ≤ w)
    (hn : Apart st w n k) :
    CtxAt (precompR2At k n (nBitsAt k n m) st (st + k) (zeroAt k st m)) k n (modInvLimb (m n)) st
      (ctxInit (m.read n k)) ∧
    Frame m (precompR2At k n (nBitsAt k n m) st (st + k) (zeroAt k st m)) st (2 * k) := by
  unfold Apart at hn
  obtain ⟨-, z1⟩ := zeroAt_spec k st m
  generalize zeroAt k st m = m1 at z1 ⊢
  obtain ⟨h1, h2⟩ := precompR2At_spec k n (nBitsAt k n m) st (st + k) m1 (nBitsAt_lt k n m hk hl)
    (by unfold Apart; omega) (by unfold Apart; omega) (by unfold Apart; omega)
  rw [z1.read n k (by unfold Apart; omega)] at h1
  refine ⟨⟨?_, ?_, ?_⟩, ?_⟩
  · rw [h2.read n k (by unfold Apart; omega) (by unfold Apart; omega), z1.read n k (by unfold Apart; omega)]
    rfl
  · show modInvLimb ((m.read n k).getD 0 0) = _
    rw [getD_read _ _ _ _ hk, Nat.add_zero]
  · rw [h1]
    rfl
  · intro x hx
    rw [h2 x (by omega) (by omega), z1 x (by omega)]

end EG.Limbs
