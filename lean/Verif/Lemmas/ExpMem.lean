import Verif.Lemmas.KaratsubaMem

/-! # Lemmas about exponentiation in memory -/

namespace EG.Limbs

theorem Apart.symm {p n q k : ℕ} (h : Apart p n q k) : Apart q k p n := Or.symm h

/-- A part of an array is apart from what the array is apart from. -/
theorem Apart.sub {p n q k p' n' : ℕ} (h : Apart p n q k) (h1 : p ≤ p') (h2 : p' + n' ≤ p + n) :
    Apart p' n' q k := by unfold Apart at *; omega

theorem reductionAt_spec (k n : ℕ) (nInv : UInt64) (c res tmp : ℕ) (m : Mem)
    (hn : Apart c (k + k) n k) (hr : Apart res k (c + k) k) (hrn : Apart res k n k)
    (ht : Apart tmp k res k) (htn : Apart tmp k n k) :
    (reductionAt k n nInv c res tmp m).read res k =
      reduction (m.read n k) nInv (m.read c (k + k)) ∧
    Frame3 m (reductionAt k n nInv c res tmp m) res k c (k + k) tmp k := by
  refine ⟨C105_reduction k n nInv c res tmp m hn hr hrn ht htn, ?_⟩
  unfold reductionAt
  dsimp only
  obtain ⟨a1, a2, a3⟩ := redcLoopAt_spec k n nInv c m hn
  generalize (List.range k).foldl (redcStepAt k n nInv c) (m, 0) = st at a3 ⊢
  obtain ⟨b1, b3⟩ := copyAt_spec k res (c + k) st.1 hr.safe
  generalize copyAt k res (c + k) st.1 = m1 at b3 ⊢
  obtain ⟨d1, d2, d3⟩ := C105_sub k res n tmp 0 m1 ht.safe htn.safe
  generalize subAt k 0 res n tmp m1 = t at d3 ⊢
  obtain ⟨e1, e3⟩ := selectAt_spec (st.2 - t.2) k res tmp res t.1 (safe_self _ _)
    (by unfold Apart at ht; unfold Safe; omega)
  intro x h1 h2 h3
  rw [e3 x h1, d3 x h3, b3 x h1, a3 x h2]

/-- The modulus and the constants for it, in memory. -/
structure CtxAt (m : Mem) (k n : ℕ) (mu : UInt64) (r2 : ℕ) (c : Ctx) : Prop where
  n : c.n = m.read n k
  mu : c.mu = mu
  r2 : c.r2 = m.read r2 k

theorem amontMulAt_spec (k n : ℕ) (mu : UInt64) (x y r cs : ℕ) (m : Mem) (c : Ctx)
    (hcn : c.n = m.read n k) (hcm : c.mu = mu)
    (hn : Apart cs (9 * k) n k) (hx : Apart cs (9 * k) x k) (hy : Apart cs (9 * k) y k)
    (hr : Apart cs (9 * k) r k) (hrn : Apart r k n k) :
    (amontMulAt k n mu x y r cs m).read r k = amontMul c (m.read x k) (m.read y k) ∧
    Frame2 m (amontMulAt k n mu x y r cs m) r k cs (9 * k) := by
  unfold amontMulAt amontMul mulFull
  dsimp only
  unfold Apart at hn hx hy hr
  obtain ⟨-, z1⟩ := zeroAt_spec (2 * k) cs m
  generalize zeroAt (2 * k) cs m = m1 at z1 ⊢
  obtain ⟨-, z2⟩ := zeroAt_spec (4 * k) (cs + 2 * k) m1
  generalize zeroAt (4 * k) (cs + 2 * k) m1 = m2 at z2 ⊢
  obtain ⟨a1, a3⟩ := karatsubaMulAt_spec k k x y (cs + 2 * k) cs m2 (by unfold Apart; omega)
    (by unfold Apart; omega) (by unfold Apart; omega) (by unfold Apart; omega) (by unfold Apart; omega)
  rw [z2.read x k (by unfold Apart; omega), z1.read x k (by unfold Apart; omega),
    z2.read y k (by unfold Apart; omega), z1.read y k (by unfold Apart; omega)] at a1
  generalize karatsubaMulAt k k x y (cs + 2 * k) cs m2 = m3 at a1 a3 ⊢
  obtain ⟨b1, b3⟩ := areductionAt_spec k n mu cs r (cs + 6 * k) m3 (by unfold Apart; omega)
    (by unfold Apart; omega) hrn (by unfold Apart; omega) (by unfold Apart; omega)
  refine ⟨?_, ?_⟩
  · rw [b1, a1, a3.read n k (by unfold Apart; omega) (by unfold Apart; omega),
      z2.read n k (by unfold Apart; omega), z1.read n k (by unfold Apart; omega), hcn, hcm, read_length]
  · intro z h1 h2
    rw [b3 z h1 (by omega) (by omega), a3 z (by omega) (by omega), z2 z (by omega), z1 z (by omega)]

theorem amontSqrAt_spec (k n : ℕ) (mu : UInt64) (x r cs : ℕ) (m : Mem) (c : Ctx)
    (hcn : c.n = m.read n k) (hcm : c.mu = mu)
    (hn : Apart cs (9 * k) n k) (hx : Apart cs (9 * k) x k)
    (hr : Apart cs (9 * k) r k) (hrn : Apart r k n k) :
    (amontSqrAt k n mu x r cs m).read r k = amontSqr c (m.read x k) ∧
    Frame2 m (amontSqrAt k n mu x r cs m) r k cs (9 * k) := by
  unfold amontSqrAt amontSqr sqrFull
  dsimp only
  unfold Apart at hn hx hr
  obtain ⟨-, z1⟩ := zeroAt_spec (2 * k) cs m
  generalize zeroAt (2 * k) cs m = m1 at z1 ⊢
  obtain ⟨-, z2⟩ := zeroAt_spec (4 * k) (cs + 2 * k) m1
  generalize zeroAt (4 * k) (cs + 2 * k) m1 = m2 at z2 ⊢
  obtain ⟨a1, a3⟩ := karatsubaSqrAt_spec (cs + 7 * k) k k x (cs + 2 * k) cs m2 (by unfold Apart; omega)
    (by unfold Apart; omega) (by unfold Apart; omega) (by unfold Apart; omega) (by unfold Apart; omega)
    (by unfold Apart; omega)
  rw [z2.read x k (by unfold Apart; omega), z1.read x k (by unfold Apart; omega)] at a1
  generalize karatsubaSqrAt (cs + 7 * k) k k x (cs + 2 * k) cs m2 = m3 at a1 a3 ⊢
  obtain ⟨b1, b3⟩ := areductionAt_spec k n mu cs r (cs + 6 * k) m3 (by unfold Apart; omega)
    (by unfold Apart; omega) hrn (by unfold Apart; omega) (by unfold Apart; omega)
  refine ⟨?_, ?_⟩
  · rw [b1, a1, a3.read n k (by unfold Apart; omega) (by unfold Apart; omega) (by unfold Apart; omega),
      z2.read n k (by unfold Apart; omega), z1.read n k (by unfold Apart; omega), hcn, hcm, read_length]
  · intro z h1 h2
    rw [b3 z h1 (by omega) (by omega), a3 z (by omega) (by omega) (by omega), z2 z (by omega),
      z1 z (by omega)]

theorem toMontAt_spec (k n : ℕ) (mu : UInt64) (r2 a aM t cs : ℕ) (m : Mem) (c : Ctx)
    (hc : CtxAt m k n mu r2 c)
    (hn : Apart cs (9 * k) n k) (hr2 : Apart cs (9 * k) r2 k) (ha : Apart cs (9 * k) a k)
    (htn : Apart t (2 * k) n k) (htr : Apart t (2 * k) r2 k) (hta : Apart t (2 * k) a k)
    (hmn : Apart aM k n k) (hmr : Apart aM k r2 k) (hma : Apart aM k a k)
    (hct : Apart cs (9 * k) t (2 * k)) (hcm : Apart cs (9 * k) aM k) (htm : Apart t (2 * k) aM k) :
    (toMontAt k n mu r2 a aM t cs m).read aM k = toMont c (m.read a k) ∧
    Frame3 m (toMontAt k n mu r2 a aM t cs m) aM k t (2 * k) cs (9 * k) := by
  unfold toMontAt toMont mulFull mulFullAt
  dsimp only
  unfold Apart at hn hr2 ha htn htr hta hct hcm htm
  obtain ⟨-, z1⟩ := zeroAt_spec k aM m
  generalize zeroAt k aM m = m1 at z1 ⊢
  obtain ⟨-, z2⟩ := zeroAt_spec (2 * k) t m1
  generalize zeroAt (2 * k) t m1 = m2 at z2 ⊢
  obtain ⟨-, z3⟩ := zeroAt_spec (4 * k) cs m2
  generalize zeroAt (4 * k) cs m2 = m3 at z3 ⊢
  obtain ⟨a1, a3⟩ := karatsubaMulAt_spec k k a r2 cs t m3 (by unfold Apart; omega)
    (by unfold Apart; omega) (by unfold Apart; omega) (by unfold Apart; omega) (by unfold Apart; omega)
  rw [z3.read a k (by unfold Apart; omega), z2.read a k (by unfold Apart; omega), z1.read a k hma,
    z3.read r2 k (by unfold Apart; omega), z2.read r2 k (by unfold Apart; omega), z1.read r2 k hmr] at a1
  generalize karatsubaMulAt k k a r2 cs t m3 = m4 at a1 a3 ⊢
  obtain ⟨b1, b3⟩ := reductionAt_spec k n mu t aM cs m4 (by unfold Apart; omega)
    (by unfold Apart; omega) hmn (by unfold Apart; omega) (by unfold Apart; omega)
  refine ⟨?_, ?_⟩
  · rw [b1, a1, a3.read n k (by unfold Apart; omega) (by unfold Apart; omega),
      z3.read n k (by unfold Apart; omega), z2.read n k (by unfold Apart; omega), z1.read n k hmn, hc.n,
      hc.mu, hc.r2, read_length]
  · intro z h1 h2 h3
    rw [b3 z h1 (by omega) (by omega), a3 z (by omega) (by omega), z3 z (by omega), z2 z (by omega), z1 z h1]

theorem fromMontAt_spec (k n : ℕ) (mu : UInt64) (x t res cs : ℕ) (m : Mem) (c : Ctx)
    (hcn : c.n = m.read n k) (hcm : c.mu = mu)
    (hn : Apart cs (9 * k) n k) (hcr : Apart cs (9 * k) res k)
    (htn : Apart t (2 * k) n k) (htx : Apart t (2 * k) x k) (htr : Apart t (2 * k) res k)
    (hrn : Apart res k n k) :
    (fromMontAt k n mu x t res cs m).read res k = fromMont c (m.read x k) ∧
    Frame3 m (fromMontAt k n mu x t res cs m) res k t (2 * k) cs (9 * k) := by
  unfold fromMontAt fromMont
  dsimp only
  unfold Apart at hn hcr htn htx htr
  obtain ⟨z0, z1⟩ := zeroAt_spec (2 * k) t m
  generalize zeroAt (2 * k) t m = m1 at z0 z1 ⊢
  obtain ⟨a1, a3⟩ := copyAt_spec k t x m1 (by unfold Safe; omega)
  generalize copyAt k t x m1 = m2 at a1 a3 ⊢
  rw [z1.read x k (by unfold Apart; omega)] at a1
  have ht : m2.read t (k + k) = m.read x k ++ List.replicate k 0 := by
    rw [read_append, a1, a3.read (t + k) k (by unfold Apart; omega)]
    congr 1
    rw [← read_drop m1 t (2 * k) k k (by omega), z0, List.drop_replicate]
    congr 1
    omega
  obtain ⟨b1, b3⟩ := reductionAt_spec k n mu t res cs m2 (by unfold Apart; omega)
    (by unfold Apart; omega) hrn (by unfold Apart; omega) (by unfold Apart; omega)
  refine ⟨?_, ?_⟩
  · rw [b1, ht, a3.read n k (by unfold Apart; omega), z1.read n k (by unfold Apart; omega), hcn, hcm,
      read_length]
  · intro z h1 h2 h3
    rw [b3 z h1 (by omega) (by omega), a3 z (by omega), z1 z (by omega)]

theorem getBitAt_eq (m : Mem) (b l i : ℕ) (h : i < 64 * l) : getBitAt m b i = getBit (m.read b l) i := by
  unfold getBitAt getBit
  rw [getD_read _ _ _ _ (by omega)]

theorem getWindowAt_eq (m : Mem) (b l len pos : ℕ) (h : pos < 64 * l) (hl : len ≤ l) :
    getWindowAt m b len pos = getWindow (m.read b l) len pos := by
  unfold getWindowAt getWindow
  dsimp only
  rw [getD_read _ _ _ _ (by omega)]
  by_cases hc : pos / 64 + 1 < len ∧ 0 < pos % 64
  · rw [if_pos hc, if_pos hc, getD_read _ _ _ _ (by omega)]
  · rw [if_neg hc, if_neg hc]

theorem getWindow_lt (b : Arr) (len pos : ℕ) : (getWindow b len pos).toNat < 16 := by
  unfold getWindow
  dsimp only
  rw [UInt64.toNat_and]
  exact lt_of_le_of_lt Nat.and_le_right (by decide)

/-- What the two functions share: the arrays outside of the stack, and the memory as it was. -/
structure Env (m0 : Mem) (k n : ℕ) (mu : UInt64) (r2 st : ℕ) (c : Ctx) : Prop where
  ctx : CtxAt m0 k n mu r2 c
  n : Apart st (32 * k) n k
  r2 : Apart st (32 * k) r2 k

theorem Env.amontMul {m0 : Mem} {k n : ℕ} {mu : UInt64} {r2 st : ℕ} {c : Ctx}
    (h : Env m0 k n mu r2 st c) (m : Mem) (hf : Frame m0 m st (32 * k)) (x y r : ℕ)
    (hx : x + k ≤ 23 * k) (hy : y + k ≤ 23 * k) (hr : r + k ≤ 23 * k) :
    (amontMulAt k n mu (st + x) (st + y) (st + r) (st + 23 * k) m).read (st + r) k =
      Limbs.amontMul c (m.read (st + x) k) (m.read (st + y) k) ∧
    Frame2 m (amontMulAt k n mu (st + x) (st + y) (st + r) (st + 23 * k) m) (st + r) k
      (st + 23 * k) (9 * k) := by
  have hn := h.n
  unfold Apart at hn
  exact amontMulAt_spec k n mu (st + x) (st + y) (st + r) (st + 23 * k) m c
    (by rw [h.ctx.n, hf.read n k h.n]) h.ctx.mu (by unfold Apart; omega) (by unfold Apart; omega)
    (by unfold Apart; omega) (by unfold Apart; omega) (by unfold Apart; omega)

theorem Env.amontSqr {m0 : Mem} {k n : ℕ} {mu : UInt64} {r2 st : ℕ} {c : Ctx}
    (h : Env m0 k n mu r2 st c) (m : Mem) (hf : Frame m0 m st (32 * k)) (x r : ℕ)
    (hx : x + k ≤ 23 * k) (hr : r + k ≤ 23 * k) :
    (amontSqrAt k n mu (st + x) (st + r) (st + 23 * k) m).read (st + r) k =
      Limbs.amontSqr c (m.read (st + x) k) ∧
    Frame2 m (amontSqrAt k n mu (st + x) (st + r) (st + 23 * k) m) (st + r) k
      (st + 23 * k) (9 * k) := by
  have hn := h.n
  unfold Apart at hn
  exact amontSqrAt_spec k n mu (st + x) (st + r) (st + 23 * k) m c
    (by rw [h.ctx.n, hf.read n k h.n]) h.ctx.mu (by unfold Apart; omega) (by unfold Apart; omega)
    (by unfold Apart; omega) (by unfold Apart; omega)

theorem Env.init {m0 : Mem} {k n : ℕ} {mu : UInt64} {r2 st : ℕ} {c : Ctx}
    (h : Env m0 k n mu r2 st c) (a : ℕ) (ha : Apart st (32 * k) a k) :
    (expInitAt k n mu r2 a st m0).read st k = toMont c (m0.read a k) ∧
    (expInitAt k n mu r2 a st m0).read (st + 3 * k) k = fromMont c c.r2 ∧
    Frame m0 (expInitAt k n mu r2 a st m0) st (32 * k) := by
  have hn := h.n
  have hr2 := h.r2
  unfold Apart at hn hr2 ha
  unfold expInitAt
  dsimp only
  obtain ⟨a1, a3⟩ := toMontAt_spec k n mu r2 a st (st + k) (st + 23 * k) m0 c h.ctx
    (by unfold Apart; omega) (by unfold Apart; omega) (by unfold Apart; omega) (by unfold Apart; omega)
    (by unfold Apart; omega) (by unfold Apart; omega) (by unfold Apart; omega) (by unfold Apart; omega)
    (by unfold Apart; omega) (by unfold Apart; omega) (by unfold Apart; omega) (by unfold Apart; omega)
  generalize toMontAt k n mu r2 a st (st + k) (st + 23 * k) m0 = m1 at a1 a3 ⊢
  obtain ⟨-, z1⟩ := zeroAt_spec k (st + 3 * k) m1
  generalize zeroAt k (st + 3 * k) m1 = m2 at z1 ⊢
  have hn2 : m2.read n k = m0.read n k := by
    rw [z1.read n k (by unfold Apart; omega), a3.read n k (by unfold Apart; omega) (by unfold Apart; omega)
      (by unfold Apart; omega)]
  have hr22 : m2.read r2 k = m0.read r2 k := by
    rw [z1.read r2 k (by unfold Apart; omega), a3.read r2 k (by unfold Apart; omega)
      (by unfold Apart; omega) (by unfold Apart; omega)]
  obtain ⟨b1, b3⟩ := fromMontAt_spec k n mu r2 (st + 4 * k) (st + 3 * k) (st + 23 * k) m2 c
    (by rw [hn2, h.ctx.n]) h.ctx.mu
    (by unfold Apart; omega) (by unfold Apart; omega) (by unfold Apart; omega) (by unfold Apart; omega)
    (by unfold Apart; omega) (by unfold Apart; omega)
  refine ⟨?_, ?_, ?_⟩
  · rw [b3.read st k (by unfold Apart; omega) (by unfold Apart; omega) (by unfold Apart; omega),
      z1.read st k (by unfold Apart; omega), a1]
  · rw [b1, hr22, h.ctx.r2]
  · intro x hx
    rw [b3 x (by omega) (by omega) (by omega), z1 x (by omega), a3 x (by omega) (by omega) (by omega)]

/-- The end of the functions: the result may overwrite everything but the modulus (and the stack). -/
theorem Env.final {m0 : Mem} {k n : ℕ} {mu : UInt64} {r2 st : ℕ} {c : Ctx}
    (h : Env m0 k n mu r2 st c) (m : Mem) (hf : Frame m0 m st (32 * k)) (res : ℕ)
    (hres : Apart st (32 * k) res k) (hrn : Apart res k n k) :
    (fromMontAt k n mu (st + 3 * k) (st + 4 * k) res (st + 23 * k) m).read res k =
      fromMont c (m.read (st + 3 * k) k) ∧
    Frame2 m0 (fromMontAt k n mu (st + 3 * k) (st + 4 * k) res (st + 23 * k) m) res k st (32 * k) := by
  have hn := h.n
  unfold Apart at hn hres
  obtain ⟨b1, b3⟩ := fromMontAt_spec k n mu (st + 3 * k) (st + 4 * k) res (st + 23 * k) m c
    (by rw [h.ctx.n, hf.read n k h.n]) h.ctx.mu
    (by unfold Apart; omega) (by unfold Apart; omega) (by unfold Apart; omega) (by unfold Apart; omega)
    (by unfold Apart; omega) hrn
  refine ⟨b1, ?_⟩
  intro x h1 h2
  rw [b3 x h1 (by omega) (by omega), hf x h2]

/-! ## The binary method -/

theorem Env.binary {m0 : Mem} {k n : ℕ} {mu : UInt64} {r2 st : ℕ} {c : Ctx}
    (h : Env m0 k n mu r2 st c) (b l : ℕ) (hb : Apart st (32 * k) b l) (is : List ℕ)
    (his : ∀ i ∈ is, i < 64 * l) (m : Mem) (hf : Frame m0 m st (32 * k)) (p : Arr × Arr)
    (hp1 : m.read (st + 3 * k) k = p.1) (hp2 : m.read st k = p.2) :
    (is.foldl (binStepAt k n mu b st) m).read (st + 3 * k) k =
      (is.foldl (fun (st : Arr × Arr) i =>
        let resM := if getBit (m0.read b l) i = 0 then st.1 else Limbs.amontMul c st.1 st.2
        (resM, Limbs.amontSqr c st.2)) p).1 ∧
    Frame m0 (is.foldl (binStepAt k n mu b st) m) st (32 * k) := by
  induction is generalizing m p with
  | nil => exact ⟨hp1, hf⟩
  | cons i is ih =>
    rw [List.foldl_cons, List.foldl_cons]
    have hbit : getBitAt m b i = getBit (m0.read b l) i := by
      rw [getBitAt_eq m b l i (his i (by simp)), hf.read b l hb]
    -- the multiplication
    have step1 : ∃ m1, m1 = (if getBitAt m b i = 0 then m
        else amontMulAt k n mu (st + 3 * k) st (st + 3 * k) (st + 23 * k) m) ∧
        m1.read (st + 3 * k) k =
          (if getBit (m0.read b l) i = 0 then p.1 else Limbs.amontMul c p.1 p.2) ∧
        m1.read st k = p.2 ∧ Frame m0 m1 st (32 * k) := by
      refine ⟨_, rfl, ?_⟩
      rw [hbit]
      by_cases hz : getBit (m0.read b l) i = 0
      · rw [if_pos hz, if_pos hz]
        exact ⟨hp1, hp2, hf⟩
      · rw [if_neg hz, if_neg hz]
        obtain ⟨a1, a3⟩ := h.amontMul m hf (3 * k) 0 (3 * k) (by omega) (by omega) (by omega)
        rw [Nat.add_zero, hp1, hp2] at a1
        rw [Nat.add_zero] at a3
        refine ⟨a1, ?_, ?_⟩
        · rw [a3.read st k (by unfold Apart; omega) (by unfold Apart; omega), hp2]
        · intro x hx
          rw [a3 x (by omega) (by omega), hf x hx]
    obtain ⟨m1, e1, s1, s2, s3⟩ := step1
    obtain ⟨b1, b3⟩ := h.amontSqr m1 s3 0 0 (by omega) (by omega)
    rw [Nat.add_zero, s2] at b1
    rw [Nat.add_zero] at b3
    have e2 : binStepAt k n mu b st m i = amontSqrAt k n mu st st (st + 23 * k) m1 := by
      rw [e1]
      rfl
    rw [e2]
    exact ih (fun j hj => his j (by simp [hj])) _ (fun x hx => by rw [b3 x (by omega) (by omega), s3 x hx])
      _ (by rw [b3.read (st + 3 * k) k (by unfold Apart; omega) (by unfold Apart; omega), s1]) b1

/-! ## The ladder -/

theorem cswapAt_spec (sw : UInt64) (n x y : ℕ) (m : Mem) (h : Apart x n y n) :
    (cswapAt sw n x y m).read x n = (cswap sw (m.read x n) (m.read y n)).1 ∧
    (cswapAt sw n x y m).read y n = (cswap sw (m.read x n) (m.read y n)).2 ∧
    Frame2 m (cswapAt sw n x y m) x n y n := by
  induction n generalizing x y m with
  | zero => exact ⟨rfl, rfl, fun _ _ _ => rfl⟩
  | succ n ih =>
    unfold Apart at h
    rw [cswapAt]
    rw [set_other _ _ _ _ (show y ≠ x by omega)]
    generalize hu : m x ^^^ ((0 - sw) &&& (m x ^^^ m y)) = u
    generalize hv : m y ^^^ ((0 - sw) &&& (m x ^^^ m y)) = v
    obtain ⟨h1, h2, h3⟩ := ih (x + 1) (y + 1) ((m.set x u).set y v) (by unfold Apart; omega)
    generalize cswapAt sw n (x + 1) (y + 1) ((m.set x u).set y v) = m' at h1 h2 h3 ⊢
    rw [read_set _ (x + 1) n y _ (by omega), read_set _ (x + 1) n x _ (by omega),
      read_set _ (y + 1) n y _ (by omega), read_set _ (y + 1) n x _ (by omega)] at h1 h2
    rw [read_succ m x, read_succ m y, read_succ, read_succ, h1, h2, h3 x (by omega) (by omega),
      h3 y (by omega) (by omega), set_self, set_other _ _ _ _ (show x ≠ y by omega), set_self, ← hu, ← hv]
    refine ⟨rfl, rfl, ?_⟩
    intro z hz1 hz2
    rw [h3 z (by omega) (by omega), set_other _ _ _ _ (by omega), set_other _ _ _ _ (by omega)]

theorem Env.ladder {m0 : Mem} {k n : ℕ} {mu : UInt64} {r2 st : ℕ} {c : Ctx}
    (h : Env m0 k n mu r2 st c) (b l bBits : ℕ) (hb : Apart st (32 * k) b l) (hl : bBits ≤ 64 * l)
    (is : List ℕ) (his : ∀ i ∈ is, i < bBits) (m : Mem) (hf : Frame m0 m st (32 * k)) (p : Arr × Arr)
    (hp1 : m.read (st + 3 * k) k = p.1) (hp2 : m.read st k = p.2) (sw : UInt64) :
    ∃ m' p' sw', is.foldl (ladderStepAt k n mu bBits b st) (m, sw) = (m', sw') ∧
      is.foldl (ladderStep c bBits (m0.read b l)) (p, sw) = (p', sw') ∧
      m'.read (st + 3 * k) k = p'.1 ∧ m'.read st k = p'.2 ∧ Frame m0 m' st (32 * k) := by
  induction is generalizing m p sw with
  | nil => exact ⟨m, p, sw, rfl, rfl, hp1, hp2, hf⟩
  | cons i is ih =>
    rw [List.foldl_cons, List.foldl_cons]
    have hi := his i (by simp)
    have hbit : getBitAt m b (bBits - i - 1) = getBit (m0.read b l) (bBits - i - 1) := by
      rw [getBitAt_eq m b l _ (by omega), hf.read b l hb]
    unfold ladderStepAt ladderStep
    dsimp only
    rw [hbit]
    generalize getBit (m0.read b l) (bBits - i - 1) = bit
    obtain ⟨a1, a2, a3⟩ := cswapAt_spec (bit ^^^ sw) k (st + 3 * k) st m (by unfold Apart; omega)
    rw [hp1, hp2] at a1 a2
    generalize cswapAt (bit ^^^ sw) k (st + 3 * k) st m = m1 at a1 a2 a3 ⊢
    have f1 : Frame m0 m1 st (32 * k) := fun x hx => by rw [a3 x (by omega) (by omega), hf x hx]
    obtain ⟨b1, b3⟩ := h.amontMul m1 f1 0 (3 * k) 0 (by omega) (by omega) (by omega)
    rw [Nat.add_zero, a1, a2] at b1
    rw [Nat.add_zero] at b3
    generalize amontMulAt k n mu st (st + 3 * k) st (st + 23 * k) m1 = m2 at b1 b3 ⊢
    have f2 : Frame m0 m2 st (32 * k) := fun x hx => by rw [b3 x (by omega) (by omega), f1 x hx]
    obtain ⟨c1, c3⟩ := h.amontSqr m2 f2 (3 * k) (3 * k) (by omega) (by omega)
    rw [b3.read (st + 3 * k) k (by unfold Apart; omega) (by unfold Apart; omega), a1] at c1
    generalize amontSqrAt k n mu (st + 3 * k) (st + 3 * k) (st + 23 * k) m2 = m3 at c1 c3 ⊢
    exact ih (fun j hj => his j (by simp [hj])) m3 (fun x hx => by rw [c3 x (by omega) (by omega), f2 x hx])
      _ c1 (by rw [c3.read st k (by unfold Apart; omega) (by unfold Apart; omega), b1]) bit

/-! ## The fixed window method -/

/-- The table in memory holds the entries. -/
def TableAt (m : Mem) (k table : ℕ) (t : List Arr) : Prop :=
  t.length = 16 ∧ ∀ j, j < 16 → m.read (table + j * k) k = t.getD j []

theorem mul_le_15 (j k : ℕ) (h : j < 16) : j * k ≤ 15 * k := Nat.mul_le_mul_right k (by omega)

theorem TableAt.frame {m m' : Mem} {k table : ℕ} {t : List Arr} (h : TableAt m k table t)
    (hm : ∀ x, table ≤ x → x < table + 16 * k → m' x = m x) : TableAt m' k table t := by
  refine ⟨h.1, fun j hj => ?_⟩
  rw [← h.2 j hj]
  apply read_congr
  intro i hi
  have := mul_le_15 j k hj
  exact hm _ (by omega) (by omega)

theorem getD_set (t : List Arr) (i j : ℕ) (x : Arr) (hi : i < t.length) :
    (t.set i x).getD j [] = if j = i then x else t.getD j [] := by
  rw [List.getD_eq_getElem?_getD, List.getD_eq_getElem?_getD, List.getElem?_set]
  by_cases h : i = j
  · subst h; simp [hi]
  · rw [if_neg h, if_neg (fun e => h e.symm)]

theorem Env.table {m0 : Mem} {k n : ℕ} {mu : UInt64} {r2 st : ℕ} {c : Ctx}
    (h : Env m0 k n mu r2 st c) (m : Mem) (hf : Frame m0 m st (32 * k)) (aM one : Arr)
    (ha : m.read st k = aM) (ho : m.read (st + 3 * k) k = one) :
    TableAt (expTableAt k n mu st m) k (st + 6 * k) (expTable c aM one) ∧
    (expTableAt k n mu st m).read (st + 3 * k) k = one ∧
    Frame m0 (expTableAt k n mu st m) st (32 * k) := by
  unfold expTableAt expTable
  dsimp only
  obtain ⟨z0, z1⟩ := zeroAt_spec (16 * k) (st + 6 * k) m
  generalize zeroAt (16 * k) (st + 6 * k) m = m1 at z0 z1 ⊢
  obtain ⟨a1, a3⟩ := copyAt_spec k (st + 6 * k) (st + 3 * k) m1 (by unfold Safe; omega)
  rw [z1.read (st + 3 * k) k (by unfold Apart; omega), ho] at a1
  generalize copyAt k (st + 6 * k) (st + 3 * k) m1 = m2 at a1 a3 ⊢
  obtain ⟨b1, b3⟩ := copyAt_spec k (st + 6 * k + k) st m2 (by unfold Safe; omega)
  rw [a3.read st k (by unfold Apart; omega), z1.read st k (by unfold Apart; omega), ha] at b1
  generalize copyAt k (st + 6 * k + k) st m2 = m3 at b1 b3 ⊢
  have hlen : c.n.length = k := by rw [h.ctx.n, read_length]
  have t0 : TableAt m3 k (st + 6 * k)
      (one :: aM :: List.replicate 14 (List.replicate c.n.length 0)) := by
    refine ⟨by simp, fun j hj => ?_⟩
    match j, hj with
    | 0, _ =>
      rw [Nat.zero_mul, Nat.add_zero, b3.read (st + 6 * k) k (by unfold Apart; omega), a1]
      rfl
    | 1, _ =>
      rw [Nat.one_mul, b1]
      rfl
    | j + 2, hj =>
      have hjk : (j + 2) * k = j * k + 2 * k := Nat.add_mul _ _ _
      have hjk' : j * k ≤ 13 * k := Nat.mul_le_mul_right k (by omega)
      rw [b3.read _ k (by unfold Apart; omega), a3.read _ k (by unfold Apart; omega),
        ← read_take_drop m1 (st + 6 * k) (16 * k) ((j + 2) * k) k (by omega), z0, List.drop_replicate,
        List.take_replicate]
      have hmin : min k (16 * k - (j + 2) * k) = k := by omega
      rw [hmin, hlen, List.getD_eq_getElem?_getD, List.getElem?_cons_succ, List.getElem?_cons_succ,
        List.getElem?_replicate, if_pos (by omega)]
      rfl
  have f3 : Frame m0 m3 st (32 * k) := fun x hx => by
    rw [b3 x (by omega), a3 x (by omega), z1 x (by omega), hf x hx]
  have ha3 : m3.read st k = aM := by
    rw [b3.read st k (by unfold Apart; omega), a3.read st k (by unfold Apart; omega),
      z1.read st k (by unfold Apart; omega), ha]
  have ho3 : m3.read (st + 3 * k) k = one := by
    rw [b3.read _ k (by unfold Apart; omega), a3.read _ k (by unfold Apart; omega),
      z1.read _ k (by unfold Apart; omega), ho]
  have key : ∀ (is : List ℕ) (m : Mem) (t : List Arr), (∀ i ∈ is, i < 15) →
      TableAt m k (st + 6 * k) t → m.read st k = aM → m.read (st + 3 * k) k = one →
      Frame m0 m st (32 * k) →
      TableAt (is.foldl (fun m i => amontMulAt k n mu st (st + 6 * k + i * k) (st + 6 * k + i * k + k)
        (st + 23 * k) m) m) k (st + 6 * k)
        (is.foldl (fun t i => t.set (i + 1) (Limbs.amontMul c aM (t.getD i []))) t) ∧
      (is.foldl (fun m i => amontMulAt k n mu st (st + 6 * k + i * k) (st + 6 * k + i * k + k)
        (st + 23 * k) m) m).read (st + 3 * k) k = one ∧
      Frame m0 (is.foldl (fun m i => amontMulAt k n mu st (st + 6 * k + i * k) (st + 6 * k + i * k + k)
        (st + 23 * k) m) m) st (32 * k) := by
    intro is
    induction is with
    | nil => intro m t _ ht _ ho hf; exact ⟨ht, ho, hf⟩
    | cons i is ih =>
      intro m t his ht ha ho hf
      have hi := his i (by simp)
      have hik : i * k ≤ 14 * k := Nat.mul_le_mul_right k (by omega)
      rw [List.foldl_cons, List.foldl_cons]
      obtain ⟨c1, c3⟩ := h.amontMul m hf 0 (6 * k + i * k) (6 * k + i * k + k) (by omega) (by omega) (by omega)
      rw [Nat.add_zero, ← Nat.add_assoc, ← Nat.add_assoc, ← Nat.add_assoc, ha, ht.2 i (by omega)] at c1
      rw [Nat.add_zero, ← Nat.add_assoc, ← Nat.add_assoc, ← Nat.add_assoc] at c3
      generalize amontMulAt k n mu st (st + 6 * k + i * k) (st + 6 * k + i * k + k) (st + 23 * k) m = m'
        at c1 c3 ⊢
      refine ih m' _ (fun j hj => his j (by simp [hj])) ⟨by rw [List.length_set, ht.1], ?_⟩ ?_ ?_ ?_
      · intro j hj
        rw [getD_set t (i + 1) j _ (by rw [ht.1]; omega)]
        by_cases hji : j = i + 1
        · rw [if_pos hji, hji, ← c1, Nat.add_mul, Nat.one_mul, Nat.add_assoc (st + 6 * k)]
        · rw [if_neg hji, ← ht.2 j hj]
          have hjk := mul_le_15 j k hj
          have : j * k + k ≤ i * k + k ∨ i * k + k + k ≤ j * k := by
            rcases Nat.lt_or_gt_of_ne hji with hlt | hgt
            · left
              have := Nat.mul_le_mul_right k (show j ≤ i by omega)
              omega
            · right
              have := Nat.mul_le_mul_right k (show i + 2 ≤ j by omega)
              rw [Nat.add_mul] at this
              omega
          exact c3.read _ k (by unfold Apart; omega) (by unfold Apart; omega)
      · rw [c3.read st k (by unfold Apart; omega) (by unfold Apart; omega), ha]
      · rw [c3.read (st + 3 * k) k (by unfold Apart; omega) (by unfold Apart; omega), ho]
      · intro x hx
        rw [c3 x (by omega) (by omega), hf x hx]
  exact key _ m3 _ (fun i hi => List.mem_range.1 hi) t0 ha3 ho3 f3

/-- A way to look an entry up, in memory and in a list. -/
def LookOk (lookAt : ℕ → ℕ → UInt64 → ℕ → Mem → Mem) (look : List Arr → UInt64 → Arr) : Prop :=
  ∀ (k table dst : ℕ) (bits : UInt64) (t : List Arr) (m : Mem), bits.toNat < 16 → TableAt m k table t →
    Apart dst k table (16 * k) →
    (lookAt k table bits dst m).read dst k = look t bits ∧ Frame m (lookAt k table bits dst m) dst k

theorem lookVartime_ok : LookOk lookVartimeAt lookVartime := by
  intro k table dst bits t m hb ht hd
  unfold Apart at hd
  have := mul_le_15 _ k hb
  obtain ⟨h1, h2⟩ := copyAt_spec k dst (table + bits.toNat * k) m (by unfold Safe; omega)
  exact ⟨by rw [lookVartimeAt, h1, ht.2 _ hb]; rfl, h2⟩

theorem lookConsttime_ok : LookOk lookConsttimeAt lookConsttime := by
  intro k table dst bits t m _ ht hd
  unfold lookConsttimeAt lookConsttime
  unfold Apart at hd
  obtain ⟨h1, h2⟩ := copyAt_spec k dst table m (by unfold Safe; omega)
  have h0 := ht.2 0 (by omega)
  rw [Nat.zero_mul, Nat.add_zero] at h0
  rw [h0] at h1
  generalize copyAt k dst table m = m1 at h1 h2 ⊢
  rw [← h1]
  have key : ∀ (is : List ℕ) (m' : Mem), (∀ i ∈ is, i < 15) → Frame m m' dst k →
      (is.foldl (fun m i => selectAt (eqMask1 bits (UInt64.ofNat (i + 1))) k (table + (i + 1) * k) dst dst m)
        m').read dst k =
      is.foldl (fun r i => selectArr (eqMask1 bits (UInt64.ofNat (i + 1))) (t.getD (i + 1) []) r)
        (m'.read dst k) ∧
      Frame m (is.foldl (fun m i => selectAt (eqMask1 bits (UInt64.ofNat (i + 1))) k (table + (i + 1) * k)
        dst dst m) m') dst k := by
    intro is
    induction is with
    | nil => intro m' _ hf; exact ⟨rfl, hf⟩
    | cons i is ih =>
      intro m' his hf
      have hi := his i (by simp)
      have hik := mul_le_15 (i + 1) k (by omega)
      rw [List.foldl_cons, List.foldl_cons]
      obtain ⟨s1, s2⟩ := selectAt_spec (eqMask1 bits (UInt64.ofNat (i + 1))) k (table + (i + 1) * k) dst dst m'
        (by unfold Safe; omega) (safe_self _ _)
      rw [hf.read (table + (i + 1) * k) k (by unfold Apart; omega), ht.2 (i + 1) (by omega)] at s1
      rw [← s1]
      exact ih _ (fun j hj => his j (by simp [hj])) (hf.trans s2)
  exact key _ _ (fun i hi => List.mem_range.1 hi) h2

theorem Env.window {m0 : Mem} {k n : ℕ} {mu : UInt64} {r2 st : ℕ} {c : Ctx}
    (h : Env m0 k n mu r2 st c) (lookAt : ℕ → ℕ → UInt64 → ℕ → Mem → Mem) (look : List Arr → UInt64 → Arr)
    (hlook : LookOk lookAt look) (b l len bk : ℕ) (hb : Apart st (32 * k) b l) (hlen : len ≤ l)
    (hl : bk ≤ 64 * l) (t : List Arr) (is : List ℕ) (his : ∀ i ∈ is, 4 * i + 4 ≤ bk) (m : Mem)
    (hf : Frame m0 m st (32 * k)) (ht : TableAt m k (st + 6 * k) t) (r : Arr)
    (hr : m.read (st + 3 * k) k = r) :
    (is.foldl (expStepAt k n mu (lookAt k (st + 6 * k)) b len bk st) m).read (st + 3 * k) k =
      is.foldl (expStep c (look t) (m0.read b l) len bk) r ∧
    Frame m0 (is.foldl (expStepAt k n mu (lookAt k (st + 6 * k)) b len bk st) m) st (32 * k) := by
  induction is generalizing m r with
  | nil => exact ⟨hr, hf⟩
  | cons i is ih =>
    rw [List.foldl_cons, List.foldl_cons]
    have hi := his i (by simp)
    -- four squares
    have sq : ∀ (js : List ℕ) (m : Mem) (r : Arr), Frame m0 m st (32 * k) → TableAt m k (st + 6 * k) t →
        m.read (st + 3 * k) k = r →
        (js.foldl (fun m _ => amontSqrAt k n mu (st + 3 * k) (st + 3 * k) (st + 23 * k) m) m).read
          (st + 3 * k) k = js.foldl (fun r _ => Limbs.amontSqr c r) r ∧
        TableAt (js.foldl (fun m _ => amontSqrAt k n mu (st + 3 * k) (st + 3 * k) (st + 23 * k) m) m) k
          (st + 6 * k) t ∧
        Frame m0 (js.foldl (fun m _ => amontSqrAt k n mu (st + 3 * k) (st + 3 * k) (st + 23 * k) m) m)
          st (32 * k) := by
      intro js
      induction js with
      | nil => intro m r hf ht hr; exact ⟨hr, ht, hf⟩
      | cons j js ihj =>
        intro m r hf ht hr
        obtain ⟨c1, c3⟩ := h.amontSqr m hf (3 * k) (3 * k) (by omega) (by omega)
        rw [hr] at c1
        rw [List.foldl_cons, List.foldl_cons]
        exact ihj _ _ (fun x hx => by rw [c3 x (by omega) (by omega), hf x hx])
          (ht.frame fun x h1 h2 => c3 x (by omega) (by omega)) c1
    unfold expStepAt expStep
    dsimp only
    obtain ⟨a1, a2, a3⟩ := sq (List.range 4) m r hf ht hr
    generalize (List.range 4).foldl
      (fun m _ => amontSqrAt k n mu (st + 3 * k) (st + 3 * k) (st + 23 * k) m) m = m1 at a1 a2 a3 ⊢
    have hw : getWindowAt m1 b len (bk - 4 * i - 4) = getWindow (m0.read b l) len (bk - 4 * i - 4) := by
      rw [getWindowAt_eq m1 b l len _ (by omega) hlen, a3.read b l hb]
    rw [hw]
    have hlt := getWindow_lt (m0.read b l) len (bk - 4 * i - 4)
    generalize getWindow (m0.read b l) len (bk - 4 * i - 4) = bits at hlt ⊢
    obtain ⟨-, z1⟩ := zeroAt_spec k (st + 22 * k) m1
    generalize zeroAt k (st + 22 * k) m1 = m2 at z1 ⊢
    have t2 : TableAt m2 k (st + 6 * k) t := a2.frame fun x h1 h2 => z1 x (by omega)
    obtain ⟨b1, b3⟩ := hlook k (st + 6 * k) (st + 22 * k) bits t m2 hlt t2 (by unfold Apart; omega)
    generalize lookAt k (st + 6 * k) bits (st + 22 * k) m2 = m3 at b1 b3 ⊢
    have t3 : TableAt m3 k (st + 6 * k) t := t2.frame fun x h1 h2 => b3 x (by omega)
    have f3 : Frame m0 m3 st (32 * k) := fun x hx => by rw [b3 x (by omega), z1 x (by omega), a3 x hx]
    obtain ⟨c1, c3⟩ := h.amontMul m3 f3 (3 * k) (22 * k) (3 * k) (by omega) (by omega) (by omega)
    rw [b3.read (st + 3 * k) k (by unfold Apart; omega), z1.read (st + 3 * k) k (by unfold Apart; omega), a1,
      b1] at c1
    exact ih (fun j hj => his j (by simp [hj])) _ (fun x hx => by rw [c3 x (by omega) (by omega), f3 x hx])
      (t3.frame fun x h1 h2 => c3 x (by omega) (by omega)) _ c1

theorem bLen_le (bBits l : ℕ) (h : bBits ≤ 64 * l) (h0 : 0 < bBits) : bLen bBits ≤ l := by
  unfold bLen
  rw [if_neg (by omega)]
  omega

theorem Env.expWindow {m0 : Mem} {k n : ℕ} {mu : UInt64} {r2 st : ℕ} {c : Ctx}
    (h : Env m0 k n mu r2 st c) (lookAt : ℕ → ℕ → UInt64 → ℕ → Mem → Mem) (look : List Arr → UInt64 → Arr)
    (hlook : LookOk lookAt look) (a bBits b l res : ℕ) (ha : Apart st (32 * k) a k)
    (hb : Apart st (32 * k) b l) (hl : bBits ≤ 64 * l) (h0 : 0 < bBits)
    (hres : Apart st (32 * k) res k) (hrn : Apart res k n k) :
    (expWindowAt lookAt k n mu r2 a bBits b res st m0).read res k =
      Limbs.expWindow c look (m0.read a k) bBits (m0.read b l) ∧
    Frame2 m0 (expWindowAt lookAt k n mu r2 a bBits b res st m0) res k st (32 * k) := by
  unfold expWindowAt Limbs.expWindow
  dsimp only
  obtain ⟨a1, a2, a3⟩ := h.init a ha
  generalize expInitAt k n mu r2 a st m0 = m1 at a1 a2 a3 ⊢
  obtain ⟨b1, b2, b3⟩ := h.table m1 a3 _ _ a1 a2
  generalize expTableAt k n mu st m1 = m2 at b1 b2 b3 ⊢
  generalize expTable c (toMont c (m0.read a k)) (fromMont c c.r2) = t at b1 ⊢
  have hlen := bLen_le bBits l hl h0
  have first : ∃ m3, m3 = (if bBits % 4 ≠ 0 then lookAt k (st + 6 * k)
        (getWindowAt m2 b (bLen bBits) (bBits / 4 * 4)) (st + 3 * k) m2 else m2) ∧
      m3.read (st + 3 * k) k = (if bBits % 4 ≠ 0 then look t (getWindow (m0.read b l) (bLen bBits)
        (bBits / 4 * 4)) else fromMont c c.r2) ∧
      TableAt m3 k (st + 6 * k) t ∧ Frame m0 m3 st (32 * k) := by
    refine ⟨_, rfl, ?_⟩
    by_cases hz : bBits % 4 ≠ 0
    · rw [if_pos hz, if_pos hz, getWindowAt_eq m2 b l _ _ (by omega) hlen, b3.read b l hb]
      have hlt := getWindow_lt (m0.read b l) (bLen bBits) (bBits / 4 * 4)
      generalize getWindow (m0.read b l) (bLen bBits) (bBits / 4 * 4) = bits at hlt ⊢
      obtain ⟨c1, c3⟩ := hlook k (st + 6 * k) (st + 3 * k) bits t m2 hlt b1 (by unfold Apart; omega)
      exact ⟨c1, b1.frame fun x h1 h2 => c3 x (by omega), fun x hx => by rw [c3 x (by omega), b3 x hx]⟩
    · rw [if_neg hz, if_neg hz]
      exact ⟨b2, b1, b3⟩
  obtain ⟨m3, e3, c1, c2, c3⟩ := first
  rw [← e3]
  obtain ⟨d1, d3⟩ := h.window lookAt look hlook b l (bLen bBits) (bBits - bBits % 4) hb hlen (by omega) t
    (List.range (bBits / 4)) (fun i hi => by have := List.mem_range.1 hi; omega) m3 c3 c2 _ c1
  generalize (List.range (bBits / 4)).foldl
    (expStepAt k n mu (lookAt k (st + 6 * k)) b (bLen bBits) (bBits - bBits % 4) st) m3 = m4 at d1 d3 ⊢
  obtain ⟨e1, e2⟩ := h.final m4 d3 res hres hrn
  exact ⟨by rw [e1, d1], e2⟩

theorem Env.expBinary {m0 : Mem} {k n : ℕ} {mu : UInt64} {r2 st : ℕ} {c : Ctx}
    (h : Env m0 k n mu r2 st c) (a bBits b l res : ℕ) (ha : Apart st (32 * k) a k)
    (hb : Apart st (32 * k) b l) (hl : bBits ≤ 64 * l)
    (hres : Apart st (32 * k) res k) (hrn : Apart res k n k) :
    (expBinaryAt k n mu r2 a bBits b res st m0).read res k =
      Limbs.expBinary c (m0.read a k) bBits (m0.read b l) ∧
    Frame2 m0 (expBinaryAt k n mu r2 a bBits b res st m0) res k st (32 * k) := by
  unfold expBinaryAt Limbs.expBinary
  dsimp only
  obtain ⟨a1, a2, a3⟩ := h.init a ha
  generalize expInitAt k n mu r2 a st m0 = m1 at a1 a2 a3 ⊢
  obtain ⟨b1, b3⟩ := h.binary b l hb (List.range bBits) (fun i hi => by
    have := List.mem_range.1 hi; omega) m1 a3 (fromMont c c.r2, toMont c (m0.read a k)) a2 a1
  generalize (List.range bBits).foldl (binStepAt k n mu b st) m1 = m2 at b1 b3 ⊢
  obtain ⟨e1, e2⟩ := h.final m2 b3 res hres hrn
  exact ⟨by rw [e1, b1], e2⟩

theorem Env.expLadder {m0 : Mem} {k n : ℕ} {mu : UInt64} {r2 st : ℕ} {c : Ctx}
    (h : Env m0 k n mu r2 st c) (a bBits b l res : ℕ) (ha : Apart st (32 * k) a k)
    (hb : Apart st (32 * k) b l) (hl : bBits ≤ 64 * l)
    (hres : Apart st (32 * k) res k) (hrn : Apart res k n k) :
    (expLadderAt k n mu r2 a bBits b res st m0).read res k =
      Limbs.expLadder c (m0.read a k) bBits (m0.read b l) ∧
    Frame2 m0 (expLadderAt k n mu r2 a bBits b res st m0) res k st (32 * k) := by
  unfold expLadderAt Limbs.expLadder
  dsimp only
  obtain ⟨a1, a2, a3⟩ := h.init a ha
  generalize expInitAt k n mu r2 a st m0 = m1 at a1 a2 a3 ⊢
  obtain ⟨m2, p2, sw, e1, e2, b1, b2, b3⟩ := h.ladder b l bBits hb hl (List.range bBits)
    (fun i hi => List.mem_range.1 hi) m1 a3 (fromMont c c.r2, toMont c (m0.read a k)) a2 a1 0
  rw [e1, e2]
  dsimp only
  obtain ⟨c1, c2, c3⟩ := cswapAt_spec sw k (st + 3 * k) st m2 (by unfold Apart; omega)
  rw [b1, b2] at c1
  generalize cswapAt sw k (st + 3 * k) st m2 = m3 at c1 c3 ⊢
  obtain ⟨f1, f2⟩ := h.final m3 (fun x hx => by rw [c3 x (by omega) (by omega), b3 x hx]) res hres hrn
  exact ⟨by rw [f1, c1], f2⟩

end EG.Limbs
