import Verif.Model.LimbsMem
import Mathlib.Logic.Function.Iterate
import Mathlib.Order.Nat

/-!
# C105: results written over arguments
-/

namespace EG.Limbs

/-- An array of `n` words at `p` is read correctly while `n` words at `res` are written from the
beginning: `res` does not lie in the rest of the array. -/
def Safe (n p res : ℕ) : Prop := res ≤ p ∨ p + n ≤ res

/-- Two arrays have no word in common. -/
def Apart (p n q k : ℕ) : Prop := p + n ≤ q ∨ q + k ≤ p

/-- Nothing changes outside of the `n` words at `p`. -/
def Frame (m m' : Mem) (p n : ℕ) : Prop := ∀ x, (x < p ∨ p + n ≤ x) → m' x = m x

theorem read_succ (m : Mem) (p n : ℕ) : m.read p (n + 1) = m p :: m.read (p + 1) n := by
  unfold Mem.read
  rw [List.range_succ_eq_map, List.map_cons, List.map_map]
  congr 1
  apply List.map_congr_left
  intro i _
  simp only [Function.comp_apply]
  congr 1
  omega

theorem read_length (m : Mem) (p n : ℕ) : (m.read p n).length = n := by simp [Mem.read]

theorem read_congr (m m' : Mem) (p n : ℕ) (h : ∀ i, i < n → m' (p + i) = m (p + i)) :
    m'.read p n = m.read p n := by
  unfold Mem.read
  apply List.map_congr_left
  intro i hi
  exact h i (List.mem_range.1 hi)

theorem read_set (m : Mem) (p n q : ℕ) (x : UInt64) (h : q < p ∨ p + n ≤ q) :
    (m.set q x).read p n = m.read p n := by
  apply read_congr
  intro i hi
  unfold Mem.set
  rw [if_neg (by omega)]

theorem set_self (m : Mem) (p : ℕ) (x : UInt64) : (m.set p x) p = x := by simp [Mem.set]

theorem set_other (m : Mem) (p q : ℕ) (x : UInt64) (h : q ≠ p) : (m.set p x) q = m q := by simp [Mem.set, h]

theorem Frame.read {m m' : Mem} {p n : ℕ} (h : Frame m m' p n) (q k : ℕ) (hq : Apart p n q k) :
    m'.read q k = m.read q k := by
  apply read_congr
  intro i hi
  apply h
  rcases hq with hq | hq <;> omega

theorem Frame.trans {m m' m'' : Mem} {p n : ℕ} (h : Frame m m' p n) (h' : Frame m' m'' p n) :
    Frame m m'' p n := fun x hx => (h' x hx).trans (h x hx)

/-- A function that reads the arrays `a` and `b` and writes the array `res` limb by limb. -/
theorem step_frame (m m' : Mem) (res n : ℕ) (x : UInt64) (h : Frame (m.set res x) m' (res + 1) n) :
    m' res = x ∧ Frame m m' res (n + 1) := by
  refine ⟨by rw [h res (by omega), set_self], ?_⟩
  intro y hy
  rw [h y (by omega), set_other _ _ _ _ (by omega)]

/-- C105, addition: with the result apart from the arguments, or written over either of them (or both), the
sum and the carry are those of the arrays as they were before, and nothing else changes. -/
theorem C105_add (n a b res : ℕ) (c : UInt64) (m : Mem) (ha : Safe n a res) (hb : Safe n b res) :
    (addAt n c a b res m).1.read res n = (addLoop c (m.read a n) (m.read b n)).1 ∧
    (addAt n c a b res m).2 = (addLoop c (m.read a n) (m.read b n)).2 ∧
    Frame m (addAt n c a b res m).1 res n := by
  induction n generalizing a b res c m with
  | zero => exact ⟨rfl, rfl, fun _ _ => rfl⟩
  | succ n ih =>
    unfold Safe at ha hb
    obtain ⟨h1, h2, h3⟩ := ih (a + 1) (b + 1) (res + 1) (addCarry c (m a) (m b)).2
      (m.set res (addCarry c (m a) (m b)).1) (by unfold Safe; omega) (by unfold Safe; omega)
    rw [read_set _ (a + 1) n res _ (by omega), read_set _ (b + 1) n res _ (by omega)] at h1 h2
    obtain ⟨k1, k2⟩ := step_frame _ _ _ _ _ h3
    rw [read_succ m a, read_succ m b, read_succ, addAt, addLoop]
    dsimp only
    exact ⟨by rw [k1, h1], h2, k2⟩

/-- C105, subtraction. -/
theorem C105_sub (n a b res : ℕ) (c : UInt64) (m : Mem) (ha : Safe n a res) (hb : Safe n b res) :
    (subAt n c a b res m).1.read res n = (subLoop c (m.read a n) (m.read b n)).1 ∧
    (subAt n c a b res m).2 = (subLoop c (m.read a n) (m.read b n)).2 ∧
    Frame m (subAt n c a b res m).1 res n := by
  induction n generalizing a b res c m with
  | zero => exact ⟨rfl, rfl, fun _ _ => rfl⟩
  | succ n ih =>
    unfold Safe at ha hb
    obtain ⟨h1, h2, h3⟩ := ih (a + 1) (b + 1) (res + 1) (subBorrow c (m a) (m b)).2
      (m.set res (subBorrow c (m a) (m b)).1) (by unfold Safe; omega) (by unfold Safe; omega)
    rw [read_set _ (a + 1) n res _ (by omega), read_set _ (b + 1) n res _ (by omega)] at h1 h2
    obtain ⟨k1, k2⟩ := step_frame _ _ _ _ _ h3
    rw [read_succ m a, read_succ m b, read_succ, subAt, subLoop]
    dsimp only
    exact ⟨by rw [k1, h1], h2, k2⟩

theorem selectAt_spec (mask : UInt64) (n x y res : ℕ) (m : Mem) (hx : Safe n x res) (hy : Safe n y res) :
    (selectAt mask n x y res m).read res n = selectArr mask (m.read x n) (m.read y n) ∧
    Frame m (selectAt mask n x y res m) res n := by
  induction n generalizing x y res m with
  | zero => exact ⟨rfl, fun _ _ => rfl⟩
  | succ n ih =>
    unfold Safe at hx hy
    obtain ⟨h1, h3⟩ := ih (x + 1) (y + 1) (res + 1) (m.set res (select mask (m x) (m y)))
      (by unfold Safe; omega) (by unfold Safe; omega)
    rw [read_set _ (x + 1) n res _ (by omega), read_set _ (y + 1) n res _ (by omega)] at h1
    obtain ⟨k1, k2⟩ := step_frame _ _ _ _ _ h3
    rw [read_succ m x, read_succ m y, read_succ, selectAt]
    exact ⟨by rw [k1, h1]; rfl, k2⟩

theorem rowAt_spec (l : UInt64) (n a res : ℕ) (c : UInt64) (m : Mem) (ha : Safe n a res) :
    (rowAt l n c a res m).1.read res n = (mulRow l c (m.read a n) (m.read res n)).1 ∧
    (rowAt l n c a res m).2 = (mulRow l c (m.read a n) (m.read res n)).2 ∧
    Frame m (rowAt l n c a res m).1 res n := by
  induction n generalizing a res c m with
  | zero => exact ⟨rfl, rfl, fun _ _ => rfl⟩
  | succ n ih =>
    unfold Safe at ha
    obtain ⟨h1, h2, h3⟩ := ih (a + 1) (res + 1) (mulWideAdd2 (m a) l c (m res)).2
      (m.set res (mulWideAdd2 (m a) l c (m res)).1) (by unfold Safe; omega)
    rw [read_set _ (a + 1) n res _ (by omega), read_set _ (res + 1) n res _ (by omega)] at h1 h2
    obtain ⟨k1, k2⟩ := step_frame _ _ _ _ _ h3
    rw [read_succ m a, read_succ m res, read_succ, rowAt, mulRow]
    dsimp only
    exact ⟨by rw [k1, h1], h2, k2⟩

theorem zeroAt_spec (n res : ℕ) (m : Mem) :
    (zeroAt n res m).read res n = List.replicate n 0 ∧ Frame m (zeroAt n res m) res n := by
  induction n generalizing res m with
  | zero => exact ⟨rfl, fun _ _ => rfl⟩
  | succ n ih =>
    obtain ⟨h1, h3⟩ := ih (res + 1) (m.set res 0)
    obtain ⟨k1, k2⟩ := step_frame _ _ _ _ _ h3
    rw [read_succ, zeroAt, k1, h1, List.replicate_succ]
    exact ⟨rfl, k2⟩

theorem copyAt_spec (n dst src : ℕ) (m : Mem) (h : Safe n src dst) :
    (copyAt n dst src m).read dst n = m.read src n ∧ Frame m (copyAt n dst src m) dst n := by
  induction n generalizing dst src m with
  | zero => exact ⟨rfl, fun _ _ => rfl⟩
  | succ n ih =>
    unfold Safe at h
    obtain ⟨h1, h3⟩ := ih (dst + 1) (src + 1) (m.set dst (m src)) (by unfold Safe; omega)
    rw [read_set _ (src + 1) n dst _ (by omega)] at h1
    obtain ⟨k1, k2⟩ := step_frame _ _ _ _ _ h3
    rw [read_succ m src, read_succ, copyAt, k1, h1]
    exact ⟨rfl, k2⟩

/-! ## Modular addition and subtraction -/

theorem safe_self (n p : ℕ) : Safe n p p := Or.inl le_rfl

theorem Apart.safe {p n q : ℕ} (h : Apart p n q n) : Safe n q p := by
  unfold Apart at h; unfold Safe; omega

/-- C105, modular addition: the result may be written over the arguments. -/
theorem C105_addMod (k n a b res tmp : ℕ) (m : Mem) (ha : Safe k a res) (hb : Safe k b res)
    (hn : Apart res k n k) (ht : Apart tmp k res k) (htn : Apart tmp k n k) :
    (addModAt k n a b res tmp m).read res k = addMod (m.read n k) (m.read a k) (m.read b k) ∧
    ∀ x, (x < res ∨ res + k ≤ x) → (x < tmp ∨ tmp + k ≤ x) → addModAt k n a b res tmp m x = m x := by
  unfold addModAt addMod
  dsimp only
  obtain ⟨a1, a2, a3⟩ := C105_add k a b res 0 m ha hb
  obtain ⟨b1, b2, b3⟩ := C105_sub k res n tmp 0 (addAt k 0 a b res m).1 ht.safe htn.safe
  rw [a1, a3.read n k hn] at b1 b2
  obtain ⟨c1, c2⟩ := selectAt_spec ((addAt k 0 a b res m).2 -
    (subAt k 0 res n tmp (addAt k 0 a b res m).1).2) k res tmp res
    (subAt k 0 res n tmp (addAt k 0 a b res m).1).1 (safe_self k res)
    (by unfold Apart at ht; unfold Safe; omega)
  refine ⟨?_, ?_⟩
  · rw [c1, b1, b2, b3.read res k ht, a1, a2]
    rfl
  · intro x h1 h2
    rw [c2 x h1, b3 x h2, a3 x h1]

/-- C105, modular subtraction. -/
theorem C105_subMod (k n a b res tmp : ℕ) (m : Mem) (ha : Safe k a res) (hb : Safe k b res)
    (hn : Apart res k n k) (ht : Apart tmp k res k) (htn : Apart tmp k n k) :
    (subModAt k n a b res tmp m).read res k = subMod (m.read n k) (m.read a k) (m.read b k) ∧
    ∀ x, (x < res ∨ res + k ≤ x) → (x < tmp ∨ tmp + k ≤ x) → subModAt k n a b res tmp m x = m x := by
  unfold subModAt subMod
  dsimp only
  obtain ⟨a1, a2, a3⟩ := C105_sub k a b res 0 m ha hb
  obtain ⟨b1, b2, b3⟩ := C105_add k res n tmp 0 (subAt k 0 a b res m).1 ht.safe htn.safe
  rw [a1, a3.read n k hn] at b1 b2
  obtain ⟨c1, c2⟩ := selectAt_spec (0 - (subAt k 0 a b res m).2) k tmp res res
    (addAt k 0 res n tmp (subAt k 0 a b res m).1).1 (by unfold Apart at ht; unfold Safe; omega)
    (safe_self k res)
  refine ⟨?_, ?_⟩
  · rw [c1, b1, b3.read res k ht, a1, a2]
    rfl
  · intro x h1 h2
    rw [c2 x h1, b3 x h2, a3 x h1]

/-- C105, the doublings in place of the precomputation for Montgomery multiplication. -/
theorem C105_doublings (k n res tmp i : ℕ) (m : Mem)
    (hn : Apart res k n k) (ht : Apart tmp k res k) (htn : Apart tmp k n k) :
    (doublingsAt k n res tmp i m).read res k =
      (List.range i).foldl (fun r _ => addMod (m.read n k) r r) (m.read res k) := by
  have key : ∀ (i : ℕ) (m : Mem), (doublingsAt k n res tmp i m).read res k =
      (fun r => addMod (m.read n k) r r)^[i] (m.read res k) := by
    intro i
    induction i with
    | zero => intro m; rfl
    | succ i ih =>
      intro m
      obtain ⟨h1, h2⟩ := C105_addMod k n res res res tmp m (safe_self _ _) (safe_self _ _) hn ht htn
      have h3 : (addModAt k n res res res tmp m).read n k = m.read n k := by
        apply read_congr
        intro j hj
        unfold Apart at hn htn
        exact h2 _ (by omega) (by omega)
      rw [doublingsAt, ih, h1, h3, Function.iterate_succ_apply]
  rw [key]
  generalize m.read res k = r
  clear key
  induction i generalizing r with
  | zero => rfl
  | succ i ih =>
    rw [Function.iterate_succ_apply', ih, List.range_succ, List.foldl_append]
    rfl

/-! ## Multiplication -/

theorem read_take_drop (m : Mem) (p n i k : ℕ) (h : i + k ≤ n) :
    ((m.read p n).drop i).take k = m.read (p + i) k := by
  apply List.ext_getElem
  · simp [Mem.read]; omega
  · intro j h1 h2
    simp [Mem.read, Nat.add_assoc]

theorem read_append (m : Mem) (p i k : ℕ) : m.read p (i + k) = m.read p i ++ m.read (p + i) k := by
  induction i generalizing p with
  | zero => simp [Mem.read]
  | succ i ih =>
    rw [show i + 1 + k = (i + k) + 1 by omega, read_succ, ih, read_succ, List.cons_append,
      show p + 1 + i = p + (i + 1) by omega]

/-- Writing `xs` from index `i` on. -/
theorem read_splice (m m' : Mem) (p n i : ℕ) (xs : Arr) (h : i + xs.length ≤ n)
    (hx : m'.read (p + i) xs.length = xs) (hf : Frame m m' (p + i) xs.length) :
    m'.read p n = splice (m.read p n) i xs := by
  obtain ⟨k, rfl⟩ := Nat.exists_eq_add_of_le h
  have h1 : m'.read p i = m.read p i := read_congr _ _ _ _ (fun j hj => hf _ (by omega))
  have h2 : m'.read (p + (i + xs.length)) k = m.read (p + (i + xs.length)) k :=
    read_congr _ _ _ _ (fun j hj => hf _ (by omega))
  unfold splice
  rw [read_append m', read_append m', h1, h2, hx, read_append m p (i + xs.length) k]
  congr 1
  · congr 1
    rw [read_append m p i, List.append_assoc, List.take_left' (read_length _ _ _)]
  · rw [List.drop_left' (read_length _ _ _)]

theorem getD_read (m : Mem) (p n i : ℕ) (h : i < n) : (m.read p n).getD i 0 = m (p + i) := by
  simp [Mem.read, h]

theorem mulRow_length (l c : UInt64) (a out : Arr) (h : a.length = out.length) :
    (mulRow l c a out).1.length = a.length := by
  induction a generalizing c out with
  | nil => cases out <;> rfl
  | cons x a ih =>
    cases out with
    | nil => simp at h
    | cons o out =>
      simp only [mulRow, List.length_cons]
      rw [ih _ out (by simpa using h)]

theorem mulStepAt_spec (na nb a b res i : ℕ) (m : Mem) (hi : i < nb) (ha : Apart res (na + nb) a na) :
    (mulStepAt na a b res m i).read res (na + nb) =
      mulStep (m.read a na) (m.read b nb) (m.read res (na + nb)) i ∧
    Frame m (mulStepAt na a b res m i) res (na + nb) := by
  unfold mulStepAt mulStep
  dsimp only
  obtain ⟨h1, h2, h3⟩ := rowAt_spec (m (b + i)) na a (res + i) 0 m
    (by unfold Apart at ha; unfold Safe; omega)
  rw [getD_read _ _ _ _ hi, read_length, read_take_drop _ _ _ _ _ (by omega)]
  have hlen := mulRow_length (m (b + i)) 0 (m.read a na) (m.read (res + i) na)
    (by rw [read_length, read_length])
  rw [read_length] at hlen
  have e1 := read_splice m (rowAt (m (b + i)) na 0 a (res + i) m).1 res (na + nb) i
    (mulRow (m (b + i)) 0 (m.read a na) (m.read (res + i) na)).1 (by omega) (by rw [hlen, h1])
    (by rw [hlen]; exact h3)
  refine ⟨?_, ?_⟩
  · rw [read_splice (rowAt (m (b + i)) na 0 a (res + i) m).1 _ res (na + nb) (na + i)
      [(rowAt (m (b + i)) na 0 a (res + i) m).2] (by simp; omega) ?_ ?_, e1, h2]
    · simp only [List.length_singleton]
      rw [read_succ, set_self]
      rfl
    · intro x hx
      simp only [List.length_singleton] at hx
      exact set_other _ _ _ _ (by omega)
  · intro x hx
    rw [set_other _ _ _ _ (by omega), h3 x (by omega)]

/-- C105, multiplication: the two arguments may overlap each other in any way (squares), the result must be
apart from both. -/
theorem C105_mul (na nb a b res : ℕ) (m : Mem) (ha : Apart res (na + nb) a na)
    (hb : Apart res (na + nb) b nb) :
    (mulAt na nb a b res m).read res (na + nb) = mul (m.read a na) (m.read b nb) ∧
    Frame m (mulAt na nb a b res m) res (na + nb) := by
  unfold mulAt mul
  obtain ⟨z1, z2⟩ := zeroAt_spec (na + nb) res m
  rw [read_length, read_length, ← z1]
  have key : ∀ (l : List ℕ) (m' : Mem), (∀ i ∈ l, i < nb) → Frame m m' res (na + nb) →
      (l.foldl (mulStepAt na a b res) m').read res (na + nb) =
        l.foldl (mulStep (m.read a na) (m.read b nb)) (m'.read res (na + nb)) ∧
      Frame m (l.foldl (mulStepAt na a b res) m') res (na + nb) := by
    intro l
    induction l with
    | nil => intro m' _ hf; exact ⟨rfl, hf⟩
    | cons i l ih =>
      intro m' hl hf
      obtain ⟨s1, s2⟩ := mulStepAt_spec na nb a b res i m' (hl i (by simp)) ha
      obtain ⟨t1, t2⟩ := ih (mulStepAt na a b res m' i) (fun j hj => hl j (by simp [hj])) (hf.trans s2)
      rw [List.foldl_cons, List.foldl_cons]
      rw [hf.read a na ha, hf.read b nb hb] at s1
      rw [s1] at t1
      exact ⟨t1, t2⟩
  exact key _ _ (fun i hi => List.mem_range.1 hi) z2

/-! ## Montgomery reduction -/

theorem redcStepAt_spec (k n : ℕ) (nInv : UInt64) (c i : ℕ) (m : Mem) (carry : UInt64) (hi : i < k)
    (hn : Apart c (k + k) n k) :
    (redcStepAt k n nInv c (m, carry) i).1.read c (k + k) =
      (redcStep (m.read n k) nInv (m.read c (k + k), carry) i).1 ∧
    (redcStepAt k n nInv c (m, carry) i).2 =
      (redcStep (m.read n k) nInv (m.read c (k + k), carry) i).2 ∧
    Frame m (redcStepAt k n nInv c (m, carry) i).1 c (k + k) := by
  unfold redcStepAt redcStep
  dsimp only
  rw [getD_read _ _ _ _ (by omega), read_length, read_take_drop _ _ _ _ _ (by omega)]
  obtain ⟨h1, h2, h3⟩ := rowAt_spec (nInv * m (c + i)) k n (c + i) 0 m
    (by unfold Apart at hn; unfold Safe; omega)
  have hlen := mulRow_length (nInv * m (c + i)) 0 (m.read n k) (m.read (c + i) k)
    (by rw [read_length, read_length])
  rw [read_length] at hlen
  have e1 := read_splice m (rowAt (nInv * m (c + i)) k 0 n (c + i) m).1 c (k + k) i
    (mulRow (nInv * m (c + i)) 0 (m.read n k) (m.read (c + i) k)).1 (by omega) (by rw [hlen, h1])
    (by rw [hlen]; exact h3)
  have e2 : (splice (m.read c (k + k)) i
      (mulRow (nInv * m (c + i)) 0 (m.read n k) (m.read (c + i) k)).1).getD (k + i) 0 =
      (rowAt (nInv * m (c + i)) k 0 n (c + i) m).1 (c + (k + i)) := by
    rw [← e1, getD_read _ _ _ _ (by omega)]
  rw [e2, ← h2]
  refine ⟨?_, rfl, ?_⟩
  · rw [read_splice (rowAt (nInv * m (c + i)) k 0 n (c + i) m).1 _ c (k + k) (k + i) [_]
      (by simp; omega) ?_ ?_, e1]
    · simp only [List.length_singleton]
      rw [read_succ, set_self]
      rfl
    · intro x hx
      simp only [List.length_singleton] at hx
      exact set_other _ _ _ _ (by omega)
  · intro x hx
    rw [set_other _ _ _ _ (by omega), h3 x (by omega)]

/-- C105, Montgomery reduction: the product is overwritten, the result and the local array are apart from it
and from the modulus. -/
theorem C105_reduction (k n : ℕ) (nInv : UInt64) (c res tmp : ℕ) (m : Mem)
    (hn : Apart c (k + k) n k) (hr : Apart res k (c + k) k) (hrn : Apart res k n k)
    (ht : Apart tmp k res k) (htn : Apart tmp k n k) :
    (reductionAt k n nInv c res tmp m).read res k =
      reduction (m.read n k) nInv (m.read c (k + k)) := by
  have key : ∀ (l : List ℕ) (m' : Mem) (carry : UInt64), (∀ i ∈ l, i < k) → Frame m m' c (k + k) →
      (l.foldl (redcStepAt k n nInv c) (m', carry)).1.read c (k + k) =
        (l.foldl (redcStep (m.read n k) nInv) (m'.read c (k + k), carry)).1 ∧
      (l.foldl (redcStepAt k n nInv c) (m', carry)).2 =
        (l.foldl (redcStep (m.read n k) nInv) (m'.read c (k + k), carry)).2 ∧
      Frame m (l.foldl (redcStepAt k n nInv c) (m', carry)).1 c (k + k) := by
    intro l
    induction l with
    | nil => intro m' carry _ hf; exact ⟨rfl, rfl, hf⟩
    | cons i l ih =>
      intro m' carry hl hf
      obtain ⟨s1, s2, s3⟩ := redcStepAt_spec k n nInv c i m' carry (hl i (by simp)) hn
      rw [hf.read n k hn] at s1 s2
      rw [List.foldl_cons, List.foldl_cons]
      have := ih (redcStepAt k n nInv c (m', carry) i).1 (redcStepAt k n nInv c (m', carry) i).2
        (fun j hj => hl j (by simp [hj])) (hf.trans s3)
      rw [show redcStep (m.read n k) nInv (m'.read c (k + k), carry) i =
        ((redcStepAt k n nInv c (m', carry) i).1.read c (k + k), (redcStepAt k n nInv c (m', carry) i).2)
        from Prod.ext s1.symm s2.symm]
      exact this
  obtain ⟨h1, h2, h3⟩ := key (List.range k) m 0 (fun i hi => List.mem_range.1 hi) (fun _ _ => rfl)
  unfold reductionAt reduction redcLoop
  dsimp only
  rw [read_length]
  generalize (List.range k).foldl (redcStepAt k n nInv c) (m, 0) = st at h1 h2 h3 ⊢
  obtain ⟨c1, c2⟩ := copyAt_spec k res (c + k) st.1 hr.safe
  have c3 : (copyAt k res (c + k) st.1).read res k =
      ((List.range k).foldl (redcStep (m.read n k) nInv) (m.read c (k + k), 0)).1.drop k := by
    rw [c1, ← h1, ← read_take_drop st.1 c (k + k) k k le_rfl, List.take_of_length_le]
    rw [List.length_drop, read_length]
    omega
  obtain ⟨b1, b2, b3⟩ := C105_sub k res n tmp 0 (copyAt k res (c + k) st.1) ht.safe htn.safe
  rw [c3, c2.read n k hrn, h3.read n k hn] at b1 b2
  obtain ⟨d1, d2⟩ := selectAt_spec (st.2 - (subAt k 0 res n tmp (copyAt k res (c + k) st.1)).2) k res tmp
    res (subAt k 0 res n tmp (copyAt k res (c + k) st.1)).1 (safe_self k res)
    (by unfold Apart at ht; unfold Safe; omega)
  rw [d1, b1, b2, b3.read res k ht, c3, h2]
  rfl

/-! ## What is not allowed, and the hypotheses are met -/

/-- The memory with the words 2^64-1, 1, 0, 0, ... -/
def sampleMem : Mem := fun p => if p = 0 then 0xFFFFFFFFFFFFFFFF else if p = 1 then 1 else 0

/-- The condition on the addresses is needed: with the result one word behind the argument, the sum of a
number with itself comes out wrong. -/
theorem C105_overlap_needed : ¬ Safe 2 0 1 ∧
    (addAt 2 0 0 0 1 sampleMem).1.read 1 2 ≠ (add (sampleMem.read 0 2) (sampleMem.read 0 2)).1 := by
  refine ⟨by unfold Safe; omega, ?_⟩
  decide +kernel

/-- A product must not be written over its argument. -/
theorem C105_mul_apart_needed : (mulAt 1 1 0 1 0 sampleMem).read 0 2 ≠
    mul (sampleMem.read 0 1) (sampleMem.read 1 1) := by
  decide +kernel

/-- The calls of group.cpp:527-549 (in place) and of Hacl_Bignum.c:448 (three times the same array). -/
example (m : Mem) (x y : ℕ) (h : Apart x 64 y 64) : Safe 64 x x ∧ Safe 64 y x ∧
    (addAt 64 0 x x x m).1.read x 64 = (add (m.read x 64) (m.read x 64)).1 :=
  ⟨safe_self _ _, h.safe, (C105_add 64 x x x 0 m (safe_self _ _) (safe_self _ _)).1⟩

example : Apart 0 64 64 64 ∧ Apart 128 64 0 64 ∧ Apart 128 64 64 64 ∧ Apart 256 (64 + 64) 64 64 := by
  unfold Apart; omega

end EG.Limbs
