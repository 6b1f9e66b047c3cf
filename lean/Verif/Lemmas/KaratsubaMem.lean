import Verif.Model.KaratsubaMem
import Verif.Props.LimbsMem

/-! # Lemmas about Karatsuba and Montgomery multiplication in memory -/

namespace EG.Limbs

/-- Nothing changes outside of two arrays. -/
def Frame2 (m m' : Mem) (p n q k : ℕ) : Prop :=
  ∀ x, (x < p ∨ p + n ≤ x) → (x < q ∨ q + k ≤ x) → m' x = m x

theorem Frame2.read {m m' : Mem} {p n q k : ℕ} (h : Frame2 m m' p n q k) (r l : ℕ)
    (hp : Apart p n r l) (hq : Apart q k r l) : m'.read r l = m.read r l := by
  apply read_congr
  intro i hi
  unfold Apart at hp hq
  exact h _ (by omega) (by omega)

/-- Nothing changes outside of three arrays. -/
def Frame3 (m m' : Mem) (p n q k r l : ℕ) : Prop :=
  ∀ x, (x < p ∨ p + n ≤ x) → (x < q ∨ q + k ≤ x) → (x < r ∨ r + l ≤ x) → m' x = m x

theorem Frame3.read {m m' : Mem} {p n q k r l : ℕ} (h : Frame3 m m' p n q k r l) (s j : ℕ)
    (hp : Apart p n s j) (hq : Apart q k s j) (hr : Apart r l s j) : m'.read s j = m.read s j := by
  apply read_congr
  intro i hi
  unfold Apart at hp hq hr
  exact h _ (by omega) (by omega) (by omega)

theorem read_drop (m : Mem) (p n i k : ℕ) (h : n = i + k) : (m.read p n).drop i = m.read (p + i) k := by
  rw [h, read_append, List.drop_left' (read_length _ _ _)]

theorem read_take (m : Mem) (p n i k : ℕ) (h : n = i + k) : (m.read p n).take i = m.read p i := by
  rw [h, read_append, List.take_left' (read_length _ _ _)]

theorem splice_read (m m' : Mem) (p n i l : ℕ) (h : i + l ≤ n) (hf : Frame m m' (p + i) l) :
    m'.read p n = splice (m.read p n) i (m'.read (p + i) l) := by
  have hl := read_length m' (p + i) l
  exact read_splice m m' p n i (m'.read (p + i) l) (by rw [hl]; exact h) (by rw [hl]) (by rw [hl]; exact hf)

theorem absDiffAt_spec (k x y t s : ℕ) (m : Mem) (hxt : Apart t k x k) (hyt : Apart t k y k)
    (hxs : Apart s k x k) (hys : Apart s k y k) (hts : Apart t k s k) :
    (absDiffAt k x y t s m).1.read t k = (absDiff (m.read x k) (m.read y k)).1 ∧
    (absDiffAt k x y t s m).2 = (absDiff (m.read x k) (m.read y k)).2 ∧
    Frame2 m (absDiffAt k x y t s m).1 t k s k := by
  unfold absDiffAt absDiff
  dsimp only
  obtain ⟨a1, a2, a3⟩ := C105_sub k x y s 0 m hxs.safe hys.safe
  generalize subAt k 0 x y s m = d at a1 a2 a3 ⊢
  obtain ⟨b1, b2, b3⟩ := C105_sub k y x t 0 d.1 hyt.safe hxt.safe
  rw [a3.read x k hxs, a3.read y k hys] at b1 b2
  generalize subAt k 0 y x t d.1 = e at b1 b2 b3 ⊢
  obtain ⟨c1, c2⟩ := selectAt_spec (0 - d.2) k t s t e.1 (safe_self _ _) hts.safe
  rw [b1, b3.read s k hts, a1] at c1
  refine ⟨?_, a2, ?_⟩
  · rw [c1, a2]
    rfl
  · intro z h1 h2
    rw [c2 z h1, b3 z h1, a3 z h2]

theorem carryAt_spec (n r : ℕ) (c : UInt64) (m : Mem) :
    (carryAt n c r m).read r n = (addLoop c (m.read r n) (List.replicate n 0)).1 ∧
    Frame m (carryAt n c r m) r n := by
  induction n generalizing r c m with
  | zero => exact ⟨rfl, fun _ _ => rfl⟩
  | succ n ih =>
    obtain ⟨h1, h3⟩ := ih (r + 1) (addCarry c (m r) 0).2 (m.set r (addCarry c (m r) 0).1)
    rw [read_set _ (r + 1) n r _ (by omega)] at h1
    obtain ⟨k1, k2⟩ := step_frame _ _ _ _ _ h3
    rw [read_succ m r, read_succ, carryAt, List.replicate_succ, addLoop]
    dsimp only
    exact ⟨by rw [k1, h1], k2⟩

theorem addLimbAt_spec (n r : ℕ) (c : UInt64) (m : Mem) :
    (addLimbAt n c r m).read r n = addLimb (m.read r n) c ∧ Frame m (addLimbAt n c r m) r n := by
  cases n with
  | zero => exact ⟨rfl, fun _ _ => rfl⟩
  | succ n =>
    unfold addLimbAt addLimb
    dsimp only
    obtain ⟨h1, h3⟩ := carryAt_spec n (r + 1) (addCarry 0 (m r) c).2 (m.set r (addCarry 0 (m r) c).1)
    rw [read_set _ (r + 1) n r _ (by omega)] at h1
    obtain ⟨k1, k2⟩ := step_frame _ _ _ _ _ h3
    rw [read_succ m r, read_succ]
    dsimp only
    rw [read_length]
    exact ⟨by rw [k1, h1], k2⟩

theorem combineAt_spec (k h res t45 : ℕ) (c5 : UInt64) (m : Mem) (hk : k = h + h)
    (ht : Apart res (k + k) t45 k) :
    (combineAt k h res t45 c5 m).read res (k + k) = combine h (m.read res (k + k)) (m.read t45 k) c5 ∧
    Frame m (combineAt k h res t45 c5 m) res (k + k) := by
  unfold combineAt combine
  dsimp only
  have hs : Safe k t45 (res + h) := by unfold Apart at ht; unfold Safe; omega
  obtain ⟨a1, a2, a3⟩ := C105_add k (res + h) t45 (res + h) 0 m (safe_self _ _) hs
  generalize addAt k 0 (res + h) t45 (res + h) m = s at a1 a2 a3 ⊢
  obtain ⟨b1, b3⟩ := addLimbAt_spec h (res + k + h) (c5 + s.2) s.1
  generalize addLimbAt h (c5 + s.2) (res + k + h) s.1 = m' at b1 b3 ⊢
  rw [read_length, read_take_drop _ _ _ _ _ (by omega)]
  have e1 := splice_read m s.1 res (k + k) h k (by omega) a3
  have e2 := splice_read s.1 m' res (k + k) (h + k) h (by omega)
    (by rw [show res + (h + k) = res + k + h by omega]; exact b3)
  rw [show res + (h + k) = res + k + h by omega, b1] at e2
  refine ⟨?_, ?_⟩
  · rw [e2]
    have e3 : (add (m.read (res + h) k) (m.read t45 k)).1 = s.1.read (res + h) k := a1.symm
    have e4 : (add (m.read (res + h) k) (m.read t45 k)).2 = s.2 := a2.symm
    rw [e3, e4, ← e1, read_drop s.1 res (k + k) (h + k) h (by omega),
      show res + (h + k) = res + k + h by omega]
  · intro x hx
    rw [b3 x (by omega), a3 x (by omega)]

/-- Karatsuba multiplication with a scratch array of four times the length. -/
theorem karatsubaMulAt_spec (fuel k a b tmp res : ℕ) (m : Mem)
    (ha : Apart res (k + k) a k) (hb : Apart res (k + k) b k)
    (hta : Apart tmp (4 * k) a k) (htb : Apart tmp (4 * k) b k) (htr : Apart tmp (4 * k) res (k + k)) :
    (karatsubaMulAt fuel k a b tmp res m).read res (k + k) =
      karatsubaMul fuel (m.read a k) (m.read b k) ∧
    Frame2 m (karatsubaMulAt fuel k a b tmp res m) res (k + k) tmp (4 * k) := by
  induction fuel generalizing k a b tmp res m with
  | zero =>
    obtain ⟨h1, h2⟩ := C105_mul k k a b res m ha hb
    exact ⟨h1, fun x hx _ => h2 x hx⟩
  | succ fuel ih =>
    unfold karatsubaMulAt karatsubaMul
    rw [read_length]
    by_cases hc : k < 32 ∨ k % 2 = 1
    · rw [if_pos hc, if_pos hc]
      obtain ⟨h1, h2⟩ := C105_mul k k a b res m ha hb
      exact ⟨h1, fun x hx _ => h2 x hx⟩
    rw [if_neg hc, if_neg hc]
    dsimp only
    obtain ⟨h, hk⟩ : ∃ h, k = h + h := ⟨k / 2, by omega⟩
    rw [show k / 2 = h by omega, read_take m a k h h hk, read_drop m a k h h hk, read_take m b k h h hk,
      read_drop m b k h h hk]
    unfold Apart at ha hb hta htb htr
    -- |a0 - a1|
    obtain ⟨a1, a2, a3⟩ := absDiffAt_spec h a (a + h) tmp (tmp + k) m (by unfold Apart; omega)
      (by unfold Apart; omega) (by unfold Apart; omega) (by unfold Apart; omega) (by unfold Apart; omega)
    generalize absDiffAt h a (a + h) tmp (tmp + k) m = d at a1 a2 a3 ⊢
    -- |b0 - b1|
    obtain ⟨b1, b2, b3⟩ := absDiffAt_spec h b (b + h) (tmp + h) (tmp + k) d.1 (by unfold Apart; omega)
      (by unfold Apart; omega) (by unfold Apart; omega) (by unfold Apart; omega) (by unfold Apart; omega)
    rw [a3.read b h (by unfold Apart; omega) (by unfold Apart; omega),
      a3.read (b + h) h (by unfold Apart; omega) (by unfold Apart; omega)] at b1 b2
    generalize absDiffAt h b (b + h) (tmp + h) (tmp + k) d.1 = e at b1 b2 b3 ⊢
    -- t23
    obtain ⟨c1, c3⟩ := ih h tmp (tmp + h) (tmp + k + k) (tmp + k) e.1 (by unfold Apart; omega)
      (by unfold Apart; omega) (by unfold Apart; omega) (by unfold Apart; omega) (by unfold Apart; omega)
    rw [b3.read tmp h (by unfold Apart; omega) (by unfold Apart; omega), a1, b1] at c1
    generalize karatsubaMulAt fuel h tmp (tmp + h) (tmp + k + k) (tmp + k) e.1 = m1 at c1 c3 ⊢
    -- the operands are unchanged
    have keep : ∀ r l, Apart tmp (4 * k) r l → m1.read r l = m.read r l := by
      intro r l hr
      unfold Apart at hr
      rw [c3.read r l (by unfold Apart; omega) (by unfold Apart; omega),
        b3.read r l (by unfold Apart; omega) (by unfold Apart; omega),
        a3.read r l (by unfold Apart; omega) (by unfold Apart; omega)]
    -- r01
    obtain ⟨d1, d3⟩ := ih h a b (tmp + k + k) res m1 (by unfold Apart; omega)
      (by unfold Apart; omega) (by unfold Apart; omega) (by unfold Apart; omega) (by unfold Apart; omega)
    rw [keep a h (by unfold Apart; omega), keep b h (by unfold Apart; omega)] at d1
    generalize karatsubaMulAt fuel h a b (tmp + k + k) res m1 = m2 at d1 d3 ⊢
    -- r23
    obtain ⟨e1, e3⟩ := ih h (a + h) (b + h) (tmp + k + k) (res + k) m2 (by unfold Apart; omega)
      (by unfold Apart; omega) (by unfold Apart; omega) (by unfold Apart; omega) (by unfold Apart; omega)
    rw [d3.read (a + h) h (by unfold Apart; omega) (by unfold Apart; omega),
      d3.read (b + h) h (by unfold Apart; omega) (by unfold Apart; omega),
      keep (a + h) h (by unfold Apart; omega), keep (b + h) h (by unfold Apart; omega)] at e1
    generalize karatsubaMulAt fuel h (a + h) (b + h) (tmp + k + k) (res + k) m2 = m3 at e1 e3 ⊢
    have r01 : m3.read res k = karatsubaMul fuel (m.read a h) (m.read b h) := by
      rw [e3.read res k (by unfold Apart; omega) (by unfold Apart; omega), ← d1, ← hk]
    have r23 : m3.read (res + k) k = karatsubaMul fuel (m.read (a + h) h) (m.read (b + h) h) := by
      rw [← e1, ← hk]
    have t23 : m3.read (tmp + k) k = karatsubaMul fuel (absDiff (m.read a h) (m.read (a + h) h)).1
        (absDiff (m.read b h) (m.read (b + h) h)).1 := by
      rw [e3.read (tmp + k) k (by unfold Apart; omega) (by unfold Apart; omega),
        d3.read (tmp + k) k (by unfold Apart; omega) (by unfold Apart; omega), ← c1, ← hk]
    -- t01
    obtain ⟨f1, f2, f3⟩ := C105_add k res (res + k) tmp 0 m3 (by unfold Safe; omega) (by unfold Safe; omega)
    generalize addAt k 0 res (res + k) tmp m3 = s at f1 f2 f3 ⊢
    rw [r01, r23] at f1 f2
    -- t67
    obtain ⟨g1, g2, g3⟩ := C105_sub k tmp (tmp + k) (tmp + 3 * k) 0 s.1 (by unfold Safe; omega)
      (by unfold Safe; omega)
    rw [f3.read (tmp + k) k (by unfold Apart; omega), f1, t23] at g1 g2
    generalize subAt k 0 tmp (tmp + k) (tmp + 3 * k) s.1 = t67 at g1 g2 g3 ⊢
    -- t45
    obtain ⟨i1, i2, i3⟩ := C105_add k tmp (tmp + k) (tmp + 2 * k) 0 t67.1 (by unfold Safe; omega)
      (by unfold Safe; omega)
    rw [g3.read tmp k (by unfold Apart; omega), g3.read (tmp + k) k (by unfold Apart; omega),
      f3.read (tmp + k) k (by unfold Apart; omega), f1, t23] at i1 i2
    generalize addAt k 0 tmp (tmp + k) (tmp + 2 * k) t67.1 = t45 at i1 i2 i3 ⊢
    -- selection
    obtain ⟨j1, j3⟩ := selectAt_spec (0 - (d.2 ^^^ e.2)) k (tmp + 2 * k) (tmp + 3 * k) (tmp + 2 * k) t45.1
      (safe_self _ _) (by unfold Safe; omega)
    rw [i1, i3.read (tmp + 3 * k) k (by unfold Apart; omega), g1] at j1
    generalize selectAt (0 - (d.2 ^^^ e.2)) k (tmp + 2 * k) (tmp + 3 * k) (tmp + 2 * k) t45.1 = m4
      at j1 j3 ⊢
    -- the middle part
    obtain ⟨l1, l3⟩ := combineAt_spec k h res (tmp + 2 * k)
      (select (0 - (d.2 ^^^ e.2)) (s.2 + t45.2) (s.2 - t67.2)) m4 hk (by unfold Apart; omega)
    refine ⟨?_, ?_⟩
    · rw [l1, j1, j3.read res (k + k) (by unfold Apart; omega), i3.read res (k + k) (by unfold Apart; omega),
        g3.read res (k + k) (by unfold Apart; omega), f3.read res (k + k) (by unfold Apart; omega),
        read_append m3 res k k, r01, r23, a2, b2, f2, g2, i2]
      rfl
    · intro x h1 h2
      rw [l3 x h1, j3 x (by omega), i3 x (by omega), g3 x (by omega), f3 x (by omega),
        e3 x (by omega) (by omega), d3 x (by omega) (by omega), c3 x (by omega) (by omega),
        b3 x (by omega) (by omega), a3 x (by omega) (by omega)]

/-! ## Squares -/

theorem sqrStepAt_spec (k a res i : ℕ) (m : Mem) (hi : i < k) (ha : Apart res (k + k) a k) :
    (sqrStepAt a res m i).read res (k + k) = sqrStep (m.read a k) (m.read res (k + k)) i ∧
    Frame m (sqrStepAt a res m i) res (k + k) := by
  unfold sqrStepAt sqrStep
  dsimp only
  obtain ⟨h1, h2, h3⟩ := rowAt_spec (m (a + i)) i a (res + i) 0 m
    (by unfold Apart at ha; unfold Safe; omega)
  rw [getD_read _ _ _ _ hi, read_take_drop _ _ _ _ _ (by omega),
    read_take m a k i (k - i) (by omega)]
  generalize rowAt (m (a + i)) i 0 a (res + i) m = row at h1 h2 h3 ⊢
  have e1 := splice_read m row.1 res (k + k) i i (by omega) h3
  refine ⟨?_, ?_⟩
  · rw [read_splice row.1 _ res (k + k) (i + i) [row.2] (by simp; omega) ?_ ?_, e1, h1, h2]
    · simp only [List.length_singleton]
      rw [read_succ, set_self]
      rfl
    · intro x hx
      simp only [List.length_singleton] at hx
      exact set_other _ _ _ _ (by omega)
  · intro x hx
    rw [set_other _ _ _ _ (by omega), h3 x (by omega)]

theorem diagAt_spec (n a t : ℕ) (m : Mem) (h : Apart t (n + n) a n) :
    (diagAt n a t m).read t (n + n) = sqrDiag (m.read a n) ∧ Frame m (diagAt n a t m) t (n + n) := by
  induction n generalizing a t m with
  | zero => exact ⟨rfl, fun _ _ => rfl⟩
  | succ n ih =>
    unfold Apart at h
    rw [diagAt]
    generalize hx : UInt64.ofNat ((m a).toNat * (m a).toNat % 2 ^ 128 % 2 ^ 64) = lo
    generalize hy : UInt64.ofNat (((m a).toNat * (m a).toNat % 2 ^ 128) >>> 64) = hi
    obtain ⟨h1, h3⟩ := ih (a + 1) (t + 2) ((m.set t lo).set (t + 1) hi) (by unfold Apart; omega)
    generalize diagAt n (a + 1) (t + 2) ((m.set t lo).set (t + 1) hi) = m' at h1 h3 ⊢
    rw [read_set _ (a + 1) n (t + 1) _ (by omega), read_set _ (a + 1) n t _ (by omega)] at h1
    rw [read_succ m a, sqrDiag, hx, hy, ← h1, show n + 1 + (n + 1) = (n + n) + 1 + 1 by omega, read_succ,
      read_succ, h3 t (by omega), h3 (t + 1) (by omega), set_self, set_other _ _ _ _ (by omega), set_self]
    refine ⟨rfl, ?_⟩
    intro x hx
    rw [h3 x (by omega), set_other _ _ _ _ (by omega), set_other _ _ _ _ (by omega)]

theorem sqrAt_spec (k a res loc : ℕ) (m : Mem) (ha : Apart res (k + k) a k) (hl : Apart loc (k + k) a k)
    (hr : Apart loc (k + k) res (k + k)) :
    (sqrAt k a res loc m).read res (k + k) = sqr (m.read a k) ∧
    Frame2 m (sqrAt k a res loc m) res (k + k) loc (k + k) := by
  unfold sqrAt sqr
  dsimp only
  obtain ⟨z1, z2⟩ := zeroAt_spec (k + k) res m
  rw [read_length, ← z1]
  have key : ∀ (l : List ℕ) (m' : Mem), (∀ i ∈ l, i < k) → Frame m m' res (k + k) →
      (l.foldl (sqrStepAt a res) m').read res (k + k) =
        l.foldl (sqrStep (m.read a k)) (m'.read res (k + k)) ∧
      Frame m (l.foldl (sqrStepAt a res) m') res (k + k) := by
    intro l
    induction l with
    | nil => intro m' _ hf; exact ⟨rfl, hf⟩
    | cons i l ih =>
      intro m' hl hf
      obtain ⟨s1, s2⟩ := sqrStepAt_spec k a res i m' (hl i (by simp)) ha
      obtain ⟨t1, t2⟩ := ih (sqrStepAt a res m' i) (fun j hj => hl j (by simp [hj])) (hf.trans s2)
      rw [List.foldl_cons, List.foldl_cons]
      rw [hf.read a k ha] at s1
      rw [s1] at t1
      exact ⟨t1, t2⟩
  obtain ⟨a1, a3⟩ := key _ _ (fun i hi => List.mem_range.1 hi) z2
  generalize (List.range k).foldl (sqrStepAt a res) (zeroAt (k + k) res m) = m1 at a1 a3 ⊢
  obtain ⟨b1, b2, b3⟩ := C105_add (k + k) res res res 0 m1 (safe_self _ _) (safe_self _ _)
  generalize addAt (k + k) 0 res res res m1 = s at b1 b2 b3 ⊢
  obtain ⟨-, c3⟩ := zeroAt_spec (k + k) loc s.1
  generalize zeroAt (k + k) loc s.1 = m2 at c3 ⊢
  obtain ⟨d1, d3⟩ := diagAt_spec k a loc m2 hl
  generalize diagAt k a loc m2 = m3 at d1 d3 ⊢
  have hs : Safe (k + k) loc res := by unfold Apart at hr; unfold Safe; omega
  obtain ⟨e1, e2, e3⟩ := C105_add (k + k) res loc res 0 m3 (safe_self _ _) hs
  refine ⟨?_, ?_⟩
  · rw [e1, d1, c3.read a k hl, b3.read a k ha, a3.read a k ha, d3.read res (k + k) hr,
      c3.read res (k + k) hr, b1, a1]
    rfl
  · intro x h1 h2
    rw [e3 x h1, d3 x h2, c3 x h2, b3 x h1, a3 x h1]

theorem karatsubaSqrAt_spec (loc fuel k a tmp res : ℕ) (m : Mem)
    (ha : Apart res (k + k) a k) (hta : Apart tmp (4 * k) a k) (htr : Apart tmp (4 * k) res (k + k))
    (hla : Apart loc (k + k) a k) (hlr : Apart loc (k + k) res (k + k)) (hlt : Apart loc (k + k) tmp (4 * k)) :
    (karatsubaSqrAt loc fuel k a tmp res m).read res (k + k) = karatsubaSqr fuel (m.read a k) ∧
    Frame3 m (karatsubaSqrAt loc fuel k a tmp res m) res (k + k) tmp (4 * k) loc (k + k) := by
  induction fuel generalizing k a tmp res m with
  | zero =>
    obtain ⟨h1, h2⟩ := sqrAt_spec k a res loc m ha hla hlr
    exact ⟨h1, fun x hx _ hl => h2 x hx hl⟩
  | succ fuel ih =>
    unfold karatsubaSqrAt karatsubaSqr
    rw [read_length]
    by_cases hc : k < 32 ∨ k % 2 = 1
    · rw [if_pos hc, if_pos hc]
      obtain ⟨h1, h2⟩ := sqrAt_spec k a res loc m ha hla hlr
      exact ⟨h1, fun x hx _ hl => h2 x hx hl⟩
    rw [if_neg hc, if_neg hc]
    dsimp only
    obtain ⟨h, hk⟩ : ∃ h, k = h + h := ⟨k / 2, by omega⟩
    rw [show k / 2 = h by omega, read_take m a k h h hk, read_drop m a k h h hk]
    unfold Apart at ha hta htr hla hlr hlt
    obtain ⟨a1, a2, a3⟩ := absDiffAt_spec h a (a + h) tmp (tmp + k) m (by unfold Apart; omega)
      (by unfold Apart; omega) (by unfold Apart; omega) (by unfold Apart; omega) (by unfold Apart; omega)
    generalize absDiffAt h a (a + h) tmp (tmp + k) m = d at a1 a2 a3 ⊢
    -- t23
    obtain ⟨c1, c3⟩ := ih h tmp (tmp + k + k) (tmp + k) d.1 (by unfold Apart; omega)
      (by unfold Apart; omega) (by unfold Apart; omega) (by unfold Apart; omega) (by unfold Apart; omega)
      (by unfold Apart; omega)
    rw [a1] at c1
    generalize karatsubaSqrAt loc fuel h tmp (tmp + k + k) (tmp + k) d.1 = m1 at c1 c3 ⊢
    have keep : ∀ r l, Apart tmp (4 * k) r l → Apart loc (k + k) r l → m1.read r l = m.read r l := by
      intro r l hr hl
      unfold Apart at hr hl
      rw [c3.read r l (by unfold Apart; omega) (by unfold Apart; omega) (by unfold Apart; omega),
        a3.read r l (by unfold Apart; omega) (by unfold Apart; omega)]
    -- r01
    obtain ⟨d1, d3⟩ := ih h a (tmp + k + k) res m1 (by unfold Apart; omega)
      (by unfold Apart; omega) (by unfold Apart; omega) (by unfold Apart; omega) (by unfold Apart; omega)
      (by unfold Apart; omega)
    rw [keep a h (by unfold Apart; omega) (by unfold Apart; omega)] at d1
    generalize karatsubaSqrAt loc fuel h a (tmp + k + k) res m1 = m2 at d1 d3 ⊢
    -- r23
    obtain ⟨e1, e3⟩ := ih h (a + h) (tmp + k + k) (res + k) m2 (by unfold Apart; omega)
      (by unfold Apart; omega) (by unfold Apart; omega) (by unfold Apart; omega) (by unfold Apart; omega)
      (by unfold Apart; omega)
    rw [d3.read (a + h) h (by unfold Apart; omega) (by unfold Apart; omega) (by unfold Apart; omega),
      keep (a + h) h (by unfold Apart; omega) (by unfold Apart; omega)] at e1
    generalize karatsubaSqrAt loc fuel h (a + h) (tmp + k + k) (res + k) m2 = m3 at e1 e3 ⊢
    have r01 : m3.read res k = karatsubaSqr fuel (m.read a h) := by
      rw [e3.read res k (by unfold Apart; omega) (by unfold Apart; omega) (by unfold Apart; omega), ← d1,
        ← hk]
    have r23 : m3.read (res + k) k = karatsubaSqr fuel (m.read (a + h) h) := by
      rw [← e1, ← hk]
    have t23 : m3.read (tmp + k) k = karatsubaSqr fuel (absDiff (m.read a h) (m.read (a + h) h)).1 := by
      rw [e3.read (tmp + k) k (by unfold Apart; omega) (by unfold Apart; omega) (by unfold Apart; omega),
        d3.read (tmp + k) k (by unfold Apart; omega) (by unfold Apart; omega) (by unfold Apart; omega),
        ← c1, ← hk]
    -- t01
    obtain ⟨f1, f2, f3⟩ := C105_add k res (res + k) tmp 0 m3 (by unfold Safe; omega) (by unfold Safe; omega)
    generalize addAt k 0 res (res + k) tmp m3 = s at f1 f2 f3 ⊢
    rw [r01, r23] at f1 f2
    -- t45
    obtain ⟨g1, g2, g3⟩ := C105_sub k tmp (tmp + k) (tmp + 2 * k) 0 s.1 (by unfold Safe; omega)
      (by unfold Safe; omega)
    rw [f3.read (tmp + k) k (by unfold Apart; omega), f1, t23] at g1 g2
    generalize subAt k 0 tmp (tmp + k) (tmp + 2 * k) s.1 = t45 at g1 g2 g3 ⊢
    obtain ⟨l1, l3⟩ := combineAt_spec k h res (tmp + 2 * k) (s.2 - t45.2) t45.1 hk (by unfold Apart; omega)
    refine ⟨?_, ?_⟩
    · rw [l1, g1, g3.read res (k + k) (by unfold Apart; omega), f3.read res (k + k) (by unfold Apart; omega),
        read_append m3 res k k, r01, r23, f2, g2]
      rfl
    · intro x h1 h2 h3
      rw [l3 x h1, g3 x (by omega), f3 x (by omega), e3 x (by omega) (by omega) (by omega),
        d3 x (by omega) (by omega) (by omega), c3 x (by omega) (by omega) (by omega),
        a3 x (by omega) (by omega)]

/-! ## Montgomery multiplication -/

theorem redcLoopAt_spec (k n : ℕ) (nInv : UInt64) (c : ℕ) (m : Mem) (hn : Apart c (k + k) n k) :
    ((List.range k).foldl (redcStepAt k n nInv c) (m, 0)).1.read (c + k) k =
      (redcLoop (m.read n k) nInv (m.read c (k + k))).1 ∧
    ((List.range k).foldl (redcStepAt k n nInv c) (m, 0)).2 =
      (redcLoop (m.read n k) nInv (m.read c (k + k))).2 ∧
    Frame m ((List.range k).foldl (redcStepAt k n nInv c) (m, 0)).1 c (k + k) := by
  have key : ∀ (l : List ℕ) (m' : Mem) (carry : UInt64), (∀ i ∈ l, i < k) → Frame m m' c (k + k) →
      (l.foldl (redcStepAt k n nInv c) (m', carry)).1.read c (k + k) =
        (l.foldl (redcStep (m.read n k) nInv) (m'.read c (k + k), carry)).1 ∧
      (l.foldl (redcStepAt k n nInv c) (m', carry)).2 =
        (l.foldl (redcStep (m.read n k) nInv) (m'.read c (k + k), carry)).2 ∧
      Frame m (l.foldl (redcStepAt k n nInv c) (m', carry)).1 c (k + k) := by
    intro l
    induction l with
    | nil => intro m' carry _ hf; exact ⟨rfl, rfl, hf⟩
    | cons i l ih =>
      intro m' carry hl hf
      obtain ⟨s1, s2, s3⟩ := redcStepAt_spec k n nInv c i m' carry (hl i (by simp)) hn
      rw [hf.read n k hn] at s1 s2
      rw [List.foldl_cons, List.foldl_cons]
      have := ih (redcStepAt k n nInv c (m', carry) i).1 (redcStepAt k n nInv c (m', carry) i).2
        (fun j hj => hl j (by simp [hj])) (hf.trans s3)
      rw [show redcStep (m.read n k) nInv (m'.read c (k + k), carry) i =
        ((redcStepAt k n nInv c (m', carry) i).1.read c (k + k), (redcStepAt k n nInv c (m', carry) i).2)
        from Prod.ext s1.symm s2.symm]
      exact this
  obtain ⟨h1, h2, h3⟩ := key (List.range k) m 0 (fun i hi => List.mem_range.1 hi) (fun _ _ => rfl)
  refine ⟨?_, ?_, h3⟩
  · unfold redcLoop
    dsimp only
    rw [read_length, ← h1, read_drop _ c (k + k) k k rfl]
  · rw [h2]
    unfold redcLoop
    rw [read_length]

theorem areductionAt_spec (k n : ℕ) (nInv : UInt64) (c res tmp : ℕ) (m : Mem)
    (hn : Apart c (k + k) n k) (hr : Apart res k (c + k) k) (hrn : Apart res k n k)
    (ht : Apart tmp k res k) (htn : Apart tmp k n k) :
    (areductionAt k n nInv c res tmp m).read res k =
      areduction (m.read n k) nInv (m.read c (k + k)) ∧
    Frame3 m (areductionAt k n nInv c res tmp m) res k c (k + k) tmp k := by
  unfold areductionAt areduction
  dsimp only
  obtain ⟨a1, a2, a3⟩ := redcLoopAt_spec k n nInv c m hn
  generalize (List.range k).foldl (redcStepAt k n nInv c) (m, 0) = st at a1 a2 a3 ⊢
  obtain ⟨b1, b3⟩ := copyAt_spec k res (c + k) st.1 hr.safe
  rw [a1] at b1
  generalize copyAt k res (c + k) st.1 = m1 at b1 b3 ⊢
  obtain ⟨-, c3⟩ := zeroAt_spec k tmp m1
  generalize zeroAt k tmp m1 = m2 at c3 ⊢
  obtain ⟨d1, d2, d3⟩ := C105_sub k res n tmp 0 m2 ht.safe htn.safe
  rw [c3.read res k ht, c3.read n k htn, b1, b3.read n k hrn, a3.read n k hn] at d1 d2
  generalize subAt k 0 res n tmp m2 = t at d1 d2 d3 ⊢
  obtain ⟨e1, e3⟩ := selectAt_spec (0 - st.2) k tmp res res t.1
    (by unfold Apart at ht; unfold Safe; omega) (safe_self _ _)
  refine ⟨?_, ?_⟩
  · rw [e1, d1, d3.read res k ht, c3.read res k ht, b1, a2]
    rfl
  · intro x h1 h2 h3
    rw [e3 x h1, d3 x h3, c3 x h3, b3 x h1, a3 x h2]

end EG.Limbs
