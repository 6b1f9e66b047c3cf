import Verif.Lemmas.LookupTable
import Verif.Props.Params
import Verif.Lemmas.Hex
import Mathlib.Tactic.IntervalCases

/-!
# C01-C10, C55: group arithmetic

The theorems hold for every valid parameter set (`Params.Valid`), in particular for the standard
constants (`C54_std_valid`).
-/

namespace EG

variable (G : Params)

/-! ## C01 addition modulo q -/

/-- C01: `add_mod_q` of two elements accepted by a checked constructor. -/
theorem C01_add_mod_q (hG : G.Valid) (a b : ℕ) (ha : a ≤ G.q) (hb : b ≤ G.q) :
    addModQ G a b < G.q ∧ addModQ G a b ≡ a + b [MOD G.q] := by
  have hq := hG.q_gt
  rw [addModQ_eq hG a b ha hb]
  exact ⟨Nat.mod_lt _ (by omega), Nat.mod_modEq _ _⟩

/-- C01: the vector overload sums up; the empty vector is refused. -/
theorem C01_add_mod_q_vector (hG : G.Valid) (xs : List ℕ) (hx : ∀ x ∈ xs, x ≤ G.q) :
    addModQVec G xs = if xs = [] then .throw .invalidArgument else .ok (xs.sum % G.q) := by
  have hq := hG.q_gt
  have key : ∀ (ys : List ℕ) (acc : ℕ), (∀ x ∈ ys, x ≤ G.q) → acc < G.q →
      ys.foldl (addModQ G) acc = (acc + ys.sum) % G.q := by
    intro ys
    induction ys with
    | nil => intro acc _ h; simp [Nat.mod_eq_of_lt h]
    | cons y ys ih =>
      intro acc hy h
      rw [List.foldl_cons, addModQ_eq hG acc y (by omega) (hy y (by simp)),
        ih _ (fun x hx => hy x (by simp [hx])) (Nat.mod_lt _ (by omega)), List.sum_cons,
        Nat.mod_add_mod, Nat.add_assoc]
  unfold addModQVec
  cases xs with
  | nil => rfl
  | cons x xs =>
    simp only [List.isEmpty_cons, Bool.false_eq_true, if_false]
    rw [key _ 0 hx (by omega), Nat.zero_add, if_neg (by simp)]

/-- C01, beyond the claim: unreduced operands are added correctly as long as the sum stays below
`2^256 - 1`. -/
theorem C01_add_mod_q_unreduced (hG : G.Valid) (a b : ℕ) (hab : a + b < 2 ^ 256 - 1) :
    addModQ G a b = (a + b) % G.q := addModQ_small hG a b hab

/-- C01, limit of the claim: with an unreduced operand (unchecked construction) the result is
wrong: the largest 256-bit value plus zero gives 189, the right residue is 188. -/
theorem C01_unreduced_wrong :
    addModQ .std (2 ^ 256 - 1) 0 = 189 ∧ (2 ^ 256 - 1 + 0) % Params.std.q = 188 := by
  decide +kernel

example : (Params.std.q - 1) ≤ Params.std.q ∧
    addModQ .std (Params.std.q - 1) (Params.std.q - 2) = Params.std.q - 3 := by decide +kernel

/-! ## C02 subtraction modulo q -/

/-- C02: `sub_mod_q` of two elements accepted by a checked constructor. -/
theorem C02_sub_mod_q (hG : G.Valid) (a b : ℕ) (ha : a ≤ G.q) (hb : b ≤ G.q) :
    (subModQ G a b : ℤ) = ((a : ℤ) - b) % G.q := by
  have hq := hG.q_gt
  rw [subModQ_eq hG a b ha hb, Int.natCast_mod, Nat.cast_sub (by omega), Nat.cast_add]
  rw [show (a : ℤ) + G.q - b = a - b + G.q by ring, Int.add_emod_right]

/-- C02: `sub_mod_q` undoes `add_mod_q`. -/
theorem C02_sub_add (hG : G.Valid) (a b : ℕ) (ha : a < G.q) (hb : b ≤ G.q) :
    subModQ G (addModQ G a b) b = a := by
  have hq := hG.q_gt
  have h1 := addModQ_eq hG a b (by omega) hb
  have h2 := addModQ_lt hG a b
  have h3 := C02_sub_mod_q G hG _ b (le_of_lt h2) hb
  rw [h1, Int.natCast_mod, Int.emod_sub_emod, Nat.cast_add, add_sub_cancel_right,
    Int.emod_eq_of_lt (by omega) (by omega)] at h3
  rw [h1]
  exact_mod_cast h3

theorem subModQ_unreduced_wrong (hG : G.Valid) (hq : G.q = 2 ^ 256 - 189) (hoff : G.qOff = 189)
    (a b : ℕ) (hb : b < 2 ^ 256) (hab : a < b) (hbig : G.q < b) :
    (subModQ G a b : ℤ) ≠ ((a : ℤ) - b) % G.q := by
  unfold subModQ
  have h1 : elemLt G.q b = true := (elemLt_iff _ _).2 hbig
  simp only [h1, Bool.or_true, if_true]
  rw [sub4_snd, if_pos hab, if_pos (by omega), sub4_fst, sub4_fst, add4_fst, add4_fst,
    modQ_eq hG _ (mod256_lt _), hoff]
  have hx : (((a + 2 ^ 256 - b) % 2 ^ 256 + 2 ^ 256 - ((0 + 189) % 2 ^ 256 + 1) % 2 ^ 256) % 2 ^ 256
      + (b - a) = G.q - 1) ∨
      (((a + 2 ^ 256 - b) % 2 ^ 256 + 2 ^ 256 - ((0 + 189) % 2 ^ 256 + 1) % 2 ^ 256) % 2 ^ 256
      + (b - a) = 2 * G.q + 188) := by
    have e1 : (a + 2 ^ 256 - b) % 2 ^ 256 = 2 ^ 256 - (b - a) := by
      rw [Nat.mod_eq_of_lt (by omega)]; omega
    rw [e1]
    by_cases hd : b - a ≤ 2 ^ 256 - 190
    · left; omega
    · right; omega
  generalize ((a + 2 ^ 256 - b) % 2 ^ 256 + 2 ^ 256 - ((0 + 189) % 2 ^ 256 + 1) % 2 ^ 256) % 2 ^ 256
    = x at hx
  intro heq
  have h2 : (G.q : ℤ) ∣ ((x + (b - a) : ℕ) : ℤ) := by
    have h3 : ((x : ℤ) - (a - b)) % G.q = 0 := by
      rw [← Int.emod_emod_of_dvd _ (dvd_refl (G.q : ℤ)), Int.sub_emod, ← heq]
      simp
    have h4 : ((x + (b - a) : ℕ) : ℤ) = (x : ℤ) - (a - b) := by
      rw [Nat.cast_add, Nat.cast_sub (le_of_lt hab)]; ring
    rw [h4]
    exact Int.dvd_of_emod_eq_zero h3
  obtain ⟨k, hk⟩ := Int.natCast_dvd_natCast.1 h2
  rw [hq] at hk hx
  omega

/-- C02: with an operand above `q` the standard constants give a wrong result whenever the
subtraction borrows. -/
theorem C02_unreduced_wrong (a b : ℕ) (hb : b < 2 ^ 256) (hab : a < b)
    (hbig : Params.std.q < a ∨ Params.std.q < b) :
    (subModQ .std a b : ℤ) ≠ ((a : ℤ) - b) % Params.std.q :=
  subModQ_unreduced_wrong .std C54_std_valid (by decide +kernel) (by decide +kernel) a b hb hab
    (hbig.elim (fun h => lt_trans h hab) id)

example : subModQ .std 3 5 = Params.std.q - 2 ∧ 3 ≤ Params.std.q ∧ 5 ≤ Params.std.q := by
  decide +kernel

example : subModQ .std 0 (Params.std.q + 1) = 187 := by decide +kernel

/-! ## C03 fused multiply-add modulo q -/

/-- C03: for every three 256-bit values. -/
theorem C03_a_plus_bc_mod_q (hG : G.Valid) (a b c : ℕ) (ha : a < 2 ^ 256) (hb : b < 2 ^ 256)
    (hc : c < 2 ^ 256) :
    ∃ r, aPlusBcModQ G a b c = .ok r ∧ r < G.q ∧ r ≡ a + b * c [MOD G.q] := by
  have hq := hG.q_gt
  exact ⟨_, aPlusBc_eq hG a b c ha hb hc, Nat.mod_lt _ (by omega), Nat.mod_modEq _ _⟩

example : aPlusBcModQ .std (2 ^ 256 - 1) (2 ^ 256 - 1) (2 ^ 256 - 1) = .ok (188 + 188 * 188) := by
  decide +kernel

/-! ## C04 multiplication modulo p -/

/-- C04: for every two 4096-bit values. -/
theorem C04_mul_mod_p (hG : G.Valid) (a b : ℕ) (ha : a < 2 ^ 4096) (hb : b < 2 ^ 4096) :
    mulModP G a b < G.p ∧ mulModP G a b ≡ a * b [MOD G.p] := by
  have hp := hG.p_gt
  rw [mulModP_eq hG a b ha hb]
  exact ⟨Nat.mod_lt _ (by omega), Nat.mod_modEq _ _⟩

/-- C04: the vector overload, for any mixture of p- and q-elements. -/
theorem C04_mul_mod_p_vector (hG : G.Valid) (xs : List ElemPQ) (hx : ∀ x ∈ xs, x.val < 2 ^ 4096) :
    mulModPVec G xs = (xs.map ElemPQ.val).prod % G.p := by
  have hp := hG.p_gt
  have hlt := hG.p_lt
  have key : ∀ (ys : List ElemPQ) (acc : ℕ), (∀ x ∈ ys, x.val < 2 ^ 4096) → acc < G.p →
      ys.foldl (fun acc x => mulModP G acc x.val) acc = acc * (ys.map ElemPQ.val).prod % G.p := by
    intro ys
    induction ys with
    | nil => intro acc _ h; simp [Nat.mod_eq_of_lt h]
    | cons y ys ih =>
      intro acc hy h
      rw [List.foldl_cons, mulModP_eq hG acc y.val (lt_trans h hlt) (hy y (by simp)),
        ih _ (fun x hx => hy x (by simp [hx])) (Nat.mod_lt _ (by omega)), List.map_cons,
        List.prod_cons, Nat.mod_mul_mod, Nat.mul_assoc]
  unfold mulModPVec
  rw [key xs 1 hx hp, Nat.one_mul]

example : mulModPVec .test [.p 12345678901234, .q 65000, .p 3] =
    12345678901234 * 65000 * 3 % Params.test.p := by
  rw [C04_mul_mod_p_vector _ C54_test_valid]
  · decide +kernel
  · intro x hx
    simp only [List.mem_cons, List.not_mem_nil, or_false] at hx
    rcases hx with h | h | h <;> rw [h] <;> decide +kernel

/-! ## C05 exponentiation -/

/-- A call of `pow_mod_p`: fixed-base flag, base, exponent. -/
structure PowCall where
  fixed : Bool
  base : ℕ
  exponent : ℕ

/-- Results of a sequence of `pow_mod_p` calls that share the global table cache. -/
def runPows (G : Params) : LutCache → List PowCall → List (Res ℕ)
  | _, [] => []
  | cache, c :: cs =>
    let r := powModPS G cache c.fixed c.base c.exponent
    r.1 :: runPows G r.2 cs

/-- C05: in every history of calls, each `pow_mod_p` returns the power, whether or not the base is
flagged as fixed base and whatever tables earlier calls have put in the cache. -/
theorem C05_pow_mod_p_history (hG : G.Valid) (calls : List PowCall)
    (hc : ∀ c ∈ calls, c.base < 2 ^ 4096 ∧ c.exponent < 2 ^ 256) :
    runPows G [] calls = calls.map (fun c => .ok (c.base ^ c.exponent % G.p)) := by
  have key : ∀ (calls : List PowCall) (cache : LutCache), CacheInv G cache →
      (∀ c ∈ calls, c.base < 2 ^ 4096 ∧ c.exponent < 2 ^ 256) →
      runPows G cache calls = calls.map (fun c => .ok (c.base ^ c.exponent % G.p)) := by
    intro calls
    induction calls with
    | nil => intro _ _ _; rfl
    | cons c cs ih =>
      intro cache hinv hc
      obtain ⟨hb, he⟩ := hc c (by simp)
      obtain ⟨h1, h2⟩ := powModPS_spec hG cache hinv c.fixed c.base c.exponent hb he
      rw [runPows, List.map_cons, h1, ih _ h2 (fun c' h' => hc c' (by simp [h']))]
  exact key calls [] (by intro kv h; cases h) hc

/-- C05: the flag does not matter; the unflagged function used in the rest of the model is the
same function. -/
theorem C05_pow_mod_p_eq (hG : G.Valid) (fixed : Bool) (base e : ℕ) (hb : base < 2 ^ 4096)
    (he : e < 2 ^ 256) :
    (powModPS G [] fixed base e).1 = .ok (powModP G base e) ∧
      powModP G base e = base ^ e % G.p := by
  have h := C05_pow_mod_p_history G hG [⟨fixed, base, e⟩]
    (by intro c hc; rw [List.mem_singleton.1 hc]; exact ⟨hb, he⟩)
  have h2 := powModP_eq hG base e hb (lt_512_of_lt he)
  rw [h2]
  exact ⟨by simpa [runPows] using h, rfl⟩

/-- C05: exponent zero gives one for every base. -/
theorem C05_pow_zero (fixed : Bool) (base : ℕ) (cache : LutCache) :
    (powModPS G cache fixed base 0).1 = .ok 1 := rfl

/-- The overload with an `ElementModP` exponent only uses its low 512 bits: a power with a larger
exponent is wrong. -/
theorem C05_long_exponent (hG : G.Valid) (base e : ℕ) (hb : base < 2 ^ 4096) (he : e ≠ 0) :
    powModPP G base e = base ^ (e % 2 ^ 512) % G.p := by
  unfold powModPP
  rw [if_neg he]
  exact Hacl.modExpPrecomp_mod (ctxP_good hG) base 512 e
    (by change base < Hacl.R 64; rw [R64]; exact hb) (by norm_num)

example : (powModPS .test [] true 3 65535).1 = .ok (3 ^ 65535 % Params.test.p) := by
  have h := C05_pow_mod_p_history .test C54_test_valid [⟨true, 3, 65535⟩]
    (by intro c hc; rw [List.mem_singleton.1 hc]; constructor <;> decide +kernel)
  simpa [runPows] using h

/-! ## C06 addition modulo p -/

theorem add64_fst (a b : ℕ) : (Hacl.add 64 a b).1 = (a + b) % 2 ^ 4096 := rfl
theorem add64_snd (a b : ℕ) : (Hacl.add 64 a b).2 = (a + b) / 2 ^ 4096 := rfl

/-- C06, what holds: while the sum stays below `2^4096 - 1` the result is the residue.
Missing: sums from `2^4096 - 1` on, see `C06_add_mod_p_overflow`. -/
theorem C06_add_mod_p_partial (hG : G.Valid) (a b : ℕ) (hab : a + b < 2 ^ 4096 - 1) :
    addModP G a b = .ok ((a + b) % G.p) := by
  have h1 : (a + b) % 2 ^ 4096 = a + b := Nat.mod_eq_of_lt (by omega)
  have hc : (decide ((Hacl.add 64 a b).2 > 0) || isMax4096 (Hacl.add 64 a b).1) = false := by
    rw [Bool.or_eq_false_iff, decide_eq_false_iff_not, isMax4096, decide_eq_false_iff_not,
      add64_fst, add64_snd, h1, h1, Nat.div_eq_of_lt (by omega)]
    omega
  have h8 : a + b < 2 ^ 8192 :=
    lt_of_lt_of_le (show a + b < 2 ^ 4096 by omega) (Nat.pow_le_pow_right (by norm_num) (by norm_num))
  unfold addModP
  simp only [hc, Bool.false_eq_true, if_false]
  rw [add64_fst, h1, modP_eq hG _ h8]

/-- C06 is violated: for every two reduced elements whose sum reaches `2^4096 - 1`, the code reads
past the end of a four-limb array. -/
theorem C06_add_mod_p_overflow (a b : ℕ) (ha : a ≤ G.p) (hb : b ≤ G.p)
    (hab : 2 ^ 4096 - 1 ≤ a + b) : addModP G a b = .ub := by
  have hc : (decide ((Hacl.add 64 a b).2 > 0) || isMax4096 (Hacl.add 64 a b).1) = true := by
    rw [Bool.or_eq_true, decide_eq_true_iff, isMax4096, decide_eq_true_iff,
      add64_fst, add64_snd]
    generalize hM : 2 ^ 4096 = M at *
    have hM0 : 0 < M := by omega
    by_cases h0 : a + b = M - 1
    · right
      rw [Nat.mod_mod, Nat.mod_eq_of_lt (by omega), h0]
    · left
      exact Nat.div_pos (by omega) hM0
  have hA : elemLt G.p a = false := by rw [elemLt_eq]; exact decide_eq_false (by omega)
  have hB : elemLt G.p b = false := by rw [elemLt_eq]; exact decide_eq_false (by omega)
  unfold addModP
  simp only [hc, hA, hB, Bool.or_false, Bool.false_eq_true, if_false, if_true]

/-- C06 is violated by reduced elements of the standard group. -/
theorem C06_add_mod_p_violated :
    ∃ a b, a < Params.std.p ∧ b < Params.std.p ∧ addModP .std a b = .ub :=
  ⟨Params.std.p - 1, Params.std.p - 1, by decide +kernel, by decide +kernel, by decide +kernel⟩

example : addModP .std (Params.std.p - 5) 3 = .ok (Params.std.p - 2) := by
  rw [C06_add_mod_p_partial _ C54_std_valid _ _ (by decide +kernel)]
  decide +kernel

/-! ## C07 checked construction and bounds -/

/-- C07: the checked constructor of `ElementModP` from limbs stores exactly the values `≤ p`. -/
theorem C07_limbs_p (limbs : List ℕ) (hl : limbs.length ≤ 64) :
    mkPVec G false limbs =
      if ofLimbs limbs ≤ G.p then .ok (ofLimbs limbs) else .throw .outOfRange := by
  rw [mkPVec, if_neg (by omega), mkP_eq]
  by_cases h : ofLimbs limbs ≤ G.p
  · rw [if_neg (by omega), if_pos h]
  · rw [if_pos ⟨rfl, by omega⟩, if_neg h]

/-- C07: the same for `ElementModQ`. -/
theorem C07_limbs_q (limbs : List ℕ) (hl : limbs.length ≤ 4) :
    mkQVec G false limbs =
      if ofLimbs limbs ≤ G.q then .ok (ofLimbs limbs) else .throw .outOfRange := by
  rw [mkQVec, if_neg (by omega), mkQ_eq]
  by_cases h : ofLimbs limbs ≤ G.q
  · rw [if_neg (by omega), if_pos h]
  · rw [if_pos ⟨rfl, by omega⟩, if_neg h]

/-- C07: construction of a p-element from a non-empty byte string (big endian). -/
theorem C07_bytes_p (bs : List UInt8) (h0 : bs ≠ []) :
    bytesToP G false bs =
      if bs.length ≤ 512 ∧ ofBytesBE bs ≤ G.p then .ok (ofBytesBE bs) else .throw .outOfRange := by
  by_cases hl : bs.length ≤ 512
  · rw [bytesToP_eq false bs h0 hl, mkP_eq]
    by_cases h : ofBytesBE bs ≤ G.p
    · rw [if_neg (by omega), if_pos ⟨hl, h⟩]
    · rw [if_pos ⟨rfl, by omega⟩, if_neg (by omega)]
  · rw [bytesToP, if_pos (by omega), if_neg (by omega)]

/-- C07: construction of a q-element from a non-empty byte string. -/
theorem C07_bytes_q (bs : List UInt8) (h0 : bs ≠ []) :
    bytesToQ G false bs =
      if bs.length ≤ 32 ∧ ofBytesBE bs ≤ G.q then .ok (ofBytesBE bs) else .throw .outOfRange := by
  by_cases hl : bs.length ≤ 32
  · rw [bytesToQ_eq false bs h0 hl, mkQ_eq]
    by_cases h : ofBytesBE bs ≤ G.q
    · rw [if_neg (by omega), if_pos ⟨hl, h⟩]
    · rw [if_pos ⟨rfl, by omega⟩, if_neg (by omega)]
  · rw [bytesToQ, if_pos (by omega), if_neg (by omega)]

/-- C07: construction from a `uint64_t`. -/
theorem C07_uint64 (v : ℕ) (hv : v < 2 ^ 64) :
    (fromUint64P G false v = if v ≤ G.p then .ok v else .throw .outOfRange) ∧
    (fromUint64Q G false v = if v ≤ G.q then .ok v else .throw .outOfRange) := by
  have hl : (toBytesBE 8 v).length = 8 := toBytesBE_length 8 v
  have hne : toBytesBE 8 v ≠ [] := by intro h; rw [h] at hl; cases hl
  have hval : ofBytesBE (toBytesBE 8 v) = v := by
    rw [ofBytesBE_toBytesBE, Nat.mod_eq_of_lt (by norm_num; omega)]
  constructor
  · rw [fromUint64P, C07_bytes_p G _ hne, hval, hl]; simp
  · rw [fromUint64Q, C07_bytes_q G _ hne, hval, hl]; simp

/-- C07: `isInBounds` holds exactly for non-zero values below the modulus. -/
theorem C07_isInBounds (v : ℕ) :
    (isInBoundsP G v = true ↔ 0 < v ∧ v < G.p) ∧ (isInBoundsQ G v = true ↔ 0 < v ∧ v < G.q) :=
  ⟨isInBoundsP_iff v, isInBoundsQ_iff v⟩

/-- C07: the modulus itself is accepted on construction but is not in bounds; zero is a value of
the documented range `[0,q)` that `isInBounds` rejects. -/
theorem C07_modulus_accepted :
    mkQ G false G.q = .ok G.q ∧ isInBoundsQ G G.q = false ∧ mkP G false G.p = .ok G.p ∧
      isInBoundsP G G.p = false ∧ isInBoundsQ G 0 = false ∧ isInBoundsP G 0 = false := by
  refine ⟨?_, ?_, ?_, ?_, ?_, ?_⟩
  · rw [mkQ_eq, if_neg (by omega)]
  · rw [Bool.eq_false_iff, Ne, isInBoundsQ_iff]; omega
  · rw [mkP_eq, if_neg (by omega)]
  · rw [Bool.eq_false_iff, Ne, isInBoundsP_iff]; omega
  · rw [Bool.eq_false_iff, Ne, isInBoundsQ_iff]; omega
  · rw [Bool.eq_false_iff, Ne, isInBoundsP_iff]; omega

/-- C07: an array that is too long for the element overflows the fixed buffer. -/
theorem C07_long_limbs (limbs : List ℕ) (hl : 4 < limbs.length) : mkQVec G false limbs = .ub := by
  rw [mkQVec, if_pos (by omega)]

example : mkQVec .test false [65521, 0] = .ok 65521 ∧
    mkQVec .test false [65522] = .throw .outOfRange := by decide +kernel

/-! ## C08 byte and hex round trips -/

/-- C08: bytes of a q-element are read back as the same element. -/
theorem C08_bytes_q (hG : G.Valid) (v : ℕ) (hv : v ≤ G.q) :
    bytesToQ G false (toBytesQ v) = .ok v := by
  have hlt := hG.q_lt
  have hl : (toBytesQ v).length = 32 := toBytesBE_length 32 v
  have hval : ofBytesBE (toBytesQ v) = v := by
    unfold toBytesQ
    rw [ofBytesBE_toBytesBE, pow256, Nat.mod_eq_of_lt (by omega)]
  rw [C07_bytes_q G _ (by intro h; rw [h] at hl; cases hl), hval, if_pos ⟨by omega, hv⟩]

/-- C08: bytes of a p-element are read back as the same element. -/
theorem C08_bytes_p (hG : G.Valid) (v : ℕ) (hv : v ≤ G.p) :
    bytesToP G false (toBytesP v) = .ok v := by
  have hlt := hG.p_lt
  have hl : (toBytesP v).length = 512 := toBytesBE_length 512 v
  have hval : ofBytesBE (toBytesP v) = v := by
    unfold toBytesP
    rw [ofBytesBE_toBytesBE, pow256, Nat.mod_eq_of_lt (by omega)]
  rw [C07_bytes_p G _ (by intro h; rw [h] at hl; cases hl), hval, if_pos ⟨by omega, hv⟩]

/-- C08: the hex string of a non-zero q-element is read back as the same element.
Missing for the full claim: zero, see `C08_hex_zero`. -/
theorem C08_hex_q_partial (hG : G.Valid) (v : ℕ) (h0 : v ≠ 0) (hv : v ≤ G.q) :
    fromHexQ G false (toHexQ v) = .ok v := by
  have hlt := hG.q_lt
  rw [fromHexQ_toHexQ false v (by omega) h0, mkQ_eq, if_neg (by omega)]

/-- C08: the hex string of a non-zero p-element is read back as the same element.
Missing for the full claim: zero, see `C08_hex_zero`. -/
theorem C08_hex_p_partial (hG : G.Valid) (v : ℕ) (h0 : v ≠ 0) (hv : v ≤ G.p) :
    fromHexP G false (toHexP v) = .ok v := by
  have hlt := hG.p_lt
  rw [fromHexP_toHexP false v (by omega) h0, mkP_eq, if_neg (by omega)]

/-- C08 is violated at zero: reading the hex string that `toHex` produces for zero throws. -/
theorem C08_hex_zero (un : Bool) :
    fromHexQ G un (toHexQ 0) = .throw .outOfRange ∧ fromHexP G un (toHexP 0) = .throw .outOfRange := by
  constructor
  · unfold fromHexQ toHexQ
    rw [sanitizeHex_zero _ (by unfold toBytesQ; rw [ofBytesBE_toBytesBE, Nat.zero_mod])]; rfl
  · unfold fromHexP toHexP
    rw [sanitizeHex_zero _ (by unfold toBytesP; rw [ofBytesBE_toBytesBE, Nat.zero_mod])]; rfl

/-- C08: distinct elements have distinct hex strings. -/
theorem C08_hex_injective (a b : ℕ) :
    (a < 2 ^ 256 → b < 2 ^ 256 → toHexQ a = toHexQ b → a = b) ∧
    (a < 2 ^ 4096 → b < 2 ^ 4096 → toHexP a = toHexP b → a = b) :=
  ⟨toHexQ_inj a b, toHexP_inj a b⟩

example : toHexQ 2561 = ['0', 'A', '0', '1'] ∧ fromHexQ .std false ['0', 'A', '0', '1'] = .ok 2561 := by
  decide +kernel

/-! ## C09 valid residues -/

/-- C09: what `isValidResidue` decides. -/
theorem C09_isValidResidue_iff (hG : G.Valid) (x : ℕ) (hx : x < 2 ^ 4096) :
    isValidResidue G x = true ↔ 0 < x ∧ x < G.p ∧ x ^ G.q ≡ 1 [MOD G.p] := by
  rw [isValidResidue_iff hG x hx, Nat.ModEq, Nat.mod_eq_of_lt hG.p_gt, and_assoc]

/-- C09: the generator is a valid residue. -/
theorem C09_generator (hG : G.Valid) : isValidResidue G G.g = true := by
  have := hG.g_gt
  exact (isValidResidue_iff hG _ (lt_trans hG.g_lt hG.p_lt)).2
    ⟨⟨by omega, hG.g_lt⟩, hG.g_pow⟩

theorem pos_of_pow_mod (hG : G.Valid) (x : ℕ) (h : x ^ G.q % G.p = 1) : 0 < x % G.p := by
  rcases Nat.eq_zero_or_pos (x % G.p) with h0 | h0
  · rw [Nat.pow_mod, h0, zero_pow (by have := hG.q_gt; omega), Nat.zero_mod] at h
    omega
  · exact h0

theorem residue_of_pow (hG : G.Valid) (x : ℕ) (h : x ^ G.q % G.p = 1) :
    isValidResidue G (x % G.p) = true := by
  have hp := hG.p_gt
  have hlt : x % G.p < G.p := Nat.mod_lt _ (by omega)
  refine (isValidResidue_iff hG _ (lt_trans hlt hG.p_lt)).2 ⟨⟨pos_of_pow_mod G hG x h, hlt⟩, ?_⟩
  rw [← Nat.pow_mod]; exact h

/-- C09: valid residues are closed under multiplication. -/
theorem C09_mul_closed (hG : G.Valid) (x y : ℕ) (hx : x < 2 ^ 4096) (hy : y < 2 ^ 4096)
    (h1 : isValidResidue G x = true) (h2 : isValidResidue G y = true) :
    isValidResidue G (mulModP G x y) = true := by
  rw [isValidResidue_iff hG _ hx] at h1
  rw [isValidResidue_iff hG _ hy] at h2
  rw [mulModP_eq hG x y hx hy]
  apply residue_of_pow G hG
  rw [Nat.mul_pow, Nat.mul_mod, h1.2, h2.2, Nat.mod_eq_of_lt (by have := hG.p_gt; omega)]

/-- C09: valid residues are closed under exponentiation. -/
theorem C09_pow_closed (hG : G.Valid) (x e : ℕ) (hx : x < 2 ^ 4096) (he : e < 2 ^ 256)
    (h1 : isValidResidue G x = true) : isValidResidue G (powModP G x e) = true := by
  rw [isValidResidue_iff hG _ hx] at h1
  rw [powModP_eq hG x e hx (lt_512_of_lt he)]
  apply residue_of_pow G hG
  rw [← Nat.pow_mul, Nat.mul_comm, Nat.pow_mul, Nat.pow_mod, h1.2, Nat.one_pow,
    Nat.mod_eq_of_lt hG.p_gt]

/-- C09: every valid residue has an inverse that is again a valid residue. -/
theorem C09_inverse (hG : G.Valid) (x : ℕ) (hx : x < 2 ^ 4096)
    (h1 : isValidResidue G x = true) :
    ∃ y, y < 2 ^ 4096 ∧ isValidResidue G y = true ∧ mulModP G x y = 1 := by
  have hq := hG.q_gt
  have hlt := hG.q_lt
  have hp := powModP_lt hG x (G.q - 1) hx (lt_512_of_lt (by omega))
  refine ⟨powModP G x (G.q - 1), lt_trans hp hG.p_lt, C09_pow_closed G hG x _ hx (by omega) h1, ?_⟩
  rw [isValidResidue_iff hG _ hx] at h1
  rw [mulModP_eq hG x _ hx (lt_trans hp hG.p_lt),
    powModP_eq hG x _ hx (lt_512_of_lt (by omega)), Nat.mul_mod_mod, ← pow_succ']
  rw [show G.q - 1 + 1 = G.q by omega]
  exact h1.2

example : isValidResidue .test (15463152587872997502 ^ 2 % Params.test.p) = true ∧
    isValidResidue .test 2 = false := by
  constructor
  · rw [isValidResidue_iff C54_test_valid _ (by decide +kernel),
      ← fastPow_eq _ _ _ (by decide +kernel)]
    decide +kernel
  · rw [Bool.eq_false_iff, Ne, isValidResidue_iff C54_test_valid _ (by decide +kernel),
      ← fastPow_eq _ _ _ (by decide +kernel)]
    decide +kernel

/-! ## C10 random exponents -/

/-- C10, what holds: whatever the random source delivers, `rand_q` returns an element of `[0,q)`.
Missing: that every value can occur, see `C10_rand_q_image`. -/
theorem C10_rand_q_partial (hG : G.Valid) (bytes : List UInt8) (hl : 32 ≤ bytes.length) :
    ∃ v, randQ G bytes = .ok v ∧ v < G.q := by
  rw [randQ, if_neg (by omega)]
  exact ⟨_, rfl, addModQ_lt hG _ _⟩

theorem and_mask (x : ℕ) (hx : x < 2 ^ 64) :
    x &&& 0xFFFFFFFFFFFFFF43 = x / 256 * 256 + (x % 256 &&& 0x43) := by
  apply Nat.eq_of_testBit_eq
  intro i
  have hm : (0xFFFFFFFFFFFFFF43 : ℕ) = (2 ^ 56 - 1) * 2 ^ 8 + 0x43 := by norm_num
  have hx8 : (x % 256 &&& 0x43) < 2 ^ 8 :=
    lt_of_le_of_lt Nat.and_le_right (by norm_num)
  rw [show x / 256 * 256 = 2 ^ 8 * (x / 2 ^ 8) by omega, Nat.testBit_two_pow_mul_add _ hx8,
    Nat.testBit_and, hm, Nat.mul_comm (2 ^ 56 - 1), Nat.testBit_two_pow_mul_add _ (by norm_num)]
  by_cases hi : i < 8
  · simp only [hi, if_true, Nat.testBit_and]
    rw [show (256 : ℕ) = 2 ^ 8 by norm_num, Nat.testBit_mod_two_pow]
    simp [hi]
  · simp only [hi, if_false]
    rw [Nat.testBit_div_two_pow, show i - 8 + 8 = i by omega, Nat.testBit_two_pow_sub_one]
    by_cases h2 : i - 8 < 56
    · simp [h2]
    · have : x < 2 ^ i := lt_of_lt_of_le hx (Nat.pow_le_pow_right (by norm_num) (by omega))
      simp [Nat.testBit_lt_two_pow this]

theorem randQ_image (hG : G.Valid) (hq : G.q = 2 ^ 256 - 189) (v : ℕ) :
    (∃ bytes : List UInt8, bytes.length = 256 ∧ randQ G bytes = .ok v) ↔
      v < G.q ∧ v % 256 &&& 0xBC = 0 := by
  have tbl : ∀ n : Fin 256, (n.val &&& 0x43) ≤ 0x43 ∧ ((n.val &&& 0x43) &&& 0xBC = 0) ∧
      (n.val &&& 0xBC = 0 → n.val &&& 0x43 = n.val) := by decide +kernel
  have masked : ∀ x, x < 2 ^ 256 →
      x / 2 ^ 64 * 2 ^ 64 + ((x % 2 ^ 64) &&& 0xFFFFFFFFFFFFFF43) =
        x / 256 * 256 + (x % 256 &&& 0x43) := by
    intro x _
    rw [and_mask (x % 2 ^ 64) (Nat.mod_lt _ (by norm_num))]
    have h1 : x % 2 ^ 64 % 256 = x % 256 := by omega
    rw [h1]
    generalize (x % 256 &&& 0x43) = y
    omega
  constructor
  · rintro ⟨bytes, hl, h⟩
    rw [randQ, if_neg (by omega)] at h
    have hx : ofBytesBE (bytes.take 32) < 2 ^ 256 := by
      have := ofBytesBE_lt (bytes.take 32)
      rw [List.length_take, hl, pow256] at this
      simpa using this
    generalize ofBytesBE (bytes.take 32) = x at *
    have h' := Res.ok.inj h
    rw [masked x hx] at h'
    obtain ⟨t1, t2, -⟩ := tbl ⟨x % 256, Nat.mod_lt _ (by norm_num)⟩
    simp only at t1 t2
    generalize hy : (x % 256 &&& 0x43) = y at *
    rw [addModQ_zero hG _ (by omega)] at h'
    refine ⟨by rw [← h']; exact Nat.mod_lt _ (by omega), ?_⟩
    by_cases hE : x / 256 * 256 + y = G.q
    · rw [hE, Nat.mod_self] at h'
      rw [← h']; rfl
    · have hlt : x / 256 * 256 + y < G.q := by omega
      rw [Nat.mod_eq_of_lt hlt] at h'
      have : v % 256 = y := by omega
      rw [this]; exact t2
  · rintro ⟨hv, hb⟩
    refine ⟨toBytesBE 32 v ++ List.replicate 224 0, by
      rw [List.length_append, toBytesBE_length, List.length_replicate], ?_⟩
    rw [randQ, if_neg (by rw [List.length_append, toBytesBE_length, List.length_replicate]; omega)]
    have ht : (toBytesBE 32 v ++ List.replicate 224 0).take 32 = toBytesBE 32 v := by
      rw [List.take_append_of_le_length (by rw [toBytesBE_length]),
        List.take_of_length_le (by rw [toBytesBE_length])]
    have hval : ofBytesBE (toBytesBE 32 v) = v := by
      rw [ofBytesBE_toBytesBE, pow256, Nat.mod_eq_of_lt (by omega)]
    simp only [ht, hval]
    obtain ⟨-, -, t3⟩ := tbl ⟨v % 256, Nat.mod_lt _ (by norm_num)⟩
    rw [masked v (by omega), t3 hb]
    have : v / 256 * 256 + v % 256 = v := by omega
    rw [this, addModQ_zero hG _ (by omega), Nat.mod_eq_of_lt hv]

/-- The values `rand_q` can produce with the standard constants are exactly those below `q` whose
bits 2, 3, 4, 5 and 7 are clear: fewer than one value in 32. -/
theorem C10_rand_q_image (v : ℕ) :
    (∃ bytes : List UInt8, bytes.length = 256 ∧ randQ .std bytes = .ok v) ↔
      v < Params.std.q ∧ v % 256 &&& 0xBC = 0 :=
  randQ_image .std C54_std_valid (by decide +kernel) v

/-- C10 is violated: the exponent 4 is in `[0,q)` but is never produced. -/
theorem C10_rand_q_violated :
    4 < Params.std.q ∧ ∀ bytes : List UInt8, bytes.length = 256 → randQ .std bytes ≠ .ok 4 := by
  refine ⟨by decide +kernel, fun bytes hl h => ?_⟩
  have := ((C10_rand_q_image 4).1 ⟨bytes, hl, h⟩).2
  revert this
  decide

/-- `rand_p` reads 512 bytes from a 256-byte vector. -/
theorem C10_rand_p_ub (bytes : List UInt8) (hl : bytes.length = 256) : randP G bytes = .ub := by
  rw [randP, if_pos (by omega)]

example : randQ .std (List.replicate 256 255) = .ok 0 := by decide +kernel

/-! ## C55 parsing hex strings -/

/-- C55, what holds: a string of hex digits (either case, any length, leading zeros allowed) that
denotes a non-zero number is read as that number, and refused exactly when it exceeds the
modulus.  Missing: zero (C08) and strings with other characters, see `C55_non_hex_accepted`. -/
theorem C55_fromHex_q_partial (hG : G.Valid) (s : List Char) (n : ℕ) (h : Spec.HexNumber s n)
    (hn : n ≠ 0) : fromHexQ G false s = if n ≤ G.q then .ok n else .throw .outOfRange := by
  have hlt := hG.q_lt
  obtain ⟨h1, h2⟩ := hexNumber_spec s n h
  obtain ⟨t, bs, e1, e2, e3, e4, e5⟩ := (parse_digits s h1).2 (by omega)
  rw [← h2] at e4 e5
  unfold fromHexQ
  rw [e1, Res.bind_ok, e2, Res.bind_ok, C07_bytes_q G bs e3, e4]
  by_cases hle : n ≤ G.q
  · have hl : bs.length ≤ 32 := by
      by_contra hl
      have : 256 ^ 32 ≤ 256 ^ (bs.length - 1) := Nat.pow_le_pow_right (by norm_num) (by omega)
      rw [pow256 32] at this
      omega
    rw [if_pos hle, if_pos ⟨hl, hle⟩]
  · rw [if_neg hle, if_neg (by omega)]

/-- C55, what holds, for p-elements. -/
theorem C55_fromHex_p_partial (hG : G.Valid) (s : List Char) (n : ℕ) (h : Spec.HexNumber s n)
    (hn : n ≠ 0) : fromHexP G false s = if n ≤ G.p then .ok n else .throw .outOfRange := by
  have hlt := hG.p_lt
  obtain ⟨h1, h2⟩ := hexNumber_spec s n h
  obtain ⟨t, bs, e1, e2, e3, e4, e5⟩ := (parse_digits s h1).2 (by omega)
  rw [← h2] at e4 e5
  unfold fromHexP
  rw [e1, Res.bind_ok, e2, Res.bind_ok, C07_bytes_p G bs e3, e4]
  by_cases hle : n ≤ G.p
  · have hl : bs.length ≤ 512 := by
      by_contra hl
      have : 256 ^ 512 ≤ 256 ^ (bs.length - 1) := Nat.pow_le_pow_right (by norm_num) (by omega)
      rw [pow256 512] at this
      exact absurd (lt_of_le_of_lt (le_trans this e5) (lt_of_le_of_lt hle hlt)) (lt_irrefl _)
    rw [if_pos hle, if_pos ⟨hl, hle⟩]
  · rw [if_neg hle, if_neg (by omega)]

example : Spec.HexNumber ['0', 'a', 'F'] 175 :=
  .snoc ['0', 'a'] 'F' 10 15 (.snoc ['0'] 'a' 0 10 (.snoc [] '0' 0 0 .nil (.inl rfl)) (.inr rfl))
    (.inl rfl)

/-- C55 is violated: `fromHex` accepts strings that are not hex numbers. -/
theorem C55_non_hex_accepted :
    fromHexQ .std false ['-', '1'] = .ok 255 ∧ fromHexQ .std false ['F', 'x'] = .ok 15 ∧
      fromHexP .std false ['+', '7', '1', 'z'] = .ok (7 * 256 + 1) := by
  decide +kernel

/-- C07: construction from the hex digits of a non-zero number. -/
theorem C07_hex (hG : G.Valid) (s : List Char) (n : ℕ) (h : Spec.HexNumber s n) (hn : n ≠ 0) :
    (fromHexQ G false s = if n ≤ G.q then .ok n else .throw .outOfRange) ∧
    (fromHexP G false s = if n ≤ G.p then .ok n else .throw .outOfRange) :=
  ⟨C55_fromHex_q_partial G hG s n h hn, C55_fromHex_p_partial G hG s n h hn⟩

end EG
