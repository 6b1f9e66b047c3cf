import Verif.Lemmas.Limbs32Check

/-!
# Limb loops with 32-bit limbs: reduction and exponentiation
-/

namespace EG.Limbs32


/-- The condition the modulus has to meet. -/
def OddMod (n : Arr) : Prop := val n % 2 = 1 ∧ 1 < val n

instance (n : Arr) : Decidable (OddMod n) := inferInstanceAs (Decidable (_ ∧ _))

theorem OddMod.good {n : Arr} (h : OddMod n) : Hacl32.GoodMod n.length (val n) := ⟨h.1, h.2, val_lt n⟩

theorem OddMod.ctx {n : Arr} (h : OddMod n) (hl : n.length ≤ 2 ^ 24) : (ctxInit n).Good :=
  ctxInit_good n h.good (by omega)

theorem OddMod.pos {n : Arr} (h : OddMod n) : 0 < n.length := GoodMod.length_pos h.good

/-- `mod_precomp` reduces every number of twice the length of the modulus. -/
theorem modPrecomp_spec (n a : Arr) (hn : OddMod n) (hl : n.length ≤ 2 ^ 24)
    (ha : a.length = n.length + n.length) :
    (modPrecomp (ctxInit n) a).length = n.length ∧ val (modPrecomp (ctxInit n) a) = val a % val n := by
  have hg := hn.ctx hl
  obtain ⟨r1, r2⟩ := areduction_val n a (ctxInit n).mu ha
  obtain ⟨t1, t2⟩ := toMont_val (ctxInit n) hg (areduction n (ctxInit n).mu a) r1
  refine ⟨t1, ?_⟩
  have hlt : val a < Hacl32.R n.length * Hacl32.R n.length := by
    have := val_lt a
    rw [ha] at this
    unfold Hacl32.R
    rwa [← pow_add, ← Nat.mul_add]
  have := Hacl32.modPrecomp_eq hg.good (val a) hlt
  unfold modPrecomp
  refine Eq.trans ?_ this
  refine Eq.trans t2 ?_
  rw [r2]
  rfl

/-- `mod` succeeds exactly if the modulus is odd and greater than one. -/
theorem mod_spec (n a : Arr) (h0 : 0 < n.length) (hl : n.length ≤ 2 ^ 24)
    (ha : a.length = n.length + n.length) :
    ((mod n a).1 = true ↔ OddMod n) ∧ (OddMod n → val (mod n a).2 = val a % val n) ∧
      (¬OddMod n → (mod n a).2 = List.replicate n.length 0) := by
  unfold mod
  rw [modCheck_eq n h0, checked_mask]
  by_cases h : OddMod n
  · have h' := h
    unfold OddMod at h'
    rw [if_pos h']
    exact ⟨by simp [h], fun _ => (modPrecomp_spec n a h hl ha).2, fun hh => absurd h hh⟩
  · have h' := h
    unfold OddMod at h'
    rw [if_neg h']
    exact ⟨by simp [h], fun hh => absurd hh h, fun _ => rfl⟩

/-- `mod_exp_vartime_precomp` is the modular power.  `bBits` bounds the bits of the exponent. -/
theorem modExpVartime_spec (n a b : Arr) (bBits : ℕ) (hn : OddMod n) (hl : n.length ≤ 2 ^ 24)
    (ha : a.length = n.length) (hb : bBits ≤ 32 * b.length) (hlt : val b < 2 ^ bBits) :
    (modExpVartime (ctxInit n) a bBits b).length = n.length ∧
      val (modExpVartime (ctxInit n) a bBits b) = val a ^ val b % val n := by
  have hg := hn.ctx hl
  have e := Hacl32.modExpPrecomp_eq hg.good (val a) bBits (val b) (val_ltR (ctxInit n) a ha) hlt
  unfold Hacl32.modExpPrecomp at e
  unfold modExpVartime
  split_ifs with h
  · rw [if_pos h] at e
    obtain ⟨h1, h2⟩ := expBinary_val (ctxInit n) hg a b bBits ha hb
    exact ⟨h1, h2.trans e⟩
  · rw [if_neg h] at e
    obtain ⟨h1, h2⟩ := expWindow_val (ctxInit n) hg lookVartime
      (fun aM one _ _ w hw => lookVartime_eq _ aM one w hw) a b bBits ha hb
    exact ⟨h1, h2.trans e⟩

/-- `mod_exp_consttime_precomp` is the modular power too, with the Montgomery ladder (fewer than 200 bits)
and with the table that is read as a whole. -/
theorem modExpConsttime_spec (n a b : Arr) (bBits : ℕ) (hn : OddMod n) (hl : n.length ≤ 2 ^ 24)
    (ha : a.length = n.length) (hb : bBits ≤ 32 * b.length) (hlt : val b < 2 ^ bBits) :
    (modExpConsttime (ctxInit n) a bBits b).length = n.length ∧
      val (modExpConsttime (ctxInit n) a bBits b) = val a ^ val b % val n := by
  have hg := hn.ctx hl
  have e := Hacl32.modExpPrecomp_eq hg.good (val a) bBits (val b) (val_ltR (ctxInit n) a ha) hlt
  unfold Hacl32.modExpPrecomp at e
  unfold modExpConsttime
  split_ifs with h
  · exact expLadder_val (ctxInit n) hg a b bBits ha hb hlt
  · rw [if_neg h] at e
    obtain ⟨h1, h2⟩ := expWindow_val (ctxInit n) hg lookConsttime
      (fun aM one h1 h2 w hw => lookConsttime_eq _ aM one h1 h2 w hw) a b bBits ha hb
    exact ⟨h1, h2.trans e⟩

/-- The constant-time and the variable-time functions return the same limbs. -/
theorem modExp_same (n a b : Arr) (bBits : ℕ) (hn : OddMod n) (hl : n.length ≤ 2 ^ 24)
    (ha : a.length = n.length) (hb : bBits ≤ 32 * b.length) (hlt : val b < 2 ^ bBits) :
    modExpConsttime (ctxInit n) a bBits b = modExpVartime (ctxInit n) a bBits b := by
  obtain ⟨h1, h2⟩ := modExpVartime_spec n a b bBits hn hl ha hb hlt
  obtain ⟨h3, h4⟩ := modExpConsttime_spec n a b bBits hn hl ha hb hlt
  exact val_inj _ _ (by rw [h1, h3]) (by rw [h2, h4])

/-- What the exponentiation functions require. -/
def ExpArgs (n a : Arr) (bBits : ℕ) (b : Arr) : Prop :=
  OddMod n ∧ val b < 2 ^ bBits ∧ val a < val n

/-- `mod_exp_vartime` and `mod_exp_consttime` return `true` exactly if the documented preconditions hold,
and then the power; they return zero otherwise. -/
theorem modExpChecked_spec (n a b : Arr) (bBits : ℕ) (h0 : 0 < n.length) (hl : n.length ≤ 2 ^ 24)
    (ha : a.length = n.length) (hb : b.length = bLen bBits) :
    (((modExpVartimeChecked n a bBits b).1 = true ↔ ExpArgs n a bBits b) ∧
      ((modExpConsttimeChecked n a bBits b).1 = true ↔ ExpArgs n a bBits b)) ∧
    (ExpArgs n a bBits b →
      val (modExpVartimeChecked n a bBits b).2 = val a ^ val b % val n ∧
        val (modExpConsttimeChecked n a bBits b).2 = val a ^ val b % val n) ∧
    (¬ExpArgs n a bBits b →
      val (modExpVartimeChecked n a bBits b).2 = 0 ∧ val (modExpConsttimeChecked n a bBits b).2 = 0) := by
  unfold modExpVartimeChecked modExpConsttimeChecked
  rw [expCheck_eq n a b bBits h0 ha hb, checked_mask, checked_mask]
  have hbl := (bLen_pos bBits).1
  by_cases h : ExpArgs n a bBits b
  · have h' := h
    unfold ExpArgs OddMod at h'
    rw [if_pos h', if_pos h']
    refine ⟨by simp [h], fun _ => ⟨?_, ?_⟩, fun hh => absurd h hh⟩
    · exact (modExpVartime_spec n a b bBits h.1 hl ha (by omega) h.2.1).2
    · exact (modExpConsttime_spec n a b bBits h.1 hl ha (by omega) h.2.1).2
  · have h' := h
    unfold ExpArgs OddMod at h'
    rw [if_neg h', if_neg h']
    exact ⟨by simp [h], fun hh => absurd hh h, fun _ => ⟨val_replicate _, val_replicate _⟩⟩

end EG.Limbs32
