import Verif.Lemmas.LeakDecrypt
import Verif.Props.ElGamal
import Verif.Props.LimbsGroup

/-!
# C93: what the memory accesses and branches tell about secrets

The functions of Model/Leak.lean are those of Model/LimbsExp.lean and Model/LimbsGroup.lean that also return
the list of the indices they access and the branches they take.  Two runs with the same list cannot be told
apart by an observer who sees no more than these.
-/

namespace EG.Leak

open Limbs

variable {P : PArrs} {G : Params}

/-! ## Constant time -/

/-- `mod_exp_consttime_precomp`: the result is the power, and whatever the base and the exponent of `k` bits
are, the same accesses and branches are made. -/
theorem C93_consttime (n : Arr) (k : ℕ) (a b a' b' : Arr) (ha : a.length = a'.length) :
    (modExpConsttime (Limbs.ctxInit n) a k b).trace = (modExpConsttime (Limbs.ctxInit n) a' k b').trace ∧
    (modExpConsttime (Limbs.ctxInit n) a k b).val = Limbs.modExpConsttime (Limbs.ctxInit n) a k b :=
  ⟨(modExpConsttime_same _ ha k b b').1, modExpConsttime_val _ _ _ _⟩

theorem checked_fst (m : UInt64) (k : ℕ) (r : Arr) :
    (Limbs.checked m k r).1 = true ↔ m = 0xFFFFFFFFFFFFFFFF := by
  unfold Limbs.checked
  split <;> simp [*]

/-- `mod_exp_consttime`: the same for two calls that both succeed or both fail. -/
theorem C93_consttime_checked (n : Arr) (k : ℕ) (a b a' b' : Arr) (ha : a.length = a'.length)
    (hb : b.length = b'.length)
    (hr : (Limbs.modExpConsttimeChecked n a k b).1 = (Limbs.modExpConsttimeChecked n a' k b').1) :
    (modExpConsttimeChecked n a k b).trace = (modExpConsttimeChecked n a' k b').trace ∧
    (modExpConsttimeChecked n a k b).val = Limbs.modExpConsttimeChecked n a k b := by
  refine ⟨modExpConsttimeChecked_same n ha hb k ?_, modExpConsttimeChecked_val _ _ _ _⟩
  rw [← checked_fst _ n.length (Limbs.modExpConsttime (Limbs.ctxInit n) a k b),
    ← checked_fst _ n.length (Limbs.modExpConsttime (Limbs.ctxInit n) a' k b')]
  exact Bool.eq_iff_iff.1 hr

/-! ## Variable time -/

/-- `mod_exp_vartime_precomp`: two exponents that differ in their `k` bits are told apart.  (The base is not
revealed.) -/
theorem C93_vartime (n : Arr) (k : ℕ) (a b a' b' : Arr) (ha : a.length = a'.length) (hb : k ≤ 64 * b.length)
    (hb' : k ≤ 64 * b'.length) :
    ((modExpVartime (Limbs.ctxInit n) a k b).trace = (modExpVartime (Limbs.ctxInit n) a' k b').trace →
      val b % 2 ^ k = val b' % 2 ^ k) ∧
    (modExpVartime (Limbs.ctxInit n) a k b).trace = (modExpVartime (Limbs.ctxInit n) a' k b).trace ∧
    (modExpVartime (Limbs.ctxInit n) a k b).val = Limbs.modExpVartime (Limbs.ctxInit n) a k b :=
  ⟨fun h => modExpVartime_leaks _ ha k hb hb' (T := []) (T' := []) (by rw [h]), (modExpVartime_same _ ha k b).1,
    modExpVartime_val _ _ _ _⟩

/-- `pow_mod_p`, and with it `g_pow_p`, is not constant time, neither for fixed bases nor for others: any two
exponents are told apart. -/
theorem C93_pow_violated (P : PArrs) (fixed : Bool) (base e e' : Arr) (he : e.length = 4) (he' : e'.length = 4)
    (hne : e ≠ e') :
    (powModP P fixed base e).trace ≠ (powModP P fixed base e').trace ∧
    (powModP P fixed base e).val = Limbs.powModP P fixed base e :=
  ⟨fun h => hne (powModP_leaks P fixed base he he' (T := []) (T' := []) (by rw [h])), powModP_val _ _ _ _⟩

/-- The same for exponents modulo `p`, as far as they are used. -/
theorem C93_pow_long_violated (P : PArrs) (base e e' : Arr) (he : e.length = 64) (he' : e'.length = 64)
    (hne : val e % 2 ^ 512 ≠ val e' % 2 ^ 512) :
    (powModPP P base e).trace ≠ (powModPP P base e').trace ∧ (powModPP P base e).val = Limbs.powModPP P base e :=
  ⟨fun h => hne (powModPP_leaks P base he he' (T := []) (T' := []) (by rw [h])), powModPP_val _ _ _⟩

/-- The observed function encrypts as the one of C11 does. -/
theorem C93_encrypt_value (h : P.Denotes G) (hG : G.Valid) (fg fk : Bool) (m : UInt64) (n pub : Arr)
    (hn : n.length = 4) (hpub : pub.length = 64) (h0 : val n ≠ 0) :
    ∃ a b, (encrypt P fg fk m n pub).val = .ok (a, b) ∧ a.length = 64 ∧ b.length = 64 ∧
      elgamalEncrypt G m.toNat (val n) (val pub) = .ok ⟨val a, val b⟩ := by
  obtain ⟨a, b, h1, h2, h3, h4, h5⟩ := encrypt_val h hG fg fk hpub hn m h0
  have hnl := val_lt n
  rw [hn] at hnl
  have hnl' := lt_512_of_lt hnl
  have hpl := val_lt pub
  rw [hpub] at hpl
  have hm : m.toNat = 1 ↔ m = 1 := by
    rw [← UInt64.toNat_inj]; rfl
  have hk := powModP_lt hG (val pub) (val n) hpl hnl'
  refine ⟨a, b, h1, h2, h3, ?_⟩
  rw [elgamalEncrypt, if_neg h0, h4, h5]
  simp only [hm]
  rw [gPowP_eq hG _ hnl', mulModP_eq hG _ _ (lt_trans hG.g_lt hG.p_lt) (lt_trans hk hG.p_lt),
    powModP_eq hG _ _ hpl hnl']

/-- `elgamalEncrypt`: two encryptions under the same key are told apart if the nonces differ or one vote is 1
and the other is not.  Who sees the accesses and branches thus learns the vote. -/
theorem C93_encrypt_violated (h : P.Denotes G) (hG : G.Valid) (fg fk : Bool) (m m' : UInt64) (n n' pub : Arr)
    (hn : n.length = 4) (hn' : n'.length = 4) (hpub : pub.length = 64) (h0' : val n' ≠ 0)
    (hne : n ≠ n' ∨ ¬(m = 1 ↔ m' = 1)) :
    (encrypt P fg fk m n pub).trace ≠ (encrypt P fg fk m' n' pub).trace := by
  intro ht
  obtain ⟨h1, h2⟩ := encrypt_leaks h hG fg fk hpub hn hn' h0' ht
  rcases hne with hne | hne
  · exact hne h1
  · exact hne h2

/-! ## Decryption -/

/-- The observed function decrypts as the one of C11 does. -/
theorem C93_decrypt_value (h : P.Denotes G) (hG : G.Valid) (pad data secret : Arr) (hp : pad.length = 64)
    (hd : data.length = 64) (hs : secret.length = 4) :
    (decrypt P pad data secret).val.toNat = EG.decrypt G ⟨val pad, val data⟩ (val secret) :=
  decrypt_val h hG hp hd hs

/-- `decrypt`: two calls, with whatever ciphertexts and secrets, that return the same vote cannot be told
apart. -/
theorem C93_decrypt (h : P.Denotes G) (hG : G.Valid) (pad data secret pad' data' secret' : Arr)
    (hp : pad.length = 64) (hd : data.length = 64) (hs : secret.length = 4) (hlt : val pad < G.p)
    (hp' : pad'.length = 64) (hd' : data'.length = 64) (hs' : secret'.length = 4) (hlt' : val pad' < G.p)
    (m : ℕ) (hm : m < 2) (hv : EG.decrypt G ⟨val pad, val data⟩ (val secret) = m)
    (hv' : EG.decrypt G ⟨val pad', val data'⟩ (val secret') = m) :
    (decrypt P pad data secret).trace = (decrypt P pad' data' secret').trace := by
  rw [← decrypt_val h hG hp hd hs] at hv
  rw [← decrypt_val h hG hp' hd' hs'] at hv'
  refine decrypt_same h hG hp hd hs hlt hp' hd' hs' hlt' (UInt64.toNat_inj.1 (hv.trans hv'.symm)) ?_
  have : m = 0 ∨ m = 1 := by omega
  rcases this with h1 | h1
  · exact Or.inl (UInt64.toNat_inj.1 (by rw [hv, h1]; rfl))
  · exact Or.inr (UInt64.toNat_inj.1 (by rw [hv, h1]; rfl))

/-- Decrypting encryptions of the same vote under two keys: the secrets are not revealed. -/
theorem C93_decrypt_vote (h : P.Denotes G) (hG : G.Valid) (fg fk : Bool) (m : UInt64) (hm : m.toNat < 2)
    (s n pub a b s' n' pub' a' b' : Arr)
    (hs : s.length = 4) (hn : n.length = 4) (hpub : pub.length = 64) (h0 : val n ≠ 0)
    (hk : keyFromSecret G (val s) = .ok ⟨val s, val pub⟩) (he : (encrypt P fg fk m n pub).val = .ok (a, b))
    (hs' : s'.length = 4) (hn' : n'.length = 4) (hpub' : pub'.length = 64) (h0' : val n' ≠ 0)
    (hk' : keyFromSecret G (val s') = .ok ⟨val s', val pub'⟩) (he' : (encrypt P fg fk m n' pub').val = .ok (a', b')) :
    (decrypt P a b s).trace = (decrypt P a' b' s').trace ∧ (decrypt P a b s).val = m := by
  have key : ∀ s n pub a b : Arr, s.length = 4 → n.length = 4 → pub.length = 64 → val n ≠ 0 →
      keyFromSecret G (val s) = .ok ⟨val s, val pub⟩ → (encrypt P fg fk m n pub).val = .ok (a, b) →
      a.length = 64 ∧ b.length = 64 ∧ val a < G.p ∧ EG.decrypt G ⟨val a, val b⟩ (val s) = m.toNat := by
    intro s n pub a b hs hn hpub h0 hk he
    obtain ⟨x, y, e1, e2, e3, e4⟩ := C93_encrypt_value h hG fg fk m n pub hn hpub h0
    rw [he] at e1
    injection e1 with e1
    injection e1 with e5 e6
    subst e5 e6
    have hnl := val_lt n
    rw [hn] at hnl
    have hsl := val_lt s
    rw [hs] at hsl
    have h2 : 2 ≤ val s := by
      by_contra hh
      rw [keyFromSecret, if_pos ((elemLt_iff _ _).2 (by omega))] at hk
      cases hk
    obtain ⟨k, k1, -, k2, k3⟩ := keyFromSecret_ok G hG (val s) hsl h2
    rw [hk] at k1
    injection k1 with k1
    subst k1
    obtain ⟨c, c1, c2⟩ := encrypt_isEncryption G hG m.toNat (val n) (val pub) hm hnl h0 (lt_trans k2 hG.p_lt)
    rw [e4] at c1
    injection c1 with c1
    subst c1
    refine ⟨e2, e3, c2.1, ?_⟩
    rw [decrypt_encryption G hG (val s) (val pub) m.toNat (val n) _ hsl k3 c2,
      Nat.mod_eq_of_lt (by have := hG.q_gt; omega)]
    have : m.toNat = 0 ∨ m.toNat = 1 := by omega
    rcases this with h | h <;> simp [h]
  obtain ⟨p1, p2, p3, p4⟩ := key s n pub a b hs hn hpub h0 hk he
  obtain ⟨q1, q2, q3, q4⟩ := key s' n' pub' a' b' hs' hn' hpub' h0' hk' he'
  refine ⟨C93_decrypt h hG a b s a' b' s' p1 p2 hs p3 q1 q2 hs' q3 m.toNat hm p4 q4, ?_⟩
  exact UInt64.toNat_inj.1 ((C93_decrypt_value h hG a b s p1 p2 hs).trans p4)

/-! ## Cases -/

/-- Two secrets as exponents of the generator. -/
example : (powModP .std true PArrs.std.g [2, 0, 0, 0]).trace ≠ (powModP .std true PArrs.std.g [3, 0, 0, 0]).trace :=
  (C93_pow_violated .std true PArrs.std.g [2, 0, 0, 0] [3, 0, 0, 0] rfl rfl (by decide)).1

/-- The same nonce and different votes. -/
example : (encrypt .std true true 0 [2, 0, 0, 0] PArrs.std.g).trace ≠
    (encrypt .std true true 1 [2, 0, 0, 0] PArrs.std.g).trace :=
  C93_encrypt_violated C77_std C54_std_valid true true 0 1 [2, 0, 0, 0] [2, 0, 0, 0] PArrs.std.g rfl rfl
    C77_std.glen (by decide) (Or.inr (by decide))

/-- Two exponents of 512 bits. -/
example : (modExpConsttime (Limbs.ctxInit PArrs.std.p) PArrs.std.g 512 ([2, 0, 0, 0] ++ zeros 60)).trace =
    (modExpConsttime (Limbs.ctxInit PArrs.std.p) PArrs.std.p 512 ([3, 0, 0, 7] ++ zeros 60)).trace :=
  (C93_consttime _ _ _ _ _ _ (by rw [C77_std.glen, C77_std.plen])).1

example : val ([2, 0, 0, 0] ++ zeros 60) % 2 ^ 512 ≠ val ([3, 0, 0, 7] ++ zeros 60) % 2 ^ 512 := by decide +kernel

/-- Keys, nonces and ciphertexts of two voters who voted alike exist. -/
example : ∃ pub a b pub' a' b' : Arr,
    keyFromSecret .std 5 = .ok ⟨5, val pub⟩ ∧ (encrypt .std true true 1 [7, 0, 0, 0] pub).val = .ok (a, b) ∧
    keyFromSecret .std 6 = .ok ⟨6, val pub'⟩ ∧ (encrypt .std true true 1 [8, 0, 0, 0] pub').val = .ok (a', b') ∧
    (decrypt .std a b [5, 0, 0, 0]).trace = (decrypt .std a' b' [6, 0, 0, 0]).trace := by
  have key : ∀ s : Arr, s.length = 4 → 2 ≤ val s → ∃ pub : Arr, pub.length = 64 ∧
      keyFromSecret .std (val s) = .ok ⟨val s, val pub⟩ := by
    intro s hs h2
    have hsl := val_lt s
    rw [hs] at hsl
    obtain ⟨r, -, r2, r3⟩ := C77_pow_mod_p C77_std C54_std_valid true PArrs.std.g s C77_std.glen hs
    refine ⟨r, r2, ?_⟩
    rw [keyFromSecret, if_neg (by rw [elemLt_iff]; omega), r3, gPowP_eq C54_std_valid _ (lt_512_of_lt hsl), C77_std.g_eq]
  obtain ⟨pub, l1, k1⟩ := key [5, 0, 0, 0] rfl (by decide)
  obtain ⟨pub', l1', k1'⟩ := key [6, 0, 0, 0] rfl (by decide)
  obtain ⟨a, b, e1, -⟩ := C93_encrypt_value C77_std C54_std_valid true true 1 [7, 0, 0, 0] pub rfl l1 (by decide)
  obtain ⟨a', b', e1', -⟩ := C93_encrypt_value C77_std C54_std_valid true true 1 [8, 0, 0, 0] pub' rfl l1' (by decide)
  exact ⟨pub, a, b, pub', a', b', k1, e1, k1', e1', (C93_decrypt_vote C77_std C54_std_valid true true 1 (by decide)
    [5, 0, 0, 0] [7, 0, 0, 0] pub a b [6, 0, 0, 0] [8, 0, 0, 0] pub' a' b' rfl rfl l1 (by decide) k1 e1 rfl rfl l1'
    (by decide) k1' e1').1⟩

end EG.Leak
