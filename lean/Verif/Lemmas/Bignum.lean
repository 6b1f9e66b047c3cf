import Verif.Model.Bignum
import Verif.Lemmas.UInt128
import Verif.Lemmas.Convert
import Verif.Spec.UInt128
import Verif.Spec.Bignum
import Mathlib.Tactic.Ring
import Mathlib.Data.List.Induction

/-! # Lemmas on arrays of 64-bit numbers -/

namespace EG.Bignum

open EG.U128

/-- The bytes of a number, most significant first. -/
def be8 (x : BitVec 64) : List UInt8 := toBytesBE 8 x.toNat

theorem pushBytes_eq (k : ℕ) : ∀ (b : BitVec 64) (out : List UInt8),
    pushBytes k b out = out ++ toBytesLE k b.toNat := by
  induction k with
  | zero => intro b out; simp [pushBytes, toBytesLE]
  | succ k ih =>
    intro b out
    have h1 : (b &&& 0xFF#64).toNat = b.toNat % 256 := by
      rw [BitVec.toNat_and]
      exact Nat.and_two_pow_sub_one_eq_mod b.toNat 8
    have h2 : (b >>> 8).toNat = b.toNat / 256 := by
      rw [BitVec.toNat_ushiftRight, Nat.shiftRight_eq_div_pow]
    rw [pushBytes, ih, toBytesLE, h1, h2, List.append_assoc, List.singleton_append]

theorem foldl_flat {α β : Type} (f : List β → α → List β) (g : α → List β) (h : ∀ out x, f out x = out ++ g x)
    (l : List α) : ∀ out, l.foldl f out = out ++ l.flatMap g := by
  induction l with
  | nil => intro out; simp
  | cons x l ih => intro out; rw [List.foldl_cons, ih, h, List.flatMap_cons, List.append_assoc]

theorem bignumToBytes_eq (o : Order) (l : List (BitVec 64)) :
    bignumToBytes o l = l.flatMap fun x => toBytesLE 8 (o.be64 x).toNat := by
  rw [bignumToBytes, foldl_flat _ _ fun out x => pushBytes_eq 8 (o.be64 x) out, List.nil_append]

theorem leNum_map (bs : List UInt8) : leNum (bs.map UInt8.toBitVec) = ofBytesLE bs := by
  induction bs with
  | nil => rfl
  | cons b bs ih => simp only [List.map_cons, leNum, ofBytesLE, ih]; rfl

theorem toMem_bytes (x : BitVec 64) : toMem true 8 x = (toBytesLE 8 x.toNat).map UInt8.toBitVec := by
  apply leNum_inj
  · rw [toMem_length, List.length_map, toBytesLE_length]
  · rw [toMem_true (n := 8), leNum_map, ofBytesLE_toBytesLE]; exact (Nat.mod_eq_of_lt x.isLt).symm

theorem ofBytesLE_inj {a b : List UInt8} (hl : a.length = b.length) (h : ofBytesLE a = ofBytesLE b) : a = b := by
  rw [← toBytesLE_ofBytesLE a, ← toBytesLE_ofBytesLE b, hl, h]

/-- On a little-endian machine with the right `htobe64`, the bytes come most significant first. -/
theorem little_bytes {o : Order} (hl : o.little = true) (ho : BigOk o) (x : BitVec 64) :
    toBytesLE 8 (o.be64 x).toNat = be8 x := by
  have h := (ho.store64 x).2
  rw [Order.store64be, hl, beNum_eq, toMem_bytes, ← List.map_reverse, leNum_map] at h
  have h2 : (toBytesLE 8 (o.be64 x).toNat).reverse = toBytesLE 8 x.toNat := by
    apply ofBytesLE_inj (by simp [toBytesLE_length])
    rw [h, ofBytesLE_toBytesLE]; exact (Nat.mod_eq_of_lt x.isLt).symm
  rw [be8, toBytesBE, ← h2, List.reverse_reverse]

/-- On a big-endian machine `htobe64` changes nothing. -/
theorem big_bytes {o : Order} (hl : o.little = false) (ho : BigOk o) (x : BitVec 64) :
    toBytesLE 8 (o.be64 x).toNat = (be8 x).reverse := by
  have h := (ho.store64 x).2
  rw [Order.store64be, hl, beNum_eq, toMem_false (n := 8), List.reverse_reverse, toMem_true (n := 8)] at h
  rw [h, be8, toBytesBE, List.reverse_reverse]

theorem flat_little {o : Order} (hl : o.little = true) (ho : BigOk o) (l : List (BitVec 64)) :
    bignumToBytes o l = l.flatMap be8 := by
  rw [bignumToBytes_eq]
  congr 1
  funext x
  exact little_bytes hl ho x

theorem be8_length (x : BitVec 64) : (be8 x).length = 8 := toBytesBE_length 8 _

theorem flat_length (l : List (BitVec 64)) : (l.flatMap be8).length = 8 * l.length := by
  induction l with
  | nil => rfl
  | cons x l ih => rw [List.flatMap_cons, List.length_append, be8_length, ih, List.length_cons]; omega

theorem ofBytesBE_append (a b : List UInt8) :
    ofBytesBE (a ++ b) = 256 ^ b.length * ofBytesBE a + ofBytesBE b := by
  rw [ofBytesBE, ofBytesBE, ofBytesBE, List.reverse_append, ofBytesLE_append, List.length_reverse]
  ring

theorem arrayVal_snoc (l : List (BitVec 64)) (x : BitVec 64) :
    arrayVal (l ++ [x]) = 2 ^ 64 * arrayVal l + x.toNat := by
  rw [arrayVal, List.foldl_append]; rfl

theorem flat_val (l : List (BitVec 64)) : ofBytesBE (l.flatMap be8) = arrayVal l := by
  induction l using List.reverseRecOn with
  | nil => rfl
  | append_singleton l x ih =>
    have hx : ofBytesBE (be8 x) = x.toNat := by
      rw [be8, ofBytesBE_toBytesBE]; exact Nat.mod_eq_of_lt x.isLt
    rw [List.flatMap_append, ofBytesBE_append, ih, arrayVal_snoc, List.flatMap_cons, List.flatMap_nil,
      List.append_nil, be8_length, hx]
    norm_num

theorem word_snoc (bs : List UInt8) (b : UInt8) :
    word (bs ++ [b]) = (word bs <<< 8) + BitVec.ofNat 64 b.toNat := by
  rw [word, List.foldl_append]; rfl

theorem word_val (bs : List UInt8) (h : bs.length ≤ 8) : (word bs).toNat = ofBytesBE bs := by
  induction bs using List.reverseRecOn with
  | nil => rfl
  | append_singleton bs b ih =>
    have hl : bs.length ≤ 7 := by simpa using h
    have hv := ofBytesBE_lt bs
    have hp : 256 ^ bs.length ≤ 256 ^ 7 := Nat.pow_le_pow_right (by omega) hl
    have hb : b.toNat < 256 := b.toBitVec.isLt
    have hs : ofBytesBE [b] = b.toNat := by simp [ofBytesBE, ofBytesLE]
    rw [word_snoc, BitVec.toNat_add, BitVec.toNat_shiftLeft, ih (by omega), BitVec.toNat_ofNat,
      Nat.shiftLeft_eq, ofBytesBE_append, hs, List.length_singleton]
    norm_num at hp ⊢
    omega

theorem word_be8 (x : BitVec 64) : word (be8 x) = x := by
  apply BitVec.eq_of_toNat_eq
  rw [word_val _ (be8_length x).le, be8, ofBytesBE_toBytesBE]
  exact Nat.mod_eq_of_lt x.isLt

theorem loop_nil (out : List (BitVec 64)) : loopWindows [] out = out := by
  rw [loopWindows, if_pos rfl]

theorem loop_be8 (x : BitVec 64) (bs : List UInt8) (out : List (BitVec 64)) :
    loopWindows (be8 x ++ bs) out = loopWindows bs (out ++ [x]) := by
  have hne : be8 x ++ bs ≠ [] := by
    intro h
    have := congrArg List.length h
    simp [be8_length] at this
  have hw : (if (be8 x ++ bs).length > 8 then (be8 x ++ bs).take 8 else be8 x ++ bs) = be8 x := by
    have ht : (be8 x ++ bs).take 8 = be8 x := by
      rw [List.take_append_of_le_length (be8_length x).ge, List.take_of_length_le (be8_length x).le]
    split
    · exact ht
    · rename_i h
      exact (List.take_of_length_le (by omega)).symm.trans ht
  have hd : (be8 x ++ bs).drop 8 = bs := by
    rw [List.drop_append_of_le_length (be8_length x).ge, List.drop_of_length_le (be8_length x).le,
      List.nil_append]
  rw [loopWindows, if_neg hne, hw, hd, word_be8]

theorem loop_flat (l : List (BitVec 64)) (bs : List UInt8) : ∀ out : List (BitVec 64),
    loopWindows (l.flatMap be8 ++ bs) out = loopWindows bs (out ++ l) := by
  induction l with
  | nil => intro out; simp
  | cons x l ih =>
    intro out
    rw [List.flatMap_cons, List.append_assoc, loop_be8, ih, List.append_assoc, List.singleton_append]

theorem loop_rest (t : List UInt8) (h : t.length < 8) (out : List (BitVec 64)) :
    loopWindows t out = out ++ if t = [] then [] else [word t] := by
  by_cases ht : t = []
  · rw [ht, loop_nil, if_pos rfl, List.append_nil]
  · rw [loopWindows, if_neg ht, if_neg ht, if_neg (by omega), List.drop_of_length_le (by omega), loop_nil]

/-- Bytes are those of an array followed by fewer than eight. -/
theorem chunks (bs : List UInt8) : ∃ (l : List (BitVec 64)) (t : List UInt8), bs = l.flatMap be8 ++ t ∧ t.length < 8 ∧
    l.length = bs.length / 8 ∧ t.length = bs.length % 8 := by
  induction h : bs.length using Nat.strong_induction_on generalizing bs with
  | _ n ih =>
    by_cases hn : n < 8
    · exact ⟨[], bs, by simp, by omega, by simp; omega, by omega⟩
    · obtain ⟨l, t, e, h1, h2, h3⟩ := ih (n - 8) (by omega) (bs.drop 8) (by simp [h])
      have ht : be8 (word (bs.take 8)) = bs.take 8 := by
        have hlen : (bs.take 8).length = 8 := by simp; omega
        rw [be8, word_val _ hlen.le]
        have := toBytesBE_ofBytesBE (bs.take 8)
        rwa [hlen] at this
      refine ⟨word (bs.take 8) :: l, t, ?_, h1, ?_, ?_⟩
      · rw [List.flatMap_cons, ht, List.append_assoc, ← e, List.take_append_drop]
      · rw [List.length_cons, h2]; omega
      · omega

theorem arrayVal_zeros (k : ℕ) (l : List (BitVec 64)) : arrayVal (List.replicate k 0 ++ l) = arrayVal l := by
  have : (List.replicate k (0 : BitVec 64)).foldl (fun n x => 2 ^ 64 * n + x.toNat) 0 = 0 := by
    induction k with
    | zero => rfl
    | succ k ih => rw [List.replicate_succ, List.foldl_cons]; simpa using ih
  rw [arrayVal, List.foldl_append, this, arrayVal]

theorem bytesToBignum_eq (l : List (BitVec 64)) (t : List UInt8) (ht : t.length < 8) (mask : ℕ) :
    bytesToBignum (l.flatMap be8 ++ t) mask =
      List.replicate (mask - (l.length + if t = [] then 0 else 1)) 0 ++ l ++
        if t = [] then [] else [word t] := by
  have hlen : (l.flatMap be8 ++ t).length = 8 * l.length + t.length := by
    rw [List.length_append, flat_length]
  have hmod : (8 * l.length + t.length) % 8 = t.length := by omega
  have hdiv : (8 * l.length + t.length) / 8 = l.length := by omega
  have ht0 : (if t.length > 0 then 1 else 0) = if t = [] then 0 else 1 := by
    rcases t with _ | ⟨a, t⟩ <;> simp
  have hpre : ∀ n, (if mask > n then mask - n else 0) = mask - n := by intro n; split <;> omega
  simp only [bytesToBignum, hlen, hmod, hdiv, ht0, hpre]
  rw [loop_flat, loop_rest t ht]

/-! ## Texts -/

/-- `k` digits. -/
def hexFixed : ℕ → ℕ → List Char
  | 0, _ => []
  | k + 1, n => hexFixed k (n / 16) ++ [hexDigit (n % 16)]

theorem hexFixed_zero (k : ℕ) : hexFixed k 0 = List.replicate k '0' := by
  induction k with
  | zero => rfl
  | succ k ih => rw [hexFixed, Nat.zero_div, ih, List.replicate_succ']; rfl

theorem pad_eq (k : ℕ) : ∀ n, n < 16 ^ (k + 1) →
    List.replicate (k + 1 - (hexDigits n).length) '0' ++ hexDigits n = hexFixed (k + 1) n := by
  induction k with
  | zero =>
    intro n hn
    have hn : n < 16 := by simpa using hn
    rw [hexDigits, if_pos hn, hexFixed, hexFixed, Nat.mod_eq_of_lt hn]; rfl
  | succ k ih =>
    intro n hn
    rw [hexDigits]
    by_cases h : n < 16
    · rw [if_pos h, hexFixed, Nat.div_eq_of_lt h, hexFixed_zero, Nat.mod_eq_of_lt h]; rfl
    · rw [if_neg h, hexFixed, ← ih (n / 16) (by rw [Nat.div_lt_iff_lt_mul (by omega)]; simpa [Nat.pow_succ] using hn),
        List.length_append, List.length_singleton, List.append_assoc]
      congr 2
      omega

theorem toBytesBE_succ (k n : ℕ) : toBytesBE (k + 1) n = toBytesBE k (n / 256) ++ [UInt8.ofNat (n % 256)] := by
  rw [toBytesBE, toBytesLE, List.reverse_cons]; rfl

theorem hexFixed_bytes (k : ℕ) : ∀ n, (toBytesBE k n).flatMap byteToHex = hexFixed (2 * k) n := by
  induction k with
  | zero => intro n; rfl
  | succ k ih =>
    intro n
    have e : 2 * (k + 1) = 2 * k + 1 + 1 := by omega
    have hb : (UInt8.ofNat (n % 256)).toNat = n % 256 := by
      simp
    rw [toBytesBE_succ, List.flatMap_append, ih, e, hexFixed, hexFixed, Nat.div_div_eq_div_mul,
      List.append_assoc]
    simp only [List.flatMap_cons, List.flatMap_nil, byteToHex, hb, List.cons_append, List.nil_append]
    have h1 : n % 256 / 16 = n / 16 % 16 := by omega
    have h2 : n % 256 % 16 = n % 16 := by omega
    rw [h1, h2]

end EG.Bignum
