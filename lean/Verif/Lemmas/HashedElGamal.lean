import Verif.Model.HashedElGamal
import Verif.Lemmas.ElGamal

/-! Helper lemmas on the xor loops of hashed ElGamal. -/

namespace EG

theorem xorAt_eq (key data : List UInt8) (n : ℕ) : ∀ idx j, idx + n ≤ data.length →
    j + n ≤ key.length → xorAt key data idx j n =
      .ok (List.zipWith (· ^^^ ·) ((data.drop idx).take n) ((key.drop j).take n)) := by
  induction n with
  | zero => intro idx j _ _; simp [xorAt]
  | succ n ih =>
    intro idx j h1 h2
    have e1 : data[idx]? = some data[idx] := List.getElem?_eq_getElem (by omega)
    have e2 : key[j]? = some key[j] := List.getElem?_eq_getElem (by omega)
    simp only [xorAt, e1, e2]
    rw [ih (idx + 1) (j + 1) (by omega) (by omega), Res.bind_ok,
      List.drop_eq_getElem_cons (show idx < data.length by omega),
      List.drop_eq_getElem_cons (show j < key.length by omega), List.take_succ_cons,
      List.take_succ_cons, List.zipWith_cons_cons]

/-- The key stream of `n` blocks from block `i` on. -/
def keyStream (keyOf : ℕ → List UInt8) : ℕ → ℕ → List UInt8
  | _, 0 => []
  | i, n + 1 => keyOf i ++ keyStream keyOf (i + 1) n

theorem keyStream_length (keyOf : ℕ → List UInt8) (hk : ∀ i, (keyOf i).length = 32) (n : ℕ) :
    ∀ i, (keyStream keyOf i n).length = 32 * n := by
  induction n with
  | zero => intro i; rfl
  | succ n ih => intro i; rw [keyStream, List.length_append, hk, ih]; omega

theorem xorBlocks_eq (keyOf : ℕ → List UInt8) (hk : ∀ i, (keyOf i).length = 32)
    (data : List UInt8) (n : ℕ) : ∀ i, 32 * (i + n) ≤ data.length →
    xorBlocks keyOf data i n = .ok (List.zipWith (· ^^^ ·) ((data.drop (32 * i)).take (32 * n))
      (keyStream keyOf i n)) := by
  induction n with
  | zero => intro i _; simp [xorBlocks, keyStream]
  | succ n ih =>
    intro i h
    rw [xorBlocks, xorAt_eq _ _ 32 (32 * i) 0 (by omega) (by rw [hk]), Res.bind_ok,
      ih (i + 1) (by omega), Res.bind_ok, keyStream]
    have hsplit : (data.drop (32 * i)).take (32 * (n + 1)) =
        (data.drop (32 * i)).take 32 ++ (data.drop (32 * (i + 1))).take (32 * n) := by
      rw [show 32 * (n + 1) = 32 + 32 * n by omega, List.take_add, List.drop_drop]
      congr 3
    rw [hsplit, List.zipWith_append (by simp [hk]; omega)]
    rw [List.drop_zero, List.take_of_length_le (l := keyOf i) (by rw [hk])]

theorem zipWith_xor_xor (a k : List UInt8) (h : a.length ≤ k.length) :
    List.zipWith (· ^^^ ·) (List.zipWith (· ^^^ ·) a k) k = a := by
  induction a generalizing k with
  | nil => simp
  | cons x a ih =>
    cases k with
    | nil => simp at h
    | cons y k =>
      simp only [List.zipWith_cons_cons]
      rw [ih k (by simpa using h)]
      rw [UInt8.xor_assoc, UInt8.xor_self, UInt8.xor_zero]

/-- On data of whole blocks the loop is the xor with the key stream. -/
theorem xorBlocks_full (keyOf : ℕ → List UInt8) (hk : ∀ i, (keyOf i).length = 32)
    (data : List UInt8) (n : ℕ) (hl : data.length = 32 * n) :
    xorBlocks keyOf data 0 n = .ok (List.zipWith (· ^^^ ·) data (keyStream keyOf 0 n)) := by
  rw [xorBlocks_eq keyOf hk data n 0 (by omega), Nat.mul_zero, List.drop_zero,
    List.take_of_length_le (by omega)]

theorem getHmac_length (C : Crypto) (k m : List UInt8) (l s : ℕ) : (getHmac C k m l s).length = 32 := by
  unfold getHmac
  split <;> exact C.hmac_length _ _

theorem blockKey_length (C : Crypto) (session seed nb i : ℕ) :
    (blockKey C session seed nb i).length = 32 := getHmac_length _ _ _ _ _

/-- What `hashedEncrypt` produces once the padded plaintext and the two powers are known. -/
theorem hashedEncrypt_eq (G : Params) (C : Crypto) (triple : Option (ℕ × ℕ)) (message pt : List UInt8)
    (nonce pub seed maxLen gR pkR nb : ℕ) (tr : Bool) (hp : padMessage message maxLen tr = .ok pt)
    (hl : pt.length = 32 * nb) (hlt : pt.length < 2 ^ 32)
    (h1 : gR = (triple.elim (gPowP G nonce) Prod.fst))
    (h2 : pkR = (triple.elim (powModP G pub nonce) Prod.snd)) :
    hashedEncrypt G C triple message nonce pub seed maxLen tr =
      let session := hashElems G C [.p gR, .p pkR]
      let data := List.zipWith (· ^^^ ·) pt (keyStream (blockKey C session seed nb) 0 nb)
      .ok { pad := gR, data := data, mac := macOf C session seed nb gR data } := by
  have hnb : pt.length % 2 ^ 32 / 32 = nb := by rw [Nat.mod_eq_of_lt hlt]; omega
  unfold hashedEncrypt
  rw [hp, Res.bind_ok, hnb]
  subst h1 h2
  cases triple <;> simp only [Option.elim] <;>
    rw [xorBlocks_full _ (blockKey_length C _ seed nb) pt nb hl, Res.bind_ok]

/-- Decryption recovers the padded plaintext when the two shared secrets agree. -/
theorem hashedDecrypt_of_stream (G : Params) (C : Crypto) (gR secret seed nb : ℕ) (pt : List UInt8)
    (hl : pt.length = 32 * nb) (hlt : pt.length < 2 ^ 32) (h0 : nb ≠ 0) (b : Bool) :
    let session := hashElems G C [.p gR, .p (powModP G gR secret)]
    let data := List.zipWith (· ^^^ ·) pt (keyStream (blockKey C session seed nb) 0 nb)
    hashedDecrypt G C { pad := gR, data := data, mac := macOf C session seed nb gR data } secret seed b =
      if b then removePadding pt else .ok pt := by
  intro session data
  have hks := keyStream_length (blockKey C session seed nb) (blockKey_length C session seed nb) nb 0
  have hdl : data.length = 32 * nb := by
    simp only [data, List.length_zipWith, hl, hks, min_self]
  have hm : data.length % 2 ^ 32 = 32 * nb := by rw [hdl]; rw [hl] at hlt; exact Nat.mod_eq_of_lt hlt
  unfold hashedDecrypt
  simp only [hm]
  rw [if_neg (by omega), show 32 * nb / 32 = nb by omega]
  rw [if_neg (by simp [session]), xorBlocks_full _ (blockKey_length C _ seed nb) data nb hdl]
  rw [show List.zipWith (· ^^^ ·) data (keyStream (blockKey C
      (hashElems G C [.p gR, .p (powModP G gR secret)]) seed nb) 0 nb) = pt from
    zipWith_xor_xor _ _ (by rw [hl]; exact hks.ge), Res.bind_ok]

theorem be16_value (n : ℕ) (hn : n < 2 ^ 16) :
    (UInt8.ofNat (n / 256 % 256)).toNat * 256 + (UInt8.ofNat (n % 256)).toNat = n := by
  rw [UInt8.toNat_ofNat', UInt8.toNat_ofNat']
  omega

theorem removePadding_padded (m : List UInt8) (k : ℕ) (hk : k < 2 ^ 16) :
    removePadding (be16 k ++ m ++ List.replicate k 0) = .ok m := by
  have hv := be16_value k hk
  unfold removePadding be16
  simp only [List.cons_append, List.nil_append, List.getElem?_cons_zero, List.getElem?_cons_succ]
  rw [hv]
  simp only [List.length_cons, List.length_append, List.length_replicate]
  rw [if_neg (by omega), if_neg (by omega), show m.length + k + 1 + 1 - k = m.length + 2 by omega, if_neg,
    if_neg (by omega)]
  · simp
  · simp

end EG
