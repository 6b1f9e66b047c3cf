import Verif.Lemmas.HashedElGamal
import Verif.Props.ElGamal
import Verif.Props.Hash

/-!
# C15-C18, C57, C58: hashed ElGamal

SHA-256 and HMAC are arbitrary functions (`Crypto`).
-/

namespace EG

variable (G : Params) (C : Crypto)

/-- Both sides of the key agreement compute the same power. -/
theorem shared_secret (hG : G.Valid) (s n : ℕ) (hs : s < 2 ^ 256) (hn : n < 2 ^ 256) :
    powModP G (gPowP G n) s = powModP G (gPowP G s) n := by
  have h1 := lt_trans (gPowP_lt hG n hn) hG.p_lt
  have h2 := lt_trans (gPowP_lt hG s hs) hG.p_lt
  apply eq_of_cast (powModP_lt hG _ _ h1 (lt_512_of_lt hs)) (powModP_lt hG _ _ h2 (lt_512_of_lt hn))
  rw [cast_powModP hG _ _ h1 hs, cast_powModP hG _ _ h2 hn, cast_gPowP hG n hn, cast_gPowP hG s hs,
    ← pow_mul, ← pow_mul, mul_comm]

/-- Encryption followed by decryption returns the padded plaintext. -/
theorem hashed_round_trip (hG : G.Valid) (message pt : List UInt8) (s n seed maxLen nb : ℕ) (tr : Bool)
    (hs : s < 2 ^ 256) (hn : n < 2 ^ 256) (hp : padMessage message maxLen tr = .ok pt)
    (hl : pt.length = 32 * nb) (hlt : pt.length < 2 ^ 32) (h0 : nb ≠ 0) :
    ∃ c, hashedEncrypt G C none message n (gPowP G s) seed maxLen tr = .ok c ∧
      c.pad = gPowP G n ∧ c.data.length = pt.length ∧
      ∀ b, hashedDecrypt G C c s seed b = if b then removePadding pt else .ok pt := by
  have he := hashedEncrypt_eq G C none message pt n (gPowP G s) seed maxLen _ _ nb tr hp hl hlt rfl rfl
  refine ⟨_, he, rfl, ?_, ?_⟩
  · simp only [List.length_zipWith, hl]
    rw [keyStream_length _ (blockKey_length C _ seed nb)]
    simp
  · intro b
    have hd := hashedDecrypt_of_stream G C (gPowP G n) s seed nb pt hl hlt h0 b
    rw [shared_secret G hG s n hs hn] at hd
    exact hd

/-! ## C15 -/

/-- C15: padded encryption round-trips for every message that fits and the ciphertext length depends
only on the chosen size.  `maxLen` is any size whose padded length is a whole number of blocks; the
only one the library offers is `bytes512`. -/
theorem C15_round_trip (hG : G.Valid) (message : List UInt8) (s n seed maxLen : ℕ) (tr : Bool)
    (hs : s < 2 ^ 256) (hs2 : 2 ≤ s) (hn : n < 2 ^ 256)
    (hm : (maxLen + 2) % 32 = 0) (hm16 : maxLen < 2 ^ 16) (hlen : message.length ≤ maxLen) :
    ∃ k c, keyFromSecret G s = .ok k ∧
      hashedEncrypt G C none message n k.pub seed maxLen tr = .ok c ∧
      c.data.length = maxLen + 2 ∧ hashedDecrypt G C c k.secret seed true = .ok message := by
  have hk : keyFromSecret G s = .ok ⟨s, gPowP G s⟩ := by
    unfold keyFromSecret
    rw [if_neg]
    rw [elemLt_iff]
    omega
  have hmod : (maxLen - message.length) % 2 ^ 16 = maxLen - message.length :=
    Nat.mod_eq_of_lt (by omega)
  have hp : padMessage message maxLen tr = .ok (be16 (maxLen - message.length) ++ message ++
      List.replicate (maxLen - message.length) 0) := by
    unfold padMessage noPadding
    rw [if_pos (by omega), if_neg (by omega), if_neg (by omega)]
    simp only [hmod]
  have hl : (be16 (maxLen - message.length) ++ message ++
      List.replicate (maxLen - message.length) 0).length = maxLen + 2 := by
    simp [be16]; omega
  obtain ⟨c, h1, -, h3, h4⟩ := hashed_round_trip G C hG message _ s n seed maxLen ((maxLen + 2) / 32) tr
    hs hn hp (by rw [hl]; omega) (by rw [hl]; omega) (by omega)
  refine ⟨_, c, hk, h1, by rw [h3, hl], ?_⟩
  rw [h4 true, if_pos rfl]
  exact removePadding_padded _ _ (by omega)

/-- C15 for the size the library offers. -/
theorem C15_bytes512 (hG : G.Valid) (message : List UInt8) (s n seed : ℕ) (tr : Bool)
    (hs : s < 2 ^ 256) (hs2 : 2 ≤ s) (hn : n < 2 ^ 256) (hlen : message.length ≤ 510) :
    ∃ k c, keyFromSecret G s = .ok k ∧
      hashedEncrypt G C none message n k.pub seed bytes512 tr = .ok c ∧
      c.data.length = 512 ∧ hashedDecrypt G C c k.secret seed true = .ok message :=
  C15_round_trip G C hG message s n seed bytes512 tr hs hs2 hn (by decide) (by decide) hlen

example (seed : ℕ) : ∃ k c, keyFromSecret .std 2 = .ok k ∧
    hashedEncrypt .std demoCrypto none [0, 1, 0] 3 k.pub seed bytes512 false = .ok c ∧
    c.data.length = 512 ∧ hashedDecrypt .std demoCrypto c k.secret seed true = .ok [0, 1, 0] :=
  C15_bytes512 _ _ C54_std_valid [0, 1, 0] 2 3 seed false (by decide) (by decide) (by decide) (by decide)

/-! ## C16 -/

/-- C16: with truncation allowed, a longer message decrypts to its first `maxLen` bytes. -/
theorem C16_truncation (hG : G.Valid) (message : List UInt8) (s n seed maxLen : ℕ)
    (hs : s < 2 ^ 256) (hs2 : 2 ≤ s) (hn : n < 2 ^ 256)
    (hm : (maxLen + 2) % 32 = 0) (hm16 : maxLen < 2 ^ 16) (hlen : maxLen < message.length) :
    ∃ k c, keyFromSecret G s = .ok k ∧
      hashedEncrypt G C none message n k.pub seed maxLen true = .ok c ∧
      c.data.length = maxLen + 2 ∧
      hashedDecrypt G C c k.secret seed true = .ok (message.take maxLen) := by
  have hk : keyFromSecret G s = .ok ⟨s, gPowP G s⟩ := by
    unfold keyFromSecret
    rw [if_neg]
    rw [elemLt_iff]
    omega
  have hp : padMessage message maxLen true = .ok (be16 0 ++ message.take maxLen) := by
    unfold padMessage noPadding
    rw [if_pos (by omega), if_pos ⟨rfl, hlen⟩]
  have hl : (be16 0 ++ message.take maxLen).length = maxLen + 2 := by
    simp [be16]; omega
  obtain ⟨c, h1, -, h3, h4⟩ := hashed_round_trip G C hG message _ s n seed maxLen ((maxLen + 2) / 32) true
    hs hn hp (by rw [hl]; omega) (by rw [hl]; omega) (by omega)
  refine ⟨_, c, hk, h1, by rw [h3, hl], ?_⟩
  rw [h4 true, if_pos rfl]
  have := removePadding_padded (message.take maxLen) 0 (by norm_num)
  simpa using this

/-- C16: with truncation disallowed, a message is refused exactly if it is longer than `maxLen`
(whatever the buffer holds). -/
theorem C16_refused (triple : Option (ℕ × ℕ)) (message : List UInt8) (n pub seed maxLen : ℕ)
    (hm : maxLen ≠ 0) (hlen : maxLen < message.length) :
    hashedEncrypt G C triple message n pub seed maxLen false = .throw .invalidArgument := by
  unfold hashedEncrypt padMessage noPadding
  rw [if_pos hm, if_neg (by simp), if_pos hlen]
  rfl

/-- C16: without padding, a message that is not a whole number of blocks is refused. -/
theorem C16_unpadded_refused (triple : Option (ℕ × ℕ)) (message : List UInt8) (n pub seed : ℕ)
    (tr : Bool) (hlen : message.length % 32 ≠ 0) :
    hashedEncrypt G C triple message n pub seed noPadding tr = .throw .invalidArgument := by
  unfold hashedEncrypt padMessage
  rw [if_neg (by simp), if_pos hlen]
  rfl

/-- C16: without padding, other non-empty messages round-trip (up to the 4 GB the length counter can
hold). -/
theorem C16_unpadded_round_trip (hG : G.Valid) (message : List UInt8) (s n seed : ℕ) (tr : Bool)
    (hs : s < 2 ^ 256) (hs2 : 2 ≤ s) (hn : n < 2 ^ 256) (hlen : message.length % 32 = 0)
    (hne : message ≠ []) (hlt : message.length < 2 ^ 32) :
    ∃ k c, keyFromSecret G s = .ok k ∧
      hashedEncrypt G C none message n k.pub seed noPadding tr = .ok c ∧
      c.data.length = message.length ∧ hashedDecrypt G C c k.secret seed false = .ok message := by
  have hk : keyFromSecret G s = .ok ⟨s, gPowP G s⟩ := by
    unfold keyFromSecret
    rw [if_neg]
    rw [elemLt_iff]
    omega
  have hp : padMessage message noPadding tr = .ok message := by
    unfold padMessage
    rw [if_neg (by simp), if_neg (by omega)]
  have hpos := List.length_pos_iff.2 hne
  obtain ⟨c, h1, -, h3, h4⟩ := hashed_round_trip G C hG message _ s n seed noPadding
    (message.length / 32) tr hs hn hp (by omega) hlt (by omega)
  refine ⟨_, c, hk, h1, h3, ?_⟩
  rw [h4 false]
  simp

/-- C16: the empty message is accepted without padding, but its ciphertext can never be
decrypted. -/
theorem C16_empty_message (n pub seed s : ℕ) (tr b : Bool) :
    ∃ c, hashedEncrypt G C none [] n pub seed noPadding tr = .ok c ∧
      hashedDecrypt G C c s seed b = .throw .invalidArgument := by
  refine ⟨_, hashedEncrypt_eq G C none [] [] n pub seed noPadding _ _ 0 tr rfl rfl (by simp) rfl rfl, ?_⟩
  unfold hashedDecrypt
  simp

/-- C16: a message of `2^32` bytes (or a multiple) is accepted, but nothing of it is encrypted: the
32-bit length counter wraps around. -/
theorem C16_length_wraps (message : List UInt8) (n pub seed : ℕ) (tr : Bool) (k : ℕ)
    (hlen : message.length = k * 2 ^ 32) :
    ∃ c, hashedEncrypt G C none message n pub seed noPadding tr = .ok c ∧ c.data = [] := by
  have hp : padMessage message noPadding tr = .ok message := by
    unfold padMessage
    rw [if_neg (by simp), if_neg (by omega)]
  unfold hashedEncrypt
  rw [hp, Res.bind_ok, hlen, Nat.mul_mod_left]
  exact ⟨_, rfl, rfl⟩

example : (List.replicate (2 ^ 32) (7 : UInt8)).length = 1 * 2 ^ 32 := by
  rw [List.length_replicate, one_mul]

example (seed : ℕ) : ∃ k c, keyFromSecret .std 2 = .ok k ∧
    hashedEncrypt .std demoCrypto none (List.replicate 600 9) 3 k.pub seed bytes512 true = .ok c ∧
    c.data.length = 512 ∧ hashedDecrypt .std demoCrypto c k.secret seed true =
      .ok ((List.replicate 600 9).take 510) :=
  C16_truncation _ _ C54_std_valid _ 2 3 seed bytes512 (by decide) (by decide) (by decide) (by decide)
    (by decide) (by rw [List.length_replicate]; decide)

/-! ## C17 -/

/-- The padding is removed, or refused, and then there is none. -/
theorem removePadding_cases (pt : List UInt8) (h : 2 ≤ pt.length) :
    (removePadding pt = .throw .runtimeError ∧
      ∀ m k, k < 2 ^ 16 → pt ≠ be16 k ++ m ++ List.replicate k 0) ∨
      ∃ m k, removePadding pt = .ok m ∧ k < 2 ^ 16 ∧ pt = be16 k ++ m ++ List.replicate k 0 := by
  rcases hr : removePadding pt with m | e | _
  · refine Or.inr ?_
    match pt, h with
    | a :: b :: rest, _ =>
      unfold removePadding at hr
      simp only [List.getElem?_cons_zero, List.getElem?_cons_succ] at hr
      have ha := a.toNat_lt
      have hb := b.toNat_lt
      have hab : be16 (a.toNat * 256 + b.toNat) = [a, b] := by
        unfold be16
        rw [show (a.toNat * 256 + b.toNat) / 256 % 256 = a.toNat by omega,
          show (a.toNat * 256 + b.toNat) % 256 = b.toNat by omega, UInt8.ofNat_toNat, UInt8.ofNat_toNat]
      generalize hk : a.toNat * 256 + b.toNat = k at *
      split_ifs at hr with h1 h2 h3 h4
      injection hr with hr
      refine ⟨m, k, rfl, by omega, ?_⟩
      simp only [List.length_cons] at h1 h2 h4 hr h3
      have e1 : rest.length + 1 + 1 - k = (rest.length - k) + 2 := by omega
      rw [e1] at hr h3
      simp only [List.take_succ_cons, List.drop_succ_cons, List.drop_zero] at hr h3
      have e2 : rest.drop (rest.length - k) = List.replicate k 0 := by
        rw [List.eq_replicate_iff]
        refine ⟨by rw [List.length_drop]; omega, fun x hx => ?_⟩
        by_contra hc
        exact h3 (List.any_eq_true.2 ⟨x, hx, by simpa using hc⟩)
      rw [hab, ← hr, ← e2]
      simp
  · have he : e = .runtimeError := by
      match pt, h with
      | a :: b :: rest, _ =>
        unfold removePadding at hr
        simp only [List.getElem?_cons_zero, List.getElem?_cons_succ] at hr
        split_ifs at hr <;> (injection hr with hr; exact hr.symm)
    subst he
    refine Or.inl ⟨rfl, fun m k hk e => ?_⟩
    rw [e, removePadding_padded m k hk] at hr
    cases hr
  · exfalso
    match pt, h with
    | a :: b :: rest, _ =>
      unfold removePadding at hr
      simp only [List.getElem?_cons_zero, List.getElem?_cons_succ, List.length_cons] at hr
      split_ifs at hr <;> omega

theorem removePadding_safe (pt : List UInt8) (h : 2 ≤ pt.length) :
    removePadding pt = .throw .runtimeError ∨
      ∃ m, removePadding pt = .ok m ∧ m.length + 2 ≤ pt.length := by
  rcases removePadding_cases pt h with ⟨h, -⟩ | ⟨m, k, h, -, e⟩
  · exact Or.inl h
  · refine Or.inr ⟨m, h, ?_⟩
    rw [e]
    simp [be16]

/-- C17: on every input decryption throws `invalid_argument` (length), throws `runtime_error` (MAC or
padding), or returns a plaintext no longer than the data; it never reads outside its buffers.  If it
returns, the MAC of pad and data under the key derived from the secret equals the given one. -/
theorem C17_decrypt_safe (c : HashedCiphertext) (s seed : ℕ) (b : Bool) :
    (hashedDecrypt G C c s seed b = .throw .invalidArgument ∧
      (c.data.length % 2 ^ 32 % 32 ≠ 0 ∨ c.data.length % 2 ^ 32 = 0)) ∨
    hashedDecrypt G C c s seed b = .throw .runtimeError ∨
    ∃ pt, hashedDecrypt G C c s seed b = .ok pt ∧ pt.length ≤ c.data.length ∧
      c.mac = macOf C (hashElems G C [.p c.pad, .p (powModP G c.pad s)]) seed
        (c.data.length % 2 ^ 32 / 32) c.pad c.data := by
  by_cases h1 : c.data.length % 2 ^ 32 % 32 ≠ 0 ∨ c.data.length % 2 ^ 32 = 0
  · left
    refine ⟨?_, h1⟩
    unfold hashedDecrypt
    simp only
    rw [if_pos h1]
  · right
    unfold hashedDecrypt
    simp only
    rw [if_neg h1]
    generalize hnb : c.data.length % 2 ^ 32 / 32 = nb
    have hle : 32 * (0 + nb) ≤ c.data.length := by
      have := Nat.mod_le c.data.length (2 ^ 32)
      omega
    split
    · exact Or.inl rfl
    · rename_i hmac
      rw [xorBlocks_eq _ (blockKey_length C _ seed nb) c.data nb 0 hle, Res.bind_ok]
      have hl : (List.zipWith (· ^^^ ·) ((c.data.drop (32 * 0)).take (32 * nb))
          (keyStream (blockKey C (hashElems G C [.p c.pad, .p (powModP G c.pad s)]) seed nb) 0 nb)).length
            = 32 * nb := by
        rw [List.length_zipWith, keyStream_length _ (blockKey_length C _ seed nb)]
        simp
        omega
      generalize List.zipWith (· ^^^ ·) ((c.data.drop (32 * 0)).take (32 * nb))
          (keyStream (blockKey C (hashElems G C [.p c.pad, .p (powModP G c.pad s)]) seed nb) 0 nb)
            = pt at hl ⊢
      have hmac' := not_not.1 hmac
      cases b
      · exact Or.inr ⟨pt, by simp, by omega, hmac'⟩
      · rw [if_pos rfl]
        rcases removePadding_safe pt (by omega) with h | ⟨m, h, hm⟩
        · exact Or.inl h
        · exact Or.inr ⟨m, h, by omega, hmac'⟩

/-- C17: with removal of the padding, decryption returns `m` exactly if without removal it returns `m` between
its padding length and as many zero bytes. -/
theorem C17_padding (c : HashedCiphertext) (s seed : ℕ) (m : List UInt8) :
    hashedDecrypt G C c s seed true = .ok m ↔
      ∃ k, k < 2 ^ 16 ∧ hashedDecrypt G C c s seed false =
        .ok ([UInt8.ofNat (k / 256), UInt8.ofNat k] ++ m ++ List.replicate k 0) := by
  have hb : ∀ k, k < 2 ^ 16 → be16 k = [UInt8.ofNat (k / 256), UInt8.ofNat k] := by
    intro k hk
    unfold be16
    rw [Nat.mod_eq_of_lt (show k / 256 < 256 by omega)]
    congr 2
    exact UInt8.toNat_inj.1 (by rw [UInt8.toNat_ofNat', UInt8.toNat_ofNat']; omega)
  have key : (∃ pt, 2 ≤ pt.length ∧ hashedDecrypt G C c s seed false = .ok pt ∧
      hashedDecrypt G C c s seed true = removePadding pt) ∨
      ∃ e, hashedDecrypt G C c s seed false = .throw e ∧ hashedDecrypt G C c s seed true = .throw e := by
    unfold hashedDecrypt
    dsimp only
    by_cases h1 : c.data.length % 2 ^ 32 % 32 ≠ 0 ∨ c.data.length % 2 ^ 32 = 0
    · rw [if_pos h1, if_pos h1]; exact Or.inr ⟨_, rfl, rfl⟩
    · rw [if_neg h1, if_neg h1]
      generalize hnb : c.data.length % 2 ^ 32 / 32 = nb
      have hle : 32 * (0 + nb) ≤ c.data.length := by
        have := Nat.mod_le c.data.length (2 ^ 32)
        omega
      by_cases h2 : c.mac ≠ macOf C (hashElems G C [.p c.pad, .p (powModP G c.pad s)]) seed nb c.pad c.data
      · rw [if_pos h2, if_pos h2]; exact Or.inr ⟨_, rfl, rfl⟩
      · rw [if_neg h2, if_neg h2, xorBlocks_eq _ (blockKey_length C _ seed nb) c.data nb 0 hle]
        refine Or.inl ⟨_, ?_, by simp only [Res.bind_ok]; rfl, by simp only [Res.bind_ok]; rfl⟩
        rw [List.length_zipWith, keyStream_length _ (blockKey_length C _ seed nb)]
        simp
        omega
  rcases key with ⟨pt, hl, h1, h2⟩ | ⟨e, h1, h2⟩
  · rw [h1, h2]
    constructor
    · intro h
      rcases removePadding_cases pt hl with ⟨h', -⟩ | ⟨m', k, h', hk, e⟩
      · rw [h'] at h; cases h
      · rw [h'] at h
        injection h with h
        subst h
        exact ⟨k, hk, by rw [e, hb k hk]⟩
    · rintro ⟨k, hk, e⟩
      injection e with e
      rw [e, ← hb k hk]
      exact removePadding_padded m k hk
  · rw [h1, h2]
    constructor
    · intro h; cases h
    · rintro ⟨k, hk, e⟩; cases e

/-- The key under which pad and data of a ciphertext are authenticated: HMAC, keyed with the hash of
the pad and the shared secret, of the seed and the length (for data below 512 MB). -/
def macKeySpec (pad shared seed len : ℕ) : List UInt8 :=
  C.hmac (toBytesQ (hashElems G C [.p pad, .p shared])) (le32 0 ++ toBytesQ seed ++ le32 (len * 8))

/-- C17: a ciphertext is accepted only if its MAC is the HMAC of pad and data under the key derived
from pad, secret and seed. -/
theorem C17_accepted_mac (c : HashedCiphertext) (s seed : ℕ) (b : Bool) (pt : List UInt8)
    (hlen : c.data.length < 2 ^ 29) (h : hashedDecrypt G C c s seed b = .ok pt) :
    c.mac = C.hmac (macKeySpec G C c.pad (powModP G c.pad s) seed c.data.length)
      (toBytesP c.pad ++ c.data) := by
  have hl : c.data.length % 2 ^ 32 = c.data.length := Nat.mod_eq_of_lt (by omega)
  have hmul : ¬ (c.data.length % 32 ≠ 0 ∨ c.data.length = 0) := by
    intro hbad
    unfold hashedDecrypt at h
    simp only [hl] at h
    rw [if_pos hbad] at h
    cases h
  have hbits : lengthBits (c.data.length / 32) = c.data.length * 8 := by
    unfold lengthBits
    rw [Nat.mod_eq_of_lt (by omega)]
    omega
  rcases C17_decrypt_safe G C c s seed b with ⟨h1, -⟩ | h1 | ⟨m, -, -, hm⟩
  · rw [h1] at h; cases h
  · rw [h1] at h; cases h
  · rw [hm, hl]
    unfold macOf macKeySpec getHmac
    rw [hbits, if_neg (by omega), if_pos (by omega)]

/-- C17: two ciphertexts with the same pad and MAC and data of the same length are never both
accepted under one secret and seed, unless HMAC under the derived key maps the two (different)
messages to the same value.  So altered data is refused. -/
theorem C17_tampered_data (c : HashedCiphertext) (d pt pt' : List UInt8) (s seed : ℕ) (b b' : Bool)
    (hlen : c.data.length < 2 ^ 29) (hd : d.length = c.data.length)
    (hmac : C.hmac (macKeySpec G C c.pad (powModP G c.pad s) seed c.data.length)
        (toBytesP c.pad ++ d) =
      C.hmac (macKeySpec G C c.pad (powModP G c.pad s) seed c.data.length) (toBytesP c.pad ++ c.data) →
      d = c.data)
    (h1 : hashedDecrypt G C c s seed b = .ok pt)
    (h2 : hashedDecrypt G C { c with data := d } s seed b' = .ok pt') : d = c.data := by
  have e1 := C17_accepted_mac G C c s seed b pt hlen h1
  have e2 := C17_accepted_mac G C { c with data := d } s seed b' pt' (by rw [hd]; exact hlen) h2
  simp only [hd] at e2
  exact hmac (e2.symm.trans e1)

example (c : HashedCiphertext) (h : c.data.length = 31) :
    hashedDecrypt .std demoCrypto c 2 0 true = .throw .invalidArgument := by
  rcases C17_decrypt_safe .std demoCrypto c 2 0 true with h1 | h1 | ⟨_, h1, -⟩
  · exact h1.1
  all_goals
    unfold hashedDecrypt at h1
    simp [h] at h1

/-! ## C18 -/

/-- C18: with a triple available, the nonce and the public key passed in are ignored. -/
theorem C18_arguments_ignored (t : ℕ × ℕ) (message : List UInt8) (n n' pub pub' seed maxLen : ℕ)
    (tr : Bool) :
    hashedEncrypt G C (some t) message n pub seed maxLen tr =
      hashedEncrypt G C (some t) message n' pub' seed maxLen tr := rfl

/-- C18, what holds: a triple made of `g^e` and the `e`-th power of the public key of secret `s'`
gives exactly the encryption with nonce `e` for that public key. -/
theorem C18_triple_partial (message : List UInt8) (n e pub pub' seed maxLen : ℕ) (tr : Bool) :
    hashedEncrypt G C (some (gPowP G e, powModP G pub' e)) message n pub seed maxLen tr =
      hashedEncrypt G C none message e pub' seed maxLen tr := rfl

/-- C18: so the owner of the key the buffer was filled for recovers the message, whichever public key
was passed. -/
theorem C18_buffer_key_decrypts (hG : G.Valid) (message : List UInt8) (s' n e pub seed : ℕ) (tr : Bool)
    (hs : s' < 2 ^ 256) (hs2 : 2 ≤ s') (he : e < 2 ^ 256) (hlen : message.length ≤ 510) :
    ∃ k c, keyFromSecret G s' = .ok k ∧
      hashedEncrypt G C (some (gPowP G e, powModP G k.pub e)) message n pub seed bytes512 tr = .ok c ∧
      hashedDecrypt G C c k.secret seed true = .ok message := by
  obtain ⟨k, c, h1, h2, -, h4⟩ := C15_bytes512 G C hG message s' e seed tr hs hs2 he hlen
  exact ⟨k, c, h1, h2, h4⟩

/-- Powers of a power of the generator with different exponents differ. -/
theorem powers_differ (hG : G.Valid) (e s s' : ℕ) (he : e < 2 ^ 256) (hs : s < 2 ^ 256)
    (hs' : s' < 2 ^ 256) (h0 : e % G.q ≠ 0) (hne : s % G.q ≠ s' % G.q) :
    powModP G (gPowP G e) s ≠ powModP G (gPowP G e) s' := by
  intro h
  have hg := lt_trans (gPowP_lt hG e he) hG.p_lt
  have h2 := congrArg (fun x : ℕ => (x : ZMod G.p)) h
  simp only [cast_powModP hG _ _ hg hs, cast_powModP hG _ _ hg hs', cast_gPowP hG e he,
    ← pow_mul] at h2
  rw [g_pow_eq_iff hG] at h2
  have hcop : Nat.Coprime G.q e :=
    (Nat.Prime.coprime_iff_not_dvd hG.q_prime).2 (fun hd => h0 (Nat.mod_eq_zero_of_dvd hd))
  exact hne (Nat.ModEq.cancel_left_of_coprime hcop h2)

/-- C18 (the property is violated): with a triple of another key, the owner of the public key passed
in cannot decrypt: `runtime_error`, unless SHA-256 or HMAC collides on the values at hand. -/
theorem C18_violated (hG : G.Valid) (message : List UInt8) (s s' n e seed : ℕ) (tr b : Bool)
    (c : HashedCiphertext) (he : e < 2 ^ 256) (hs : s < 2 ^ 256) (hs' : s' < 2 ^ 256)
    (h0 : e % G.q ≠ 0) (hne : s % G.q ≠ s' % G.q) (hlen : message.length ≤ 510)
    (henc : hashedEncrypt G C (some (gPowP G e, powModP G (gPowP G s') e)) message n (gPowP G s) seed
      bytes512 tr = .ok c)
    (hsha : NoCollision G C
      (hashQueries G C [.p (gPowP G e), .p (powModP G (gPowP G e) s)] ++
       hashQueries G C [.p (gPowP G e), .p (powModP G (gPowP G e) s')]))
    (hmac1 : ∀ k k', k = macKeySpec G C c.pad (powModP G c.pad s) seed 512 →
      k' = macKeySpec G C c.pad (powModP G c.pad s') seed 512 →
      C.hmac k (toBytesP c.pad ++ c.data) = C.hmac k' (toBytesP c.pad ++ c.data) → k = k')
    (hmac2 : ∀ k k', k = hashElems G C [.p (gPowP G e), .p (powModP G (gPowP G e) s)] →
      k' = hashElems G C [.p (gPowP G e), .p (powModP G (gPowP G e) s')] →
      C.hmac (toBytesQ k) (le32 0 ++ toBytesQ seed ++ le32 4096) =
        C.hmac (toBytesQ k') (le32 0 ++ toBytesQ seed ++ le32 4096) → k = k') :
    hashedDecrypt G C c s seed b = .throw .runtimeError := by
  have hq := hG.q_lt
  -- the ciphertext
  rw [C18_triple_partial] at henc
  have hmod : (510 - message.length) % 2 ^ 16 = 510 - message.length := Nat.mod_eq_of_lt (by omega)
  have hp : padMessage message bytes512 tr = .ok (be16 (510 - message.length) ++ message ++
      List.replicate (510 - message.length) 0) := by
    unfold padMessage noPadding bytes512
    rw [if_pos (by omega), if_neg (by omega), if_neg (by omega)]
    simp only [hmod]
  have hl : (be16 (510 - message.length) ++ message ++
      List.replicate (510 - message.length) 0).length = 512 := by
    simp [be16]; omega
  have he' := hashedEncrypt_eq G C none message _ e (gPowP G s') seed bytes512 _ _ 16 tr
    hp (by rw [hl]) (by rw [hl]; norm_num) rfl rfl
  rw [henc] at he'
  simp only [Option.elim] at he'
  injection he' with he'
  have hpad : c.pad = gPowP G e := by rw [he']
  have hcm := congrArg HashedCiphertext.mac he'
  have hdata := congrArg HashedCiphertext.data he'
  simp only at hcm hdata
  rw [← hdata] at hcm
  have hdl : c.data.length = 512 := by
    rw [hdata, List.length_zipWith, keyStream_length _ (blockKey_length C _ seed _), hl]
    rfl
  rcases C17_decrypt_safe G C c s seed b with ⟨_, h⟩ | h | ⟨m, hok, _, _⟩
  · rw [hdl] at h; omega
  · exact h
  · exfalso
    have hm := C17_accepted_mac G C c s seed b m (by omega) hok
    rw [hdl] at hm
    have hcm' : c.mac = C.hmac (macKeySpec G C c.pad (powModP G c.pad s') seed 512)
        (toBytesP c.pad ++ c.data) := by
      rw [hcm, hpad, shared_secret G hG s' e hs' he]
      unfold macOf macKeySpec getHmac
      rw [if_neg (by omega), if_pos (by decide)]
      rfl
    have h2 := hmac1 _ _ rfl rfl (hm.symm.trans hcm')
    rw [hpad] at h2
    have h4 := (hmac2 _ _ rfl rfl h2).symm
    have hg := lt_trans (gPowP_lt hG e he) hG.p_lt
    have lp : ∀ x, x < 2 ^ 256 → powModP G (gPowP G e) x < 2 ^ 4096 := fun x hx =>
      lt_trans (powModP_lt hG _ _ hg (lt_512_of_lt hx)) hG.p_lt
    have h5 := C26_hash_binding_partial G C hG _ _ (by
        intro x hx
        simp only [List.mem_cons, List.not_mem_nil, or_false] at hx
        rcases hx with rfl | rfl
        · exact hg
        · exact lp _ hs') (by
        intro x hx
        simp only [List.mem_cons, List.not_mem_nil, or_false] at hx
        rcases hx with rfl | rfl
        · exact hg
        · exact lp _ hs) (by
        refine List.Forall₂.cons trivial (List.Forall₂.cons trivial List.Forall₂.nil))
      (by
        intro x hx y hy
        apply hsha
        · rw [List.mem_append] at hx ⊢; exact hx.symm
        · rw [List.mem_append] at hy ⊢; exact hy.symm) h4
    injection h5 with _ h6
    injection h6 with h6 _
    injection h6 with h6
    injection h6 with h6
    exact powers_differ G hG e s' s he hs' hs h0 (Ne.symm hne) h6

theorem keyFromSecret_pub (s : ℕ) (k : KeyPair) (h : keyFromSecret G s = .ok k) :
    k.pub = gPowP G s := by
  unfold keyFromSecret at h
  split at h
  · cases h
  · injection h with h
    rw [← h]

/-- Functions to show that the hypotheses of `C18_violated` can be met: HMAC returns its key, the hash
singles out one string. -/
def pairCrypto (x : List Char) : Crypto where
  sha256 s := if s = x then 1 else 0
  sha256_lt s := by split <;> norm_num
  hmac k _ := (k ++ List.replicate 32 0).take 32
  hmac_length k _ := by simp

theorem pairCrypto_digest (hG : G.Valid) (x s : List Char) :
    digestQ G (pairCrypto x) s = if s = x then 1 else 0 := by
  have hq := hG.q_gt
  unfold digestQ
  rw [addModQ_zero hG _ (by simp only [pairCrypto]; split <;> omega)]
  simp only [pairCrypto]
  split <;> exact Nat.mod_eq_of_lt (by omega)

/-- A concrete case of the violation: buffer filled for secret 3, message sent to the key of secret
2. -/
example : ∃ (C : Crypto) (c : HashedCiphertext),
    hashedEncrypt .std C (some (gPowP .std 1, powModP .std (gPowP .std 3) 1)) [7] 5 (gPowP .std 2) 0
      bytes512 false = .ok c ∧ hashedDecrypt .std C c 2 0 true = .throw .runtimeError := by
  have hG := C54_std_valid
  obtain ⟨x, hx⟩ : ∃ x, x = hashInput ([HElem.p (gPowP .std 1),
    .p (powModP .std (gPowP .std 1) 2)].map (HElem.render .std demoCrypto)) := ⟨_, rfl⟩
  obtain ⟨k, c, h1, h2, -⟩ := C15_bytes512 .std (pairCrypto x) hG [7] 3 1 0 false (by decide) (by decide)
    (by decide) (by decide)
  rw [keyFromSecret_pub _ _ _ h1, ← C18_triple_partial .std _ [7] 5 1 (gPowP .std 2)] at h2
  refine ⟨pairCrypto x, c, h2, ?_⟩
  refine C18_violated .std (pairCrypto x) hG [7] 2 3 5 1 0 false true c (by decide) (by decide)
    (by decide) (by decide +kernel) (by decide +kernel) (by decide) h2 ?_ ?_ ?_
  · intro s hs t ht hst
    have e1 : hashQueries .std (pairCrypto x) [.p (gPowP .std 1), .p (powModP .std (gPowP .std 1) 2)]
        = [x] := by
      simp only [hashQueries, hx, List.map_cons, List.map_nil]
      rfl
    rw [e1] at hs ht
    rw [pairCrypto_digest _ hG, pairCrypto_digest _ hG] at hst
    simp only [hashQueries, List.flatMap_cons, HElem.queries, List.flatMap_nil, List.append_nil,
      List.mem_append, List.mem_singleton, List.isEmpty_cons, Bool.false_eq_true, if_false] at hs ht
    by_cases a : s = x
    · by_cases b : t = x
      · rw [a, b]
      · rw [if_pos a, if_neg b] at hst; omega
    · by_cases b : t = x
      · rw [if_neg a, if_pos b] at hst; omega
      · rcases hs with hs | hs
        · exact absurd hs a
        · rcases ht with ht | ht
          · exact absurd ht b
          · rw [hs, ht]
  · intro k k' hk hk' h
    have h32 : ∀ m : List UInt8, m.length = 32 → (m ++ List.replicate 32 0).take 32 = m := by
      intro m hm; rw [← hm]; simp
    have : (k ++ List.replicate 32 0).take 32 = (k' ++ List.replicate 32 0).take 32 := h
    rw [h32 k (by rw [hk]; exact (pairCrypto x).hmac_length _ _),
      h32 k' (by rw [hk']; exact (pairCrypto x).hmac_length _ _)] at this
    exact this
  · intro k k' hk hk' h
    have h32 : ∀ m : List UInt8, m.length = 32 → (m ++ List.replicate 32 0).take 32 = m := by
      intro m hm; rw [← hm]; simp
    have : (toBytesQ k ++ List.replicate 32 0).take 32 = (toBytesQ k' ++ List.replicate 32 0).take 32 := h
    rw [h32 (toBytesQ k) (toBytesBE_length _ _), h32 (toBytesQ k') (toBytesBE_length _ _)] at this
    have h4 := congrArg ofBytesBE this
    unfold toBytesQ at h4
    rw [ofBytesBE_toBytesBE, ofBytesBE_toBytesBE, pow256, hk, hk',
      Nat.mod_eq_of_lt (hashElems_lt256 hG _), Nat.mod_eq_of_lt (hashElems_lt256 hG _)] at h4
    rw [hk, hk', h4]

/-! ## C57 the key stream of long messages -/

/-- C57, what holds: for messages below 512 MB every block key is HMAC of the session key on a
different input (the block number is part of it). -/
theorem C57_block_inputs_distinct_partial (session seed nb i j : ℕ) (hnb : nb < 2 ^ 24)
    (hi : i < nb) (hj : j < nb) (hij : i ≠ j) :
    ∃ m m', blockKey C session seed nb i = C.hmac (toBytesQ session) m ∧
      blockKey C session seed nb j = C.hmac (toBytesQ session) m' ∧ m ≠ m' := by
  have hb : 0 < lengthBits nb := by
    unfold lengthBits
    rw [Nat.mod_eq_of_lt (by omega)]
    omega
  refine ⟨_, _, by unfold blockKey getHmac; rw [if_pos hb], by unfold blockKey getHmac; rw [if_pos hb], ?_⟩
  rw [Nat.mod_eq_of_lt (by omega : i + 1 < 2 ^ 32), Nat.mod_eq_of_lt (by omega : j + 1 < 2 ^ 32)]
  intro h
  rw [List.append_assoc, List.append_assoc] at h
  have h2 := (List.append_inj h (by simp [le32, toBytesLE])).1
  simp only [le32, toBytesLE, List.cons.injEq, and_true] at h2
  obtain ⟨a1, a2, a3, a4⟩ := h2
  have hb8 : ∀ x y : ℕ, UInt8.ofNat (x % 256) = UInt8.ofNat (y % 256) → x % 256 = y % 256 := by
    intro x y hxy
    have := congrArg UInt8.toNat hxy
    rw [UInt8.toNat_ofNat', UInt8.toNat_ofNat'] at this
    omega
  have b1 := hb8 _ _ a1
  have b2 := hb8 _ _ a2
  have b3 := hb8 _ _ a3
  have b4 := hb8 _ _ a4
  omega

/-- C57 (the property is violated): for a message of exactly 512 MB (and multiples) the bit length
wraps to 0, `get_hmac` then drops the block number, and every block is encrypted with the same
key. -/
theorem C57_key_stream_repeats (session seed i j k : ℕ) :
    blockKey C session seed (k * 2 ^ 24) i = blockKey C session seed (k * 2 ^ 24) j := by
  have h : lengthBits (k * 2 ^ 24) = 0 := by unfold lengthBits; omega
  unfold blockKey getHmac
  rw [h, if_neg (by omega), if_neg (by omega)]

/-- C57: and it is then also the key of the MAC. -/
theorem C57_mac_key_is_block_key (session seed i k : ℕ) :
    blockKey C session seed (k * 2 ^ 24) i =
      getHmac C (toBytesQ session) (toBytesQ seed) (lengthBits (k * 2 ^ 24)) 0 := by
  have h : lengthBits (k * 2 ^ 24) = 0 := by unfold lengthBits; omega
  unfold blockKey getHmac
  rw [h, if_neg (by omega), if_neg (by omega)]

theorem keyStream_getElem (keyOf : ℕ → List UInt8) (hk : ∀ i, (keyOf i).length = 32) (n : ℕ) :
    ∀ i b j, b < n → j < 32 → (keyStream keyOf i n)[32 * b + j]? = (keyOf (i + b))[j]? := by
  induction n with
  | zero => intro i b j h; omega
  | succ n ih =>
    intro i b j hb hj
    rw [keyStream]
    cases b with
    | zero => rw [List.getElem?_append_left (by rw [hk]; omega)]; simp
    | succ b =>
      rw [List.getElem?_append_right (by rw [hk]; omega), hk,
        show 32 * (b + 1) + j - 32 = 32 * b + j by omega, ih (i + 1) b j (by omega) hj,
        show i + 1 + b = i + (b + 1) by omega]

/-- C57: consequence: in a 512 MB ciphertext the xor of two ciphertext blocks is the xor of the two
plaintext blocks, for every key. -/
theorem C57_violated (message : List UInt8) (n pub seed : ℕ) (tr : Bool)
    (hlen : message.length = 2 ^ 29) :
    ∃ c, hashedEncrypt G C none message n pub seed noPadding tr = .ok c ∧
      ∀ a b j, a < 2 ^ 24 → b < 2 ^ 24 → j < 32 →
        ∃ x y u v, message[32 * a + j]? = some x ∧ message[32 * b + j]? = some y ∧
          c.data[32 * a + j]? = some u ∧ c.data[32 * b + j]? = some v ∧ u ^^^ v = x ^^^ y := by
  have hp : padMessage message noPadding tr = .ok message := by
    unfold padMessage
    rw [if_neg (by simp), if_neg (by omega)]
  refine ⟨_, hashedEncrypt_eq G C none message message n pub seed noPadding _ _ (1 * 2 ^ 24) tr hp
    (by omega) (by omega) rfl rfl, ?_⟩
  intro a b j ha hb hj
  simp only [Option.elim]
  generalize hashElems G C [.p (gPowP G n), .p (powModP G pub n)] = session
  have hkl := blockKey_length C session seed (1 * 2 ^ 24)
  have hrep := C57_key_stream_repeats C session seed a b 1
  generalize hK : blockKey C session seed (1 * 2 ^ 24) = keyOf at *
  have e1 := keyStream_getElem keyOf hkl (1 * 2 ^ 24) 0 a j (by omega) hj
  have e2 := keyStream_getElem keyOf hkl (1 * 2 ^ 24) 0 b j (by omega) hj
  rw [Nat.zero_add] at e1 e2
  rw [← hrep] at e2
  have hx : message[32 * a + j]? = some message[32 * a + j] := List.getElem?_eq_getElem (by omega)
  have hy : message[32 * b + j]? = some message[32 * b + j] := List.getElem?_eq_getElem (by omega)
  have hz : (keyOf a)[j]? = some ((keyOf a)[j]'(by rw [hkl]; omega)) :=
    List.getElem?_eq_getElem (by rw [hkl]; omega)
  rw [hz] at e1 e2
  refine ⟨_, _, message[32 * a + j] ^^^ (keyOf a)[j]'(by rw [hkl]; omega),
    message[32 * b + j] ^^^ (keyOf a)[j]'(by rw [hkl]; omega), hx, hy, ?_, ?_, ?_⟩
  · rw [List.getElem?_zipWith, hx, e1]
  · rw [List.getElem?_zipWith, hy, e2]
  · generalize message[32 * a + j] = p
    generalize message[32 * b + j] = q
    generalize (keyOf a)[j]'(by rw [hkl]; omega) = k
    rw [UInt8.xor_comm q k, UInt8.xor_assoc, ← UInt8.xor_assoc k k q, UInt8.xor_self, UInt8.zero_xor]

/-! ## C58 the hash of a hashed ciphertext -/

/-- C58, what holds: ciphertexts whose data and whose MAC have the same lengths are bound by the
hash. -/
theorem C58_hash_binding_partial (hG : G.Valid) (c d : HashedCiphertext) (hc : c.pad < 2 ^ 4096)
    (hd : d.pad < 2 ^ 4096) (hl : c.data.length = d.data.length) (hm : c.mac.length = d.mac.length)
    (hn : NoCollision G C (hashQueries G C [.p c.pad, .bytes c.data, .bytes c.mac] ++
      hashQueries G C [.p d.pad, .bytes d.data, .bytes d.mac]))
    (h : c.hash G C = d.hash G C) : c = d := by
  have := C26_hash_binding_partial G C hG [.p c.pad, .bytes c.data, .bytes c.mac]
    [.p d.pad, .bytes d.data, .bytes d.mac]
    (by intro x hx
        simp only [List.mem_cons, List.not_mem_nil, or_false] at hx
        rcases hx with rfl | rfl | rfl
        · exact hc
        · trivial
        · trivial)
    (by intro x hx
        simp only [List.mem_cons, List.not_mem_nil, or_false] at hx
        rcases hx with rfl | rfl | rfl
        · exact hd
        · trivial
        · trivial)
    (List.Forall₂.cons trivial (List.Forall₂.cons hl (List.Forall₂.cons hm List.Forall₂.nil))) hn h
  simp only [List.cons.injEq, HElem.bytes.injEq, HElem.p, HElem.atom.injEq, HAtom.p.injEq] at this
  obtain ⟨h1, h2, h3, -⟩ := this
  cases c; cases d; simp_all

/-- C58 (the property is violated): leading zero bytes of the data are not hashed, so ciphertexts of
different lengths share a hash. -/
theorem C58_leading_zeros_not_hashed (pad : ℕ) (data mac : List UInt8) :
    (HashedCiphertext.mk pad (0 :: data) mac).hash G C = (HashedCiphertext.mk pad data mac).hash G C := by
  unfold HashedCiphertext.hash
  apply C25_depends_on_texts
  · simp
  · simp only [List.map_cons, List.map_nil, HElem.render]
    rw [show bytesToHex (0 :: data) = bytesToHex data by simp [bytesToHex]]

example : (HashedCiphertext.mk 1 [0, 5] []) ≠ HashedCiphertext.mk 1 [5] [] := by decide

end EG
