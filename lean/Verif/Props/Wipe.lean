import Verif.Lemmas.Wipe
import Verif.Props.HashedElGamal
import Verif.Props.Params

/-!
# C98: what is left in memory

Group elements are meant to be wiped when they are destroyed, and so are the keys inside hashed ElGamal.  The
destructors of the elements pass a number of limbs where a number of bytes is wanted.
-/

namespace EG.Wipe

variable (G : Params) (C : Crypto) (grow : ℕ → ℕ → ℕ)

/-! ## Group elements -/

/-- Only the lowest four bytes of a destroyed `ElementModQ` are wiped: the rest of it can be read off. -/
theorem C98_exponent_violated (x : ℕ) (hx : x < 2 ^ 256) :
    ∃ b, destroyQ x = .ok b ∧ b.length = 32 ∧ ofBytesLE b = x / 2 ^ 32 * 2 ^ 32 := by
  refine ⟨_, destroyQ_ok x, by simp [toBytesLE_length], ?_⟩
  rw [ofBytesLE_replicate, toBytesLE_drop 4 28, ofBytesLE_toBytesLE, Nat.mod_eq_of_lt, mul_comm]
  · rfl
  · exact (Nat.div_lt_iff_lt_mul (by norm_num)).2 (lt_of_lt_of_eq hx (by norm_num))

/-- Only the lowest 64 of the 512 bytes of a destroyed `ElementModP` are wiped. -/
theorem C98_element_violated (x : ℕ) (hx : x < 2 ^ 4096) :
    ∃ b, destroyP x = .ok b ∧ b.length = 512 ∧ ofBytesLE b = x / 2 ^ 512 * 2 ^ 512 := by
  have p64 : (256 : ℕ) ^ 64 = 2 ^ 512 := by rw [show (256 : ℕ) = 2 ^ 8 by norm_num, ← pow_mul]
  refine ⟨_, destroyP_ok x, by simp [toBytesLE_length], ?_⟩
  rw [ofBytesLE_replicate, toBytesLE_drop 64 448, ofBytesLE_toBytesLE, Nat.mod_eq_of_lt, mul_comm]
  · rw [p64]
  · rw [p64, show (256 : ℕ) ^ 448 = 2 ^ 3584 by rw [show (256 : ℕ) = 2 ^ 8 by norm_num, ← pow_mul]]
    refine (Nat.div_lt_iff_lt_mul (by norm_num)).2 (lt_of_lt_of_eq hx ?_)
    rw [← pow_add]

/-- What remains of the claim: of a destroyed `ElementModQ` the lowest 32 bits are gone, and nothing else. -/
theorem C98_exponent_partial (x y : ℕ) (hx : x < 2 ^ 256) (hy : y < 2 ^ 256) :
    destroyQ x = destroyQ y ↔ x / 2 ^ 32 = y / 2 ^ 32 := by
  constructor
  · intro h
    obtain ⟨b, h1, -, h2⟩ := C98_exponent_violated x hx
    obtain ⟨c, h3, -, h4⟩ := C98_exponent_violated y hy
    rw [h1, h3] at h
    injection h with h
    rw [h, h4] at h2
    exact (Nat.eq_of_mul_eq_mul_right (by norm_num) h2).symm
  · intro h
    rw [destroyQ_ok, destroyQ_ok, toBytesLE_drop 4 28, toBytesLE_drop 4 28,
      show (256 : ℕ) ^ 4 = 2 ^ 32 by norm_num, h]

/-- A destroyed secret key can be found again from the memory it was in and its public key, by 2^32 trials; what is
found decrypts every message. -/
theorem C98_secret_key_violated (hG : G.Valid) (s : ℕ) (h2 : 2 ≤ s) (hs : s < 2 ^ 256) :
    ∃ k b s', keyFromSecret G s = .ok k ∧ destroyQ k.secret = .ok b ∧ search G k.pub (ofBytesLE b) = some s' ∧
      ∀ (message : List UInt8) (n seed : ℕ), message.length ≤ 510 → n < 2 ^ 256 →
        ∃ c, hashedEncrypt G C none message n k.pub seed bytes512 false = .ok c ∧
          hashedDecrypt G C c s' seed true = .ok message := by
  have key : ∀ t, 2 ≤ t → keyFromSecret G t = .ok ⟨t, gPowP G t⟩ := by
    intro t ht
    unfold keyFromSecret
    rw [if_neg]
    rw [elemLt_iff]
    omega
  obtain ⟨b, hb, -, hv⟩ := C98_exponent_violated s hs
  have hmem : s ∈ (List.range (2 ^ 32)).map (s / 2 ^ 32 * 2 ^ 32 + ·) := by
    rw [List.mem_map]
    exact ⟨s % 2 ^ 32, List.mem_range.2 (Nat.mod_lt _ (by norm_num)), by omega⟩
  have hsome : (search G (gPowP G s) (ofBytesLE b)).isSome := by
    unfold search
    rw [List.find?_isSome, hv]
    exact ⟨s, hmem, by simp [h2]⟩
  obtain ⟨s', hs'⟩ := Option.isSome_iff_exists.1 hsome
  have hp := List.find?_some hs'
  have hm := List.mem_of_find?_eq_some hs'
  rw [decide_eq_true_eq] at hp
  rw [hv, List.mem_map] at hm
  obtain ⟨j, hj, rfl⟩ := hm
  rw [List.mem_range] at hj
  refine ⟨_, b, _, key s h2, hb, hs', ?_⟩
  intro message n seed hl hn
  obtain ⟨k, c, e1, e2, -, e3⟩ := C15_bytes512 G C hG message (s / 2 ^ 32 * 2 ^ 32 + j) n seed false (by omega)
    hp.1 hn hl
  rw [key _ hp.1] at e1
  injection e1 with e1
  subst e1
  dsimp only at e2 e3
  rw [hp.2] at e2
  exact ⟨c, e2, e3⟩

example : destroyQ 0x123456789ABCDEF0 = .ok ([0, 0, 0, 0, 0x78, 0x56, 0x34, 0x12] ++ List.replicate 24 0) := by decide

example : ∃ k b s', keyFromSecret .std (2 ^ 200 + 5) = .ok k ∧ destroyQ k.secret = .ok b ∧
    search .std k.pub (ofBytesLE b) = some s' := by
  obtain ⟨k, b, s', h1, h2, h3, -⟩ := C98_secret_key_violated .std demoCrypto C54_std_valid (2 ^ 200 + 5) (by norm_num)
    (by norm_num)
  exact ⟨k, b, s', h1, h2, h3⟩

/-! ## Hashed ElGamal -/

/-- The functions with the blocks of memory compute what the functions of C15 to C17 compute. -/
theorem C98_same (triple : Option (ℕ × ℕ)) (message : List UInt8) (n pub seed maxLen : ℕ) (tr : Bool)
    (c : HashedCiphertext) (s : ℕ) (look : Bool) :
    (encryptF G C grow triple message n pub seed maxLen tr).res =
        hashedEncrypt G C triple message n pub seed maxLen tr ∧
      (decryptF G C grow c s seed look).res = hashedDecrypt G C c s seed look := by
  constructor
  · unfold encryptF hashedEncrypt
    rw [Run.res_after, Run.res_bind]
    rcases padF_res grow message maxLen tr with ⟨cap, l, h1, h2⟩ | ⟨h1, h2⟩
    · rw [h1, h2, Res.bind_ok, Res.bind_ok, Run.res_after]
      dsimp only
      rw [dropKeys_res, Run.res_bind]
      cases triple
      all_goals
        dsimp only
        generalize hashElems G C _ = session
        rcases blocksF_res C grow session seed (l.length % 2 ^ 32 / 32) l (l.length % 2 ^ 32 / 32) 0 Vec.empty with
          ⟨cap', d, h3, h4⟩ | ⟨h3, h4⟩
        · rw [h3, h4, Res.bind_ok, Res.bind_ok]
          dsimp only [Vec.empty]
          rw [List.nil_append, Run.res_bind, macF_res, Res.bind_ok]
          rfl
        · rw [h3, h4]
          rfl
    · rw [h1, h2]
      rfl
  · unfold decryptF hashedDecrypt
    dsimp only
    by_cases h0 : c.data.length % 2 ^ 32 % 32 ≠ 0 ∨ c.data.length % 2 ^ 32 = 0
    · rw [if_pos h0, if_pos h0]
      rfl
    · rw [if_neg h0, if_neg h0, dropKeys_res, Run.res_bind, macF_res, Res.bind_ok]
      by_cases h1 : c.mac ≠ macOf C (hashElems G C [.p c.pad, .p (powModP G c.pad s)]) seed
          (c.data.length % 2 ^ 32 / 32) c.pad c.data
      · rw [if_pos h1, if_pos h1]
        rfl
      · rw [if_neg h1, if_neg h1, Run.res_bind]
        rcases blocksF_res C grow (hashElems G C [.p c.pad, .p (powModP G c.pad s)]) seed
          (c.data.length % 2 ^ 32 / 32) c.data (c.data.length % 2 ^ 32 / 32) 0 Vec.empty with
          ⟨cap', d, h3, h4⟩ | ⟨h3, h4⟩
        · rw [h3, h4, Res.bind_ok, Res.bind_ok, Run.res_after]
          dsimp only [Vec.empty]
          rw [List.nil_append]
          cases look
          · rfl
          · rfl
        · rw [h3, h4]
          rfl

/-- The block is not one of those that the code wipes, or there are only zeros in it. -/
def Wiped (b : Freed) : Prop :=
  b.var ∈ [Var.xorKey, .temp, .macKey, .hmacData] → ∀ x ∈ b.bytes, x = 0

theorem wiped_zeros (v : Var) (n : ℕ) : Wiped ⟨v, List.replicate n 0⟩ := fun _ _ hx => List.eq_of_mem_replicate hx

theorem wiped_other (v : Var) (b : List UInt8) (h : v ∉ [Var.xorKey, .temp, .macKey, .hmacData]) : Wiped ⟨v, b⟩ :=
  fun h' => absurd h' h

theorem wiped_insert (v : Vec) (xs : List UInt8) : Run.All Wiped (v.insert grow xs) := by
  intro b hb
  rw [insert_freed grow v xs b hb]
  exact wiped_other _ _ (by decide)

theorem wiped_memzero (v : Var) (l : List UInt8) (w : List UInt8) (h : memzero l l.length = .ok w) :
    Wiped ⟨v, w⟩ := by
  rw [memzero_all] at h
  injection h with h
  rw [← h]
  exact wiped_zeros v _

theorem wiped_getHmac (key message : List UInt8) (length start : ℕ) :
    Run.All Wiped (getHmacF C grow key message length start) := by
  unfold getHmacF
  refine Run.all_after _ _ ?_ ?_
  · refine Run.all_bind _ _ ?_ ?_
    · unfold hmacDataF
      split_ifs
      · refine Run.all_bind _ _ (wiped_insert grow _ _) fun v _ => ?_
        exact Run.all_bind _ _ (wiped_insert grow _ _) fun w _ => wiped_insert grow _ _
      · exact Run.all_pure _
    · intro v _
      refine Run.all_bind _ _ (Run.all_lift _) fun w hw => ?_
      refine Run.all_bind _ _ (Run.all_free _ _ (wiped_memzero _ _ _ hw)) fun _ _ => Run.all_pure _
  · intro b hb
    rcases List.mem_cons.1 hb with rfl | hb
    · exact wiped_other _ _ (by decide)
    · rw [List.mem_singleton.1 hb]
      exact wiped_other _ _ (by decide)

theorem wiped_blocks (session seed nb : ℕ) (data : List UInt8) (n : ℕ) : ∀ (i : ℕ) (out : Vec),
    Run.All Wiped (blocksF C grow session seed nb data i n out) := by
  induction n with
  | zero => intro i out; exact Run.all_pure _
  | succ n ih =>
    intro i out
    rw [blocksF]
    refine Run.all_bind _ _ (wiped_getHmac C grow _ _ _ _) fun k _ => ?_
    refine Run.all_bind _ _ (Run.all_lift _) fun t _ => ?_
    refine Run.all_bind _ _ (Run.all_lift _) fun k' hk => ?_
    refine Run.all_bind _ _ (wiped_insert grow _ _) fun o _ => ?_
    refine Run.all_bind _ _ (Run.all_lift _) fun t' ht => ?_
    refine Run.all_bind _ _ (Run.all_free _ _ (wiped_memzero _ _ _ hk)) fun _ _ => ?_
    exact Run.all_bind _ _ (Run.all_free _ _ (wiped_memzero _ _ _ ht)) fun _ _ => ih _ _

theorem wiped_mac (session seed nb pad : ℕ) (data : List UInt8) :
    Run.All Wiped (macF C grow session seed nb pad data) := by
  unfold macF
  refine Run.all_bind _ _ (wiped_getHmac C grow _ _ _ _) fun k _ => ?_
  refine Run.all_bind _ _ (wiped_getHmac C grow _ _ _ _) fun t _ => ?_
  refine Run.all_bind _ _ (Run.all_lift _) fun k' hk => ?_
  exact Run.all_bind _ _ (Run.all_free _ _ (wiped_memzero _ _ _ hk)) fun _ _ => Run.all_pure _

theorem wiped_dropKeys {α : Type} (session pkR : ℕ) (x : Run α) (h : Run.All Wiped x) :
    Run.All Wiped (dropKeys session pkR x) := by
  unfold dropKeys
  rw [destroyQ_ok, destroyP_ok]
  refine Run.all_after _ _ h ?_
  intro b hb
  rcases List.mem_cons.1 hb with rfl | hb
  · exact wiped_other _ _ (by decide)
  · rw [List.mem_singleton.1 hb]
    exact wiped_other _ _ (by decide)

/-- What remains of the claim for hashed ElGamal: the block keys, the key of the code, the blocks in between and the
data given to HMAC contain only zeros when their memory is given back, whatever the outcome of the call. -/
theorem C98_keys_partial (triple : Option (ℕ × ℕ)) (message : List UInt8) (n pub seed maxLen : ℕ) (tr : Bool)
    (c : HashedCiphertext) (s : ℕ) (look : Bool) (b : Freed)
    (hb : b ∈ (encryptF G C grow triple message n pub seed maxLen tr).freed ∨
      b ∈ (decryptF G C grow c s seed look).freed)
    (hv : b.var ∈ [Var.xorKey, .temp, .macKey, .hmacData]) : ∀ x ∈ b.bytes, x = 0 := by
  have single : ∀ (v : Var) (l : List UInt8), v ∉ [Var.xorKey, .temp, .macKey, .hmacData] →
      ∀ b ∈ [(⟨v, l⟩ : Freed)], Wiped b := by
    intro v l h b hb
    rw [List.mem_singleton.1 hb]
    exact wiped_other _ _ h
  rcases hb with hb | hb
  · refine (?_ : Run.All Wiped (encryptF G C grow triple message n pub seed maxLen tr)) b hb hv
    unfold encryptF
    refine Run.all_after _ _ (Run.all_bind _ _ ?_ fun v _ => ?_) (single _ _ (by decide))
    · unfold padF
      split_ifs
      · exact Run.all_bind _ _ (wiped_insert grow _ _) fun v _ => wiped_insert grow _ _
      · exact Run.all_lift _
      · refine Run.all_bind _ _ (wiped_insert grow _ _) fun v _ => ?_
        refine Run.all_bind _ _ (wiped_insert grow _ _) fun w _ => ?_
        split_ifs
        · exact wiped_insert grow _ _
        · exact Run.all_pure _
      · exact Run.all_lift _
      · exact wiped_insert grow _ _
    · refine Run.all_after _ _ ?_ (single _ _ (by decide))
      refine wiped_dropKeys _ _ _ ?_
      refine Run.all_bind _ _ (wiped_blocks C grow _ _ _ _ _ _ _) fun d _ => ?_
      exact Run.all_bind _ _ (wiped_mac C grow _ _ _ _ _) fun m _ => Run.all_pure _
  · refine (?_ : Run.All Wiped (decryptF G C grow c s seed look)) b hb hv
    unfold decryptF
    dsimp only
    by_cases h0 : c.data.length % 2 ^ 32 % 32 ≠ 0 ∨ c.data.length % 2 ^ 32 = 0
    · rw [if_pos h0]
      exact Run.all_lift _
    · rw [if_neg h0]
      refine wiped_dropKeys _ _ _ ?_
      refine Run.all_bind _ _ (wiped_mac C grow _ _ _ _ _) fun m _ => ?_
      by_cases h1 : c.mac ≠ m
      · rw [if_pos h1]
        exact Run.all_lift _
      · rw [if_neg h1]
        refine Run.all_bind _ _ (wiped_blocks C grow _ _ _ _ _ _ _) fun d _ => ?_
        refine Run.all_after _ _ ?_ (single _ _ (by decide))
        cases look
        · exact Run.all_pure _
        · exact Run.all_lift _

theorem hmacKey_freed (key message : List UInt8) (length start : ℕ) :
    (⟨.hmacKey, key⟩ : Freed) ∈ (getHmacF C grow key message length start).freed := by
  unfold getHmacF
  exact List.mem_append_right _ (List.mem_cons_self)

theorem session_freed_mac (session seed nb pad : ℕ) (data : List UInt8) :
    (⟨.hmacKey, toBytesQ session⟩ : Freed) ∈ (macF C grow session seed nb pad data).freed :=
  Run.mem_bind_left _ _ _ (hmacKey_freed C grow _ _ _ _)

theorem stream_eq (session seed nb : ℕ) (hn : nb < 2 ^ 24) :
    stream C (toBytesQ session) seed nb = keyStream (blockKey C session seed nb) 0 nb := by
  have hb : lengthBits nb = nb * 256 := Nat.mod_eq_of_lt (by omega)
  have gen : ∀ m i, i + m ≤ nb → (List.range' i m).flatMap
      (fun i => C.hmac (toBytesQ session) (le32 (i + 1) ++ toBytesQ seed ++ le32 (nb * 256))) =
        keyStream (blockKey C session seed nb) i m := by
    intro m
    induction m with
    | zero => intro i _; rfl
    | succ m ih =>
      intro i hi
      rw [List.range'_succ, List.flatMap_cons, ih (i + 1) (by omega), keyStream]
      congr 1
      unfold blockKey getHmac
      rw [hb, if_pos (by omega), Nat.mod_eq_of_lt (a := i + 1) (by omega)]
  unfold stream
  rw [List.range_eq_range', gen nb 0 (by omega)]

/-- After every encryption, the session key is in memory that was given back: it is passed to `get_hmac` by value.
Whoever reads it there reads the message. -/
theorem C98_session_key_violated (triple : Option (ℕ × ℕ)) (message pt : List UInt8) (n pub seed maxLen nb : ℕ)
    (tr : Bool) (hp : padMessage message maxLen tr = .ok pt) (hl : pt.length = 32 * nb) (hn : nb < 2 ^ 24) :
    ∃ c, hashedEncrypt G C triple message n pub seed maxLen tr = .ok c ∧
      ∃ b ∈ (encryptF G C grow triple message n pub seed maxLen tr).freed,
        b.var = .hmacKey ∧ openWith C b.bytes seed c.data = pt := by
  have he := hashedEncrypt_eq G C triple message pt n pub seed maxLen _ _ nb tr hp hl (by omega) rfl rfl
  refine ⟨_, he, ⟨.hmacKey, toBytesQ (hashElems G C [.p (triple.elim (gPowP G n) Prod.fst),
    .p (triple.elim (powModP G pub n) Prod.snd)])⟩, ?_, rfl, ?_⟩
  · unfold encryptF
    refine List.mem_append_left _ ?_
    rcases padF_res grow message maxLen tr with ⟨cap, l, h1, h2⟩ | ⟨h1, h2⟩
    · refine Run.mem_bind_right _ _ _ h2 _ ?_
      refine List.mem_append_left _ ?_
      rw [hp] at h1
      injection h1 with h1
      subst h1
      refine mem_dropKeys _ _ _ _ ?_
      cases triple
      all_goals
        dsimp only [Option.elim]
        generalize hashElems G C _ = session
        rcases blocksF_res C grow session seed (pt.length % 2 ^ 32 / 32) pt (pt.length % 2 ^ 32 / 32) 0 Vec.empty with
          ⟨cap', d, h3, h4⟩ | ⟨h3, -⟩
        · refine Run.mem_bind_right _ _ _ h4 _ ?_
          exact Run.mem_bind_left _ _ _ (session_freed_mac C grow _ _ _ _ _)
        · exfalso
          rw [xorBlocks_full _ (blockKey_length C _ seed _) pt _ (by omega)] at h3
          exact absurd h3 (by simp)
    · rw [hp] at h1
      exact absurd h1 (by simp)
  · unfold openWith
    dsimp only
    have hlen : (List.zipWith (· ^^^ ·) pt (keyStream (blockKey C (hashElems G C
        [.p (triple.elim (gPowP G n) Prod.fst), .p (triple.elim (powModP G pub n) Prod.snd)]) seed nb) 0 nb)).length =
        32 * nb := by
      rw [List.length_zipWith, keyStream_length _ (blockKey_length C _ seed nb), hl, Nat.min_self]
    rw [hlen, Nat.mul_div_cancel_left _ (by norm_num), stream_eq C _ seed nb hn]
    refine zipWith_xor_xor _ _ ?_
    rw [keyStream_length _ (blockKey_length C _ seed nb), hl]

/-- The message itself is in memory that was given back, after every encryption and after every decryption. -/
theorem C98_message_violated (triple : Option (ℕ × ℕ)) (message : List UInt8) (n pub seed maxLen : ℕ) (tr : Bool)
    (c : HashedCiphertext) (s : ℕ) (look : Bool) (m : List UInt8) (hm : hashedDecrypt G C c s seed look = .ok m) :
    (∃ b ∈ (encryptF G C grow triple message n pub seed maxLen tr).freed, b.bytes = message) ∧
      ∃ b ∈ (decryptF G C grow c s seed look).freed, m <:+: b.bytes := by
  refine ⟨⟨⟨.message, message⟩, List.mem_append_right _ (List.mem_singleton.2 rfl), rfl⟩, ?_⟩
  unfold hashedDecrypt at hm
  unfold decryptF
  dsimp only at hm ⊢
  by_cases h0 : c.data.length % 2 ^ 32 % 32 ≠ 0 ∨ c.data.length % 2 ^ 32 = 0
  · rw [if_pos h0] at hm
    exact absurd hm (by simp)
  rw [if_neg h0] at hm ⊢
  by_cases h1 : c.mac ≠ macOf C (hashElems G C [.p c.pad, .p (powModP G c.pad s)]) seed
      (c.data.length % 2 ^ 32 / 32) c.pad c.data
  · rw [if_pos h1] at hm
    exact absurd hm (by simp)
  rw [if_neg h1] at hm
  obtain ⟨pt, h3, h4⟩ := (Res.bind_eq_ok _ _ _).1 hm
  rcases blocksF_res C grow (hashElems G C [.p c.pad, .p (powModP G c.pad s)]) seed
    (c.data.length % 2 ^ 32 / 32) c.data (c.data.length % 2 ^ 32 / 32) 0 Vec.empty with
    ⟨cap', d, h5, h6⟩ | ⟨h5, -⟩
  · rw [h3] at h5
    injection h5 with h5
    subst h5
    refine ⟨⟨.plaintext, pt⟩, ?_, ?_⟩
    · refine mem_dropKeys _ _ _ _ ?_
      refine Run.mem_bind_right _ _ _ (macF_res C grow _ _ _ _ _) _ ?_
      rw [if_neg h1]
      refine Run.mem_bind_right _ _ _ h6 _ ?_
      exact List.mem_append_right _ (List.mem_singleton.2 (by simp [Vec.empty]))
    · cases look
      · injection h4 with h4
        rw [h4]
      · rw [if_pos rfl] at h4
        unfold removePadding at h4
        cases h7 : pt[0]? with
        | none => rw [h7] at h4; simp at h4
        | some hi =>
          cases h8 : pt[1]? with
          | none => rw [h7, h8] at h4; simp at h4
          | some lo =>
            rw [h7, h8] at h4
            dsimp only at h4
            split_ifs at h4
            injection h4 with h4
            rw [← h4]
            exact (List.drop_suffix _ _).isInfix.trans (List.take_prefix _ _).isInfix
  · rw [h3] at h5
    exact absurd h5 (by simp)

/-- A message of 32 bytes, and the policy that doubles the capacity. -/
example : ∃ c, hashedEncrypt .std demoCrypto none (List.replicate 32 7) 3 (gPowP .std 5) 1 noPadding false = .ok c ∧
    ∃ b ∈ (encryptF .std demoCrypto (fun a _ => 2 * a) none (List.replicate 32 7) 3 (gPowP .std 5) 1 noPadding
      false).freed, b.var = .hmacKey ∧ openWith demoCrypto b.bytes 1 c.data = List.replicate 32 7 :=
  C98_session_key_violated .std demoCrypto _ none _ _ 3 _ 1 noPadding 1 false (by decide) (by decide) (by norm_num)

end EG.Wipe
