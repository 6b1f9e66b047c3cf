import Mathlib.Data.Nat.Digits.Lemmas
import Verif.Lemmas.Drbg
import Verif.Spec.ShaCrypto
import Verif.Model.HashedElGamal
import Verif.Lemmas.Convert

/-!
# C70 to C73: SHA-256, HMAC, hashing on top of them, and the random generator
-/

namespace EG.Sha

/-! ## C70: SHA-256 -/

/-- `Hacl_Hash_SHA2_hash_256` computes SHA-256 of every string of bytes (the length is a `uint32_t`), and
does not read or write out of bounds. -/
theorem C70_hash (input : Bytes) (h : input.length < 2 ^ 32) :
    hash256 input input.length = .ok (Fips.sha256 input) := by
  rw [hash256_ok input input.length le_rfl (by omega), List.take_length]

theorem stream_ok (chunks : List Bytes) (s : Stream) (m : Bytes) (h : Rep s m)
    (ht : m.length + chunks.flatten.length < 2 ^ 64) :
    ∃ s', chunks.foldlM (fun (s : Stream) c => s.update c c.length) s = .ok s' ∧ Rep s' (m ++ chunks.flatten) := by
  induction chunks generalizing s m with
  | nil => exact ⟨s, rfl, by simpa using h⟩
  | cons c cs ih =>
    rw [List.flatten_cons, List.length_append] at ht
    obtain ⟨s1, h1, r1⟩ := update_ok s m c c.length h le_rfl (by omega)
    rw [List.take_length] at r1
    obtain ⟨s2, h2, r2⟩ := ih s1 (m ++ c) r1 (by rw [List.length_append]; omega)
    refine ⟨s2, ?_, ?_⟩
    · rw [List.foldlM_cons, h1, Res.bind_ok, h2]
    · rwa [List.flatten_cons, ← List.append_assoc]

/-- The streaming functions: however a message is cut into pieces, the digest is SHA-256 of the
concatenation. -/
theorem C70_stream (chunks : List Bytes) (ht : chunks.flatten.length < 2 ^ 61) :
    ∃ s, chunks.foldlM (fun (s : Stream) c => s.update c c.length) create = .ok s ∧
      s.finish = .ok (Fips.sha256 chunks.flatten) := by
  obtain ⟨s, h1, h2⟩ := stream_ok chunks create [] rep_create (by rw [List.length_nil]; omega)
  rw [List.nil_append] at h2
  exact ⟨s, h1, finish_ok s _ h2 ht⟩

/-- After `init`, a stream that was used before behaves like a new one. -/
theorem C70_restart (before chunks : List Bytes) (hb : before.flatten.length < 2 ^ 64)
    (ht : chunks.flatten.length < 2 ^ 61) :
    ∃ s s', before.foldlM (fun (s : Stream) c => s.update c c.length) create = .ok s ∧
      chunks.foldlM (fun (s : Stream) c => s.update c c.length) s.init = .ok s' ∧
      s'.finish = .ok (Fips.sha256 chunks.flatten) := by
  obtain ⟨s, h1, h2⟩ := stream_ok before create [] rep_create (by rw [List.length_nil]; omega)
  obtain ⟨s', h3, h4⟩ := stream_ok chunks s.init [] (rep_init s _ h2) (by rw [List.length_nil]; omega)
  rw [List.nil_append] at h4
  exact ⟨s, s', h1, h3, finish_ok s' _ h4 ht⟩

/-- The digest can be taken in the middle, and more data added afterwards. -/
theorem C70_intermediate (a b : List Bytes) (ht : a.flatten.length + b.flatten.length < 2 ^ 61) :
    ∃ s s', a.foldlM (fun (s : Stream) c => s.update c c.length) create = .ok s ∧
      s.finish = .ok (Fips.sha256 a.flatten) ∧
      b.foldlM (fun (s : Stream) c => s.update c c.length) s = .ok s' ∧
      s'.finish = .ok (Fips.sha256 (a.flatten ++ b.flatten)) := by
  obtain ⟨s, h1, h2⟩ := stream_ok a create [] rep_create (by rw [List.length_nil]; omega)
  rw [List.nil_append] at h2
  obtain ⟨s', h3, h4⟩ := stream_ok b s _ h2 (by omega)
  exact ⟨s, s', h1, finish_ok s _ h2 (by omega), h3, finish_ok s' _ h4 (by rw [List.length_append]; omega)⟩

theorem beNat_append (a : Bytes) (x : UInt8) : Fips.beNat (a ++ [x]) = 256 * Fips.beNat a + x.toNat := by
  unfold Fips.beNat
  rw [List.reverse_append, List.reverse_singleton, List.singleton_append, List.map_cons, Nat.ofDigits_cons]
  ring

theorem beNat_beBytes (k n : ℕ) : Fips.beNat (Fips.beBytes k n) = n % 256 ^ k := by
  induction k generalizing n with
  | zero => simp [Fips.beBytes, Fips.beNat, Nat.mod_one]
  | succ k ih =>
    rw [Fips.beBytes, beNat_append, ih, UInt8.toNat_ofNat', pow_succ' 256 k, Nat.mod_mul]
    omega

/-- The standard's padding (what the specification above is about) fills whole blocks and is unambiguous. -/
theorem C70_padding (m m' : Bytes) (h : m.length < 2 ^ 61) (h' : m'.length < 2 ^ 61) :
    (Fips.pad m).length % 64 = 0 ∧ (Fips.pad m = Fips.pad m' → m = m') := by
  refine ⟨by rw [pad_eq, List.length_append]; exact padded_mod _, fun he => ?_⟩
  have hl : ∀ x : Bytes, x.length < 2 ^ 61 → Fips.beNat ((Fips.pad x).drop ((Fips.pad x).length - 8)) =
      8 * x.length := by
    intro x hx
    have e : Fips.pad x = (x ++ [0x80] ++ List.replicate ((55 + 64 - x.length % 64) % 64) 0) ++
        Fips.beBytes 8 (8 * x.length) := rfl
    rw [e, List.length_append, beBytes_length, Nat.add_sub_cancel, List.drop_left, beNat_beBytes,
      Nat.mod_eq_of_lt (by omega)]
  have h1 := hl m h
  have h2 := hl m' h'
  rw [← he, h1] at h2
  have hlen : m.length = m'.length := by omega
  rw [pad_eq, pad_eq, hlen] at he
  exact List.append_cancel_right he

example : Fips.sha256 [97, 98, 99] =
    [0xba, 0x78, 0x16, 0xbf, 0x8f, 0x01, 0xcf, 0xea, 0x41, 0x41, 0x40, 0xde, 0x5d, 0xae, 0x22, 0x23,
     0xb0, 0x03, 0x61, 0xa3, 0x96, 0x17, 0x7a, 0x9c, 0xb4, 0x10, 0xff, 0x61, 0xf2, 0x00, 0x15, 0xad] := by
  apply Res.ok.inj
  rw [← C70_hash [97, 98, 99] (by norm_num)]
  decide +kernel

example : ∃ s, [[97, 98], [], List.replicate 100 99].foldlM
    (fun (s : Stream) (c : Bytes) => s.update c c.length) create = .ok s ∧
      s.finish = .ok (Fips.sha256 ([97, 98] ++ List.replicate 100 99)) := by
  obtain ⟨s, h1, h2⟩ := C70_stream [[97, 98], [], List.replicate 100 99] (by simp)
  exact ⟨s, h1, by simpa using h2⟩

/-! ## C71: HMAC -/

/-- `Hacl_HMAC_compute_sha2_256` computes HMAC-SHA-256, for keys and messages of every length. -/
theorem C71_hmac (key data : Bytes) (hk : key.length < 2 ^ 32) (hd : data.length < 2 ^ 32) :
    hmac256 key key.length data data.length = .ok (Fips.hmac key data) := by
  rw [hmac256_ok key data _ _ le_rfl hk le_rfl hd, List.take_length, List.take_length]

/-- `get_hmac` computes HMAC-SHA-256 of the message, framed by the two numbers if `length` is positive.
Missing: messages of 4 GiB and more, see `C71_long_violated`. -/
theorem C71_get_hmac_partial (key message : Bytes) (length start : ℕ) (hk : key ≠ []) (hm : message ≠ [])
    (hk' : key.length < 2 ^ 32) (hm' : message.length + 8 < 2 ^ 32) :
    getHmacImpl key message length start = .ok (getHmac stdCrypto key message length start) := by
  have hl : ∀ n, (toBytesLE 4 n).length = 4 := fun n => by simp [toBytesLE_length]
  have hkE : key.isEmpty = false := by simpa using hk
  unfold getHmacImpl getHmac
  dsimp only
  by_cases h : length > 0
  · rw [if_pos h, if_pos h]
    have hE : (toBytesLE 4 start ++ message ++ toBytesLE 4 length).isEmpty = false := by
      simp [hm]
    have hle : (toBytesLE 4 start ++ message ++ toBytesLE 4 length).length < 2 ^ 32 := by
      simp only [List.length_append, hl]; omega
    rw [hkE, hE, Bool.or_self, if_neg (by simp), Nat.mod_eq_of_lt hk', Nat.mod_eq_of_lt hle, C71_hmac _ _ hk' hle]
    rfl
  · rw [if_neg h, if_neg h]
    have hE : message.isEmpty = false := by simpa using hm
    rw [hkE, hE, Bool.or_self, if_neg (by simp), Nat.mod_eq_of_lt hk', Nat.mod_eq_of_lt (by omega),
      C71_hmac _ _ hk' (by omega)]
    rfl

/-- C71 is violated for long messages: only the first `size mod 2^32` bytes are authenticated, whatever
follows. -/
theorem C71_long_violated (key message tail tail' : Bytes) (hk : key ≠ []) (hk' : key.length < 2 ^ 32)
    (hm : message.length < 2 ^ 32) (ht : tail.length = 2 ^ 32) (ht' : tail'.length = 2 ^ 32) :
    getHmacImpl key (message ++ tail) 0 0 = getHmacImpl key (message ++ tail') 0 0 := by
  have gen : ∀ t : Bytes, t.length = 2 ^ 32 →
      getHmacImpl key (message ++ t) 0 0 = .ok (Fips.hmac key message) := by
    intro t ht
    have hkE : key.isEmpty = false := by simpa using hk
    have htne : t ≠ [] := by intro h; rw [h] at ht; simp at ht
    have hE : (message ++ t).isEmpty = false := by simp [htne]
    unfold getHmacImpl
    dsimp only
    rw [if_neg (lt_irrefl 0), hkE, hE, Bool.or_self, if_neg (by simp), Nat.mod_eq_of_lt hk']
    have hlen : (message ++ t).length % 2 ^ 32 = message.length := by
      rw [List.length_append, ht, Nat.add_mod_right, Nat.mod_eq_of_lt hm]
    rw [hlen, hmac256_ok key _ _ _ le_rfl hk' (by rw [List.length_append]; omega) hm, List.take_length,
      List.take_left]
  rw [gen tail ht, gen tail' ht']

/-- A key of a block or less is padded with zeros, so that keys that differ in trailing zeros are
equivalent (a property of HMAC itself; the keys in use have 32 bytes). -/
theorem C71_zero_padded_keys (key data : Bytes) (h : key.length < 64) :
    Fips.hmac key data = Fips.hmac (key ++ [0]) data := by
  unfold Fips.hmac
  rw [if_pos (by omega), if_pos (by simp; omega)]
  dsimp only
  have e : key ++ List.replicate (64 - key.length) (0 : UInt8) =
      key ++ [0] ++ List.replicate (64 - (key ++ [(0 : UInt8)]).length) 0 := by
    rw [List.length_append, List.length_singleton, show 64 - key.length = 64 - (key.length + 1) + 1 by omega,
      List.replicate_succ]
    simp
  rw [e]

example : hmac256 [0x4a, 0x65, 0x66, 0x65] 4
    [0x77, 0x68, 0x61, 0x74, 0x20, 0x64, 0x6f, 0x20, 0x79, 0x61, 0x20, 0x77, 0x61, 0x6e, 0x74, 0x20,
     0x66, 0x6f, 0x72, 0x20, 0x6e, 0x6f, 0x74, 0x68, 0x69, 0x6e, 0x67, 0x3f] 28 =
    .ok [0x5b, 0xdc, 0xc1, 0x46, 0xbf, 0x60, 0x75, 0x4e, 0x6a, 0x04, 0x24, 0x26, 0x08, 0x95, 0x75, 0xc7,
      0x5a, 0x00, 0x3f, 0x08, 0x9d, 0x27, 0x39, 0x83, 0x9d, 0xec, 0x58, 0xb9, 0x64, 0xec, 0x38, 0x43] := by
  decide +kernel

example : hmac256 (List.replicate 100 7) 100 [] 0 = .ok (Fips.hmac (List.replicate 100 7) []) := by
  have := C71_hmac (List.replicate 100 7) [] (by simp) (by simp)
  simpa using this

/-! ## C72: `hash_elems` on top of SHA-256 -/

/-- All strings are shorter than 4 GiB, and the whole input is within the limit of SHA-256. -/
def Fits (ss : List Str) : Prop :=
  (∀ s ∈ ss, s.bytes.length < 2 ^ 32) ∧ (Str.bytes (hashInput ss)).length < 2 ^ 61

theorem bytes_append (s t : Str) : Str.bytes (s ++ t) = Str.bytes s ++ Str.bytes t := by
  simp [Str.bytes]

theorem bytes_bar : Str.bytes ['|'] = [124] := by decide

theorem hashInput_concat (ss : List Str) (s : Str) :
    Str.bytes (hashInput (ss ++ [s])) = Str.bytes (hashInput ss) ++ s.bytes ++ [124] := by
  have : hashInput (ss ++ [s]) = hashInput ss ++ (s ++ ['|']) := by simp [hashInput]
  rw [this, bytes_append, bytes_append, bytes_bar, List.append_assoc]

theorem hashOpen_ok : ∃ p, hashOpen = .ok p ∧ Rep p (Str.bytes (hashInput [])) := by
  obtain ⟨p, h1, h2⟩ := update_ok create [] [124] 1 rep_create (by simp) (by simp)
  refine ⟨p, h1, ?_⟩
  have e : Str.bytes (hashInput []) = [] ++ List.take 1 [124] := by decide
  rwa [e]

theorem pushString_ok (p : Stream) (ss : List Str) (s : Str) (h : Rep p (Str.bytes (hashInput ss)))
    (hf : Fits (ss ++ [s])) : ∃ p', pushString p s = .ok p' ∧ Rep p' (Str.bytes (hashInput (ss ++ [s]))) := by
  obtain ⟨h1, h2⟩ := hf
  have hs := h1 s (by simp)
  rw [hashInput_concat] at h2 ⊢
  simp only [List.length_append, List.length_singleton] at h2
  unfold pushString
  obtain ⟨p1, e1, r1⟩ := update_ok p _ s.bytes s.bytes.length h le_rfl (by omega)
  rw [List.take_length] at r1
  obtain ⟨p2, e2, r2⟩ := update_ok p1 _ [124] 1 r1 (by simp) (by simp only [List.length_append]; omega)
  rw [Nat.mod_eq_of_lt hs, e1, Res.bind_ok, e2]
  exact ⟨p2, rfl, r2⟩

theorem fits_left {ss ts : List Str} (h : Fits (ss ++ ts)) : Fits ss := by
  refine ⟨fun s hs => h.1 s (by simp [hs]), lt_of_le_of_lt ?_ h.2⟩
  have : hashInput (ss ++ ts) = hashInput ss ++ ts.flatMap (fun s => s ++ ['|']) := by simp [hashInput]
  rw [this, bytes_append, List.length_append]
  omega

theorem pushStrings_ok (ts : List Str) (p : Stream) (ss : List Str) (h : Rep p (Str.bytes (hashInput ss)))
    (hf : Fits (ss ++ ts)) : ∃ p', ts.foldlM pushString p = .ok p' ∧ Rep p' (Str.bytes (hashInput (ss ++ ts))) := by
  induction ts generalizing p ss with
  | nil => exact ⟨p, rfl, by simpa using h⟩
  | cons t ts ih =>
    have hf' : Fits ((ss ++ [t]) ++ ts) := by simpa using hf
    obtain ⟨p1, e1, r1⟩ := pushString_ok p ss t h (fits_left hf')
    obtain ⟨p2, e2, r2⟩ := ih p1 (ss ++ [t]) r1 hf'
    refine ⟨p2, by rw [List.foldlM_cons, e1, Res.bind_ok, e2], by simpa using r2⟩

theorem hashClose_ok (G : Params) (p : Stream) (s : Str) (h : Rep p (Str.bytes s))
    (hl : (Str.bytes s).length < 2 ^ 61) : hashClose G p = .ok (digestQ G stdCrypto s) := by
  unfold hashClose
  rw [finish_ok p _ h hl, Res.bind_ok, digestQ, Limbs.ofBytesBE_digits]
  rfl

theorem hashStrings_ok (G : Params) (ss : List Str) (hf : Fits ss) :
    hashStrings G ss = .ok (digestQ G stdCrypto (hashInput ss)) := by
  unfold hashStrings
  obtain ⟨p, e, r⟩ := hashOpen_ok
  obtain ⟨p', e', r'⟩ := pushStrings_ok ss p [] r (by simpa using hf)
  rw [e, Res.bind_ok, e', Res.bind_ok]
  exact hashClose_ok G p' _ r' hf.2

/-- The elements of inner vectors fit, too. -/
def FitsInner : HElem → Prop
  | .vec l => Fits (l.map HAtom.render)
  | _ => True

theorem renderImpl_ok (G : Params) (x : HElem) (h : FitsInner x) :
    renderImpl G x = .ok (x.render G stdCrypto) := by
  cases x with
  | nul => rfl
  | atom a => rfl
  | bytes b => rfl
  | vec l =>
    simp only [renderImpl, HElem.render]
    split_ifs with hl
    · rfl
    · rw [hashStrings_ok G _ h, Res.bind_ok]

theorem pushAll_ok (G : Params) (xs : List HElem) (p : Stream) (ss : List Str)
    (h : Rep p (Str.bytes (hashInput ss))) (hi : ∀ x ∈ xs, FitsInner x)
    (hf : Fits (ss ++ xs.map (HElem.render G stdCrypto))) :
    ∃ p', pushAll G p xs = .ok p' ∧ Rep p' (Str.bytes (hashInput (ss ++ xs.map (HElem.render G stdCrypto)))) := by
  induction xs generalizing p ss with
  | nil => exact ⟨p, rfl, by simpa using h⟩
  | cons x xs ih =>
    have hf' : Fits ((ss ++ [x.render G stdCrypto]) ++ xs.map (HElem.render G stdCrypto)) := by simpa using hf
    obtain ⟨p1, e1, r1⟩ := pushString_ok p ss _ h (fits_left hf')
    obtain ⟨p2, e2, r2⟩ := ih p1 _ r1 (fun y hy => hi y (by simp [hy])) hf'
    refine ⟨p2, ?_, by simpa using r2⟩
    rw [pushAll, renderImpl_ok G x (hi x (by simp)), Res.bind_ok, e1, Res.bind_ok, e2]

/-- `hash_elems`, executed with the streaming functions of HACL*, is the hash that all other theorems
are about, with SHA-256 for the hash function.
Missing: strings of 4 GiB and more, see `C72_long_violated`. -/
theorem C72_hash_elems_partial (G : Params) (xs : List HElem) (hi : ∀ x ∈ xs, FitsInner x)
    (hf : Fits (xs.map (HElem.render G stdCrypto))) :
    hashElemsImpl G xs = .ok (hashElems G stdCrypto xs) := by
  unfold hashElemsImpl hashElems
  obtain ⟨p, e, r⟩ := hashOpen_ok
  rw [e, Res.bind_ok]
  by_cases hx : xs = []
  · subst hx
    rw [if_pos (show ([] : List HElem).isEmpty = true from rfl), if_pos (show ([] : List HElem).isEmpty = true from rfl)]
    have hf0 : Fits ([] ++ [HElem.nul].map (HElem.render G stdCrypto)) := by
      refine ⟨?_, ?_⟩
      · intro s hs
        have hs' : s = nullString := by simpa [HElem.render] using hs
        rw [hs']; decide
      · change (Str.bytes (hashInput [nullString])).length < 2 ^ 61
        decide
    obtain ⟨p', e', r'⟩ := pushAll_ok G [.nul] p [] r (by intro x hx; simp at hx; rw [hx]; trivial) hf0
    rw [e', Res.bind_ok]
    exact hashClose_ok G p' _ r' hf0.2
  · have hE : xs.isEmpty = false := by simpa using hx
    rw [hE, if_neg (by simp), if_neg (by simp)]
    obtain ⟨p', e', r'⟩ := pushAll_ok G xs p [] r hi (by simpa using hf)
    rw [e', Res.bind_ok]
    exact hashClose_ok G p' _ r' hf.2

theorem pushString_trunc (p : Stream) (m : Bytes) (s : Str) (h : Rep p m) (hm : m.length < 2 ^ 63) :
    ∃ p', pushString p s = .ok p' ∧ Rep p' (m ++ s.bytes.take (s.bytes.length % 2 ^ 32) ++ [124]) := by
  unfold pushString
  have hlt := Nat.mod_lt s.bytes.length (show 0 < 2 ^ 32 by norm_num)
  obtain ⟨p1, e1, r1⟩ := update_ok p m s.bytes (s.bytes.length % 2 ^ 32) h (Nat.mod_le _ _) (by omega)
  obtain ⟨p2, e2, r2⟩ := update_ok p1 _ [124] 1 r1 (by simp) (by
    rw [List.length_append, List.length_take]; omega)
  rw [e1, Res.bind_ok, e2]
  exact ⟨p2, rfl, r2⟩

/-- C72 is violated for long strings: the size is cut to 32 bits, so that strings of 2^32 and more bytes
are hashed like one of their prefixes. -/
theorem C72_long_violated (G : Params) (n : ℕ) (h0 : 0 < n) (h : n < 2 ^ 32) :
    hashElemsImpl G [.str (List.replicate (2 ^ 32 + n) 'a')] = hashElemsImpl G [.str (List.replicate n 'a')] ∧
      List.replicate (2 ^ 32 + n) 'a' ≠ List.replicate n 'a' := by
  refine ⟨?_, fun he => ?_⟩
  · have hb : ∀ k, Str.bytes (List.replicate k 'a') = List.replicate k 97 := by
      intro k
      induction k with
      | zero => rfl
      | succ k ih =>
        rw [List.replicate_succ, List.replicate_succ, ← ih]
        rfl
    have gen : ∀ k, 0 < k → k % 2 ^ 32 = n → hashElemsImpl G [.str (List.replicate k 'a')] =
        .ok (addModQ G (ofBytesBE (Fips.sha256 (Str.bytes (hashInput []) ++ List.replicate n 97 ++ [124]))) 0) := by
      intro k hk hkn
      have hr : renderImpl G (.str (List.replicate k 'a')) = .ok (List.replicate k 'a') := by
        have : (List.replicate k 'a').isEmpty = false := by simp; omega
        simp [renderImpl, HAtom.render, this]
      unfold hashElemsImpl
      obtain ⟨p, e, r⟩ := hashOpen_ok
      have hl : (Str.bytes (hashInput [])).length = 1 := by decide
      obtain ⟨p', e', r'⟩ := pushString_trunc p _ (List.replicate k 'a') r (by rw [hl]; norm_num)
      rw [hb, List.length_replicate, hkn, List.take_replicate, min_eq_left (by rw [← hkn]; exact Nat.mod_le _ _)] at r'
      rw [e, Res.bind_ok, if_neg (by simp)]
      simp only [pushAll, hr, Res.bind_ok, e']
      unfold hashClose
      rw [finish_ok p' _ r' (by simp only [List.length_append, List.length_replicate, List.length_singleton, hl]; omega),
        Res.bind_ok]
    rw [gen _ (by omega) (by omega), gen n h0 (by omega)]
  · have := congrArg List.length he
    rw [List.length_replicate, List.length_replicate] at this
    omega

theorem bytes_length_le (s : Str) : (Str.bytes s).length ≤ 4 * s.length := by
  induction s with
  | nil => exact le_rfl
  | cons c s ih =>
    have h : (String.utf8EncodeChar c).length ≤ 4 := by
      rw [String.length_utf8EncodeChar]; exact Char.utf8Size_le_four c
    have e : Str.bytes (c :: s) = String.utf8EncodeChar c ++ Str.bytes s := rfl
    rw [e, List.length_append, List.length_cons]
    omega

theorem bytesToHex_length_le (bs : Bytes) : (bytesToHex bs).length ≤ 2 * bs.length + 2 := by
  have hd := (List.dropWhile_suffix (fun b : UInt8 => decide (b = 0)) (l := bs)).length_le
  unfold bytesToHex
  split
  · simp
  · rename_i b rest h
    rw [h] at hd
    have : ∀ l : Bytes, (l.flatMap byteToHex).length = 2 * l.length := by
      intro l
      induction l with
      | nil => rfl
      | cons x l ih => rw [List.flatMap_cons, List.length_append, ih, List.length_cons]; simp [byteToHex]; omega
    rw [this]
    omega

/-- Short texts, few of them, fit: this is the case in all uses by the library itself. -/
theorem fits_short (ss : List Str) (hn : ss.length < 2 ^ 28) (hs : ∀ s ∈ ss, s.length < 2 ^ 30) : Fits ss := by
  refine ⟨fun s h => by have := hs s h; have := bytes_length_le s; omega, ?_⟩
  have h1 := bytes_length_le (hashInput ss)
  have h2 : (hashInput ss).length ≤ 1 + 2 ^ 30 * ss.length := by
    have : ∀ l : List Str, (∀ s ∈ l, s.length < 2 ^ 30) → (l.flatMap (fun s => s ++ ['|'])).length ≤ 2 ^ 30 * l.length := by
      intro l hl
      induction l with
      | nil => simp
      | cons x l ih =>
        have hx := hl x (by simp)
        have := ih (fun s h => hl s (by simp [h]))
        rw [List.flatMap_cons, List.length_append, List.length_append, List.length_singleton, List.length_cons]
        omega
    have h3 := this ss hs
    have e : hashInput ss = '|' :: ss.flatMap (fun s => s ++ ['|']) := rfl
    rw [e, List.length_cons]
    exact (Nat.add_comm _ _).le.trans (Nat.add_le_add_left h3 1)
  omega

/-- A scalar argument as it can occur: texts below 2^30 characters, 64-bit numbers. -/
def ShortAtom : HAtom → Prop
  | .str s => s.length < 2 ^ 30
  | .u64 n => n < 2 ^ 64
  | _ => True

def ShortElem : HElem → Prop
  | .nul => True
  | .atom a => ShortAtom a
  | .vec l => l.length < 2 ^ 28 ∧ ∀ a ∈ l, ShortAtom a
  | .bytes b => b.length < 2 ^ 28

theorem toHexQ_length_le (n : ℕ) : (toHexQ n).length ≤ 66 := by
  have := bytesToHex_length_le (toBytesQ n)
  have h32 : (toBytesQ n).length = 32 := by simp [toBytesQ, toBytesBE, toBytesLE_length]
  rw [h32] at this
  exact this

theorem render_short (a : HAtom) (h : ShortAtom a) : a.render.length < 2 ^ 30 := by
  cases a with
  | p v =>
    have := bytesToHex_length_le (toBytesP v)
    have h512 : (toBytesP v).length = 512 := by simp [toBytesP, toBytesBE, toBytesLE_length]
    rw [h512] at this
    exact lt_of_le_of_lt this (by norm_num)
  | q v => exact lt_of_le_of_lt (toHexQ_length_le v) (by norm_num)
  | u64 n =>
    have hn : n < 2 ^ 64 := h
    unfold HAtom.render
    dsimp only
    split_ifs
    · have : (decimal n).length ≤ 20 := by
        unfold decimal
        rw [List.length_map, List.length_reverse, Nat.digits_length_le_iff (by norm_num)]
        exact lt_trans hn (by norm_num)
      omega
    · simp [nullString]
  | str s =>
    unfold HAtom.render
    dsimp only
    split_ifs
    · simp [nullString]
    · exact h

/-- The same in terms of the arguments: fewer than 2^28 arguments, texts below 2^30 characters, vectors
below 2^28 elements. -/
theorem C72_hash_elems_short (G : Params) (xs : List HElem) (hn : xs.length < 2 ^ 28)
    (hs : ∀ x ∈ xs, ShortElem x) : hashElemsImpl G xs = .ok (hashElems G stdCrypto xs) := by
  apply C72_hash_elems_partial
  · intro x hx
    have h := hs x hx
    cases x with
    | vec l =>
      obtain ⟨h1, h2⟩ := h
      refine fits_short _ (by rwa [List.length_map]) fun s hs' => ?_
      obtain ⟨a, ha, rfl⟩ := List.mem_map.1 hs'
      exact render_short a (h2 a ha)
    | _ => trivial
  · refine fits_short _ (by rwa [List.length_map]) fun s hs' => ?_
    obtain ⟨x, hx, rfl⟩ := List.mem_map.1 hs'
    have h := hs x hx
    cases x with
    | nul => show nullString.length < 2 ^ 30; simp [nullString]
    | atom a => exact render_short a h
    | vec l =>
      unfold HElem.render
      dsimp only
      split_ifs
      · simp [nullString]
      · exact lt_of_le_of_lt (toHexQ_length_le _) (by norm_num)
    | bytes b =>
      have h' : b.length < 2 ^ 28 := h
      have h3 := bytesToHex_length_le b
      show (bytesToHex b).length < 2 ^ 30
      omega

/-- The hypotheses are met by ordinary arguments: a null pointer, a text, a number and a vector of texts. -/
example (G : Params) : hashElemsImpl G [.nul, .str "ab".toList, .u64 7, .vec [.str "c".toList, .p 5]] =
    .ok (hashElems G stdCrypto [.nul, .str "ab".toList, .u64 7, .vec [.str "c".toList, .p 5]]) := by
  apply C72_hash_elems_short
  · simp
  · simp [ShortElem, ShortAtom]

end EG.Sha
