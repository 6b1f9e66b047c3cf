import Verif.Lemmas.Bignum
import Verif.Props.UInt128
import Verif.Props.Group

/-!
# C126: arrays of 64-bit numbers, bytes and texts

The conversions of `convert.hpp` between texts, bytes and arrays of 64-bit numbers, most significant first.
On a little-endian machine bytes and texts of an array are those of the number it stands for, and an array
is read back from its bytes.  Two things go wrong.  On a big-endian machine `bignum_to_bytes` reverses the
bytes of each entry.  `copy_bytes_to_bignum_64` puts the bytes left over at the least significant end, so
the number changes if the number of bytes is not a multiple of eight.
-/

namespace EG.Bignum

open EG.U128

/-- C126: on a little-endian machine the bytes of an array are those of its number, most significant
first, eight for each entry.  Missing: big-endian machines, see `C126_big_endian`. -/
theorem C126_bytes_partial {o : Order} (hl : o.little = true) (ho : BigOk o) (l : List (BitVec 64)) :
    (bignumToBytes o l).length = 8 * l.length ∧ ofBytesBE (bignumToBytes o l) = arrayVal l := by
  rw [flat_little hl ho]
  exact ⟨flat_length l, flat_val l⟩

/-- The machines `LowStar_Endianness.h` knows. -/
example : (U128.windows.little = true ∧ BigOk U128.windows) ∧
    (genericLittle.little = true ∧ BigOk genericLittle) ∧ (genericBig.little = false ∧ BigOk genericBig) :=
  ⟨⟨rfl, C90_little.1⟩, ⟨rfl, C90_little.2.2.1⟩, ⟨rfl, C90_big_partial.1⟩⟩

example : bignumToBytes genericLittle [1, 0x0203#64] = [0, 0, 0, 0, 0, 0, 0, 1, 0, 0, 0, 0, 0, 0, 2, 3] := by
  decide +kernel

/-- C126 is violated on big-endian machines: the bytes read backwards are those of the array read
backwards, so each entry is written least significant byte first; the array of one entry 1 becomes the
bytes of 2 ^ 56. -/
theorem C126_big_endian {o : Order} (hl : o.little = false) (ho : BigOk o) :
    (∀ l, (bignumToBytes o l).length = 8 * l.length ∧
      ofBytesLE (bignumToBytes o l) = arrayVal l.reverse) ∧
    ofBytesBE (bignumToBytes o [1]) = 2 ^ 56 ∧ arrayVal [1] = 1 := by
  have key : ∀ l, bignumToBytes o l = (l.reverse.flatMap be8).reverse := by
    intro l
    rw [bignumToBytes_eq, List.reverse_flatMap, List.reverse_reverse]
    congr 1
    funext x
    exact big_bytes hl ho x
  refine ⟨fun l => ?_, ?_, rfl⟩
  · rw [key, List.length_reverse, flat_length, List.length_reverse]
    refine ⟨rfl, ?_⟩
    exact flat_val l.reverse
  · rw [key]
    decide +kernel

/-- C126: how many entries the array read from bytes has, and what number it stands for: the bytes left
over after the last eight are an entry of their own. -/
theorem C126_array (bytes : List UInt8) (mask : ℕ) :
    (bytesToBignum bytes mask).length = max mask ((bytes.length + 7) / 8) ∧
    arrayVal (bytesToBignum bytes mask) =
      if bytes.length % 8 = 0 then ofBytesBE bytes
      else 2 ^ 64 * ofBytesBE (bytes.take (bytes.length / 8 * 8)) +
        ofBytesBE (bytes.drop (bytes.length / 8 * 8)) := by
  obtain ⟨l, t, e, ht, h1, h2⟩ := chunks bytes
  have h8 : (l.flatMap be8).length = bytes.length / 8 * 8 := by rw [flat_length, h1, Nat.mul_comm]
  have htake : bytes.take (bytes.length / 8 * 8) = l.flatMap be8 := by
    rw [← h8]; conv_lhs => rw [e]
    rw [List.take_left]
  have hdrop : bytes.drop (bytes.length / 8 * 8) = t := by
    rw [← h8]; conv_lhs => rw [e]
    rw [List.drop_left]
  rw [htake, hdrop]
  have hb := bytesToBignum_eq l t ht mask
  rw [← e] at hb
  rw [hb]
  by_cases h : t = []
  · have h0 : bytes.length % 8 = 0 := by rw [← h2, h]; rfl
    rw [if_pos h, if_pos h, if_pos h0, List.append_nil, arrayVal_zeros, ← flat_val]
    constructor
    · rw [List.length_append, List.length_replicate]; omega
    · rw [e, h, List.append_nil]
  · have h0 : bytes.length % 8 ≠ 0 := by
      rw [← h2]; exact fun h' => h (List.length_eq_zero_iff.mp h')
    rw [if_neg h, if_neg h, if_neg h0, List.append_assoc, arrayVal_zeros, arrayVal_snoc, flat_val,
      word_val t (by omega)]
    constructor
    · simp only [List.length_append, List.length_replicate, List.length_singleton]; omega
    · rfl

example : bytesToBignum [1, 2, 3, 4, 5, 6, 7, 8, 9] 3 = [0, 0x0102030405060708#64, 9] := by
  have := bytesToBignum_eq [0x0102030405060708#64] [9] (by decide) 3
  exact this

/-- C126: the number is kept exactly if the bytes are a multiple of eight, or all but the last ones are
zero. -/
theorem C126_array_value (bytes : List UInt8) (mask : ℕ) :
    arrayVal (bytesToBignum bytes mask) = ofBytesBE bytes ↔
      8 ∣ bytes.length ∨ ∀ b ∈ bytes.take (bytes.length / 8 * 8), b = 0 := by
  have hz : ∀ bs : List UInt8, ofBytesBE bs = 0 ↔ ∀ b ∈ bs, b = 0 := by
    intro bs
    induction bs with
    | nil => simp [ofBytesBE, ofBytesLE]
    | cons b bs ih =>
      have h1 : b = 0 ↔ b.toNat = 0 := ⟨fun h => h ▸ rfl, fun h => UInt8.toNat_inj.mp h⟩
      rw [show b :: bs = [b] ++ bs from rfl, ofBytesBE_append, Nat.add_eq_zero_iff, ih,
        Nat.mul_eq_zero, List.forall_mem_append, List.forall_mem_singleton, h1]
      simp [ofBytesBE, ofBytesLE]
  rw [(C126_array bytes mask).2, Nat.dvd_iff_mod_eq_zero]
  by_cases h : bytes.length % 8 = 0
  · simp [h]
  · rw [if_neg h, ← hz]
    have e := ofBytesBE_append (bytes.take (bytes.length / 8 * 8)) (bytes.drop (bytes.length / 8 * 8))
    rw [List.take_append_drop] at e
    rw [e]
    have hr : (bytes.drop (bytes.length / 8 * 8)).length ≤ 7 := by rw [List.length_drop]; omega
    have hp : 256 ^ (bytes.drop (bytes.length / 8 * 8)).length ≤ 256 ^ 7 :=
      Nat.pow_le_pow_right (by omega) hr
    generalize 256 ^ (bytes.drop (bytes.length / 8 * 8)).length = m at hp
    generalize ofBytesBE (bytes.take (bytes.length / 8 * 8)) = x
    generalize ofBytesBE (bytes.drop (bytes.length / 8 * 8)) = y
    constructor
    · intro h'
      right
      by_contra hx
      have := Nat.mul_le_mul_right x hp
      norm_num at this h'
      omega
    · rintro (h' | h')
      · exact absurd h' h
      · rw [h']; simp

/-- C126 is violated: of nine bytes, the first 1 and the others 0, the number is 2 ^ 64; the array stands
for 2 ^ 120. -/
theorem C126_array_violated : ∃ bytes : List UInt8, ofBytesBE bytes = 2 ^ 64 ∧
    arrayVal (bytesToBignum bytes 2) = 2 ^ 120 := by
  refine ⟨[1, 0, 0, 0, 0, 0, 0, 0, 0], by decide, ?_⟩
  rw [(C126_array _ _).2]
  decide

/-- C126: an array is read back from its bytes, with zeros in front up to the length asked for. -/
theorem C126_round {o : Order} (hl : o.little = true) (ho : BigOk o) (l : List (BitVec 64)) (mask : ℕ) :
    bytesToBignum (bignumToBytes o l) mask = List.replicate (mask - l.length) 0 ++ l := by
  have := bytesToBignum_eq l [] (by decide) mask
  rw [List.append_nil] at this
  rw [flat_little hl ho, this]
  simp

/-- C126: bytes, a multiple of eight, are read back from their array, with zeros in front. -/
theorem C126_back {o : Order} (hl : o.little = true) (ho : BigOk o) (bytes : List UInt8) (mask : ℕ)
    (h : 8 ∣ bytes.length) : bignumToBytes o (bytesToBignum bytes mask) =
      List.replicate (8 * (mask - bytes.length / 8)) 0 ++ bytes := by
  obtain ⟨l, t, e, ht, h1, h2⟩ := chunks bytes
  have ht0 : t = [] := List.length_eq_zero_iff.mp (by omega)
  have hb := bytesToBignum_eq l t ht mask
  rw [← e] at hb
  rw [hb, flat_little hl ho, ht0, if_pos rfl, if_pos rfl, List.append_nil, Nat.add_zero, h1,
    List.flatMap_append]
  rw [ht0, List.append_nil] at e
  rw [← e]
  congr 1
  generalize mask - bytes.length / 8 = k
  induction k with
  | zero => rfl
  | succ k ih =>
    rw [List.replicate_succ, List.flatMap_cons, ih, Nat.mul_succ, Nat.add_comm, List.replicate_add]
    congr 1

/-- C126: the text of an array of the length of an element is the text of the element with that number, and
is read back as this element unless it is zero. -/
theorem C126_hex {o : Order} (hl : o.little = true) (ho : BigOk o) {G : Params} (hG : G.Valid)
    (l : List (BitVec 64)) :
    (l.length = 4 → bignumToHex o l = toHexQ (arrayVal l) ∧
      (arrayVal l ≠ 0 → arrayVal l ≤ G.q → fromHexQ G false (bignumToHex o l) = .ok (arrayVal l))) ∧
    (l.length = 64 → bignumToHex o l = toHexP (arrayVal l) ∧
      (arrayVal l ≠ 0 → arrayVal l ≤ G.p → fromHexP G false (bignumToHex o l) = .ok (arrayVal l))) := by
  have hb : bignumToBytes o l = toBytesBE (8 * l.length) (arrayVal l) := by
    obtain ⟨h1, h2⟩ := C126_bytes_partial hl ho l
    rw [← h2, ← h1, toBytesBE_ofBytesBE]
  constructor
  · intro h
    have e : bignumToHex o l = toHexQ (arrayVal l) := by rw [bignumToHex, hb, h]; rfl
    exact ⟨e, fun h0 hq => by rw [e]; exact C08_hex_q_partial G hG _ h0 hq⟩
  · intro h
    have e : bignumToHex o l = toHexP (arrayVal l) := by rw [bignumToHex, hb, h]; rfl
    exact ⟨e, fun h0 hp => by rw [e]; exact C08_hex_p_partial G hG _ h0 hp⟩

/-- C126: an array stands for the number whose entries, in the order HACL* wants, are those of the array
read backwards. -/
theorem C126_reverse (l : List (BitVec 64)) : arrayVal l = ofLimbs (l.reverse.map BitVec.toNat) := by
  induction l using List.reverseRecOn with
  | nil => rfl
  | append_singleton l x ih =>
    rw [arrayVal_snoc, List.reverse_append, List.reverse_singleton, List.singleton_append, List.map_cons,
      ofLimbs, ih, Nat.add_comm]

/-- `Q_ARRAY` (constants.h 60-61). -/
example : arrayVal [0xFFFFFFFFFFFFFFFF#64, 0xFFFFFFFFFFFFFFFF#64, 0xFFFFFFFFFFFFFFFF#64, 0xFFFFFFFFFFFFFF43#64] =
    Params.std.q := by decide +kernel

/-- C126: the text of a number has sixteen characters, and its bytes are those of the number. -/
theorem C126_hex64 (n : BitVec 64) :
    (uint64ToHex n).length = 16 ∧ hexToBytes (uint64ToHex n) = .ok (toBytesBE 8 n.toNat) ∧
      ofBytesBE (toBytesBE 8 n.toNat) = n.toNat := by
  have e : uint64ToHex n = (toBytesBE 8 n.toNat).flatMap byteToHex := by
    rw [hexFixed_bytes, uint64ToHex]
    exact pad_eq 15 n.toNat n.isLt
  refine ⟨?_, ?_, ?_⟩
  · rw [e, flatMap_byteToHex_length, toBytesBE_length]
  · rw [e, hexToBytes_flatMap]
  · rw [ofBytesBE_toBytesBE]; exact Nat.mod_eq_of_lt n.isLt

example : uint64ToHex 0xABC#64 = "0000000000000ABC".toList := by
  have := pad_eq 15 0xABC (by norm_num)
  exact this.trans (by decide)

/-- C126: a number is converted to a size if it fits, and is the same number; otherwise the conversion
throws.  With sizes of 64 bits it always fits. -/
theorem C126_size (w : ℕ) (n : BitVec 64) :
    (n.toNat < 2 ^ w → ∃ s, uint64ToSize w n = .ok s ∧ s.toNat = n.toNat) ∧
    (2 ^ w ≤ n.toNat → uint64ToSize w n = .throw .outOfRange) ∧ (w = 64 → n.toNat < 2 ^ w) := by
  have hp := Nat.two_pow_pos w
  refine ⟨fun h => ⟨_, if_neg (by omega), ?_⟩, fun h => if_pos (by omega), fun h => h ▸ n.isLt⟩
  rw [BitVec.toNat_setWidth, Nat.mod_eq_of_lt h]

/-- C126: reading a text into an array gives, if the array is long enough, what reading it into a vector
gives, followed by what was there. -/
theorem C126_into (s : List Char) (out : List UInt8) (h : (s.length + 1) / 2 ≤ out.length) :
    hexToArray s 0 out = (do let bs ← hexToBytes s; pure (bs ++ out.drop bs.length)) := by
  have key : ∀ (s : List Char) (pre out : List UInt8), (s.length + 1) / 2 ≤ out.length →
      hexToArray s pre.length (pre ++ out) =
        (do let bs ← hexToBytes s; pure (pre ++ bs ++ out.drop bs.length)) := by
    intro s
    induction s using hexToBytes.induct with
    | case1 => intro pre out _; simp [hexToArray, hexToBytes]
    | case2 c =>
      intro pre out ho
      rcases out with _ | ⟨x, out⟩
      · simp at ho
      simp only [hexToArray, hexToBytes]
      cases stoi16Byte [c] with
      | ok b => simp [Res.bind_ok, put]
      | throw e => rfl
      | ub => rfl
    | case3 c1 c2 rest ih =>
      intro pre out ho
      rcases out with _ | ⟨x, out⟩
      · simp at ho
      simp only [hexToArray, hexToBytes]
      cases stoi16Byte [c1, c2] with
      | ok b =>
        have hput : put (pre ++ x :: out) pre.length b = .ok ((pre ++ [b]) ++ out) := by
          simp [put]
        have := ih (pre ++ [b]) out (by simp only [List.length_cons] at ho; omega)
        rw [List.length_append, List.length_singleton] at this
        simp only [Res.bind_ok, hput, this]
        cases hexToBytes rest with
        | ok bs => simp [Res.bind_ok]
        | throw e => rfl
        | ub => rfl
      | throw e => rfl
      | ub => rfl
  exact key s [] out h

/-- C126 is violated without that: a text that gives more bytes than the array has is undefined
behaviour, whatever the array. -/
theorem C126_into_violated (s : List Char) (out : List UInt8) (bs : List UInt8)
    (h : hexToBytes s = .ok bs) (hl : out.length < bs.length) : hexToArray s 0 out = .ub := by
  have key : ∀ (s : List Char) (i : ℕ) (out bs : List UInt8), hexToBytes s = .ok bs →
      i ≤ out.length → out.length < i + bs.length → hexToArray s i out = .ub := by
    intro s
    induction s using hexToBytes.induct with
    | case1 => intro i out bs h h1 h2; cases h; simp at h2; omega
    | case2 c =>
      intro i out bs h h1 h2
      simp only [hexToBytes] at h
      obtain ⟨b, hb, h⟩ := (Res.bind_eq_ok _ _ _).mp h
      cases h
      simp only [List.length_singleton] at h2
      simp only [hexToArray, hb, Res.bind_ok, put]
      rw [if_neg (by omega)]
    | case3 c1 c2 rest ih =>
      intro i out bs h h1 h2
      simp only [hexToBytes] at h
      obtain ⟨b, hb, h⟩ := (Res.bind_eq_ok _ _ _).mp h
      obtain ⟨bs', hbs, h⟩ := (Res.bind_eq_ok _ _ _).mp h
      cases h
      simp only [hexToArray, hb, Res.bind_ok, put]
      by_cases hi : i < out.length
      · rw [if_pos hi, Res.bind_ok]
        apply ih (i + 1) _ bs' hbs
        · rw [List.length_set]; omega
        · rw [List.length_set]; simp only [List.length_cons] at h2; omega
      · rw [if_neg hi]; rfl
  exact key s 0 out bs h (Nat.zero_le _) (by omega)

example : hexToBytes "0A0B".toList = .ok [10, 11] ∧ hexToArray "0A0B".toList 0 [0] = .ub ∧
    hexToArray "0A0B".toList 0 [1, 2, 3] = .ok [10, 11, 3] := by decide +kernel

end EG.Bignum
