import Verif.Model.UInt128
import Verif.Model.Group

/-!
# Conversions between texts, bytes and arrays of 64-bit numbers

Source: `src/electionguard/convert.hpp` 56-65 (`hex_to_bytes` into an array), 82-90
(`uint64_to_hex_string`), 92-98 (`uint64_to_size`), 100-121 (`bignum_to_bytes`), 123-168
(`copy_bytes_to_bignum_64`), 218-230 (`bignum_to_hex_string`).

With these the constants of `constants.h` are produced and compared
(`test/electionguard/test_constants.cpp`, `test_group.cpp`).  An array holds the most significant number
first, as `Q_ARRAY`, not as the `_REVERSE` arrays.  What `htobe64` does is taken from the conversions of
the machine (`U128.Order`, Model/UInt128.lean).  `malloc` failing, the log lines and the overloads that
only copy a pointer and a length into a vector are not modelled.
-/

namespace EG.Bignum

open EG.U128

/-- The inner loop of `bignum_to_bytes` (107-110): `k` times, the low byte is appended and the number is
shifted. -/
def pushBytes : ℕ → BitVec 64 → List UInt8 → List UInt8
  | 0, _, out => out
  | k + 1, buffer, out => pushBytes k (buffer >>> 8) (out ++ [UInt8.ofNat (buffer &&& 0xFF#64).toNat])

/-- 100-113 `bignum_to_bytes`. -/
def bignumToBytes (o : Order) (bignum : List (BitVec 64)) : List UInt8 :=
  bignum.foldl (fun out number => pushBytes 8 (o.be64 number) out) []

/-- The loops of `copy_bytes_to_bignum_64` over one window (153-155, 158-160). -/
def word (window : List UInt8) : BitVec 64 :=
  window.foldl (fun acc b => (acc <<< 8) + BitVec.ofNat 64 b.toNat) 0

/-- The loop over the windows (147-165); `bytes` are those not yet read. -/
def loopWindows (bytes : List UInt8) (out : List (BitVec 64)) : List (BitVec 64) :=
  if bytes = [] then out
  else loopWindows (bytes.drop 8) (out ++ [word (if bytes.length > 8 then bytes.take 8 else bytes)])
termination_by bytes.length
decreasing_by
  rename_i h
  have := List.length_pos_iff.mpr h
  simp only [List.length_drop]
  omega

/-- 123-168 `copy_bytes_to_bignum_64`. -/
def bytesToBignum (bytes : List UInt8) (outputMask : ℕ) : List (BitVec 64) :=
  let residue := bytes.length % 8
  let limbs := bytes.length / 8 + (if residue > 0 then 1 else 0)
  let prepend := if outputMask > limbs then outputMask - limbs else 0
  loopWindows bytes (List.replicate prepend 0)

/-- 218-222 `bignum_to_hex_string`. -/
def bignumToHex (o : Order) (bignum : List (BitVec 64)) : List Char := bytesToHex (bignumToBytes o bignum)

/-- The digits `stream << hex << uppercase << n` prints. -/
def hexDigits (n : ℕ) : List Char :=
  if n < 16 then [hexDigit n] else hexDigits (n / 16) ++ [hexDigit (n % 16)]
termination_by n

/-- 82-90 `uint64_to_hex_string`; `setw(16) << setfill('0')`. -/
def uint64ToHex (n : BitVec 64) : List Char :=
  List.replicate (16 - (hexDigits n.toNat).length) '0' ++ hexDigits n.toNat

/-- 92-98 `uint64_to_size`; `size_t` has `w` bits. -/
def uint64ToSize (w : ℕ) (n : BitVec 64) : Res (BitVec w) :=
  if n.toNat > 2 ^ w - 1 then .throw .outOfRange else .ok (n.setWidth w)

/-- The assignment `bytesOut[i] = byte` (63). -/
def put (out : List UInt8) (i : ℕ) (b : UInt8) : Res (List UInt8) :=
  if i < out.length then .ok (out.set i b) else .ub

/-- 56-65 `hex_to_bytes` into an array the caller gives; the text from position `2 * i` on. -/
def hexToArray : List Char → ℕ → List UInt8 → Res (List UInt8)
  | [], _, out => .ok out
  | [c], i, out => do
    let b ← stoi16Byte [c]
    put out i b
  | c1 :: c2 :: rest, i, out => do
    let b ← stoi16Byte [c1, c2]
    let out ← put out i b
    hexToArray rest (i + 1) out

end EG.Bignum
