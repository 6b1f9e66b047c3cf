import Verif.Spec.Sha
import Verif.Model.Std

/-! # The hash functions of the standards as an instance of `Crypto` -/

namespace EG

theorem Fips.beNat_lt (b : List UInt8) : Fips.beNat b < 256 ^ b.length := by
  have := Nat.ofDigits_lt_base_pow_length (b := 256) (l := b.reverse.map UInt8.toNat) (by norm_num)
    (by
      intro x hx
      simp only [List.mem_map] at hx
      obtain ⟨y, -, rfl⟩ := hx
      exact y.toNat_lt)
  simpa [Fips.beNat] using this

theorem Fips.sha256_length' (m : List UInt8) : (Fips.sha256 m).length = 32 := by
  have h : ∀ k n, (Fips.beBytes k n).length = k := by
    intro k
    induction k with
    | zero => intro n; rfl
    | succ k ih => intro n; rw [Fips.beBytes, List.length_append, ih]; rfl
  simp [Fips.sha256, Fips.digest, h]

/-- SHA-256 of the UTF-8 form of a text as a big-endian number, and HMAC-SHA-256. -/
noncomputable def stdCrypto : Crypto where
  sha256 s := Fips.beNat (Fips.sha256 (Str.bytes s))
  sha256_lt s := by
    have := Fips.beNat_lt (Fips.sha256 (Str.bytes s))
    rw [Fips.sha256_length'] at this
    exact lt_of_lt_of_le this (by norm_num)
  hmac := Fips.hmac
  hmac_length _ _ := Fips.sha256_length' _

end EG
