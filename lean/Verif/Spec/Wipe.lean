import Verif.Model.HashedElGamal

/-!
# What someone can do with what is left in memory
-/

namespace EG.Wipe

/-- Someone who knows a public key, and the secret key except for its lowest 32 bits, tries all of them. -/
def search (G : Params) (pub left : ℕ) : Option ℕ :=
  ((List.range (2 ^ 32)).map (left + ·)).find? (fun s => decide (2 ≤ s ∧ gPowP G s = pub))

/-- The stream that hashed ElGamal adds to a message of `nb` blocks, from the bytes of the session key. -/
def stream (C : Crypto) (key : List UInt8) (seed nb : ℕ) : List UInt8 :=
  (List.range nb).flatMap fun i => C.hmac key (le32 (i + 1) ++ toBytesQ seed ++ le32 (nb * 256))

/-- Someone who knows the session key reads the encrypted data. -/
def openWith (C : Crypto) (key : List UInt8) (seed : ℕ) (data : List UInt8) : List UInt8 :=
  List.zipWith (· ^^^ ·) data (stream C key seed (data.length / 32))

end EG.Wipe
