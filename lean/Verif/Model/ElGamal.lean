import Verif.Model.Hash

/-!
# ElGamal (src/electionguard/elgamal.cpp)

The `isFixedBase` flags are left out: by `C05_pow_mod_p_eq` they do not change results.
-/

namespace EG

/-- `ElGamalKeyPair`. -/
structure KeyPair where
  secret : ℕ
  pub : ℕ
  deriving DecidableEq

/-- elgamal.cpp:68-78 `ElGamalKeyPair::fromSecret`. -/
def keyFromSecret (G : Params) (secret : ℕ) : Res KeyPair :=
  if elemLt secret 2 then .throw .invalidArgument
  else .ok { secret := secret, pub := gPowP G secret }

/-- `ElGamalCiphertext`. -/
structure Ciphertext where
  pad : ℕ
  data : ℕ
  deriving DecidableEq, Repr

/-- elgamal.cpp:100-103 `crypto_hash`. -/
def Ciphertext.hash (G : Params) (C : Crypto) (c : Ciphertext) : ℕ :=
  hashElems G C [.p c.pad, .p c.data]

/-- Hacl_Bignum4096.c:1295-1330 `mod_exp_consttime` with the checks of `exp_check` (752-843);
`none` models the return value `false`.  The exponent width passed by the callers is a multiple of
64, so the check of the exponent is skipped. -/
def modExpChecked (n a bBits b : ℕ) : Option ℕ :=
  if n % 2 = 1 ∧ 1 < n ∧ a < n then some (Hacl.modExpPrecomp (Hacl.ctxInit 64 n) a bBits b) else none

/-- Hacl_Bignum4096.c:1332-1460 `mod_inv_prime_vartime`: `a^(n-2)`, or a zero array if `a` is zero
or not reduced. -/
def modInvPrime (n a : ℕ) : ℕ :=
  if n % 2 = 1 ∧ 1 < n ∧ a ≠ 0 ∧ a < n then
    Hacl.modExpPrecomp (Hacl.ctxInit 64 n) a 4096 (Hacl.sub 64 n 2).1
  else 0

/-- elgamal.cpp:158-205 `ElGamalCiphertext::decrypt`; `MAX_UINT64` reports failure. -/
def decrypt (G : Params) (c : Ciphertext) (secret : ℕ) : ℕ :=
  match modExpChecked G.p c.pad 512 secret with
  | none => 0
  | some divisor =>
    let inverse := modInvPrime G.p divisor
    match modChecked 64 G.p (c.data * inverse) with
    | none => 0
    | some result => if result = 1 then 0 else if result = G.g then 1 else 2 ^ 64 - 1

/-- elgamal.cpp:214-236 `elgamalEncrypt`. -/
def elgamalEncrypt (G : Params) (m nonce pub : ℕ) : Res Ciphertext :=
  if nonce = 0 then .throw .invalidArgument
  else
    let pad := gPowP G nonce
    let pubkeyPowN := powModP G pub nonce
    let data := if m = 1 then mulModP G G.g pubkeyPowN else pubkeyPowN
    .ok { pad := pad, data := data }

/-- elgamal.cpp:238-254 `elgamalEncrypt_with_precomputed`. -/
def elgamalEncryptPrecomputed (G : Params) (m gToRho pubkeyToRho : ℕ) : Ciphertext :=
  { pad := gToRho, data := if m = 1 then mulModP G G.g pubkeyToRho else pubkeyToRho }

/-- The loop of elgamal.cpp:265-270. -/
def elgamalAddLoop (G : Params) (acc : Ciphertext) (cs : List Ciphertext) : Ciphertext :=
  cs.foldl (fun acc c => { pad := mulModP G acc.pad c.pad, data := mulModP G acc.data c.data }) acc

/-- elgamal.cpp:256-272 `elgamalAdd`. -/
def elgamalAdd (G : Params) (cs : List Ciphertext) : Res Ciphertext :=
  if cs.isEmpty then .throw .invalidArgument
  else .ok (elgamalAddLoop G { pad := 1, data := 1 } cs)

end EG
