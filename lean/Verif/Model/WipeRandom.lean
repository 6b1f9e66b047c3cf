import Verif.Model.Wipe
import Verif.Model.Drbg

/-!
# What is left in memory by the random generator (random.hpp, group.cpp)

As Model/Wipe.lean, for `Random::getBytes` and `rand_q`.  `release` (convert.hpp:40-46) gives memory back without
writing to it.  `cleanup` takes the vectors by value, so that it releases copies.

Left out: the stack (`seed_material` and inputs of HMAC are allocated there), the text of the time, the counter, and
arrays in which the operating system failed to put its bytes.
-/

namespace EG.Wipe

open Sha (Os)

/-- random.hpp:107-120 `getRandomBytes`. -/
def getRandomBytesF (b : Option (List UInt8)) : Run (List UInt8) :=
  match b with
  | some b => do
    Run.free .osBytes b
    pure b
  | none => Run.lift (.throw .badAlloc)

/-- random.hpp:92-100 `cleanup`. -/
def cleanupF (st : Sha.Drbg) (entropy nonce : List UInt8) : Run Unit := do
  Run.free .entropy entropy
  Run.free .nonce nonce
  Run.free .drbgKey st.k
  Run.free .drbgValue st.v

/-- random.hpp:74-89: the end of `getBytes`, once the generator has answered. -/
def finishF (st : Sha.Drbg) (entropy nonce : List UInt8) (r : Option (List UInt8 × Sha.Drbg)) : Run (List UInt8) :=
  match r with
  | some (out, st') => do
    cleanupF st' entropy nonce
    Run.free .random out
    pure out
  | none => do
    cleanupF st entropy nonce
    Run.lift (.throw .badAlloc)

/-- random.hpp:54-89 `Random::getBytes`. -/
def getBytesF (os : Os) (size : ℕ) : Run (List UInt8) := do
  let entropy ← getRandomBytesF os.entropy
  Run.after (do
    let nonce ← getRandomBytesF os.nonce
    Run.after (do
      let el ← Run.lift (Sha.convertSize entropy.length)
      let nl ← Run.lift (Sha.convertSize nonce.length)
      let pl ← Run.lift (Sha.convertSize os.time.length)
      let st ← Run.lift (Sha.drbgInstantiate entropy nonce os.time el nl pl)
      let input ← getRandomBytesF os.input
      Run.after (do
        let al ← Run.lift (Sha.convertSize input.length)
        let r ← Run.lift (st.generate (List.replicate size 0) size input al)
        finishF st entropy nonce r) [⟨.input, input⟩]) [⟨.nonce, nonce⟩]) [⟨.entropy, entropy⟩]

/-- group.cpp:812-830: the four limbs of `bigNum` after the mask. -/
def maskedQ (bytes : List UInt8) : ℕ :=
  let v := ofBytesBE (bytes.take 32)
  (v / 2 ^ 64) * 2 ^ 64 + ((v % 2 ^ 64) &&& 0xFFFFFFFFFFFFFF43)

/-- group.cpp:812-830 `rand_q`. -/
def randQF (G : Params) (os : Os) : Run ℕ := do
  let bytes ← getBytesF os 256
  Run.after (do
    let r ← Run.lift (randQ G bytes)
    Run.free .bigNum (toBytesLE 32 (maskedQ bytes))
    let q ← Run.lift (destroyQ (maskedQ bytes))
    Run.free .elementQ q
    pure r) [⟨.random, bytes⟩]

end EG.Wipe
