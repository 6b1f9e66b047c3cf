import Verif.Model.CGroup
import Verif.Model.Ballot

/-!
# Ballot codes through C

Source: `src/electionguard/facades/ballot_code.cpp` (17-54).

Pointers are as in `Model/CGroup`.  A number of 64 bits is a natural number, as in `Model/Ballot`.
-/

namespace EG.CCode

open EG.CText (Status)
open EG.CGroup (Out caught deref cText)

variable (G : Params) (C : Crypto)

/-- facades/ballot_code.cpp:17-32 `eg_ballot_code_get_hash_for_device`; `string` of a null pointer is undefined. -/
def deviceHash (device session launch : ℕ) (location : Option (List Char)) : Res (Out ℕ) :=
  caught .runtimeError (do
    let l ← deref location
    .ok (hashForDevice G C device session launch (cText l)))

/-- facades/ballot_code.cpp:34-54 `eg_ballot_code_get_ballot_code`. -/
def ballotCode (seed : Option ℕ) (timestamp : ℕ) (ballotHash : Option ℕ) : Res (Out ℕ) :=
  match seed, ballotHash with
  | some seed, some ballotHash => caught .runtimeError (.ok (ballotCodeOf G C seed timestamp ballotHash))
  | _, _ => .ok (.invalidArgument, none)

end EG.CCode
