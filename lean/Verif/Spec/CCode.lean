import Verif.Model.CCode
import Verif.Spec.Mediator

/-!
# An auditor of ballot codes

A program in C that has the published records of a device: for each ballot the seed of its code, the time, the hash and
the code.  It recomputes all codes with the functions of the library.
-/

namespace EG.CCode

variable (G : Params) (C : Crypto)

/-- The records, from the code of the ballot before on. -/
def walk : ℕ → List Link → Res Bool
  | _, [] => .ok true
  | previous, x :: l => do
    let r ← ballotCode G C (some previous) x.timestamp (some x.hash)
    match r with
    | (.success, some code) => if x.seed = previous ∧ x.code = code then walk code l else .ok false
    | _ => .ok false

/-- The whole audit. -/
def audit (device session launch : ℕ) (location : Option (List Char)) (records : List Link) : Res Bool := do
  let r ← deviceHash G C device session launch location
  match r with
  | (.success, some start) => walk G C start records
  | _ => .ok false

end EG.CCode
