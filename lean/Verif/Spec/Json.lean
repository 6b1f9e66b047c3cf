import Verif.Model.Json

/-!
# Documents that have a text

The keys of an object are strictly increasing, as in a `std::map`, and numbers are integers that fit in 64
bits.
-/

namespace EG

mutual

/-- A document as the library can hold it. -/
def Json.WF : Json → Prop
  | .num n => n < 2 ^ 64
  | .int n => 0 < n ∧ n ≤ 2 ^ 63
  | .float _ => False
  | .arr l => wfArr l
  | .obj m => (m.map (·.1)).Pairwise (· < ·) ∧ wfMembers m
  | _ => True

/-- Every element. -/
def wfArr : List Json → Prop
  | [] => True
  | x :: rest => x.WF ∧ wfArr rest

/-- Every member. -/
def wfMembers : List (Str × Json) → Prop
  | [] => True
  | (_, x) :: rest => x.WF ∧ wfMembers rest

end

end EG
