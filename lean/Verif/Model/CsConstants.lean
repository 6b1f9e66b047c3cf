import Verif.Model.CsImports

/-!
# The C# bindings: constants of the group

Source: `bindings/netstandard/ElectionGuard/ElectionGuard.Encryption/Group.cs` (245-402), class
`Constants`; `facades/group.cpp` (218-278).
-/

namespace EG.Cs

/-- Group.cs: property of `Constants`, with the method of `NativeInterface.Constants` in its body. -/
def constants : List (String × String) :=
  [("G", "Constants.G"),                      -- 256
   ("P", "Constants.P"),                      -- 272
   ("R", "Constants.R"),                      -- 288
   ("ZERO_MOD_P", "Constants.ZERO_MOD_P"),    -- 304
   ("ONE_MOD_P", "Constants.ZERO_MOD_P"),     -- 320
   ("TWO_MOD_P", "Constants.ZERO_MOD_P"),     -- 336
   ("Q", "Constants.Q"),                      -- 352
   ("ZERO_MOD_Q", "Constants.ZERO_MOD_Q"),    -- 368
   ("ONE_MOD_Q", "Constants.ONE_MOD_Q"),      -- 384
   ("TWO_MOD_Q", "Constants.TWO_MOD_Q")]      -- 400

/-- The function of the library behind a method: its entry point. -/
def entryOf (m : String) : Option String := (imports.find? (·.method == m)).map (·.entry)

/-- facades/group.cpp (218-278): value of the object that the function returns a pointer to. -/
def cConstant (g p r q : Nat) : String → Option Nat
  | "eg_element_mod_p_constant_g" => some g
  | "eg_element_mod_p_constant_p" => some p
  | "eg_element_mod_p_constant_r" => some r
  | "eg_element_mod_p_constant_zero_mod_p" => some 0
  | "eg_element_mod_p_constant_one_mod_p" => some 1
  | "eg_element_mod_p_constant_two_mod_p" => some 2
  | "eg_element_mod_q_constant_q" => some q
  | "eg_element_mod_q_constant_zero_mod_q" => some 0
  | "eg_element_mod_q_constant_one_mod_q" => some 1
  | "eg_element_mod_q_constant_two_mod_q" => some 2
  | _ => none

/-- What a property of `Constants` returns. -/
def constant (g p r q : Nat) (n : String) : Option Nat := do
  let m ← constants.lookup n
  cConstant g p r q (← entryOf m)

end EG.Cs
