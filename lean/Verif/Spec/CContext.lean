import Verif.Model.CContext

/-!
# What a program in C# sees of an election context
-/

namespace EG.CContext

/-- What the properties of C# show of a context. -/
structure Shows (c : FullContext) (pub commitment manifest base ext : ℕ) (allow : Bool) (max : ℕ) : Prop where
  pub : elGamalPublicKey (some (some c)) = .ok pub
  commitment : commitmentHash (some (some c)) = .ok commitment
  manifest : manifestHash (some (some c)) = .ok manifest
  base : cryptoBaseHash (some (some c)) = .ok base
  ext : cryptoExtendedBaseHash (some (some c)) = .ok ext
  config : ∃ f, configuration (some (some c)) = .ok f ∧ allowedOverVotes (some (some f)) = .ok allow ∧
    maxBallots (some (some f)) = .ok max

end EG.CContext
