import Verif.Model.Precompute

/-!
# Histories of the precompute buffers
-/

namespace EG

variable (G : Params)

/-- One atomic operation on the buffers.  `iterate` is one iteration of any running `populate`. -/
inductive PreOp where
  | init (size : ℕ)
  | iterate (pub it : ℕ) (d : Draws)
  | stop
  | getQuad
  | getTriple
  | empty

/-- What an operation hands out. -/
structure PreOut where
  triple : Option Triple := none
  quad : Option TwoTriplesQuad := none

def PreState.step (s : PreState) : PreOp → PreOut × PreState
  | .init n => ({}, s.init n)
  | .iterate pub it d => ({}, if s.populateOk then s.iterate G pub it d else s)
  | .stop => ({}, s.stop)
  | .getQuad => ({ quad := s.getQuad.1 }, s.getQuad.2)
  | .getTriple => ({ triple := s.getTriple.1 }, s.getTriple.2)
  | .empty => ({}, s.empty)

/-- Any history: the outputs in order and the final state. -/
def PreState.run (s : PreState) : List PreOp → List PreOut × PreState
  | [] => ([], s)
  | op :: ops =>
    let r := s.step G op
    let rest := PreState.run r.2 ops
    (r.1 :: rest.1, rest.2)

end EG
