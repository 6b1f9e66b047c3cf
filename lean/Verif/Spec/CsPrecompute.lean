import Verif.Model.CsPrecompute
import Verif.Props.Precompute

/-!
# C89: histories of background precomputation
-/

namespace EG.CsPre

/-- States of programs with one object, made when the buffers were in any state. -/
def Reachable (G : Params) (s : State) : Prop := ∃ buf es, (State.new buf).run G es = some s

/-- Neither a start nor a new object. -/
def Ev.quiet : Ev → Bool
  | .start _ _ | .other => false
  | _ => true

def Ev.isWorker : Ev → Bool
  | .worker _ _ => true
  | _ => false

def Ev.isStart : Ev → Bool
  | .start _ _ => true
  | _ => false

def Ev.isStop : Ev → Bool
  | .stop => true
  | _ => false

/-- Steps of the workers, of the user in a method, of `GetStatus`, and the taking of triples. -/
def Ev.harmless : Ev → Bool
  | .status | .user | .worker _ _ | .getTriple => true
  | _ => false

def Ev.keyIs (q K : ℕ) : Ev → Prop
  | .start pub _ => pub = K
  | .worker _ d => d.Below q
  | _ => True

end EG.CsPre
