import Verif.Model.PreRace

/-!
# Precompute buffers under concurrent calls: what is expected
-/

namespace EG.PreRace

/-- The operations done and what the threads got from them, in order. -/
def commits {T : Type} (ls : List (T × Lab)) : List (PreOp × PreOut) :=
  ls.filterMap fun x => match x.2 with
    | .commit op out => some (op, out)
    | _ => none

/-- The same for one thread. -/
def commitsOf {T : Type} [DecidableEq T] (t : T) (ls : List (T × Lab)) : List (PreOp × PreOut) :=
  commits (ls.filter fun x => x.1 = t)

/-- The calls made. -/
def calls {T : Type} (ls : List (T × Lab)) : List Call :=
  ls.filterMap fun x => match x.2 with
    | .call c => some c
    | _ => none

/-- The functions that access the members only under the lock. -/
def Call.underLock : Call → Bool
  | .init _ | .getQuad | .getTriple | .empty => true
  | _ => false

def Call.isPopulate : Call → Bool
  | .populate _ => true
  | _ => false

/-- The thread is about to access a member without the lock. -/
def Pc.unguarded : Pc → Bool
  | .condSize _ _ | .condMax _ _ _ | .stop | .size | .maxSize => true
  | _ => false

/-- Two states of the members agree on one of them. -/
def SameAt (σ τ : PreState) : Loc → Prop
  | .max => σ.max = τ.max
  | .populateOk => σ.populateOk = τ.populateOk
  | .triples => σ.triples = τ.triples
  | .quads => σ.quads = τ.quads

end EG.PreRace
