import Verif.Model.ElGamal

/-!
# Precompute buffers (src/electionguard/precompute_buffers.cpp)

The exponents drawn by `rand_q` are parameters.  Every operation that takes `queue_lock` is one
atomic step; `populate` is a sequence of such steps (one per loop iteration), so other operations may
come between its iterations.  `stop_populate` and the loop condition access the context without the
lock; the model treats these accesses as atomic; Model/PreRace.lean has the single accesses.
-/

namespace EG

/-- `Triple`. -/
structure Triple where
  exp : ℕ
  gToExp : ℕ
  pubkeyToExp : ℕ
  deriving DecidableEq

/-- precompute_buffers.cpp:64-70 `generateTriple`. -/
def genTriple (G : Params) (pub exp : ℕ) : Triple :=
  { exp := exp, gToExp := gPowP G exp, pubkeyToExp := powModP G pub exp }

/-- `Quadruple`. -/
structure Quadruple where
  exp1 : ℕ
  exp2 : ℕ
  gToExp1 : ℕ
  gToExp2MulPubkeyToExp1 : ℕ
  deriving DecidableEq

/-- precompute_buffers.cpp:125-132 `generateQuadruple`. -/
def genQuadruple (G : Params) (pub exp1 exp2 : ℕ) : Quadruple :=
  { exp1 := exp1, exp2 := exp2, gToExp1 := gPowP G exp1,
    gToExp2MulPubkeyToExp1 := mulModP G (gPowP G exp2) (powModP G pub exp1) }

/-- `TwoTriplesAndAQuadruple`. -/
structure TwoTriplesQuad where
  triple1 : Triple
  triple2 : Triple
  quad : Quadruple
  deriving DecidableEq

/-- The state of the singleton (precompute_buffers.hpp: `max`, `populate_OK` and the two queues). -/
structure PreState where
  max : ℕ
  populateOk : Bool
  triples : List Triple
  quads : List TwoTriplesQuad

/-- `DEFAULT_PRECOMPUTE_SIZE` (constants.h). -/
def defaultPrecomputeSize : ℕ := 5000

/-- The initial state of the singleton. -/
def PreState.initial : PreState :=
  { max := defaultPrecomputeSize, populateOk := false, triples := [], quads := [] }

/-- precompute_buffers.cpp:188-199 `init`. -/
def PreState.init (s : PreState) (size : ℕ) : PreState :=
  { s with populateOk := true, max := if size ≠ 0 then size else defaultPrecomputeSize }

/-- The exponents drawn in one iteration of `populate`, in program order. -/
structure Draws where
  t1 : ℕ
  t2 : ℕ
  q1 : ℕ
  q2 : ℕ
  c1 : ℕ
  c2 : ℕ

/-- precompute_buffers.cpp:211-245: the locked body of the loop of `populate` when `populate_OK` is
set; `it` is `iteration_count`. -/
def PreState.iterate (G : Params) (pub : ℕ) (s : PreState) (it : ℕ) (d : Draws) : PreState :=
  let ttq : TwoTriplesQuad :=
    { triple1 := genTriple G pub d.t1, triple2 := genTriple G pub d.t2,
      quad := genQuadruple G pub d.q1 d.q2 }
  { s with
    quads := s.quads ++ [ttq]
    triples := if it % 3 = 0 then s.triples ++ [genTriple G pub d.c1] ++ [genTriple G pub d.c2]
      else s.triples }

/-- precompute_buffers.cpp:201-248 `populate`, run without interruption.  `iteration_count` is an
`int`: incrementing it beyond `2^31-1` is undefined behaviour. -/
def PreState.populateLoop (G : Params) (pub : ℕ) (draws : ℕ → Draws) (it : ℕ) (s : PreState) :
    Res PreState :=
  if s.populateOk then
    if it + 1 = 2 ^ 31 then .ub
    else if (s.iterate G pub it (draws it)).quads.length < (s.iterate G pub it (draws it)).max then
      PreState.populateLoop G pub draws (it + 1) (s.iterate G pub it (draws it))
    else .ok (s.iterate G pub it (draws it))
  else .ok s
termination_by s.max - s.quads.length
decreasing_by
  rename_i h
  simp only [PreState.iterate, List.length_append, List.length_singleton] at h ⊢
  omega

def PreState.populate (G : Params) (pub : ℕ) (draws : ℕ → Draws) (s : PreState) : Res PreState :=
  PreState.populateLoop G pub draws 0 s

/-- precompute_buffers.cpp:250 `stop_populate`. -/
def PreState.stop (s : PreState) : PreState := { s with populateOk := false }

/-- precompute_buffers.cpp:259-273 `getTwoTriplesAndAQuadruple`. -/
def PreState.getQuad (s : PreState) : Option TwoTriplesQuad × PreState :=
  match s.quads with
  | [] => (none, s)
  | x :: xs => (some x, { s with quads := xs })

/-- precompute_buffers.cpp:275-289 `getTriple`. -/
def PreState.getTriple (s : PreState) : Option Triple × PreState :=
  match s.triples with
  | [] => (none, s)
  | x :: xs => (some x, { s with triples := xs })

/-- The number of pops of the loops of precompute_buffers.cpp:294-301: the size goes through a
`uint32_t` and a cast to `int`. -/
def popCount (size : ℕ) : ℕ := if size % 2 ^ 32 < 2 ^ 31 then size % 2 ^ 32 else 0

/-- precompute_buffers.cpp:291-302 `empty_queues`. -/
def PreState.empty (s : PreState) : PreState :=
  { s with triples := s.triples.drop (popCount s.triples.length)
           quads := s.quads.drop (popCount s.quads.length) }

end EG
