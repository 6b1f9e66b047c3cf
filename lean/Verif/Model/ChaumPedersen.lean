import Verif.Model.Precompute

/-!
# Chaum-Pedersen proofs (src/electionguard/chaum_pedersen.cpp)

Random exponents are parameters.  In the code the parameter called `q` is the header of the challenge
hash; it is `header` here.  The getters of the precomputed values return checked copies; as the
stored exponents are below `q` the copies are left out.
-/

namespace EG

/-- `DisjunctiveChaumPedersenProof::Impl` (chaum_pedersen.cpp:23-67). -/
structure DisjProof where
  zeroPad : ℕ
  zeroData : ℕ
  onePad : ℕ
  oneData : ℕ
  zeroChallenge : ℕ
  oneChallenge : ℕ
  challenge : ℕ
  zeroResponse : ℕ
  oneResponse : ℕ
  deriving DecidableEq

/-- The challenge of chaum_pedersen.cpp:232, 325, 362, 398, 428, 459, 496. -/
def disjChallenge (G : Params) (C : Crypto) (header : ℕ) (message : Ciphertext)
    (a0 b0 a1 b1 : ℕ) : ℕ :=
  hashElems G C [.q header, .p message.pad, .p message.data, .p a0, .p b0, .p a1, .p b1]

/-- chaum_pedersen.cpp:306-335 `make_zero` without seed. -/
def disjMakeZero (G : Params) (C : Crypto) (message : Ciphertext) (r k header u v w : ℕ) :
    Res DisjProof := do
  let a0 := gPowP G u
  let b0 := powModP G k u
  let a1 := gPowP G v
  let b1 := mulModP G (gPowP G w) (powModP G k v)
  let c := disjChallenge G C header message a0 b0 a1 b1
  let c0 := subModQ G c w
  let v0 ← aPlusBcModQ G u c0 r
  let v1 ← aPlusBcModQ G v w r
  .ok ⟨a0, b0, a1, b1, c0, w, c, v0, v1⟩

def disjHeader : List Char := "disjoint-chaum-pedersen-proof".toList

/-- chaum_pedersen.cpp:337-370 `make_zero` with seed. -/
def disjMakeZeroSeeded (G : Params) (C : Crypto) (message : Ciphertext) (r k header seed : ℕ) :
    Res DisjProof := do
  let nonces := Nonces.makeWith G C seed (.str disjHeader)
  let c1 := (nonces.get G C 0).1
  let v1 := (nonces.get G C 1).1
  let u0 := (nonces.get G C 2).1
  let a0 := gPowP G u0
  let b0 := powModP G k u0
  let qMinC1 := subFromQ G c1
  let a1 := mulModP G (gPowP G v1) (powModP G message.pad qMinC1)
  let b1 := mulModPVec G [.p (powModP G k v1), .p (gPowP G c1), .p (powModP G message.data qMinC1)]
  let c := disjChallenge G C header message a0 b0 a1 b1
  let c0 := subModQ G c c1
  let v0 ← aPlusBcModQ G u0 c0 r
  .ok ⟨a0, b0, a1, b1, c0, c1, c, v0, v1⟩

/-- chaum_pedersen.cpp:372-408 `make_zero_with_precomputed`. -/
def disjMakeZeroPrecomputed (G : Params) (C : Crypto) (message : Ciphertext) (t : TwoTriplesQuad)
    (header : ℕ) : Res DisjProof := do
  let r := t.triple1.exp
  let u := t.triple2.exp
  let v := t.quad.exp1
  let w := t.quad.exp2
  let a0 := t.triple2.gToExp
  let b0 := t.triple2.pubkeyToExp
  let a1 := t.quad.gToExp1
  let b1 := t.quad.gToExp2MulPubkeyToExp1
  let c := disjChallenge G C header message a0 b0 a1 b1
  let c0 := subModQ G c w
  let v0 ← aPlusBcModQ G u c0 r
  let v1 ← aPlusBcModQ G v w r
  .ok ⟨a0, b0, a1, b1, c0, w, c, v0, v1⟩

/-- chaum_pedersen.cpp:410-438 `make_one` without seed. -/
def disjMakeOne (G : Params) (C : Crypto) (message : Ciphertext) (r k header u v w : ℕ) :
    Res DisjProof := do
  let a0 := gPowP G v
  let b0 := mulModP G (gPowP G w) (powModP G k v)
  let a1 := gPowP G u
  let b1 := powModP G k u
  let c := disjChallenge G C header message a0 b0 a1 b1
  let c0 := subModQ G G.q w
  let c1 := addModQ G c w
  let v0 ← aPlusBcModQ G v c0 r
  let v1 ← aPlusBcModQ G u c1 r
  .ok ⟨a0, b0, a1, b1, c0, c1, c, v0, v1⟩

/-- chaum_pedersen.cpp:440-466 `make_one` with seed. -/
def disjMakeOneSeeded (G : Params) (C : Crypto) (message : Ciphertext) (r k header seed : ℕ) :
    Res DisjProof := do
  let nonces := Nonces.makeWith G C seed (.str disjHeader)
  let c0 := (nonces.get G C 0).1
  let v0 := (nonces.get G C 1).1
  let u1 := (nonces.get G C 2).1
  let qMinC0 := subFromQ G c0
  let a0 := mulModP G (gPowP G v0) (powModP G message.pad qMinC0)
  let b0 := mulModP G (powModP G k v0) (powModP G message.data qMinC0)
  let a1 := gPowP G u1
  let b1 := powModP G k u1
  let c := disjChallenge G C header message a0 b0 a1 b1
  let c1 := subModQ G c c0
  let v1 ← aPlusBcModQ G u1 c1 r
  .ok ⟨a0, b0, a1, b1, c0, c1, c, v0, v1⟩

/-- chaum_pedersen.cpp:468-506 `make_one_with_precomputed`. -/
def disjMakeOnePrecomputed (G : Params) (C : Crypto) (message : Ciphertext) (t : TwoTriplesQuad)
    (header : ℕ) : Res DisjProof := do
  let r := t.triple1.exp
  let u := t.triple2.exp
  let v := t.quad.exp1
  let w := t.quad.exp2
  let a0 := t.quad.gToExp1
  let b0 := t.quad.gToExp2MulPubkeyToExp1
  let a1 := t.triple2.gToExp
  let b1 := t.triple2.pubkeyToExp
  let c := disjChallenge G C header message a0 b0 a1 b1
  let c0 := subModQ G G.q w
  let c1 := addModQ G c w
  let v0 ← aPlusBcModQ G v c0 r
  let v1 ← aPlusBcModQ G u c1 r
  .ok ⟨a0, b0, a1, b1, c0, c1, c, v0, v1⟩

/-- chaum_pedersen.cpp:142-156 `make` without seed; `u v w` are the random numbers. -/
def disjMake (G : Params) (C : Crypto) (message : Ciphertext) (r k header plaintext u v w : ℕ) :
    Res DisjProof :=
  if plaintext > 1 then .throw .invalidArgument
  else if plaintext = 1 then disjMakeOne G C message r k header u v w
  else disjMakeZero G C message r k header u v w

/-- chaum_pedersen.cpp:158-172 `make` with seed. -/
def disjMakeSeeded (G : Params) (C : Crypto) (message : Ciphertext) (r k header seed plaintext : ℕ) :
    Res DisjProof :=
  if plaintext > 1 then .throw .invalidArgument
  else if plaintext = 1 then disjMakeOneSeeded G C message r k header seed
  else disjMakeZeroSeeded G C message r k header seed

/-- chaum_pedersen.cpp:174-193 `make_with_precomputed`. -/
def disjMakePrecomputed (G : Params) (C : Crypto) (message : Ciphertext) (t : TwoTriplesQuad)
    (header plaintext : ℕ) : Res DisjProof :=
  if plaintext > 1 then .throw .invalidArgument
  else if plaintext = 1 then disjMakeOnePrecomputed G C message t header
  else disjMakeZeroPrecomputed G C message t header

/-- chaum_pedersen.cpp:197-292 `isValid`. -/
def DisjProof.isValid (G : Params) (C : Crypto) (π : DisjProof) (message : Ciphertext)
    (k header : ℕ) : Bool :=
  let alpha := message.pad
  let beta := message.data
  let a0 := π.zeroPad
  let b0 := π.zeroData
  let a1 := π.onePad
  let b1 := π.oneData
  let c0 := π.zeroChallenge
  let c1 := π.oneChallenge
  let c := π.challenge
  let v0 := π.zeroResponse
  let v1 := π.oneResponse
  let consistentC := decide (addModQ G c0 c1 = c) &&
    decide (c = disjChallenge G C header message a0 b0 a1 b1)
  let consistentGv0 := decide (gPowP G v0 = mulModP G a0 (powModP G alpha c0))
  let consistentGv1 := decide (gPowP G v1 = mulModP G a1 (powModP G alpha c1))
  let consistentKv0 := decide (powModP G k v0 = mulModP G b0 (powModP G beta c0))
  let consistentGc1Kv1 :=
    decide (mulModP G (gPowP G c1) (powModP G k v1) = mulModP G b1 (powModP G beta c1))
  isValidResidue G alpha && isValidResidue G beta && isValidResidue G a0 && isValidResidue G b0 &&
    isValidResidue G a1 && isValidResidue G b1 && isInBoundsQ G c0 && isInBoundsQ G c1 &&
    isInBoundsQ G v0 && isInBoundsQ G v1 && consistentC && consistentGv0 && consistentGv1 &&
    consistentKv0 && consistentGc1Kv1

/-- chaum_pedersen.cpp:294-302 `clone`.  Clones of `ElementModP` are unchecked, clones of
`ElementModQ` checked (group.cpp:241-244, 414-417). -/
def DisjProof.clone (G : Params) (π : DisjProof) : Res DisjProof := do
  let c0 ← cloneQ G π.zeroChallenge
  let c1 ← cloneQ G π.oneChallenge
  let c ← cloneQ G π.challenge
  let v0 ← cloneQ G π.zeroResponse
  let v1 ← cloneQ G π.oneResponse
  .ok ⟨π.zeroPad, π.zeroData, π.onePad, π.onePad, c0, c1, c, v0, v1⟩

/-- chaum_pedersen.cpp:50-66, 71-75: the copy constructor. -/
def DisjProof.copy (π : DisjProof) : DisjProof :=
  ⟨π.zeroPad, π.zeroData, π.onePad, π.oneData, π.zeroChallenge, π.oneChallenge, π.challenge,
    π.zeroResponse, π.oneResponse⟩

/-- `ConstantChaumPedersenProof::Impl` (chaum_pedersen.cpp:512-536). -/
structure ConstProof where
  pad : ℕ
  data : ℕ
  challenge : ℕ
  response : ℕ
  constant : ℕ
  deriving DecidableEq

/-- The challenge of chaum_pedersen.cpp:605, 641. -/
def constChallenge (G : Params) (C : Crypto) (header : ℕ) (message : Ciphertext) (a b : ℕ) : ℕ :=
  hashElems G C [.q header, .p message.pad, .p message.data, .p a, .p b]

def constHeader : List Char := "constant-chaum-pedersen-proof".toList

/-- chaum_pedersen.cpp:575-610 `ConstantChaumPedersenProof::make`; `triple` is what
`PrecomputeBufferContext::getTriple` returned. -/
def constMake (G : Params) (C : Crypto) (triple : Option Triple) (message : Ciphertext)
    (r k seed header constant : ℕ) : Res ConstProof := do
  let nonces := Nonces.makeWith G C seed (.str constHeader)
  let u := triple.elim (nonces.get G C 0).1 Triple.exp
  let a := triple.elim (gPowP G u) Triple.gToExp
  let b := triple.elim (powModP G k u) Triple.pubkeyToExp
  let c := constChallenge G C header message a b
  let v ← aPlusBcModQ G u c r
  .ok ⟨a, b, c, v, constant⟩

/-- chaum_pedersen.cpp:614-678 `ConstantChaumPedersenProof::isValid`. -/
def ConstProof.isValid (G : Params) (C : Crypto) (π : ConstProof) (message : Ciphertext)
    (k header : ℕ) : Res Bool := do
  let alpha := message.pad
  let beta := message.data
  let a := π.pad
  let b := π.data
  let c := π.challenge
  let v := π.response
  let constantQ ← fromUint64Q G false π.constant
  let consistentC := decide (c = constChallenge G C header message a b)
  let consistentGv := decide (gPowP G v = mulModP G a (powModP G alpha c))
  let consistentKv := decide (mulModP G (powModPP G G.g (mulModPVec G [.q c, .q constantQ]))
    (powModP G k v) = mulModP G b (powModP G beta c))
  .ok (isValidResidue G alpha && isValidResidue G beta && isValidResidue G a &&
    isValidResidue G b && isInBoundsQ G c && isInBoundsQ G v && consistentC && consistentGv &&
    consistentKv)

end EG
