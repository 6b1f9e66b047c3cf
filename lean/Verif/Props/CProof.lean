import Verif.Model.CProof
import Verif.Props.ChaumPedersen
import Mathlib.FieldTheory.Finite.Basic

/-!
# C131: Chaum-Pedersen proofs through C and C#

Proofs made and checked through the C functions and the classes of C# are those of the library, and whoever reads the
properties of a disjunctive proof can check it.  What goes wrong: a plaintext above 1 is reported as lack of memory; the
constant a constant proof is for cannot be read; and whoever calls the constructor of the constant proof as its
documentation says gives the nonce of the ciphertext away.
-/

namespace EG.CProof

open EG.CText (Status)
open EG.CGroup (Out caught deref Cs throwIfError call)

variable (G : Params) (C : Crypto)

/-- C131: with objects, the constructors of C# make a proof that is accepted exactly if the plaintext is the one given
(unless a challenge or response is zero by chance), for the ciphertext, the key and the header given. -/
theorem C131_make (hG : G.Valid) (K x n h seed : ℕ) (t : UInt64) (m : Ciphertext) (hK : Residue G K)
    (hm : IsEncryption G K x n m) (hn : n < 2 ^ 256) (ht : t.toNat < 2) (u v w : ℕ) (hu : u < G.q) (hv : v < G.q)
    (hw : w < G.q) :
    ∃ π π', csDisjNew G C (some (some m)) (some (some n)) (some (some K)) (some (some h)) t u v w = .ok π ∧
      csDisjNewSeeded G C (some (some m)) (some (some n)) (some (some K)) (some (some h)) (some (some seed)) t = .ok π' ∧
      ∀ ρ, ρ = π ∨ ρ = π' →
        (csDisjValid G C (some ρ) (some (some m)) (some (some K)) (some (some h)) = .ok true ↔ x % G.q = t.toNat ∧
          ρ.zeroChallenge ≠ 0 ∧ ρ.oneChallenge ≠ 0 ∧ ρ.zeroResponse ≠ 0 ∧ ρ.oneResponse ≠ 0) := by
  obtain ⟨π, e, g⟩ := C19_randomised G C hG K x n h t.toNat u v w m hK hm hn ht hu hv hw
  obtain ⟨π', e', g'⟩ := C19_seeded G C hG K x n h t.toNat seed m hK hm hn ht
  refine ⟨π, π', ?_, ?_, ?_⟩
  · show call throwIfError (caught .badAlloc (disjMake G C m n K h t.toNat u v w)) = _
    rw [e]
    rfl
  · show call throwIfError (caught .badAlloc (disjMakeSeeded G C m n K h seed t.toNat)) = _
    rw [e']
    rfl
  · have key : ∀ ρ, GoodProver G C K x t.toNat m h ρ →
        (csDisjValid G C (some ρ) (some (some m)) (some (some K)) (some (some h)) = .ok true ↔ x % G.q = t.toNat ∧
          ρ.zeroChallenge ≠ 0 ∧ ρ.oneChallenge ≠ 0 ∧ ρ.zeroResponse ≠ 0 ∧ ρ.oneResponse ≠ 0) := by
      intro ρ hρ
      show Cs.ok (ρ.isValid G C m K h) = .ok true ↔ _
      rw [Cs.ok.injEq]
      by_cases hx : x % G.q = t.toNat
      · have := hρ.1 hx
        rw [AcceptedUnlessZero] at this
        rw [this]
        simp [hx]
      · rw [hρ.2.1 hx]
        simp [hx]
    rintro ρ (rfl | rfl)
    · exact key _ g
    · exact key _ g'

/-- C131: a plaintext above 1 is refused, but as lack of memory. -/
theorem C131_plaintext_violated (m : Ciphertext) (r k q seed u v w : ℕ) (t : UInt64) (ht : 1 < t.toNat) :
    disjNew G C (some m) (some r) (some k) (some q) t u v w = .ok (.badAlloc, none) ∧
    disjNewSeeded G C (some m) (some r) (some k) (some q) (some seed) t = .ok (.badAlloc, none) ∧
    csDisjNew G C (some (some m)) (some (some r)) (some (some k)) (some (some q)) t u v w = .throw .outOfMemory ∧
    csDisjNewSeeded G C (some (some m)) (some (some r)) (some (some k)) (some (some q)) (some (some seed)) t =
      .throw .outOfMemory := by
  have e1 : disjMake G C m r k q t.toNat u v w = .throw .invalidArgument := by simp [disjMake, ht]
  have e2 : disjMakeSeeded G C m r k q seed t.toNat = .throw .invalidArgument := by simp [disjMakeSeeded, ht]
  have c1 : disjNew G C (some m) (some r) (some k) (some q) t u v w = .ok (.badAlloc, none) := by
    show caught .badAlloc (disjMake G C m r k q t.toNat u v w) = _
    rw [e1]
    rfl
  have c2 : disjNewSeeded G C (some m) (some r) (some k) (some q) (some seed) t = .ok (.badAlloc, none) := by
    show caught .badAlloc (disjMakeSeeded G C m r k q seed t.toNat) = _
    rw [e2]
    rfl
  refine ⟨c1, c2, ?_, ?_⟩
  · show call throwIfError (disjNew G C (some m) (some r) (some k) (some q) t u v w) = _
    rw [c1]
    rfl
  · show call throwIfError (disjNewSeeded G C (some m) (some r) (some k) (some q) (some seed) t) = _
    rw [c2]
    rfl

/-- C131: `IsValid` of C# says of a disjunctive proof what anyone finds who reads its nine properties and checks the
equations of the specification. -/
theorem C131_properties (hG : G.Valid) (π : DisjProof) (hπ : π.Typed) (m : Ciphertext) (hp : m.pad < 2 ^ 4096)
    (hd : m.data < 2 ^ 4096) (K h : ℕ) (hK : K < 2 ^ 4096) :
    ∃ a0 b0 a1 b1 c0 c1 c v0 v1, property getZeroPad (some π) = .ok a0 ∧ property getZeroData (some π) = .ok b0 ∧
      property getOnePad (some π) = .ok a1 ∧ property getOneData (some π) = .ok b1 ∧
      property getZeroChallenge (some π) = .ok c0 ∧ property getOneChallenge (some π) = .ok c1 ∧
      property getChallenge (some π) = .ok c ∧ property getZeroResponse (some π) = .ok v0 ∧
      property getOneResponse (some π) = .ok v1 ∧
      (csDisjValid G C (some π) (some (some m)) (some (some K)) (some (some h)) = .ok true ↔
        DisjSpec G (hashElems G C [.q h, .p m.pad, .p m.data, .p a0, .p b0, .p a1, .p b1]) K m.pad m.data
          a0 b0 a1 b1 c0 c1 c v0 v1) := by
  refine ⟨_, _, _, _, _, _, _, _, _, rfl, rfl, rfl, rfl, rfl, rfl, rfl, rfl, rfl, ?_⟩
  rw [← C23_disjunctive_iff G C hG π hπ m hp hd K h hK]
  show Cs.ok (π.isValid G C m K h) = .ok true ↔ _
  rw [Cs.ok.injEq]

/-- C131: what is missing.  In C the functions that make proofs report an invalid argument if any pointer is null, and
those that check say no; checking a constant proof never throws.  In C# every missing object is an exception.  But in C
the parts of a proof that is not there are undefined. -/
theorem C131_missing (hL : G.Large) (triple : Option Triple) (m : Option Ciphertext) (r k q seed : Option ℕ)
    (t : UInt64) (u v w : ℕ) (d : Option DisjProof) (c : Option ConstProof) :
    (m = none ∨ r = none ∨ k = none ∨ q = none → disjNew G C m r k q t u v w = .ok (.invalidArgument, none)) ∧
    (m = none ∨ r = none ∨ k = none ∨ q = none ∨ seed = none →
      disjNewSeeded G C m r k q seed t = .ok (.invalidArgument, none) ∧
      constNew G C triple m r k seed q t = .ok (.invalidArgument, none)) ∧
    (d = none ∨ m = none ∨ k = none ∨ q = none → disjValid G C d m k q = .ok false) ∧
    (c = none ∨ m = none ∨ k = none ∨ q = none → constValid G C c m k q = .ok false) ∧
    ((∀ π ∈ c, π.Typed) → ∃ b, constValid G C c m k q = .ok b) ∧
    getChallenge none = .ub ∧ getConstChallenge none = .ub ∧ property getChallenge none = .throw .argumentNull := by
  refine ⟨?_, ?_, ?_, ?_, ?_, rfl, rfl, rfl⟩
  · rcases m with _ | m <;> rcases r with _ | r <;> rcases k with _ | k <;> rcases q with _ | q <;>
      simp [disjNew]
  · rcases m with _ | m <;> rcases r with _ | r <;> rcases k with _ | k <;> rcases q with _ | q <;>
      rcases seed with _ | seed <;> simp [disjNewSeeded, constNew]
  · rcases d with _ | d <;> rcases m with _ | m <;> rcases k with _ | k <;> rcases q with _ | q <;>
      simp [disjValid]
  · rcases c with _ | c <;> rcases m with _ | m <;> rcases k with _ | k <;> rcases q with _ | q <;>
      simp [constValid]
  · intro hT
    rcases c with _ | c
    · exact ⟨false, by simp [constValid]⟩
    rcases m with _ | m
    · exact ⟨false, by simp [constValid]⟩
    rcases k with _ | k
    · exact ⟨false, by simp [constValid]⟩
    rcases q with _ | q
    · exact ⟨false, by simp [constValid]⟩
    have hc := (hT c rfl).co
    have e : fromUint64Q G false c.constant = .ok c.constant := by
      rw [(C07_uint64 G c.constant hc).2, if_pos (le_trans (le_of_lt hc) hL.q_ge)]
    show ∃ b, c.isValid G C m k q = .ok b
    simp only [ConstProof.isValid, e, Res.bind_ok]
    exact ⟨_, rfl⟩

/-- C131: in C# a null reference and a disposed object are exceptions, whatever else is passed, for the constructors and
for `IsValid`. -/
theorem C131_cs_missing (triple : Option Triple) (m : Option (Option Ciphertext)) (r k q seed : Option (Option ℕ))
    (t : UInt64) (u v w : ℕ) (d : Option DisjProof) (c : Option ConstProof) :
    (m = none ∨ r = none ∨ k = none ∨ q = none → csDisjNew G C m r k q t u v w = .throw .nullReference) ∧
    (m = none ∨ r = none ∨ k = none ∨ q = none ∨ seed = none →
      csDisjNewSeeded G C m r k q seed t = .throw .nullReference ∧
      csConstNew G C triple m r k seed q t = .throw .nullReference) ∧
    (m = none ∨ k = none ∨ q = none →
      csDisjValid G C d m k q = .throw .nullReference ∧ csConstValid G C c m k q = .throw .nullReference) ∧
    (¬(m = none ∨ r = none ∨ k = none ∨ q = none) → (m = some none ∨ r = some none ∨ k = some none ∨ q = some none) →
      csDisjNew G C m r k q t u v w = .throw .argumentNull) ∧
    (¬(m = none ∨ r = none ∨ k = none ∨ q = none ∨ seed = none) →
      (m = some none ∨ r = some none ∨ k = some none ∨ q = some none ∨ seed = some none) →
      csDisjNewSeeded G C m r k q seed t = .throw .argumentNull ∧
      csConstNew G C triple m r k seed q t = .throw .argumentNull) ∧
    (¬(m = none ∨ k = none ∨ q = none) → (m = some none ∨ k = some none ∨ q = some none) →
      csDisjValid G C d m k q = .throw .argumentNull ∧ csConstValid G C c m k q = .throw .argumentNull) ∧
    (¬(m = none ∨ k = none ∨ q = none) →
      csDisjValid G C none m k q = .throw .argumentNull ∧ csConstValid G C none m k q = .throw .argumentNull) := by
  refine ⟨?_, ?_, ?_, ?_, ?_, ?_, ?_⟩
  · rcases m with _ | m <;> rcases r with _ | r <;> rcases k with _ | k <;> rcases q with _ | q <;>
      first | (intro h; simp at h; done) | exact fun _ => rfl
  · rcases m with _ | m <;> rcases r with _ | r <;> rcases k with _ | k <;> rcases q with _ | q <;>
      rcases seed with _ | seed <;> first | (intro h; simp at h; done) | exact fun _ => ⟨rfl, rfl⟩
  · rcases m with _ | m <;> rcases k with _ | k <;> rcases q with _ | q <;>
      first | (intro h; simp at h; done) | exact fun _ => ⟨rfl, rfl⟩
  · intro h1
    rcases m with _ | m <;> rcases r with _ | r <;> rcases k with _ | k <;> rcases q with _ | q <;>
      first | (refine absurd ?_ h1; simp; done) | skip
    rcases m with _ | m <;> rcases r with _ | r <;> rcases k with _ | k <;> rcases q with _ | q <;>
      first | (intro h; simp at h; done) | exact fun _ => rfl
  · intro h1
    rcases m with _ | m <;> rcases r with _ | r <;> rcases k with _ | k <;> rcases q with _ | q <;>
      rcases seed with _ | seed <;> first | (refine absurd ?_ h1; simp; done) | skip
    rcases m with _ | m <;> rcases r with _ | r <;> rcases k with _ | k <;> rcases q with _ | q <;>
      rcases seed with _ | seed <;> first | (intro h; simp at h; done) | exact fun _ => ⟨rfl, rfl⟩
  · intro h1
    rcases m with _ | m <;> rcases k with _ | k <;> rcases q with _ | q <;>
      first | (refine absurd ?_ h1; simp; done) | skip
    rcases d with _ | d <;> rcases c with _ | c <;> rcases m with _ | m <;> rcases k with _ | k <;>
      rcases q with _ | q <;> first | (intro h; simp at h; done) | exact fun _ => ⟨rfl, rfl⟩
  · intro h1
    rcases m with _ | m <;> rcases k with _ | k <;> rcases q with _ | q <;>
      first | (refine absurd ?_ h1; simp; done) | exact ⟨rfl, rfl⟩

/-- C131: the same for constant proofs, with the constant, which no property shows. -/
theorem C131_constant_properties (hG : G.Valid) (hL : G.Large) (π : ConstProof) (hπ : π.Typed) (m : Ciphertext)
    (hp : m.pad < 2 ^ 4096) (hd : m.data < 2 ^ 4096) (K h : ℕ) (hK : K < 2 ^ 4096) :
    ∃ a b c v, property getPad (some π) = .ok a ∧ property getData (some π) = .ok b ∧
      property getConstChallenge (some π) = .ok c ∧ property getResponse (some π) = .ok v ∧
      (csConstValid G C (some π) (some (some m)) (some (some K)) (some (some h)) = .ok true ↔
        ConstSpec G (hashElems G C [.q h, .p m.pad, .p m.data, .p a, .p b]) K m.pad m.data a b c v π.constant) := by
  refine ⟨_, _, _, _, rfl, rfl, rfl, rfl, ?_⟩
  obtain ⟨b, hb, hs⟩ := C23_constant_iff G C hG hL π hπ m hp hd K h hK
  rw [← hs]
  show callBool (π.isValid G C m K h) = .ok true ↔ _
  rw [hb]
  simp [callBool]

/-- C131: the constant of a constant proof cannot be read.  An accepted proof shows the same four properties as one for
any other constant, which is rejected: from what C# shows nobody can tell what has been proved. -/
theorem C131_constant_violated (hG : G.Valid) (hL : G.Large) (π : ConstProof) (hπ : π.Typed) (m : Ciphertext)
    (hp : m.pad < 2 ^ 4096) (hd : m.data < 2 ^ 4096) (K h : ℕ) (hK : K < 2 ^ 4096)
    (hv : csConstValid G C (some π) (some (some m)) (some (some K)) (some (some h)) = .ok true) (L : ℕ)
    (hL64 : L < 2 ^ 64) (hne : L ≠ π.constant) :
    ∃ π' : ConstProof, π'.constant = L ∧ property getPad (some π') = property getPad (some π) ∧
      property getData (some π') = property getData (some π) ∧
      property getConstChallenge (some π') = property getConstChallenge (some π) ∧
      property getResponse (some π') = property getResponse (some π) ∧
      csConstValid G C (some π') (some (some m)) (some (some K)) (some (some h)) = .ok false := by
  have hT : ({ π with constant := L } : ConstProof).Typed := ⟨hπ.pad, hπ.data, hπ.ch, hπ.re, hL64⟩
  refine ⟨{ π with constant := L }, rfl, rfl, rfl, rfl, rfl, ?_⟩
  have e : ∀ ρ : ConstProof, csConstValid G C (some ρ) (some (some m)) (some (some K)) (some (some h)) =
      callBool (ρ.isValid G C m K h) := fun _ => rfl
  rw [e] at hv ⊢
  obtain ⟨b, hb, -⟩ := C23_constant_iff G C hG hL _ hT m hp hd K h hK
  obtain ⟨b', hb', -⟩ := C23_constant_iff G C hG hL π hπ m hp hd K h hK
  rw [hb'] at hv
  have hbt : b' = true := by simpa [callBool] using hv
  subst hbt
  rw [hb]
  cases b with
  | false => rfl
  | true =>
    have := C23_constant_unique G C hG hL _ π hT hπ m hp hd K h hK hb hb' rfl rfl
    exact absurd (congrArg ConstProof.constant this) hne

/-- With parameters in the order the code uses them (first the seed, then the header of the challenge), the
constructor makes a proof that is accepted for the header exactly if the ciphertext is of the constant, unless
challenge or response are zero. -/
theorem C131_constant (hG : G.Valid) (hL : G.Large) (triple : Option Triple) (K x n h seed : ℕ) (L : UInt64)
    (m : Ciphertext) (hK : Residue G K) (hm : IsEncryption G K x n m) (hn : n < 2 ^ 256)
    (ht : ∀ t ∈ triple, t.ForKey G K) :
    ∃ π, csConstNew G C triple (some (some m)) (some (some n)) (some (some K)) (some (some seed)) (some (some h)) L =
        .ok π ∧
      (csConstValid G C (some π) (some (some m)) (some (some K)) (some (some h)) = .ok true ↔
        x % G.q = L.toNat ∧ π.challenge ≠ 0 ∧ π.response ≠ 0) := by
  obtain ⟨π, e, g⟩ := C21_completeness G C hG hL triple K x n h L.toNat seed m hK hm hn L.toNat_lt ht
  refine ⟨π, ?_, ?_⟩
  · show call throwIfError (caught .badAlloc (constMake G C triple m n K seed h L.toNat)) = _
    rw [e]
    rfl
  · show callBool (π.isValid G C m K h) = .ok true ↔ _
    by_cases hx : x % G.q = L.toNat
    · have h1 := g.1 hx
      constructor
      · intro hb
        refine ⟨hx, h1.1 ?_⟩
        cases hr : π.isValid G C m K h with
        | ok b => rw [hr] at hb; exact congrArg Res.ok (by simpa [callBool] using hb)
        | throw e => rw [hr] at hb; simp [callBool] at hb
        | ub => rw [hr] at hb; simp [callBool] at hb
      · rintro ⟨-, hc⟩
        rw [h1.2 hc]
        rfl
    · rw [g.2.1 hx]
      simp [callBool, hx]

/-- The nonce, computed from the seed of the random number and the challenge and response of a proof. -/
def recover (seed c v : ℕ) : ℕ :=
  let u := ((Nonces.makeWith G C seed (.str "constant-chaum-pedersen-proof".toList)).get G C 0).1
  ((v + G.q - u) * c ^ (G.q - 2)) % G.q

/-- C131: chaum_pedersen.hpp:237-239 and ChaumPedersen.cs:317-319 describe `seed` as the value for the challenge,
usually the extended base hash, and `hashHeader` as what the random values are generated from.  It is the other way
round.  Whoever follows the description, without precomputed values, publishes the nonce of the ciphertext: it is
computed from the extended base hash and two properties of the proof.  The proof is accepted for the extended base hash
only if the hash function gives the same value for both. -/
theorem C131_documentation_violated (hG : G.Valid) (hL : G.Large) (m : Ciphertext) (hp : m.pad < 2 ^ 4096)
    (hd : m.data < 2 ^ 4096) (K n baseHash secret : ℕ) (hK : K < 2 ^ 4096) (hn : n < 2 ^ 256) (L : UInt64) :
    ∃ π c v, csConstNew G C none (some (some m)) (some (some n)) (some (some K)) (some (some baseHash))
        (some (some secret)) L = .ok π ∧
      property getConstChallenge (some π) = .ok c ∧ property getResponse (some π) = .ok v ∧
      (c ≠ 0 → recover G C baseHash c v = n % G.q) ∧
      (csConstValid G C (some π) (some (some m)) (some (some K)) (some (some baseHash)) = .ok true →
        hashElems G C [.q secret, .p m.pad, .p m.data, .p π.pad, .p π.data] =
          hashElems G C [.q baseHash, .p m.pad, .p m.data, .p π.pad, .p π.data]) := by
  have hq := hG.q_lt
  have hq0 : 0 < G.q := by have := hG.q_gt; omega
  have lu := nonce_lt (C := C) hG (Nonces.makeWith G C baseHash (.str constHeader)) 0
  obtain ⟨u, hu⟩ : ∃ u, u = ((Nonces.makeWith G C baseHash (.str constHeader)).get G C 0).1 := ⟨_, rfl⟩
  rw [← hu] at lu
  obtain ⟨c, hc⟩ : ∃ c, c = constChallenge G C secret m (gPowP G u) (powModP G K u) := ⟨_, rfl⟩
  have lc : c < G.q := hc ▸ hashElems_lt hG _
  have hmk : constMake G C none m n K baseHash secret L.toNat =
      .ok ⟨gPowP G u, powModP G K u, c, (u + c * n) % G.q, L.toNat⟩ := by
    simp only [constMake, Option.elim, ← hu, ← hc]
    rw [aPlusBc_eq hG _ _ _ (lt_trans lu hq) (lt_trans lc hq) hn]
    rfl
  refine ⟨⟨gPowP G u, powModP G K u, c, (u + c * n) % G.q, L.toNat⟩, c, (u + c * n) % G.q, ?_, rfl, rfl, ?_, ?_⟩
  · show call throwIfError (caught .badAlloc (constMake G C none m n K baseHash secret L.toNat)) = _
    rw [hmk]
    rfl
  · intro hc0
    have : Fact G.q.Prime := ⟨hG.q_prime⟩
    have hcz : (c : ZMod G.q) ≠ 0 := by
      rw [Ne, ZMod.natCast_eq_zero_iff]
      exact fun hdv => hc0 (Nat.eq_zero_of_dvd_of_lt hdv lc)
    have hr : recover G C baseHash c ((u + c * n) % G.q) =
        (((u + c * n) % G.q + G.q - u) * c ^ (G.q - 2)) % G.q := by
      rw [hu]
      rfl
    rw [hr]
    have h : ((((u + c * n) % G.q + G.q - u) * c ^ (G.q - 2) : ℕ) : ZMod G.q) = (n : ℕ) := by
      rw [Nat.cast_mul, Nat.cast_sub (by omega), Nat.cast_add, ZMod.natCast_mod]
      push_cast
      rw [ZMod.natCast_self, add_zero, add_sub_cancel_left]
      have h1 := ZMod.pow_card_sub_one_eq_one hcz
      have hg := hG.q_prime.two_le
      rw [show G.q - 1 = (G.q - 2) + 1 by omega, pow_succ] at h1
      calc (c : ZMod G.q) * n * (c : ZMod G.q) ^ (G.q - 2)
          = ((c : ZMod G.q) ^ (G.q - 2) * c) * n := by ring
        _ = n := by rw [h1, one_mul]
    exact (ZMod.natCast_eq_natCast_iff' _ _ _).1 h
  · intro hv
    have hv' : callBool (ConstProof.isValid G C ⟨gPowP G u, powModP G K u, c, (u + c * n) % G.q, L.toNat⟩ m K baseHash) =
      .ok true := hv
    have hT : (ConstProof.mk (gPowP G u) (powModP G K u) c ((u + c * n) % G.q) L.toNat).Typed :=
      ⟨gPowP_lt4096 hG u (lt_trans lu hq), powModP_lt4096 hG K u hK (lt_trans lu hq), lt_trans lc hq,
        lt_trans (Nat.mod_lt _ hq0) hq, L.toNat_lt⟩
    obtain ⟨b, hb, hiff⟩ := C23_constant_iff G C hG hL _ hT m hp hd K baseHash hK
    rw [hb] at hv'
    have hbt : b = true := by simpa [callBool] using hv'
    exact hc.symm.trans (hiff.1 hbt).c_hash

/-- The hypotheses can be met: with the standard parameters and a hash function of constant value a proof made through C#
is accepted. -/
example : ∃ (C : Crypto) (m : Ciphertext) (K : ℕ) (π : DisjProof), IsEncryption .std K 0 1 m ∧ π.Typed ∧
    csDisjNew .std C (some (some m)) (some (some 1)) (some (some K)) (some (some 7)) 0 1 1 2 = .ok π ∧
    csDisjValid .std C (some π) (some (some m)) (some (some K)) (some (some 7)) = .ok true := by
  obtain ⟨m, hm, -, -, h⟩ := accepted_example
  obtain ⟨h1, h2, h3⟩ := h 5 (by omega) (by omega)
  refine ⟨constCrypto 5, m, _, _, hm, h3, ?_, ?_⟩
  · show call throwIfError (caught .badAlloc (disjMake .std (constCrypto 5) m 1 (gPowP .std 2) 7 0 1 1 2)) = _
    rw [h1]
    rfl
  · show Cs.ok ((exampleProof .std 5).isValid .std (constCrypto 5) m (gPowP .std 2) 7) = _
    rw [h2]

theorem given_away (hG : G.Valid) (hL : G.Large) (hq : 100 < G.q) :
    ∃ (C : Crypto) (m : Ciphertext) (K : ℕ) (π : ConstProof), IsEncryption G K 1 3 m ∧
    csConstNew G C none (some (some m)) (some (some 3)) (some (some K)) (some (some 8)) (some (some 9)) 1 = .ok π ∧
    csConstValid G C (some π) (some (some m)) (some (some K)) (some (some 9)) = .ok true ∧
    recover G C 8 π.challenge π.response = 3 := by
  have hK : Residue G (gPowP G 2) := residue_gPowP hG 2 (by norm_num)
  obtain ⟨m, -, hm⟩ := encrypt_isEncryption G hG 1 3 (gPowP G 2) (by omega) (by norm_num) (by omega) (hK.lt hG)
  obtain ⟨π, h1, h2⟩ := C131_constant G (constCrypto 5) hG hL none (gPowP G 2) 1 3 9 8 1 m hK hm (by norm_num)
    (by simp)
  obtain ⟨π', c, v, h1', hc, hv, hr, -⟩ := C131_documentation_violated G (constCrypto 5) hG hL m
    (lt_trans hm.1 hG.p_lt) (lt_trans hm.2.1 hG.p_lt) (gPowP G 2) 3 8 9 (hK.lt hG) (by norm_num) 1
  have h5 : ∀ xs, hashElems G (constCrypto 5) xs = 5 := by
    intro xs
    rw [hashElems_const, Nat.mod_eq_of_lt (by norm_num), addModQ_eq hG 5 0 (by omega) (by omega), Nat.add_zero,
      Nat.mod_eq_of_lt (by omega)]
  have hmk : constMake G (constCrypto 5) none m 3 (gPowP G 2) 8 9 1 =
      .ok ⟨gPowP G 5, powModP G (gPowP G 2) 5, 5, 20, 1⟩ := by
    have hu : ((Nonces.makeWith G (constCrypto 5) 8 (.str constHeader)).get G (constCrypto 5) 0).1 = 5 :=
      h5 [.q (Nonces.makeWith G (constCrypto 5) 8 (.str constHeader)).seed, .u64 0]
    simp only [constMake, Option.elim, hu, constChallenge, h5]
    rw [aPlusBc_eq hG 5 5 3 (by norm_num) (by norm_num) (by norm_num), Nat.mod_eq_of_lt (by omega)]
    rfl
  have hnew : csConstNew G (constCrypto 5) none (some (some m)) (some (some 3)) (some (some (gPowP G 2)))
      (some (some 8)) (some (some 9)) 1 = .ok ⟨gPowP G 5, powModP G (gPowP G 2) 5, 5, 20, 1⟩ := by
    show call throwIfError (caught .badAlloc (constMake G (constCrypto 5) none m 3 (gPowP G 2) 8 9 1)) = _
    rw [hmk]
    rfl
  have e1 : π = ⟨gPowP G 5, powModP G (gPowP G 2) 5, 5, 20, 1⟩ := by simpa [h1] using hnew
  have e2 : π' = ⟨gPowP G 5, powModP G (gPowP G 2) 5, 5, 20, 1⟩ := by simpa [h1'] using hnew
  refine ⟨constCrypto 5, m, gPowP G 2, π, hm, h1, ?_, ?_⟩
  · rw [h2, e1]
    exact ⟨Nat.mod_eq_of_lt (by omega), by norm_num, by norm_num⟩
  · have k1 : c = 5 := by
      have : (Cs.ok π'.challenge : Cs ℕ) = .ok c := hc
      rw [e2] at this
      simpa using this.symm
    have k2 : v = 20 := by
      have : (Cs.ok π'.response : Cs ℕ) = .ok v := hv
      rw [e2] at this
      simpa using this.symm
    subst k1 k2
    rw [e1]
    exact (hr (by norm_num)).trans (Nat.mod_eq_of_lt (by omega))

/-- An accepted constant proof made through C#, and a nonce given away, with the standard parameters. -/
example : ∃ (C : Crypto) (m : Ciphertext) (K : ℕ) (π : ConstProof), IsEncryption .std K 1 3 m ∧
    csConstNew .std C none (some (some m)) (some (some 3)) (some (some K)) (some (some 8)) (some (some 9)) 1 = .ok π ∧
    csConstValid .std C (some π) (some (some m)) (some (some K)) (some (some 9)) = .ok true ∧
    recover .std C 8 π.challenge π.response = 3 :=
  given_away .std C54_std_valid std_large (by decide +kernel)

end EG.CProof
