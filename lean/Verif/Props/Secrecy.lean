import Verif.Props.ElGamal
import Verif.Props.Params
import Mathlib.Algebra.BigOperators.Ring.Finset
import Mathlib.Algebra.Order.BigOperators.Group.Finset
import Mathlib.Algebra.Order.Ring.Int

/-!
# C110: ciphertexts hide the votes

The reduction of the secrecy of ElGamal ciphertexts to the decisional Diffie-Hellman problem, for the functions of the
library.  An adversary is a function of what it sees into the integers: the number of its coins for which it answers
yes, say.  Its wins are summed over all secrets and all nonces; nothing is said about its running time, but each
distinguisher below calls it once, on ciphertexts that are made with the public key only.
-/

namespace EG.Secrecy

variable (G : Params)

/-- The secrets of key pairs below `q`. -/
def secrets : Finset ℕ := Finset.Ico 2 G.q

/-- The nonces that are accepted, below `q`. -/
def nonces : Finset ℕ := Finset.Ico 1 G.q

/-- What an adversary gets for a list of votes: the public key and the results of `elgamalEncrypt`, each with a nonce of
its own; summed over the nonces. -/
def encrypted (K : ℕ) : List ℕ → (List (Res Ciphertext) → ℤ) → ℤ
  | [], f => f []
  | m :: ms, f => ∑ r ∈ nonces G, encrypted K ms (fun cs => f (elgamalEncrypt G m r K :: cs))

/-- The adversary against the votes `ms`, summed over the key pairs. -/
def game (A : ℕ → List (Res Ciphertext) → ℤ) (ms : List ℕ) : ℤ :=
  ∑ s ∈ secrets G,
    match keyFromSecret G s with
    | .ok k => encrypted G k.pub ms (A k.pub)
    | _ => 0

/-- The Diffie-Hellman triples `g^s, g^r, g^(sr)`. -/
def ddhReal (D : ℕ → ℕ → ℕ → ℤ) : ℤ :=
  ∑ s ∈ secrets G, ∑ r ∈ nonces G, D (G.g ^ s % G.p) (G.g ^ r % G.p) (G.g ^ (s * r) % G.p)

/-- The triples `g^s, g^r, g^t` with any `t`. -/
def ddhRandom (D : ℕ → ℕ → ℕ → ℤ) : ℤ :=
  ∑ s ∈ secrets G, ∑ r ∈ nonces G, ∑ t ∈ Finset.range G.q, D (G.g ^ s % G.p) (G.g ^ r % G.p) (G.g ^ t % G.p)

/-- The advantage of a distinguisher, times the number of choices of `s`, `r` and `t`. -/
def ddhAdvantage (D : ℕ → ℕ → ℕ → ℤ) : ℤ := |G.q * ddhReal G D - ddhRandom G D|

/-- The distinguisher made from an adversary: it shows it the second element and the third, times `g` for a vote. -/
def distinguisher (A : ℕ → Res Ciphertext → ℤ) (m : ℕ) : ℕ → ℕ → ℕ → ℤ :=
  fun X Y Z => A X (.ok { pad := Y, data := if m = 1 then G.g * Z % G.p else Z })

/-- The distinguishers made from an adversary against two lists of votes: for each place, the votes of the second list
before it and those of the first list after it are encrypted with the public key. -/
def hybrids : (ℕ → List (Res Ciphertext) → ℤ) → List (ℕ × ℕ) → List (ℕ → ℕ → ℕ → ℤ)
  | _, [] => []
  | A, (m, m') :: ps =>
    let one : ℕ → Res Ciphertext → ℤ := fun K c => encrypted G K (ps.map Prod.fst) (fun cs => A K (c :: cs))
    distinguisher G one m :: distinguisher G one m' ::
      hybrids (fun K cs => ∑ r ∈ nonces G, A K (elgamalEncrypt G m' r K :: cs)) ps

variable {G}

theorem pub_eq (hG : G.Valid) {s : ℕ} (hs : s ∈ secrets G) : ∃ k, keyFromSecret G s = .ok k ∧ k.pub = G.g ^ s % G.p := by
  have h := Finset.mem_Ico.1 hs
  have hq := hG.q_lt
  obtain ⟨k, h1, h2, h3, h4⟩ := keyFromSecret_ok G hG s (lt_trans h.2 hq) h.1
  exact ⟨k, h1, by rw [← h4, Nat.mod_eq_of_lt h3]⟩

theorem game_eq (hG : G.Valid) (A : ℕ → List (Res Ciphertext) → ℤ) (ms : List ℕ) :
    game G A ms = ∑ s ∈ secrets G, encrypted G (G.g ^ s % G.p) ms (A (G.g ^ s % G.p)) := by
  refine Finset.sum_congr rfl ?_
  intro s hs
  obtain ⟨k, h1, h2⟩ := pub_eq hG hs
  rw [h1]
  dsimp only
  rw [h2]

theorem encrypt_eq (hG : G.Valid) {s r : ℕ} (m : ℕ) (hr : r ∈ nonces G) :
    elgamalEncrypt G m r (G.g ^ s % G.p) = .ok { pad := G.g ^ r % G.p, data :=
      if m = 1 then G.g * (G.g ^ (s * r) % G.p) % G.p else G.g ^ (s * r) % G.p } := by
  have h := Finset.mem_Ico.1 hr
  have hq := hG.q_lt
  have hp := hG.p_lt
  have hp0 : 0 < G.p := by have := hG.p_gt; omega
  have hr : r < 2 ^ 512 := lt_512_of_lt (lt_trans h.2 hq)
  have hK : G.g ^ s % G.p < 2 ^ 4096 := lt_trans (Nat.mod_lt _ hp0) hp
  have hd : powModP G (G.g ^ s % G.p) r = G.g ^ (s * r) % G.p := by
    rw [powModP_eq hG _ _ hK hr, ← Nat.pow_mod, ← pow_mul]
  unfold elgamalEncrypt
  rw [if_neg (by omega), gPowP_eq hG _ hr, hd]
  dsimp only
  split
  · rw [mulModP_eq hG _ _ (lt_trans hG.g_lt hp) (lt_trans (Nat.mod_lt _ hp0) hp)]
  · rfl

/-- One ciphertext is what the distinguisher is shown on a Diffie-Hellman triple. -/
theorem one_real (hG : G.Valid) (A : ℕ → Res Ciphertext → ℤ) (m : ℕ) :
    (∑ s ∈ secrets G, ∑ r ∈ nonces G, A (G.g ^ s % G.p) (elgamalEncrypt G m r (G.g ^ s % G.p))) =
      ddhReal G (distinguisher G A m) := by
  refine Finset.sum_congr rfl (fun s _ => Finset.sum_congr rfl (fun r hr => ?_))
  rw [encrypt_eq hG m hr]
  rfl

theorem g_pow_mod (hG : G.Valid) : G.g ^ G.q % G.p = G.g ^ 0 % G.p := by
  have h := hG.g_pow
  rw [h, pow_zero, Nat.mod_eq_of_lt hG.p_gt]

/-- On random triples the vote does not matter. -/
theorem one_random (hG : G.Valid) (A : ℕ → Res Ciphertext → ℤ) (m m' : ℕ) :
    ddhRandom G (distinguisher G A m) = ddhRandom G (distinguisher G A m') := by
  have key : ∀ m, ddhRandom G (distinguisher G A m) =
      ∑ s ∈ secrets G, ∑ r ∈ nonces G, ∑ t ∈ Finset.range G.q,
        A (G.g ^ s % G.p) (.ok { pad := G.g ^ r % G.p, data := G.g ^ t % G.p }) := by
    intro m
    refine Finset.sum_congr rfl (fun s _ => Finset.sum_congr rfl (fun r _ => ?_))
    simp only [distinguisher]
    by_cases hm : m = 1
    · simp only [hm, if_true]
      let F : ℕ → ℤ := fun t => A (G.g ^ s % G.p) (.ok { pad := G.g ^ r % G.p, data := G.g ^ t % G.p })
      have h1 : ∀ t, A (G.g ^ s % G.p) (.ok { pad := G.g ^ r % G.p, data := G.g * (G.g ^ t % G.p) % G.p }) = F (t + 1) := by
        intro t
        simp only [F]
        rw [Nat.mul_mod_mod, ← pow_succ']
      simp only [h1]
      have h2 : F G.q = F 0 := by
        simp only [F]
        rw [g_pow_mod hG]
      have h3 := Finset.sum_range_succ F G.q
      have h4 := Finset.sum_range_succ' F G.q
      show ∑ t ∈ Finset.range G.q, F (t + 1) = ∑ t ∈ Finset.range G.q, F t
      linarith
    · simp only [if_neg hm]
  rw [key m, key m']

theorem one_bound (hG : G.Valid) (A : ℕ → Res Ciphertext → ℤ) (m m' : ℕ) :
    |(G.q : ℤ) * (ddhReal G (distinguisher G A m) - ddhReal G (distinguisher G A m'))| ≤
      ddhAdvantage G (distinguisher G A m) + ddhAdvantage G (distinguisher G A m') := by
  unfold ddhAdvantage
  rw [one_random hG A m m']
  have h : (G.q : ℤ) * (ddhReal G (distinguisher G A m) - ddhReal G (distinguisher G A m')) =
      ((G.q : ℤ) * ddhReal G (distinguisher G A m) - ddhRandom G (distinguisher G A m')) -
      ((G.q : ℤ) * ddhReal G (distinguisher G A m') - ddhRandom G (distinguisher G A m')) := by ring
  rw [h]
  exact abs_sub _ _

theorem encrypted_sum (K : ℕ) : ∀ (ms : List ℕ) (f : ℕ → List (Res Ciphertext) → ℤ) (R : Finset ℕ),
    ∑ r ∈ R, encrypted G K ms (f r) = encrypted G K ms (fun cs => ∑ r ∈ R, f r cs)
  | [], f, R => rfl
  | m :: ms, f, R => by
    simp only [encrypted]
    rw [Finset.sum_comm]
    refine Finset.sum_congr rfl (fun x _ => ?_)
    exact encrypted_sum K ms (fun r cs => f r (elgamalEncrypt G m x K :: cs)) R

/-- C110.  An adversary that tells lists of votes apart by their ciphertexts — each made by `elgamalEncrypt` with a
nonce of its own, uniform among those accepted — gives distinguishers for the Diffie-Hellman problem: its advantage is
at most the sum of theirs. -/
theorem C110_secrecy (hG : G.Valid) : ∀ (ps : List (ℕ × ℕ)) (A : ℕ → List (Res Ciphertext) → ℤ),
    (G.q : ℤ) * |game G A (ps.map Prod.fst) - game G A (ps.map Prod.snd)| ≤
      ((hybrids G A ps).map (ddhAdvantage G)).sum
  | [], A => by simp [hybrids]
  | (m, m') :: ps, A => by
    have ih := C110_secrecy hG ps (fun K cs => ∑ r ∈ nonces G, A K (elgamalEncrypt G m' r K :: cs))
    let one : ℕ → Res Ciphertext → ℤ := fun K c => encrypted G K (ps.map Prod.fst) (fun cs => A K (c :: cs))
    have h1 : ∀ v, game G A (v :: ps.map Prod.fst) = ddhReal G (distinguisher G one v) := by
      intro v
      rw [game_eq hG, ← one_real hG]
      rfl
    have h2 : ∀ l : List ℕ, game G A (m' :: l) =
        game G (fun K cs => ∑ r ∈ nonces G, A K (elgamalEncrypt G m' r K :: cs)) l := by
      intro l
      rw [game_eq hG, game_eq hG]
      refine Finset.sum_congr rfl (fun s _ => ?_)
      exact encrypted_sum _ l (fun r cs => A (G.g ^ s % G.p) (elgamalEncrypt G m' r (G.g ^ s % G.p) :: cs)) _
    have h3 := one_bound hG one m m'
    have h4 : hybrids G A ((m, m') :: ps) = distinguisher G one m :: distinguisher G one m' ::
      hybrids G (fun K cs => ∑ r ∈ nonces G, A K (elgamalEncrypt G m' r K :: cs)) ps := rfl
    rw [h4]
    simp only [List.map_cons, List.sum_cons]
    rw [abs_mul, Nat.abs_cast, ← h1 m, ← h1 m'] at h3
    have h5 : game G A (m :: ps.map Prod.fst) - game G A (m' :: ps.map Prod.snd) =
        (game G A (m :: ps.map Prod.fst) - game G A (m' :: ps.map Prod.fst)) +
        (game G A (m' :: ps.map Prod.fst) - game G A (m' :: ps.map Prod.snd)) := by ring
    rw [h5]
    have h6 := abs_add_le (game G A (m :: ps.map Prod.fst) - game G A (m' :: ps.map Prod.fst))
      (game G A (m' :: ps.map Prod.fst) - game G A (m' :: ps.map Prod.snd))
    rw [h2, h2] at h6 ⊢
    rw [h2] at h3
    have hq : (0 : ℤ) ≤ G.q := by positivity
    have h7 := mul_le_mul_of_nonneg_left h6 hq
    rw [mul_add] at h7
    linarith

theorem encrypt_ne (hG : G.Valid) {s r r' m m' : ℕ} (hr : r ∈ nonces G) (hr' : r' ∈ nonces G)
    (h : elgamalEncrypt G m r (G.g ^ s % G.p) = elgamalEncrypt G m' r' (G.g ^ s % G.p)) :
    r = r' ∧ (m = 1 ↔ m' = 1) := by
  have hp0 : 0 < G.p := by have := hG.p_gt; omega
  have l := (Finset.mem_Ico.1 hr).2
  have l' := (Finset.mem_Ico.1 hr').2
  rw [encrypt_eq hG m hr, encrypt_eq hG m' hr', Res.ok.injEq, Ciphertext.mk.injEq] at h
  obtain ⟨h1, h2⟩ := h
  have e : ∀ a b, G.g ^ a % G.p = G.g ^ b % G.p → a % G.q = b % G.q := by
    intro a b hab
    refine (g_pow_eq_iff hG a b).1 ?_
    have : G.g ^ a ≡ G.g ^ b [MOD G.p] := hab
    rw [modEq_cast] at this
    simpa using this
  have hrr : r = r' := by
    have := e _ _ h1
    rwa [Nat.mod_eq_of_lt l, Nat.mod_eq_of_lt l'] at this
  subst hrr
  refine ⟨rfl, ?_⟩
  have hq := hG.q_gt
  have key : ∀ a, G.g * (G.g ^ a % G.p) % G.p ≠ G.g ^ a % G.p := by
    intro a ha
    rw [Nat.mul_mod_mod, ← pow_succ'] at ha
    have h3 := e _ _ ha
    have h4 : a + 1 ≡ a + 0 [MOD G.q] := h3
    have h5 := Nat.ModEq.add_left_cancel' a h4
    have h6 : 1 % G.q = 0 % G.q := h5
    rw [Nat.mod_eq_of_lt (by omega), Nat.zero_mod] at h6
    omega
  by_cases hm : m = 1 <;> by_cases hm' : m' = 1
  · simp [hm, hm']
  · rw [if_pos hm, if_neg hm'] at h2
    exact absurd h2 (key _)
  · rw [if_neg hm, if_pos hm'] at h2
    exact absurd h2.symm (key _)
  · simp [hm, hm']

/-- C110.  A nonce used for two votes shows whether they are equal: the ciphertexts are equal exactly if the votes
are. -/
theorem C110_reuse (hG : G.Valid) {s r m m' : ℕ} (hs : s ∈ secrets G) (hr : r ∈ nonces G) (hm : m < 2) (hm' : m' < 2) :
    ∃ k, keyFromSecret G s = .ok k ∧ (elgamalEncrypt G m r k.pub = elgamalEncrypt G m' r k.pub ↔ m = m') := by
  obtain ⟨k, h1, h2⟩ := pub_eq hG hs
  refine ⟨k, h1, ?_⟩
  rw [h2]
  constructor
  · intro h
    have := (encrypt_ne hG hr hr h).2
    omega
  · rintro rfl
    rfl

open Classical in
/-- C110.  The ciphertexts alone determine the votes: an adversary without limits wins always, so the bound of
`C110_secrecy` cannot be replaced by nothing. -/
theorem C110_unlimited (hG : G.Valid) : ∃ A : ℕ → List (Res Ciphertext) → ℤ,
    (∀ K cs, A K cs = 0 ∨ A K cs = 1) ∧ game G A [0] = 0 ∧ game G A [1] = (secrets G).card * (nonces G).card := by
  refine ⟨fun K cs => if ∃ r ∈ nonces G, cs = [elgamalEncrypt G 1 r K] then 1 else 0, ?_, ?_, ?_⟩
  · intro K cs
    by_cases h : ∃ r ∈ nonces G, cs = [elgamalEncrypt G 1 r K]
    · exact Or.inr (if_pos h)
    · exact Or.inl (if_neg h)
  · rw [game_eq hG]
    refine Finset.sum_eq_zero (fun s _ => Finset.sum_eq_zero (fun r hr => ?_))
    refine if_neg ?_
    rintro ⟨r', hr', h⟩
    have := (encrypt_ne hG hr hr' (List.head_eq_of_cons_eq h)).2
    omega
  · rw [game_eq hG]
    have h1 : ∀ s ∈ secrets G, encrypted G (G.g ^ s % G.p) [1]
        (fun cs => if ∃ r ∈ nonces G, cs = [elgamalEncrypt G 1 r (G.g ^ s % G.p)] then 1 else 0) =
        ((nonces G).card : ℤ) := by
      intro s _
      simp only [encrypted]
      rw [Finset.sum_congr rfl (fun r hr => if_pos ⟨r, hr, rfl⟩)]
      simp
    rw [Finset.sum_congr rfl h1]
    simp

/-- The standard parameters, and keys and nonces for them. -/
example : Params.Valid .std ∧ 2 ∈ secrets .std ∧ 1 ∈ nonces .std := by
  refine ⟨C54_std_valid, ?_, ?_⟩
  · exact Finset.mem_Ico.2 ⟨le_rfl, by decide +kernel⟩
  · exact Finset.mem_Ico.2 ⟨le_rfl, by decide +kernel⟩

end EG.Secrecy
