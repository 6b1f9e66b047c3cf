import Verif.Props.Secrecy
import Verif.Props.EncryptTotal
import Mathlib.Algebra.BigOperators.Field
import Mathlib.Data.Fintype.Pi
import Mathlib.Data.Fintype.BigOperators
import Mathlib.Data.List.OfFn
import Mathlib.Tactic.Ring
import Mathlib.Tactic.Linarith

/-!
# C122: hashed ciphertexts hide the write-ins

The reduction of the secrecy of hashed ElGamal ciphertexts (elgamal.cpp:446-553) to two problems: to tell Diffie-Hellman
triples from random ones, and to tell the blocks that HMAC makes with the hash of two group elements as key, the second
of them unknown, from random blocks.  An adversary is a function of what it sees into the rational numbers: the
frequency with which it answers yes, say.  As in C110 nothing is said about its running time, but each distinguisher
calls it once, on ciphertexts made with the public key only.
-/

namespace EG.WriteIns

open Secrecy (secrets)

/-- The average. -/
def mean {α : Type} (s : Finset α) (f : α → ℚ) : ℚ := (∑ x ∈ s, f x) / s.card

theorem mean_congr {α : Type} {s : Finset α} {f g : α → ℚ} (h : ∀ x ∈ s, f x = g x) : mean s f = mean s g := by
  unfold mean
  rw [Finset.sum_congr rfl h]

theorem mean_comm {α β : Type} (s : Finset α) (t : Finset β) (f : α → β → ℚ) :
    mean s (fun x => mean t (f x)) = mean t (fun y => mean s (fun x => f x y)) := by
  unfold mean
  rw [← Finset.sum_div, ← Finset.sum_div, Finset.sum_comm, div_right_comm]

variable (G : Params) (C : Crypto)

/-- A message to `hashedElgamalEncrypt` and the other arguments but nonce and key. -/
structure Item where
  message : List UInt8
  seed : ℕ
  maxLen : ℕ
  truncate : Bool

/-- `hashedElgamalEncrypt` with empty precompute buffers. -/
def Item.encrypt (m : Item) (r K : ℕ) : Res HashedCiphertext :=
  hashedEncrypt G C none m.message r K m.seed m.maxLen m.truncate

/-- `hashedElgamalEncrypt` with a triple from the precompute buffers, which replaces nonce and key. -/
def Item.encryptWith (m : Item) (t : ℕ × ℕ) : Res HashedCiphertext :=
  hashedEncrypt G C (some t) m.message 0 0 m.seed m.maxLen m.truncate

/-- The nonces: every number below `q` is accepted. -/
def nonces : Finset ℕ := Finset.range G.q

/-- What an adversary gets for a list of messages: the results of `hashedElgamalEncrypt`, each with a nonce of its own;
on average over the nonces. -/
def encrypted (K : ℕ) : List Item → (List (Res HashedCiphertext) → ℚ) → ℚ
  | [], f => f []
  | m :: ms, f => mean (nonces G) (fun r => encrypted K ms (fun cs => f (m.encrypt G C r K :: cs)))

/-- The adversary against the messages, on average over the key pairs. -/
def game (A : ℕ → List (Res HashedCiphertext) → ℚ) (ms : List Item) : ℚ :=
  mean (secrets G) (fun s =>
    match keyFromSecret G s with
    | .ok k => encrypted G C k.pub ms (A k.pub)
    | _ => 0)

/-- `g^s, g^r, g^(sr)`, on average. -/
def ddhReal (D : ℕ → ℕ → ℕ → ℚ) : ℚ :=
  mean (secrets G) (fun s => mean (nonces G) (fun r => D (G.g ^ s % G.p) (G.g ^ r % G.p) (G.g ^ (s * r) % G.p)))

/-- `g^s, g^r, g^t` with any `t`, on average. -/
def ddhRandom (D : ℕ → ℕ → ℕ → ℚ) : ℚ :=
  mean (secrets G) (fun s => mean (nonces G) (fun r => mean (nonces G) (fun t =>
    D (G.g ^ s % G.p) (G.g ^ r % G.p) (G.g ^ t % G.p))))

/-- The advantage in telling Diffie-Hellman triples from random ones. -/
def ddhAdvantage (D : ℕ → ℕ → ℕ → ℚ) : ℚ := |ddhReal G D - ddhRandom G D|

/-- HMAC of the inputs number 0 to `nb` with the hash of two group elements as key. -/
def derived (seed nb Y Z : ℕ) : List (List UInt8) :=
  (List.range (nb + 1)).map
    (fun i => getHmac C (toBytesQ (hashElems G C [.p Y, .p Z])) (toBytesQ seed) (lengthBits nb) i)

/-- Some blocks of 32 bytes. -/
abbrev Blocks (n : ℕ) : Type := Fin n → Fin 32 → UInt8

instance : Fintype UInt8 := Fintype.ofEquiv (Fin 256)
  ⟨fun i => UInt8.ofFin i, fun b => b.toFin, fun _ => rfl, fun _ => rfl⟩

/-- As lists of bytes. -/
def Blocks.lists {n : ℕ} (F : Blocks n) : List (List UInt8) := List.ofFn (fun i => List.ofFn (F i))

/-- What is derived from `g^r, g^t`, on average. -/
def kdfReal (seed nb : ℕ) (D : ℕ → ℕ → List (List UInt8) → ℚ) : ℚ :=
  mean (secrets G) (fun s => mean (nonces G) (fun r => mean (nonces G) (fun t =>
    D (G.g ^ s % G.p) (G.g ^ r % G.p) (derived G C seed nb (G.g ^ r % G.p) (G.g ^ t % G.p)))))

/-- Random blocks, on average. -/
def kdfRandom (nb : ℕ) (D : ℕ → ℕ → List (List UInt8) → ℚ) : ℚ :=
  mean (secrets G) (fun s => mean (nonces G) (fun r => mean (Finset.univ : Finset (Blocks (nb + 1))) (fun F =>
    D (G.g ^ s % G.p) (G.g ^ r % G.p) F.lists)))

/-- The advantage in telling the derived blocks from random ones. -/
def kdfAdvantage (seed nb : ℕ) (D : ℕ → ℕ → List (List UInt8) → ℚ) : ℚ := |kdfReal G C seed nb D - kdfRandom G nb D|

/-- Two messages, with the same other arguments. -/
structure Pair where
  first : List UInt8
  second : List UInt8
  seed : ℕ
  maxLen : ℕ
  truncate : Bool

def Pair.one (p : Pair) : Item := ⟨p.first, p.seed, p.maxLen, p.truncate⟩
def Pair.two (p : Pair) : Item := ⟨p.second, p.seed, p.maxLen, p.truncate⟩

/-- The message with its padding. -/
def Item.padded (m : Item) : List UInt8 :=
  match padMessage m.message m.maxLen m.truncate with
  | .ok pt => pt
  | _ => []

/-- The message is accepted and fills `nb` blocks. -/
def Item.Fills (m : Item) (nb : ℕ) : Prop :=
  padMessage m.message m.maxLen m.truncate = .ok m.padded ∧ m.padded.length = 32 * nb

/-- The ciphertext made with given blocks: the first is the key of the MAC, the others are the key stream. -/
def sealWith (Y : ℕ) (pt : List UInt8) (keys : List (List UInt8)) : HashedCiphertext :=
  let data := List.zipWith (· ^^^ ·) pt keys.tail.flatten
  ⟨Y, data, getHmac C (keys.headD []) (toBytesP Y ++ data) 0 0⟩

/-- The distinguisher for triples: it encrypts the message with the second and third element. -/
def tripleDist (A : ℕ → Res HashedCiphertext → ℚ) (m : Item) : ℕ → ℕ → ℕ → ℚ :=
  fun X Y Z => A X (m.encryptWith G C (Y, Z))

/-- The distinguisher for blocks: it encrypts the message with them. -/
def blockDist (A : ℕ → Res HashedCiphertext → ℚ) (m : Item) : ℕ → ℕ → List (List UInt8) → ℚ :=
  fun X Y keys => A X (.ok (sealWith C Y m.padded keys))

/-- The advantages of the four distinguishers made from an adversary against one message. -/
def lossOne (A : ℕ → Res HashedCiphertext → ℚ) (p : Pair) : ℚ :=
  ddhAdvantage G (tripleDist G C A p.one) + ddhAdvantage G (tripleDist G C A p.two) +
    (kdfAdvantage G C p.seed (p.one.padded.length / 32) (blockDist C A p.one) +
      kdfAdvantage G C p.seed (p.two.padded.length / 32) (blockDist C A p.two))

/-- For each place the four distinguishers, with the second messages before it and the first messages after it encrypted
with the public key. -/
def loss : (ℕ → List (Res HashedCiphertext) → ℚ) → List Pair → ℚ
  | _, [] => 0
  | A, p :: ps =>
    lossOne G C (fun K c => encrypted G C K (ps.map Pair.one) (fun cs => A K (c :: cs))) p +
      loss (fun K cs => mean (nonces G) (fun r => A K (p.two.encrypt G C r K :: cs))) ps

variable {G C}

theorem game_eq (hG : G.Valid) (A : ℕ → List (Res HashedCiphertext) → ℚ) (ms : List Item) :
    game G C A ms = mean (secrets G) (fun s => encrypted G C (G.g ^ s % G.p) ms (A (G.g ^ s % G.p))) := by
  refine mean_congr (fun s hs => ?_)
  obtain ⟨k, h1, h2⟩ := Secrecy.pub_eq hG hs
  rw [h1]
  dsimp only
  rw [h2]

theorem encrypt_with (m : Item) (r K : ℕ) : m.encrypt G C r K = m.encryptWith G C (gPowP G r, powModP G K r) := rfl

theorem encrypt_eq (hG : G.Valid) (m : Item) {s r : ℕ} (hr : r ∈ nonces G) :
    m.encrypt G C r (G.g ^ s % G.p) = m.encryptWith G C (G.g ^ r % G.p, G.g ^ (s * r) % G.p) := by
  have h : r < G.q := Finset.mem_range.1 hr
  have hp0 : 0 < G.p := by have := hG.p_gt; omega
  have hr : r < 2 ^ 512 := lt_512_of_lt (lt_trans h hG.q_lt)
  have hK : G.g ^ s % G.p < 2 ^ 4096 := lt_trans (Nat.mod_lt _ hp0) hG.p_lt
  have hd : powModP G (G.g ^ s % G.p) r = G.g ^ (s * r) % G.p := by
    rw [powModP_eq hG _ _ hK hr, ← Nat.pow_mod, ← pow_mul]
  rw [← hd, ← gPowP_eq hG _ hr]
  rfl

theorem one_real (hG : G.Valid) (A : ℕ → Res HashedCiphertext → ℚ) (m : Item) :
    mean (secrets G) (fun s => mean (nonces G) (fun r => A (G.g ^ s % G.p) (m.encrypt G C r (G.g ^ s % G.p)))) =
      ddhReal G (tripleDist G C A m) := by
  refine mean_congr (fun s _ => mean_congr (fun r hr => ?_))
  rw [encrypt_eq hG m hr]
  rfl

theorem keyStream_flatten (keyOf : ℕ → List UInt8) : ∀ n i,
    keyStream keyOf i n = ((List.range n).map (fun j => keyOf (i + j))).flatten
  | 0, i => rfl
  | n + 1, i => by
    rw [keyStream, keyStream_flatten keyOf n (i + 1), List.range_succ_eq_map]
    simp only [List.map_cons, List.map_map, List.flatten_cons, Nat.add_zero]
    congr 3
    funext j
    simp only [Function.comp]
    congr 1
    omega

theorem encryptWith_eq {m : Item} {nb : ℕ} (h : m.Fills nb) (hn : nb < 2 ^ 27) (Y Z : ℕ) :
    m.encryptWith G C (Y, Z) = .ok (sealWith C Y m.padded (derived G C m.seed nb Y Z)) := by
  unfold Item.encryptWith
  rw [hashedEncrypt_eq G C (some (Y, Z)) m.message m.padded 0 0 m.seed m.maxLen Y Z nb m.truncate h.1 h.2
    (by rw [h.2]; omega) rfl rfl]
  have e : keyStream (blockKey C (hashElems G C [.p Y, .p Z]) m.seed nb) 0 nb =
      (derived G C m.seed nb Y Z).tail.flatten := by
    rw [keyStream_flatten]
    unfold derived
    rw [List.range_succ_eq_map, List.map_cons, List.tail_cons, List.map_map]
    congr 1
    refine List.map_congr_left (fun j hj => ?_)
    have := List.mem_range.1 hj
    simp only [Function.comp, blockKey, Nat.zero_add]
    rw [Nat.mod_eq_of_lt (by omega)]
  have e0 : (derived G C m.seed nb Y Z).headD [] =
      getHmac C (toBytesQ (hashElems G C [.p Y, .p Z])) (toBytesQ m.seed) (lengthBits nb) 0 := by
    unfold derived
    rw [List.range_succ_eq_map]
    rfl
  simp only [sealWith, macOf, e, e0]

theorem one_random {A : ℕ → Res HashedCiphertext → ℚ} {m : Item} {nb : ℕ} (h : m.Fills nb) (hn : nb < 2 ^ 27) :
    ddhRandom G (tripleDist G C A m) = kdfReal G C m.seed nb (blockDist C A m) := by
  refine mean_congr (fun s _ => mean_congr (fun r _ => mean_congr (fun t _ => ?_)))
  simp only [tripleDist, blockDist]
  rw [encryptWith_eq h hn]

/-- The bytes of the blocks after the first. -/
def bytes {nb : ℕ} (F : Blocks (nb + 1)) (k : Fin (nb * 32)) : UInt8 :=
  F ⟨k / 32 + 1, by have := k.isLt; omega⟩ ⟨k % 32, Nat.mod_lt _ (by norm_num)⟩

theorem lists_tail {nb : ℕ} (F : Blocks (nb + 1)) : F.lists.tail.flatten = List.ofFn (bytes F) := by
  unfold Blocks.lists
  rw [List.ofFn_succ, List.tail_cons, List.ofFn_mul]
  congr 1
  congr 1
  funext i
  congr 1
  funext j
  unfold bytes
  have h1 : ((i : ℕ) * 32 + j) / 32 = i := by have := j.isLt; omega
  have h2 : ((i : ℕ) * 32 + j) % 32 = j := by have := j.isLt; omega
  congr 1
  · exact Fin.ext (by simp [h1])
  · exact Fin.ext (by simp [h2])

/-- Blocks, xored with given bytes but for the first. -/
def shift (d : ℕ → UInt8) {nb : ℕ} (F : Blocks (nb + 1)) : Blocks (nb + 1) :=
  fun i j => if (i : ℕ) = 0 then F i j else F i j ^^^ d (32 * (i - 1) + j)

theorem shift_shift (d : ℕ → UInt8) {nb : ℕ} (F : Blocks (nb + 1)) : shift d (shift d F) = F := by
  funext i j
  unfold shift
  by_cases h : (i : ℕ) = 0
  · simp [h]
  · simp only [h, if_false]
    rw [UInt8.xor_assoc, UInt8.xor_self, UInt8.xor_zero]

theorem bytes_shift (d : ℕ → UInt8) {nb : ℕ} (F : Blocks (nb + 1)) (k : Fin (nb * 32)) :
    bytes (shift d F) k = bytes F k ^^^ d k := by
  unfold bytes shift
  have h : ((k : ℕ) / 32 + 1 : ℕ) ≠ 0 := by omega
  simp only [h, if_false]
  congr 2
  have := Nat.div_add_mod (k : ℕ) 32
  simp only [Nat.add_sub_cancel]
  exact this

theorem seal_shift {nb : ℕ} (Y : ℕ) (pt pt' : List UInt8) (h : pt.length = 32 * nb) (h' : pt'.length = 32 * nb)
    (F : Blocks (nb + 1)) :
    sealWith C Y pt F.lists = sealWith C Y pt' (shift (fun k => pt.getD k 0 ^^^ pt'.getD k 0) F).lists := by
  have hd : List.zipWith (· ^^^ ·) pt F.lists.tail.flatten =
      List.zipWith (· ^^^ ·) pt' (shift (fun k => pt.getD k 0 ^^^ pt'.getD k 0) F).lists.tail.flatten := by
    rw [lists_tail, lists_tail]
    refine List.ext_getElem (by simp [h, h']) (fun k h1 h2 => ?_)
    have hk : k < nb * 32 := by
      rw [List.length_zipWith, List.length_ofFn] at h1
      exact lt_of_lt_of_le h1 (min_le_right _ _)
    rw [List.getElem_zipWith, List.getElem_zipWith, List.getElem_ofFn, List.getElem_ofFn, bytes_shift]
    simp only
    rw [List.getD_eq_getElem _ _ (by omega), List.getD_eq_getElem _ _ (by omega)]
    generalize pt[k] = a
    generalize pt'[k] = b
    generalize bytes F _ = x
    rw [← UInt8.xor_assoc x, UInt8.xor_comm b, UInt8.xor_assoc (x ^^^ a), UInt8.xor_self, UInt8.xor_zero,
      UInt8.xor_comm]
  have h0 : (shift (fun k => pt.getD k 0 ^^^ pt'.getD k 0) F).lists.headD [] = F.lists.headD [] := by
    unfold Blocks.lists
    rw [List.ofFn_succ, List.ofFn_succ]
    simp [shift]
  unfold sealWith
  simp only
  rw [hd, h0]

theorem mean_shift (d : ℕ → UInt8) {nb : ℕ} (f : Blocks (nb + 1) → ℚ) :
    mean Finset.univ (fun F => f (shift d F)) = mean Finset.univ f := by
  unfold mean
  congr 1
  exact Fintype.sum_equiv ⟨shift d, shift d, shift_shift d, shift_shift d⟩ _ _ (fun _ => rfl)

/-- With random blocks the message does not matter. -/
theorem one_ideal {A : ℕ → Res HashedCiphertext → ℚ} {m m' : Item} {nb : ℕ} (h : m.Fills nb) (h' : m'.Fills nb) :
    kdfRandom G nb (blockDist C A m) = kdfRandom G nb (blockDist C A m') := by
  refine mean_congr (fun s _ => mean_congr (fun r _ => ?_))
  simp only [blockDist]
  rw [← mean_shift (fun k => m.padded.getD k 0 ^^^ m'.padded.getD k 0)
    (fun F => A (G.g ^ s % G.p) (.ok (sealWith C (G.g ^ r % G.p) m'.padded F.lists)))]
  refine mean_congr (fun F _ => ?_)
  rw [seal_shift _ _ _ h.2 h'.2]

theorem one_bound {A : ℕ → Res HashedCiphertext → ℚ} {p : Pair} {nb : ℕ} (h : p.one.Fills nb) (h' : p.two.Fills nb)
    (hn : nb < 2 ^ 27) :
    |ddhReal G (tripleDist G C A p.one) - ddhReal G (tripleDist G C A p.two)| ≤ lossOne G C A p := by
  have e1 := one_random (G := G) (C := C) (A := A) h hn
  have e2 := one_random (G := G) (C := C) (A := A) h' hn
  have e3 := one_ideal (G := G) (C := C) (A := A) h h'
  unfold lossOne ddhAdvantage kdfAdvantage
  rw [h.2, h'.2, Nat.mul_div_cancel_left _ (by norm_num), e1, e2, e3]
  show _ ≤ _ + _ + (|kdfReal G C p.one.seed nb _ - _| + |kdfReal G C p.two.seed nb _ - _|)
  generalize ddhReal G (tripleDist G C A p.one) = a
  generalize ddhReal G (tripleDist G C A p.two) = b
  generalize kdfReal G C p.one.seed nb _ = c
  generalize kdfReal G C p.two.seed nb _ = d
  generalize kdfRandom G nb _ = e
  have t1 := abs_sub_abs_le_abs_sub a b
  rw [abs_le]
  have a1 := abs_le.1 (le_refl |a - c|)
  have a2 := abs_le.1 (le_refl |b - d|)
  have a3 := abs_le.1 (le_refl |c - e|)
  have a4 := abs_le.1 (le_refl |d - e|)
  constructor <;> linarith

theorem encrypted_mean (K : ℕ) : ∀ (ms : List Item) (f : ℕ → List (Res HashedCiphertext) → ℚ) (R : Finset ℕ),
    mean R (fun r => encrypted G C K ms (f r)) = encrypted G C K ms (fun cs => mean R (fun r => f r cs))
  | [], f, R => rfl
  | m :: ms, f, R => by
    simp only [encrypted]
    rw [mean_comm]
    refine mean_congr (fun x _ => ?_)
    exact encrypted_mean K ms (fun r cs => f r (m.encrypt G C x K :: cs)) R

/-- C122.  An adversary that tells lists of messages apart by their hashed ciphertexts — each made by
`hashedElgamalEncrypt` with a nonce of its own, uniform below `q` — gives distinguishers for the Diffie-Hellman problem
and for blocks derived with HMAC: its advantage is at most the sum of theirs. -/
theorem C122_secrecy (hG : G.Valid) : ∀ (ps : List Pair) (A : ℕ → List (Res HashedCiphertext) → ℚ)
    (_ : ∀ p ∈ ps, ∃ nb < 2 ^ 27, p.one.Fills nb ∧ p.two.Fills nb),
    |game G C A (ps.map Pair.one) - game G C A (ps.map Pair.two)| ≤ loss G C A ps
  | [], A, _ => by simp [loss]
  | p :: ps, A, h => by
    obtain ⟨nb, hn, f1, f2⟩ := h p (List.mem_cons_self ..)
    have ih := C122_secrecy hG ps (fun K cs => mean (nonces G) (fun r => A K (p.two.encrypt G C r K :: cs)))
      (fun x hx => h x (List.mem_cons_of_mem _ hx))
    let one : ℕ → Res HashedCiphertext → ℚ := fun K c => encrypted G C K (ps.map Pair.one) (fun cs => A K (c :: cs))
    have h1 : ∀ v : Item, game G C A (v :: ps.map Pair.one) = ddhReal G (tripleDist G C one v) := by
      intro v
      rw [game_eq hG, ← one_real hG]
      rfl
    have h2 : ∀ l : List Item, game G C A (p.two :: l) =
        game G C (fun K cs => mean (nonces G) (fun r => A K (p.two.encrypt G C r K :: cs))) l := by
      intro l
      rw [game_eq hG, game_eq hG]
      refine mean_congr (fun s _ => ?_)
      exact encrypted_mean _ l (fun r cs => A (G.g ^ s % G.p) (p.two.encrypt G C r (G.g ^ s % G.p) :: cs)) _
    have h3 := one_bound (G := G) (C := C) (A := one) f1 f2 hn
    rw [← h1, ← h1, h2] at h3
    rw [← h2, ← h2, h2 (ps.map Pair.one)] at ih
    have h4 : loss G C A (p :: ps) = lossOne G C one p +
      loss G C (fun K cs => mean (nonces G) (fun r => A K (p.two.encrypt G C r K :: cs))) ps := rfl
    rw [h4, List.map_cons, List.map_cons]
    have h6 := abs_sub_le (game G C A (p.one :: ps.map Pair.one))
      (game G C (fun K cs => mean (nonces G) (fun r => A K (p.two.encrypt G C r K :: cs))) (ps.map Pair.one))
      (game G C A (p.two :: ps.map Pair.two))
    linarith

/-- What `encryptContest` passes to `hashedElgamalEncrypt` for the record of overvotes and write-ins of a contest
(encrypt.cpp:516-518). -/
def records (l : List (List UInt8 × List UInt8 × ℕ)) : List Pair :=
  l.map (fun x => ⟨x.1, x.2.1, x.2.2, bytes512, true⟩)

theorem fills_512 (m : List UInt8) (seed : ℕ) : Item.Fills ⟨m, seed, bytes512, true⟩ 16 := by
  obtain ⟨pt, h1, h2⟩ := padMessage_510 m
  have e : Item.padded ⟨m, seed, bytes512, true⟩ = pt := by
    unfold Item.padded
    rw [h1]
  unfold Item.Fills
  rw [e]
  exact ⟨h1, h2⟩

/-- C122.  For the records of contests this holds whatever they are, and however long. -/
theorem C122_records (hG : G.Valid) (l : List (List UInt8 × List UInt8 × ℕ)) (A : ℕ → List (Res HashedCiphertext) → ℚ) :
    |game G C A ((records l).map Pair.one) - game G C A ((records l).map Pair.two)| ≤ loss G C A (records l) := by
  refine C122_secrecy hG _ A (fun p hp => ?_)
  obtain ⟨x, -, rfl⟩ := List.mem_map.1 hp
  exact ⟨16, by norm_num, fills_512 _ _, fills_512 _ _⟩

/-- C122.  A contest's record is encrypted like this: with a nonce below `q`, which is the exponent of the triple taken
from the precompute buffers if there is one and computed from the contest's nonce otherwise, and with nothing else of
the contest but the record. -/
theorem C122_contest (hG : G.Valid) {K ext nonce : ℕ} {data : Str} {w w' : World} {x : HashedCiphertext} (hw : w.Ok G K)
    (hK : K < 2 ^ 4096) (h : encryptExtended G C data nonce K ext w = (.ok x, w')) :
    ∃ r ∈ nonces G, Item.encrypt G C ⟨data.bytes, ext, bytes512, true⟩ r K = .ok x ∧
      (∀ t, w.pre.getTriple.1 = some t → r = t.exp) ∧
      (w.pre.getTriple.1 = none → r = ((Nonces.makeWith G C nonce (.str extendedDataHeader)).get G C 0).1) := by
  have hn := nonce_lt (C := C) hG (Nonces.makeWith G C nonce (.str extendedDataHeader)) 0
  have ht := hw.getTriple.1
  unfold encryptExtended at h
  simp only [M.bind_eq_ok, M.getTriple, M.lift, Prod.mk.injEq, Res.ok.injEq] at h
  obtain ⟨t, w1, ⟨rfl, rfl⟩, hx, -⟩ := h
  cases e : w.pre.getTriple.1 with
  | none =>
    rw [e] at hx
    exact ⟨_, Finset.mem_range.2 hn, hx, fun t h => (nomatch h), fun _ => rfl⟩
  | some t =>
    rw [e] at hx ht
    obtain ⟨e1, e2, e3⟩ := ht t rfl
    refine ⟨t.exp, Finset.mem_range.2 e1, ?_, fun t' h => by rw [Option.some.inj h], fun h => nomatch h⟩
    have hr : t.exp < 2 ^ 512 := lt_512_of_lt (lt_trans e1 hG.q_lt)
    rw [← hx, encrypt_with, powModP_eq hG _ _ hK hr, gPowP_eq hG _ hr, ← e2, ← e3]
    rfl

/-- C122.  A nonce used for two messages shows their difference. -/
theorem C122_reuse {m m' : List UInt8} {seed maxLen nb : ℕ} {tr : Bool} (hn : nb < 2 ^ 27)
    (h : Item.Fills ⟨m, seed, maxLen, tr⟩ nb) (h' : Item.Fills ⟨m', seed, maxLen, tr⟩ nb) (r K : ℕ) :
    ∃ c c', Item.encrypt G C ⟨m, seed, maxLen, tr⟩ r K = .ok c ∧ Item.encrypt G C ⟨m', seed, maxLen, tr⟩ r K = .ok c' ∧
      List.zipWith (· ^^^ ·) c.data c'.data =
        List.zipWith (· ^^^ ·) (Item.padded ⟨m, seed, maxLen, tr⟩) (Item.padded ⟨m', seed, maxLen, tr⟩) := by
  refine ⟨_, _, (encrypt_with _ r K).trans (encryptWith_eq h hn _ _),
    (encrypt_with _ r K).trans (encryptWith_eq h' hn _ _), ?_⟩
  simp only [sealWith]
  have hk : (derived G C seed nb (gPowP G r) (powModP G K r)).tail.flatten.length = 32 * nb := by
    unfold derived
    rw [List.range_succ_eq_map, List.map_cons, List.tail_cons, List.length_flatten, List.map_map, List.map_map]
    have : ((List.length ∘ fun i => getHmac C (toBytesQ (hashElems G C [.p (gPowP G r), .p (powModP G K r)]))
        (toBytesQ seed) (lengthBits nb) i) ∘ Nat.succ) = fun _ => 32 := by
      funext i
      exact getHmac_length _ _ _ _ _
    rw [this]
    simp [mul_comm]
  have h1 := h.2
  have h2 := h'.2
  refine List.ext_getElem (by simp [h1, h2, hk]) (fun k _ _ => ?_)
  simp only [List.getElem_zipWith]
  generalize (Item.padded ⟨m, seed, maxLen, tr⟩)[k]'_ = a
  generalize (Item.padded ⟨m', seed, maxLen, tr⟩)[k]'_ = b
  generalize (derived G C seed nb (gPowP G r) (powModP G K r)).tail.flatten[k]'_ = x
  rw [UInt8.xor_comm b, UInt8.xor_assoc, ← UInt8.xor_assoc x, UInt8.xor_self, UInt8.zero_xor]

/-- C122 (a weakness): unlike `elgamalEncrypt`, `hashedElgamalEncrypt` accepts the nonce 0.  What it makes then can be
read with every secret, whatever the public key was. -/
theorem C122_zero_nonce (hG : G.Valid) (m : List UInt8) (K seed s : ℕ) (hK : K < 2 ^ 4096) (hm : m.length ≤ 510)
    (hs : 2 ≤ s) (hs' : s < 2 ^ 256) :
    elgamalEncrypt G 1 0 K = .throw .invalidArgument ∧
    ∃ c, Item.encrypt G C ⟨m, seed, bytes512, true⟩ 0 K = .ok c ∧ hashedDecrypt G C c s seed true = .ok m := by
  refine ⟨by simp [elgamalEncrypt], ?_⟩
  obtain ⟨k, c, hk, h1, -, h2⟩ := C15_bytes512 G C hG m s 0 seed true hs' hs (by norm_num) hm
  have e : ∀ a, a < 2 ^ 4096 → powModP G a 0 = 1 := by
    intro a ha
    rw [powModP_eq hG _ _ ha (by norm_num), pow_zero, Nat.mod_eq_of_lt hG.p_gt]
  have hk' : k = ⟨s, gPowP G s⟩ := by
    unfold keyFromSecret at hk
    split at hk
    · cases hk
    · exact (Res.ok.inj hk).symm
  subst hk'
  refine ⟨c, ?_, h2⟩
  rw [← h1]
  show hashedEncrypt G C none m 0 K seed bytes512 true = _
  unfold hashedEncrypt
  simp only
  rw [e K hK, e _ (lt_trans (gPowP_lt hG s hs') hG.p_lt)]

open Classical in
/-- C122.  The ciphertexts alone determine the messages: an adversary without limits wins always, so the bound of
`C122_secrecy` cannot be replaced by nothing. -/
theorem C122_unlimited (hG : G.Valid) (hq : 2 < G.q) {m m' : List UInt8} (seed : ℕ) (hm : m.length ≤ 510)
    (hm' : m'.length ≤ 510) (hne : m ≠ m') :
    ∃ A : ℕ → List (Res HashedCiphertext) → ℚ, (∀ K cs, A K cs = 0 ∨ A K cs = 1) ∧
      game G C A [⟨m, seed, bytes512, true⟩] = 1 ∧ game G C A [⟨m', seed, bytes512, true⟩] = 0 := by
  have mean_one : ∀ {s : Finset ℕ} (_ : s.Nonempty) {f : ℕ → ℚ} (v : ℚ) (_ : ∀ x ∈ s, f x = v), mean s f = v := by
    intro s hs f v h
    unfold mean
    rw [Finset.sum_congr rfl h, Finset.sum_const, nsmul_eq_mul, mul_div_assoc, mul_comm, div_mul_cancel₀]
    have := Finset.card_pos.2 hs
    positivity
  let A : ℕ → List (Res HashedCiphertext) → ℚ := fun K cs =>
    if ∃ s ∈ secrets G, G.g ^ s % G.p = K ∧ ∃ c, cs = [.ok c] ∧ hashedDecrypt G C c s seed true = .ok m then 1 else 0
  have hS : (secrets G).Nonempty := ⟨2, Finset.mem_Ico.2 ⟨le_rfl, hq⟩⟩
  have hR : (nonces G).Nonempty := ⟨0, Finset.mem_range.2 (by omega)⟩
  have key : ∀ s ∈ secrets G, ∀ r ∈ nonces G, ∀ x : List UInt8, x.length ≤ 510 →
      A (G.g ^ s % G.p) [Item.encrypt G C ⟨x, seed, bytes512, true⟩ r (G.g ^ s % G.p)] = if x = m then 1 else 0 := by
    intro s hs r hr x hx
    have h := Finset.mem_Ico.1 hs
    have hr := Finset.mem_range.1 hr
    have hq' := hG.q_lt
    obtain ⟨k, c, hk, h1, -, h2⟩ := C15_bytes512 G C hG x s r seed true (by omega) h.1 (by omega) hx
    obtain ⟨k', hk', h3⟩ := Secrecy.pub_eq hG hs
    rw [hk] at hk'
    obtain rfl := Res.ok.inj hk'
    have hks : k.secret = s := by
      unfold keyFromSecret at hk
      split at hk
      · cases hk
      · rw [← Res.ok.inj hk]
    rw [h3] at h1
    rw [hks] at h2
    have h1' : Item.encrypt G C ⟨x, seed, bytes512, true⟩ r (G.g ^ s % G.p) = .ok c := h1
    rw [h1']
    by_cases e : x = m
    · subst e
      rw [if_pos rfl]
      exact if_pos ⟨s, hs, rfl, c, rfl, h2⟩
    · rw [if_neg e]
      refine if_neg ?_
      rintro ⟨s', hs', e1, c', e2, e3⟩
      have h' := Finset.mem_Ico.1 hs'
      have hss : s' = s := by
        have h4 : G.g ^ s' ≡ G.g ^ s [MOD G.p] := e1
        rw [modEq_cast] at h4
        have h5 := (g_pow_eq_iff hG s' s).1 (by simpa using h4)
        rwa [Nat.mod_eq_of_lt h'.2, Nat.mod_eq_of_lt h.2] at h5
      have hcc : c = c' := by simpa using e2
      subst hss hcc
      rw [h2] at e3
      exact e (Res.ok.inj e3)
  refine ⟨A, ?_, ?_, ?_⟩
  · intro K cs
    by_cases h : ∃ s ∈ secrets G, G.g ^ s % G.p = K ∧ ∃ c, cs = [.ok c] ∧ hashedDecrypt G C c s seed true = .ok m
    · exact Or.inr (if_pos h)
    · exact Or.inl (if_neg h)
  · rw [game_eq hG]
    refine mean_one hS 1 (fun s hs => ?_)
    simp only [encrypted]
    exact mean_one hR 1 (fun r hr => by rw [key s hs r hr m hm, if_pos rfl])
  · rw [game_eq hG]
    refine mean_one hS 0 (fun s hs => ?_)
    simp only [encrypted]
    exact mean_one hR 0 (fun r hr => by rw [key s hs r hr m' hm', if_neg hne.symm])

/-- The standard parameters, and two different records for them. -/
example : Params.Valid .std ∧ 2 < Params.std.q ∧ Item.Fills ⟨[65], 7, bytes512, true⟩ 16 ∧
    Item.Fills ⟨List.replicate 600 66, 7, bytes512, true⟩ 16 ∧ Item.Fills ⟨List.replicate 32 1, 7, noPadding, false⟩ 1 :=
  ⟨C54_std_valid, by decide +kernel, fills_512 _ _, fills_512 _ _, ⟨by rfl, by rfl⟩⟩

end EG.WriteIns
