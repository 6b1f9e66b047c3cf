import Verif.Model.Hash
import Verif.Lemmas.Group
import Mathlib.Data.Nat.Digits.Lemmas

/-! Helper lemmas about hashing. -/

namespace EG

variable {G : Params} {C : Crypto}

theorem digestQ_lt (hG : G.Valid) (s : List Char) : digestQ G C s < G.q := addModQ_lt hG _ _

theorem hashElems_lt (hG : G.Valid) (xs : List HElem) : hashElems G C xs < G.q := by
  unfold hashElems
  split <;> exact digestQ_lt hG _

theorem hashElems_lt256 (hG : G.Valid) (xs : List HElem) : hashElems G C xs < 2 ^ 256 :=
  lt_trans (hashElems_lt hG xs) hG.q_lt

/-! ### The delimiter makes the encoding injective on delimiter-free strings -/

theorem split_delim (s t u v : List Char) (hs : '|' ∉ s) (ht : '|' ∉ t)
    (h : s ++ '|' :: u = t ++ '|' :: v) : s = t ∧ u = v := by
  induction s generalizing t with
  | nil =>
    cases t with
    | nil => simpa using h
    | cons c t => simp at h; exact absurd (by simp [← h.1]) ht
  | cons c s ih =>
    cases t with
    | nil => simp at h; exact absurd (by simp [h.1]) hs
    | cons d t =>
      simp only [List.cons_append, List.cons.injEq] at h
      obtain ⟨h1, h2⟩ := ih t (fun hm => hs (by simp [hm])) (fun hm => ht (by simp [hm])) h.2
      exact ⟨by rw [h.1, h1], h2⟩

theorem hashInput_inj (ss ts : List (List Char)) (hs : ∀ s ∈ ss, '|' ∉ s) (ht : ∀ s ∈ ts, '|' ∉ s)
    (h : hashInput ss = hashInput ts) : ss = ts := by
  have h' : ss.flatMap (fun s => s ++ ['|']) = ts.flatMap (fun s => s ++ ['|']) := by
    simpa [hashInput] using h
  clear h
  induction ss generalizing ts with
  | nil =>
    cases ts with
    | nil => rfl
    | cons t ts => simp at h'
  | cons s ss ih =>
    cases ts with
    | nil => simp at h'
    | cons t ts =>
      rw [List.flatMap_cons, List.flatMap_cons, List.append_assoc, List.append_assoc] at h'
      obtain ⟨h1, h2⟩ := split_delim s t _ _ (hs s (by simp)) (ht t (by simp)) h'
      rw [h1, ih ts (fun x hx => hs x (by simp [hx])) (fun x hx => ht x (by simp [hx])) h2]

theorem byteToHex_no_delim (b : UInt8) : '|' ∉ byteToHex b ∧ 'n' ∉ byteToHex b := by
  have h : ∀ n : Fin 16, hexDigit n.val ≠ '|' ∧ hexDigit n.val ≠ 'n' := by decide +kernel
  have hb := b.toNat_lt
  have h1 := h ⟨b.toNat / 16, by omega⟩
  have h2 := h ⟨b.toNat % 16, by omega⟩
  simp only at h1 h2
  simp only [byteToHex, List.mem_cons, List.not_mem_nil, or_false, not_or]
  exact ⟨⟨h1.1.symm, h2.1.symm⟩, ⟨h1.2.symm, h2.2.symm⟩⟩

theorem bytesToHex_no_delim (bs : List UInt8) : '|' ∉ bytesToHex bs ∧ 'n' ∉ bytesToHex bs := by
  unfold bytesToHex
  split
  · decide
  · rename_i b rest _
    constructor
    · rw [List.mem_flatMap]
      rintro ⟨x, _, hx⟩
      exact (byteToHex_no_delim x).1 hx
    · rw [List.mem_flatMap]
      rintro ⟨x, _, hx⟩
      exact (byteToHex_no_delim x).2 hx

theorem toHexP_no_delim (v : ℕ) : '|' ∉ toHexP v ∧ 'n' ∉ toHexP v := bytesToHex_no_delim (toBytesP v)

theorem toHexQ_no_delim (v : ℕ) : '|' ∉ toHexQ v ∧ 'n' ∉ toHexQ v := bytesToHex_no_delim (toBytesQ v)

theorem decimal_no_delim (n : ℕ) : '|' ∉ decimal n := by
  have h : ∀ d : Fin 10, Char.ofNat (48 + d.val) ≠ '|' := by decide +kernel
  unfold decimal
  rw [List.mem_map]
  rintro ⟨d, hd, he⟩
  exact h ⟨d, Nat.digits_lt_base (by norm_num) (List.mem_reverse.1 hd)⟩ he

theorem decimal_inj (m n : ℕ) (h : decimal m = decimal n) : m = n := by
  have hc : ∀ a b : Fin 10, Char.ofNat (48 + a.val) = Char.ofNat (48 + b.val) → a = b := by
    decide +kernel
  have key : ∀ xs ys : List ℕ, (∀ x ∈ xs, x < 10) → (∀ y ∈ ys, y < 10) →
      xs.map (fun d => Char.ofNat (48 + d)) = ys.map (fun d => Char.ofNat (48 + d)) → xs = ys := by
    intro xs
    induction xs with
    | nil => intro ys _ _ h; simpa using h.symm
    | cons x xs ih =>
      intro ys hx hy h
      cases ys with
      | nil => simp at h
      | cons y ys =>
        simp only [List.map_cons, List.cons.injEq] at h
        have h1 := hc ⟨x, hx x (by simp)⟩ ⟨y, hy y (by simp)⟩ h.1
        have h1' : x = y := by simpa using h1
        rw [h1', ih ys (fun z hz => hx z (by simp [hz])) (fun z hz => hy z (by simp [hz])) h.2]
  have h1 := key _ _ (fun x hx => Nat.digits_lt_base (by norm_num) (List.mem_reverse.1 hx))
    (fun x hx => Nat.digits_lt_base (by norm_num) (List.mem_reverse.1 hx)) h
  exact Nat.digits.injective 10 (List.reverse_injective h1)

end EG
