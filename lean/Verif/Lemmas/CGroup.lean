import Verif.Model.CGroup
import Verif.Lemmas.Group
import Mathlib.Data.List.TakeWhile

/-!
# Lemmas about elements and ciphertexts through C and C#
-/

namespace EG.CGroup

open EG.CText (Status)

variable (G : Params)

theorem toLimbs_ofLimbs : ∀ a : List UInt64, toLimbs a.length (ofLimbs (a.map UInt64.toNat)) = a
  | [] => rfl
  | x :: a => by
    have hx : x.toNat < 2 ^ 64 := x.toBitVec.isLt
    rw [List.length_cons, List.map_cons, ofLimbs, toLimbs]
    have h1 : (x.toNat + 2 ^ 64 * ofLimbs (a.map UInt64.toNat)) % 2 ^ 64 = x.toNat := by omega
    have h2 : (x.toNat + 2 ^ 64 * ofLimbs (a.map UInt64.toNat)) / 2 ^ 64 = ofLimbs (a.map UInt64.toNat) := by omega
    rw [h1, h2, toLimbs_ofLimbs a, UInt64.ofNat_toNat]

theorem toLimbs_length : ∀ n v, (toLimbs n v).length = n
  | 0, _ => rfl
  | n + 1, v => by rw [toLimbs, List.length_cons, toLimbs_length n]

theorem data_some (n v : ℕ) : data n (some (some v)) = .ok (some (toLimbs n v)) := by
  simp only [data, getData]
  rw [if_neg (by simp), if_neg (by rw [toLimbs_length]; omega),
    List.take_of_length_le (toLimbs_length n v).le]

theorem cText_hex (bs : List UInt8) : cText (bytesToHex bs) = bytesToHex bs := by
  have hd : ∀ n < 16, hexDigit n ≠ Char.ofNat 0 := by decide
  rw [cText, List.takeWhile_eq_self_iff]
  intro c hc
  simp only [decide_eq_true_eq]
  rw [bytesToHex] at hc
  split at hc
  · simp only [List.mem_cons, List.not_mem_nil, or_false, or_self] at hc
    rw [hc]; decide
  · obtain ⟨b, -, hb⟩ := List.mem_flatMap.mp hc
    have := b.toBitVec.isLt
    simp only [byteToHex, List.mem_cons, List.not_mem_nil, or_false] at hb
    have hb' : b.toNat < 256 := this
    rcases hb with h | h
    · rw [h]; exact hd _ (by omega)
    · rw [h]; exact hd _ (by omega)

theorem bind_ne_ub {α β : Type} (x : Res α) (f : α → Res β) (hx : x ≠ .ub) (hf : ∀ a, f a ≠ .ub) :
    (x >>= f) ≠ .ub := by
  cases x with
  | ok a => exact hf a
  | throw e => intro h; cases h
  | ub => exact absurd rfl hx

theorem mkQ_ne_ub (un : Bool) (v : ℕ) : mkQ G un v ≠ .ub := by
  rw [mkQ_eq]; split <;> intro h <;> cases h

theorem stoi_ne_ub (s : List Char) : stoi16Byte s ≠ .ub := by
  rw [stoi16Byte]; dsimp only; split <;> intro h <;> cases h

theorem hexToBytes_ne_ub (s : List Char) : hexToBytes s ≠ .ub := by
  induction s using hexToBytes.induct with
  | case1 => intro h; cases h
  | case2 c => exact bind_ne_ub _ _ (stoi_ne_ub _) (fun a h => by cases h)
  | case3 c d rest ih =>
    rw [hexToBytes]
    exact bind_ne_ub _ _ (stoi_ne_ub _) (fun a => bind_ne_ub _ _ ih (fun b h => by cases h))

theorem fromHexQ_ne_ub (un : Bool) (s : List Char) : fromHexQ G un s ≠ .ub := by
  refine bind_ne_ub _ _ ?_ (fun t => bind_ne_ub _ _ (hexToBytes_ne_ub t) (fun bs => ?_))
  · rw [sanitizeHex]; split <;> intro h <;> cases h
  · rw [bytesToQ]; split
    · intro h; cases h
    · split
      · intro h; cases h
      · exact mkQ_ne_ub G _ _

theorem caught_ne_ub {α : Type} (s : Status) (hs : s ≠ .success) (x : Res α) (hx : x ≠ .ub) :
    call throwIfError (caught s x) ≠ .ub := by
  cases x with
  | ok a => intro h; cases h
  | throw e => cases s <;> first | exact absurd rfl hs | (intro h; cases h)
  | ub => exact absurd rfl hx

end EG.CGroup
