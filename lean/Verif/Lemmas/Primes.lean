import Verif.Lemmas.PowMod
import Mathlib.Tactic.NormNum.Prime
import Mathlib.Tactic.NormNum.DivMod

/-! Pratt certificate for `q = 2^256 - 189`. -/

namespace EG

theorem prime_1 : Nat.Prime 1521613 := by
  refine pratt 1521613 2 [2, 2, 3, 3, 3, 73, 193] (by decide) (by decide +kernel) (by decide +kernel) ?_ (by decide +kernel)
    (by decide +kernel)
  simp only [List.forall_mem_cons]
  exact ⟨(by norm_num), (by norm_num), (by norm_num), (by norm_num), (by norm_num), (by norm_num), (by norm_num), by simp⟩

theorem prime_2 : Nat.Prime 4463413 := by
  refine pratt 4463413 2 [2, 2, 3, 371951] (by decide) (by decide +kernel) (by decide +kernel) ?_ (by decide +kernel)
    (by decide +kernel)
  simp only [List.forall_mem_cons]
  exact ⟨(by norm_num), (by norm_num), (by norm_num), (by norm_num), by simp⟩

theorem prime_3 : Nat.Prime 1219974856409 := by
  refine pratt 1219974856409 6 [2, 2, 2, 7, 11, 3761, 526583] (by decide) (by decide +kernel) (by decide +kernel) ?_ (by decide +kernel)
    (by decide +kernel)
  simp only [List.forall_mem_cons]
  exact ⟨(by norm_num), (by norm_num), (by norm_num), (by norm_num), (by norm_num), (by norm_num), (by norm_num), by simp⟩

theorem prime_4 : Nat.Prime 10262543633 := by
  refine pratt 10262543633 3 [2, 2, 2, 2, 11, 83, 702529] (by decide) (by decide +kernel) (by decide +kernel) ?_ (by decide +kernel)
    (by decide +kernel)
  simp only [List.forall_mem_cons]
  exact ⟨(by norm_num), (by norm_num), (by norm_num), (by norm_num), (by norm_num), (by norm_num), (by norm_num), by simp⟩

theorem prime_5 : Nat.Prime 246301047193 := by
  refine pratt 246301047193 5 [2, 2, 2, 3, 10262543633] (by decide) (by decide +kernel) (by decide +kernel) ?_ (by decide +kernel)
    (by decide +kernel)
  simp only [List.forall_mem_cons]
  exact ⟨(by norm_num), (by norm_num), (by norm_num), (by norm_num), prime_4, by simp⟩

theorem prime_6 : Nat.Prime 68964293214041 := by
  refine pratt 68964293214041 12 [2, 2, 2, 5, 7, 246301047193] (by decide) (by decide +kernel) (by decide +kernel) ?_ (by decide +kernel)
    (by decide +kernel)
  simp only [List.forall_mem_cons]
  exact ⟨(by norm_num), (by norm_num), (by norm_num), (by norm_num), (by norm_num), prime_5, by simp⟩

theorem prime_7 : Nat.Prime 23236691026952546459 := by
  refine pratt 23236691026952546459 2 [2, 7, 41, 587, 68964293214041] (by decide) (by decide +kernel) (by decide +kernel) ?_ (by decide +kernel)
    (by decide +kernel)
  simp only [List.forall_mem_cons]
  exact ⟨(by norm_num), (by norm_num), (by norm_num), (by norm_num), prime_6, by simp⟩

theorem prime_8 : Nat.Prime 14220365526706201077871 := by
  refine pratt 14220365526706201077871 6 [2, 3, 3, 5, 23, 2221, 36151, 87881, 973591] (by decide) (by decide +kernel) (by decide +kernel) ?_ (by decide +kernel)
    (by decide +kernel)
  simp only [List.forall_mem_cons]
  exact ⟨(by norm_num), (by norm_num), (by norm_num), (by norm_num), (by norm_num), (by norm_num), (by norm_num), (by norm_num), (by norm_num), by simp⟩

theorem prime_9 : Nat.Prime 440208639276132997491800604758226661590679912188273141493 := by
  refine pratt 440208639276132997491800604758226661590679912188273141493 2 [2, 2, 3, 7, 13, 1219974856409, 23236691026952546459, 14220365526706201077871] (by decide) (by decide +kernel) (by decide +kernel) ?_ (by decide +kernel)
    (by decide +kernel)
  simp only [List.forall_mem_cons]
  exact ⟨(by norm_num), (by norm_num), (by norm_num), (by norm_num), (by norm_num), prime_3, prime_7, prime_8, by simp⟩

theorem prime_10 : Nat.Prime 115792089237316195423570985008687907853269984665640564039457584007913129639747 := by
  refine pratt 115792089237316195423570985008687907853269984665640564039457584007913129639747 2 [2, 3, 29, 222587, 1521613, 4463413, 440208639276132997491800604758226661590679912188273141493] (by decide) (by decide +kernel) (by decide +kernel) ?_ (by decide +kernel)
    (by decide +kernel)
  simp only [List.forall_mem_cons]
  exact ⟨(by norm_num), (by norm_num), (by norm_num), (by norm_num), prime_1, prime_2, prime_9, by simp⟩

end EG
