import Verif.Lemmas.LeakSame
import Verif.Lemmas.LimbsGroup

/-!
# What the observations of the variable-time functions tell about the exponent
-/

namespace EG.Leak

open Limbs

theorem trace_bind {α β : Type} (x : L α) (f : α → L β) : (x >>= f).trace = x.trace ++ (f x.val).trace := rfl

/-- If the first parts agree, the second parts do. -/
theorem cancel {α β : Type} {x y : L α} {f g : α → L β} {T T' : List Event}
    (h : (x >>= f).trace ++ T = (y >>= g).trace ++ T') (hx : x.trace = y.trace) :
    (f x.val).trace ++ T = (g y.val).trace ++ T' := by
  rw [trace_bind, trace_bind, hx, List.append_assoc, List.append_assoc] at h
  exact List.append_cancel_left h

theorem parts {α β : Type} {x y : L α} {f g : α → L β} {T T' : List Event}
    (h : (x >>= f).trace ++ T = (y >>= g).trace ++ T') :
    x.trace ++ ((f x.val).trace ++ T) = y.trace ++ ((g y.val).trace ++ T') := by
  rw [trace_bind, trace_bind, List.append_assoc, List.append_assoc] at h
  exact h

theorem loop_leaks {σ : Type} {R : σ → σ → Prop} {p : ℕ → Prop} {f g : σ → ℕ → L σ} {l : List ℕ}
    (hf : ∀ i ∈ l, ∀ s t, R s t → ∀ T T', (f s i).trace ++ T = (g t i).trace ++ T' →
      p i ∧ T = T' ∧ R (f s i).val (g t i).val)
    {s t : σ} (h : R s t) {T T' : List Event} (ht : (loop f l s).trace ++ T = (loop g l t).trace ++ T') :
    (∀ i ∈ l, p i) ∧ T = T' ∧ R (loop f l s).val (loop g l t).val := by
  induction l generalizing s t with
  | nil => exact ⟨by simp, ht, h⟩
  | cons i l ih =>
    change ((f s i >>= fun s => loop f l s).trace ++ T) = ((g t i >>= fun t => loop g l t).trace ++ T') at ht
    obtain ⟨h1, h2, h3⟩ := hf i (by simp) s t h _ _ (parts ht)
    obtain ⟨h4, h5, h6⟩ := ih (fun j hj => hf j (by simp [hj])) h3 h2
    refine ⟨?_, h5, h6⟩
    intro j hj
    rcases List.mem_cons.1 hj with rfl | hj
    · exact h1
    · exact h4 j hj

theorem lookVartime_leaks {t t' : List Arr} (ht : LenT t t') {w w' : UInt64} {T T' : List Event}
    (h : (lookVartime t w).trace ++ T = (lookVartime t' w').trace ++ T') :
    w = w' ∧ T = T' ∧ Len (lookVartime t w).val (lookVartime t' w').val := by
  have h' : Event.mem "table" w.toNat :: T = Event.mem "table" w'.toNat :: T' := h
  injection h' with h1 h2
  injection h1 with _ h1
  obtain rfl := UInt64.toNat.inj h1
  exact ⟨rfl, h2, ht.getD _⟩

variable (c : Ctx) {a a' : Arr}

theorem expStep_leaks {t t' : List Arr} (ht : LenT t t') (b b' : Arr) (len bk i : ℕ) {s s' : Arr} (hs : Len s s')
    {T T' : List Event} (h : (expStep c (lookVartime t) b len bk s i).trace ++ T =
      (expStep c (lookVartime t') b' len bk s' i).trace ++ T') :
    Limbs.getWindow b len (bk - 4 * i - 4) = Limbs.getWindow b' len (bk - 4 * i - 4) ∧ T = T' ∧
      Len (expStep c (lookVartime t) b len bk s i).val (expStep c (lookVartime t') b' len bk s' i).val := by
  unfold expStep at h ⊢
  have hq := squarings_same c hs
  have h := cancel h hq.1
  have h := cancel h (getWindow_same b b' len _).1
  obtain ⟨h1, h2, h3⟩ := lookVartime_leaks ht (parts h)
  have hm := amontMul_same c hq.2 h3
  rw [hm.1] at h2
  rw [getWindow_val, getWindow_val] at h1
  exact ⟨h1, List.append_cancel_left h2, hm.2⟩

theorem expWindow_leaks (ha : Len a a') (k : ℕ) (b b' : Arr) {T T' : List Event}
    (h : (expWindow c lookVartime a k b).trace ++ T = (expWindow c lookVartime a' k b').trace ++ T') :
    (∀ i < k / 4, Limbs.getWindow b (bLen k) (k - k % 4 - 4 * i - 4) =
      Limbs.getWindow b' (bLen k) (k - k % 4 - 4 * i - 4)) ∧
    (k % 4 ≠ 0 → Limbs.getWindow b (bLen k) (k / 4 * 4) = Limbs.getWindow b' (bLen k) (k / 4 * 4)) := by
  unfold expWindow at h
  have h1 := toMont_same c ha
  have h := cancel h h1.1
  have h := cancel h rfl
  have h := cancel h rfl
  have h2 := expTable_same c h1.2 (b := (fromMont c c.r2).val) rfl
  have h := cancel h h2.1
  have h := parts h
  have h4 : ∀ {t t' : List Arr} {o : Arr} {T T' : List Event}, LenT t t' →
      (expStart (lookVartime t) o k b).trace ++ T = (expStart (lookVartime t') o k b').trace ++ T' →
      (k % 4 ≠ 0 → Limbs.getWindow b (bLen k) (k / 4 * 4) = Limbs.getWindow b' (bLen k) (k / 4 * 4)) ∧ T = T' ∧
      Len (expStart (lookVartime t) o k b).val (expStart (lookVartime t') o k b').val := by
    intro t t' o T T' ht h
    unfold expStart at h ⊢
    have h := cancel h rfl
    by_cases hk : k % 4 ≠ 0
    · have e : (cond (decide (k % 4 ≠ 0))).val = true := by simpa using hk
      rw [val_bind, val_bind]
      rw [e] at h ⊢
      rw [if_pos rfl, if_pos rfl] at h ⊢
      have h := cancel h (getWindow_same b b' _ _).1
      obtain ⟨h1, h2, h3⟩ := lookVartime_leaks ht h
      rw [getWindow_val, getWindow_val] at h1
      exact ⟨fun _ => h1, h2, h3⟩
    · have e : (cond (decide (k % 4 ≠ 0))).val = false := by simpa using hk
      rw [val_bind, val_bind]
      rw [e] at h ⊢
      exact ⟨fun hh => absurd hh hk, h, rfl⟩
  obtain ⟨h5, h6, h7⟩ := h4 h2.2 h
  have h6 := parts h6
  obtain ⟨h8, -, -⟩ := loop_leaks (R := Len) (p := fun i =>
    Limbs.getWindow b (bLen k) (k - k % 4 - 4 * i - 4) = Limbs.getWindow b' (bLen k) (k - k % 4 - 4 * i - 4))
    (fun i _ s t hst T T' h => expStep_leaks c h2.2 b b' _ _ i hst h) h7 h6
  exact ⟨fun i hi => h8 i (List.mem_range.2 hi), h5⟩

/-- Both arrays have the same lengths. -/
def Len2 (x y : Arr × Arr) : Prop := Len x.1 y.1 ∧ Len x.2 y.2

theorem expBinary_leaks (ha : Len a a') (k : ℕ) (b b' : Arr) {T T' : List Event}
    (h : (expBinary c a k b).trace ++ T = (expBinary c a' k b').trace ++ T') :
    ∀ i < k, (Limbs.getBit b i = 0 ↔ Limbs.getBit b' i = 0) := by
  unfold expBinary at h
  have h1 := toMont_same c ha
  have h := cancel h h1.1
  have h := cancel h rfl
  have hstep : ∀ i, ∀ s t, Len2 s t → ∀ T T',
      (binaryStep c b s i).trace ++ T = (binaryStep c b' t i).trace ++ T' →
      (Limbs.getBit b i = 0 ↔ Limbs.getBit b' i = 0) ∧ T = T' ∧
        Len2 (binaryStep c b s i).val (binaryStep c b' t i).val := by
    intro i s t hst T T' h
    unfold binaryStep at h ⊢
    have h := cancel h (getBit_same b b' i).1
    have e := getBit_val b i
    have e' := getBit_val b' i
    rw [e, e'] at h
    have h := parts h
    have h0 : Event.branch (decide (Limbs.getBit b i = 0)) = Event.branch (decide (Limbs.getBit b' i = 0)) :=
      (List.cons.inj h).1
    injection h0 with h0
    have hiff : Limbs.getBit b i = 0 ↔ Limbs.getBit b' i = 0 := by simpa using h0
    have hsq := amontSqr_same c hst.2
    have key : Same Len (do if ← cond (Limbs.getBit b i = 0) then pure s.1 else amontMul c s.1 s.2)
        (do if ← cond (Limbs.getBit b' i = 0) then pure t.1 else amontMul c t.1 t.2) := by
      rw [h0]
      refine (Same.refl _).bind ?_
      rintro x _ rfl
      cases x with
      | true => exact .pure hst.1
      | false => exact amontMul_same c hst.1 hst.2
    have hv := key.2
    simp only [← getBit_val] at hv
    refine ⟨hiff, ?_, hv, hsq.2⟩
    rw [key.1] at h
    have h := List.append_cancel_left h
    exact cancel h hsq.1
  have h := parts h
  obtain ⟨h8, -, -⟩ := loop_leaks (R := Len2) (p := fun i => (Limbs.getBit b i = 0 ↔ Limbs.getBit b' i = 0))
    (fun i _ => hstep i)
    (s := ((fromMont c c.r2).val, (toMont c a).val)) (t := ((fromMont c c.r2).val, (toMont c a').val))
    ⟨rfl, h1.2⟩ h
  exact fun i hi => h8 i (List.mem_range.2 hi)

end EG.Leak
