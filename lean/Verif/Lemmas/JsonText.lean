import Verif.Lemmas.Serialize
import Verif.Lemmas.Double

/-!
# The parser follows the grammar
-/

namespace EG

open Spec.JsonText

/-! ## White space -/

theorem skipWs_split (s : Str) : ∃ a, s = a ++ skipWs s ∧ Ws a := by
  induction s with
  | nil => exact ⟨[], rfl, fun c hc => by cases hc⟩
  | cons c rest ih =>
    by_cases h : c = ' ' ∨ c = '\t' ∨ c = '\n' ∨ c = '\r'
    · obtain ⟨a, ha, hw⟩ := ih
      rw [skipWs, if_pos h]
      refine ⟨c :: a, by rw [List.cons_append, ← ha], ?_⟩
      intro x hx
      rcases List.mem_cons.1 hx with rfl | hx
      · exact h
      · exact hw x hx
    · rw [skipWs, if_neg h]
      exact ⟨[], rfl, fun c hc => by cases hc⟩

theorem skipWs_append {a : Str} (ha : Ws a) (s : Str) : skipWs (a ++ s) = skipWs s := by
  induction a with
  | nil => rfl
  | cons c a ih =>
    rw [List.cons_append, skipWs, if_pos (ha c List.mem_cons_self)]
    exact ih (fun x hx => ha x (List.mem_cons_of_mem _ hx))

theorem skipWs_head {s r : Str} {c : Char} (h : skipWs s = c :: r) :
    ¬(c = ' ' ∨ c = '\t' ∨ c = '\n' ∨ c = '\r') := by
  induction s with
  | nil => cases h
  | cons d s ih =>
    by_cases hd : d = ' ' ∨ d = '\t' ∨ d = '\n' ∨ d = '\r'
    · rw [skipWs, if_pos hd] at h
      exact ih h
    · rw [skipWs, if_neg hd] at h
      injection h with h1 h2
      rw [← h1]
      exact hd

theorem ws_nil : Ws [] := fun c hc => by cases hc

/-! ## Strings -/

theorem hexNibble_iff (c : Char) (v : ℕ) : hexNibble c = some v ↔ HexDigit c v := by
  constructor
  · intro h
    have key : ∀ n, n < 103 → hexNibble (Char.ofNat n) = some v → HexDigit (Char.ofNat n) v := by
      intro n hn h
      have h1 : ∀ m, m < 103 → ∀ w, w ∈ hexNibble (Char.ofNat m) →
          ("0123456789abcdef".toList[w]? = some (Char.ofNat m) ∨
            "0123456789ABCDEF".toList[w]? = some (Char.ofNat m)) := by
        decide +kernel
      exact h1 n hn v h
    have hc : c = Char.ofNat c.toNat := by simp
    have hl : c.toNat < 103 := by
      by_contra hcon
      rw [hexNibble] at h
      rw [if_neg (by omega), if_neg (by omega), if_neg (by omega)] at h
      cases h
    rw [hc] at h ⊢
    exact key _ hl h
  · intro h
    have h1 : ∀ w, w < 16 → ∀ c, (c ∈ "0123456789abcdef".toList[w]? → hexNibble c = some w) ∧
        (c ∈ "0123456789ABCDEF".toList[w]? → hexNibble c = some w) := by
      intro w hw
      interval_cases w <;> simp <;> first | decide | (intro c; refine ⟨?_, ?_⟩ <;> rintro rfl <;> decide)
    have hv : v < 16 := by
      rcases h with h | h <;> exact (List.getElem?_eq_some_iff.1 h).1
    rcases h with h | h
    · exact (h1 v hv c).1 h
    · exact (h1 v hv c).2 h

theorem hexQuad_iff (a b c d : Char) (n : ℕ) : hexQuad a b c d = some n ↔ Hex4 a b c d n := by
  simp only [hexQuad, Hex4, Option.bind_eq_bind, Option.bind_eq_some_iff, hexNibble_iff, Option.some.injEq]
  constructor
  · rintro ⟨x, hx, y, hy, z, hz, w, hw, rfl⟩
    exact ⟨x, y, z, w, hx, hy, hz, hw, by ring⟩
  · rintro ⟨x, y, z, w, hx, hy, hz, hw, rfl⟩
    exact ⟨x, hx, y, hy, z, hz, w, hw, by ring⟩

theorem scan_map {c : Char} {r str rest : Str}
    (ih : ∀ str rest, scanString r = some (str, rest) → ∃ t, r = t ++ '"' :: rest ∧ Chars t str)
    (h : (scanString r).map (fun q => (c :: q.1, q.2)) = some (str, rest)) :
    ∃ t s, r = t ++ '"' :: rest ∧ Chars t s ∧ str = c :: s := by
  rw [Option.map_eq_some_iff] at h
  obtain ⟨⟨s, u⟩, h1, h2⟩ := h
  simp only [Prod.mk.injEq] at h2
  obtain ⟨t, h3, h4⟩ := ih _ _ h1
  exact ⟨t, s, by rw [h3, h2.2], h4, h2.1.symm⟩

theorem scanString_sound (s : Str) : ∀ str rest, scanString s = some (str, rest) →
    ∃ t, s = t ++ '"' :: rest ∧ Chars t str := by
  fun_induction scanString s <;> intro str rest h
  case case1 => cases h
  case case2 => simp only [Option.some.injEq, Prod.mk.injEq] at h; exact ⟨[], by rw [h.2]; rfl, by rw [← h.1]; exact .nil⟩
  case case3 => cases h
  case case4 => cases h
  case case5 n x h1 a b c d r n' x' h2 ih =>
    obtain ⟨t, s, e1, e2, e3⟩ := scan_map ih h
    subst e1 e3
    refine ⟨_ :: _ :: _ :: _ :: _ :: _ :: _ :: _ :: _ :: _ :: _ :: _ :: t, rfl, ?_⟩
    rw [hexQuad_iff] at x x'
    have e : (n - 55296) * 1024 + (n' - 56320) + 65536 = 0x10000 + 1024 * (n - 55296) + (n' - 56320) := by ring
    rw [e]
    refine .pair ?_ ?_ (by omega) (by omega) e2
    · rw [show 0xD800 + (n - 55296) = n by omega]; exact x
    · rw [show 0xDC00 + (n' - 56320) = n' by omega]; exact x'
  case case6 => cases h
  case case7 => cases h
  case case8 => cases h
  case case9 n x h1 h2 ih =>
    obtain ⟨t, s, e1, e2, e3⟩ := scan_map ih h
    subst e1 e3
    refine ⟨_ :: _ :: _ :: _ :: _ :: _ :: t, rfl, ?_⟩
    rw [hexQuad_iff] at x
    exact .unicode x (by omega) e2
  case case10 e r x h1 ih =>
    obtain ⟨t, s, e1, e2, e3⟩ := scan_map ih h
    subst e1 e3
    refine ⟨_ :: _ :: t, rfl, ?_⟩
    rcases h1 with rfl | rfl | rfl
    · exact .quote e2
    · exact .backslash e2
    · exact .slash e2
  case case11 ih =>
    obtain ⟨t, s, e1, e2, e3⟩ := scan_map ih h
    subst e1 e3
    exact ⟨_ :: _ :: t, rfl, .backspace e2⟩
  case case12 ih =>
    obtain ⟨t, s, e1, e2, e3⟩ := scan_map ih h
    subst e1 e3
    exact ⟨_ :: _ :: t, rfl, .tab e2⟩
  case case13 ih =>
    obtain ⟨t, s, e1, e2, e3⟩ := scan_map ih h
    subst e1 e3
    exact ⟨_ :: _ :: t, rfl, .newline e2⟩
  case case14 ih =>
    obtain ⟨t, s, e1, e2, e3⟩ := scan_map ih h
    subst e1 e3
    exact ⟨_ :: _ :: t, rfl, .formFeed e2⟩
  case case15 ih =>
    obtain ⟨t, s, e1, e2, e3⟩ := scan_map ih h
    subst e1 e3
    exact ⟨_ :: _ :: t, rfl, .return e2⟩
  case case16 => cases h
  case case17 => cases h
  case case18 => cases h
  case case19 c r x1 x2 x3 x4 h1 ih =>
    obtain ⟨t, s, e1, e2, e3⟩ := scan_map ih h
    subst e1 e3
    refine ⟨_ :: t, rfl, .plain (by omega) x1 ?_ e2⟩
    intro hc
    cases t with
    | nil => exact x3 _ _ hc rfl
    | cons a t => exact x3 _ _ hc rfl

theorem scanString_plain {c : Char} (h1 : 32 ≤ c.toNat) (h2 : c ≠ '"') (h3 : c ≠ '\\') (rest : Str) :
    scanString (c :: rest) = (scanString rest).map (fun r => (c :: r.1, r.2)) := by
  rw [scanString.eq_def]
  split
  · simp at *
  · simp_all
  · simp_all
  · simp_all
  · simp_all
  · rename_i heq
    simp only [List.cons.injEq] at heq
    obtain ⟨rfl, rfl⟩ := heq
    rw [if_neg (by omega)]

theorem scanString_complete {t s : Str} (h : Chars t s) (rest : Str) :
    scanString (t ++ '"' :: rest) = some (s, rest) := by
  induction h with
  | nil => simp [scanString]
  | plain h1 h2 h3 _ ih =>
    rw [List.cons_append, scanString_plain h1 h2 h3, ih]; rfl
  | quote _ ih => simp [scanString, ih]
  | backslash _ ih => simp [scanString, ih]
  | slash _ ih => simp [scanString, ih]
  | backspace _ ih => simp [scanString, ih]
  | formFeed _ ih => simp [scanString, ih]
  | newline _ ih => simp [scanString, ih]
  | «return» _ ih => simp [scanString, ih]
  | tab _ ih => simp [scanString, ih]
  | unicode hx hn _ ih =>
    rw [← hexQuad_iff] at hx
    simp only [List.cons_append]
    rw [scanString, hx]
    dsimp only
    rw [if_neg (by omega), if_neg (by omega), ih]
    rfl
  | pair hx hy hh hl _ ih =>
    rename_i h l _ _ _
    rw [← hexQuad_iff] at hx hy
    simp only [List.cons_append]
    rw [scanString, hx]
    dsimp only
    rw [if_pos (by omega)]
    simp only [hy]
    rw [if_pos (by omega), ih]
    rw [show (0xD800 + h - 0xD800) * 1024 + (0xDC00 + l - 0xDC00) + 0x10000 = 0x10000 + 1024 * h + l by omega]
    rfl

/-! ## Numbers -/

theorem digitsVal_snoc (t : Str) (c : Char) : digitsVal (t ++ [c]) = 10 * digitsVal t + (c.toNat - 48) := by
  simp [digitsVal]

theorem digit_iff (c : Char) (d : ℕ) : "0123456789".toList[d]? = some c ↔ isDigit c = true ∧ d = c.toNat - 48 := by
  constructor
  · intro h
    have hd : d < 10 := (List.getElem?_eq_some_iff.1 h).1
    have h1 : ∀ d < 10, ∀ c ∈ "0123456789".toList[d]?, isDigit c = true ∧ d = c.toNat - 48 := by
      decide +kernel
    exact h1 d hd c h
  · rintro ⟨h1, rfl⟩
    have h2 : 48 ≤ c.toNat ∧ c.toNat ≤ 57 := by simpa [isDigit] using h1
    have h3 : ∀ n, 48 ≤ n ∧ n ≤ 57 → "0123456789".toList[n - 48]? = some (Char.ofNat n) := by
      intro n hn
      obtain ⟨a, b⟩ := hn
      interval_cases n <;> decide
    have := h3 c.toNat h2
    rwa [Char.ofNat_toNat] at this

theorem digits_iff (t : Str) (n : ℕ) : Digits t n ↔ (∀ c ∈ t, isDigit c = true) ∧ n = digitsVal t := by
  constructor
  · intro h
    induction h with
    | nil => exact ⟨fun c hc => (by cases hc), rfl⟩
    | snoc _ hd ih =>
      rw [digit_iff] at hd
      refine ⟨?_, by rw [digitsVal_snoc, ← ih.2, hd.2]⟩
      intro c hc
      rcases List.mem_append.1 hc with hc | hc
      · exact ih.1 c hc
      · rw [List.mem_singleton.1 hc]; exact hd.1
  · rintro ⟨h, rfl⟩
    induction t using List.reverseRecOn with
    | nil => exact .nil
    | append_singleton t c ih =>
      rw [digitsVal_snoc]
      exact .snoc (ih (fun x hx => h x (List.mem_append_left _ hx)))
        ((digit_iff _ _).2 ⟨h c (by simp), rfl⟩)

/-- No digit comes next. -/
def NoDigit (s : Str) : Prop := ∀ c ∈ s.head?, isDigit c = false

theorem dropWhile_noDigit (s : Str) : NoDigit (s.dropWhile isDigit) := by
  intro c hc
  have := List.head?_dropWhile_not isDigit s
  rw [Option.mem_def.1 hc] at this
  simpa using this

theorem takeWhile_digits (s : Str) : ∀ c ∈ s.takeWhile isDigit, isDigit c = true :=
  fun _ hc => by
    induction s with
    | nil => cases hc
    | cons a s ih =>
      by_cases h : isDigit a = true
      · rw [List.takeWhile_cons_of_pos h] at hc
        rcases List.mem_cons.1 hc with rfl | hc
        · exact h
        · exact ih hc
      · rw [List.takeWhile_cons_of_neg h] at hc
        cases hc

theorem scanInt_sound {s d r : Str} (h : scanInt s = some (d, r)) : s = d ++ r ∧ IntPart d (digitsVal d) := by
  unfold scanInt at h
  split at h
  · cases h
  · rename_i c rest
    by_cases h0 : c = '0'
    · rw [if_pos h0] at h
      simp only [Option.some.injEq, Prod.mk.injEq] at h
      obtain ⟨rfl, rfl⟩ := h
      refine ⟨by rw [h0]; rfl, (digits_iff _ _).2 ⟨by decide, rfl⟩, by simp, fun _ => rfl⟩
    · rw [if_neg h0] at h
      by_cases h1 : isDigit c = true
      · rw [if_pos h1] at h
        simp only [Option.some.injEq, Prod.mk.injEq] at h
        obtain ⟨rfl, rfl⟩ := h
        refine ⟨by rw [List.cons_append, List.takeWhile_append_dropWhile], (digits_iff _ _).2 ⟨?_, rfl⟩, by simp,
          fun h => absurd (by simpa using h) h0⟩
        intro x hx
        rcases List.mem_cons.1 hx with rfl | hx
        · exact h1
        · exact takeWhile_digits _ _ hx
      · rw [if_neg h1] at h
        cases h

theorem scanInt_complete {d r : Str} {n : ℕ} (h : IntPart d n) (hr : NoDigit r) :
    scanInt (d ++ r) = some (d, r) := by
  obtain ⟨h1, h2, h3⟩ := h
  rw [digits_iff] at h1
  cases d with
  | nil => exact absurd rfl h2
  | cons c d =>
    rw [List.cons_append, scanInt]
    by_cases h0 : c = '0'
    · have h4 := h3 (by simp [h0])
      rw [if_pos h0]
      injection h4 with _ h5
      rw [h5, h0]
      rfl
    · obtain ⟨e1, e2⟩ := takeWhile_append_all isDigit d r (fun x hx => h1.1 x (List.mem_cons_of_mem _ hx)) hr
      rw [if_neg h0, if_pos (h1.1 c List.mem_cons_self), e1, e2]

theorem scanDigits_sound {s d r : Str} (h : scanDigits s = some (d, r)) :
    s = d ++ r ∧ (∀ c ∈ d, isDigit c = true) ∧ d ≠ [] := by
  unfold scanDigits at h
  split at h
  · cases h
  · rename_i hne
    simp only [Option.some.injEq, Prod.mk.injEq] at h
    obtain ⟨rfl, rfl⟩ := h
    exact ⟨(List.takeWhile_append_dropWhile).symm, takeWhile_digits _, hne⟩

theorem scanDigits_complete {d r : Str} (h : ∀ c ∈ d, isDigit c = true) (hd : d ≠ []) (hr : NoDigit r) :
    scanDigits (d ++ r) = some (d, r) := by
  obtain ⟨e1, e2⟩ := takeWhile_append_all isDigit d r h hr
  rw [scanDigits, e1, e2, if_neg hd]

theorem scanFrac_sound {s r : Str} {f : Option Str} (h : scanFrac s = some (f, r)) :
    ∃ t, s = t ++ r ∧ FracPart t (f.getD []) ∧ (f = none ↔ t = []) ∧ ∀ c ∈ f.getD [], isDigit c = true := by
  unfold scanFrac at h
  split at h
  · rename_i rest
    rw [Option.map_eq_some_iff] at h
    obtain ⟨⟨d, u⟩, h1, h2⟩ := h
    obtain ⟨e1, e2, e3⟩ := scanDigits_sound h1
    simp only [Prod.mk.injEq] at h2
    obtain ⟨rfl, rfl⟩ := h2
    exact ⟨'.' :: d, by rw [e1]; rfl, Or.inr ⟨rfl, e3⟩, by simp, e2⟩
  · simp only [Option.some.injEq, Prod.mk.injEq] at h
    obtain ⟨rfl, rfl⟩ := h
    exact ⟨[], rfl, Or.inl ⟨rfl, rfl⟩, by simp, by simp⟩

theorem scanFrac_complete {t d r : Str} (h : FracPart t d) (hd : ∀ c ∈ d, isDigit c = true) (hr : NoDigit r)
    (hp : ∀ c ∈ r.head?, c ≠ '.') :
    scanFrac (t ++ r) = some (if t = [] then none else some d, r) := by
  rcases h with ⟨rfl, rfl⟩ | ⟨rfl, h2⟩
  · rw [if_pos rfl]
    unfold scanFrac
    split
    · rename_i heq
      exact absurd rfl (hp '.' (by rw [← List.nil_append r, heq]; rfl))
    · rfl
  · rw [if_neg (by simp), List.cons_append, scanFrac, scanDigits_complete hd h2 hr]
    rfl

/-- The exponent that was read. -/
def expVal : Option (Bool × Str) → ℤ
  | none => 0
  | some (true, e) => -digitsVal e
  | some (false, e) => digitsVal e

theorem scanExp_sound {s r : Str} {o : Option (Bool × Str)} (h : scanExp s = some (o, r)) :
    ∃ t, s = t ++ r ∧ ExpPart t (expVal o) ∧ (o = none ↔ t = []) := by
  unfold scanExp at h
  split at h
  · simp only [Option.some.injEq, Prod.mk.injEq] at h
    obtain ⟨rfl, rfl⟩ := h
    exact ⟨[], rfl, Or.inl ⟨rfl, rfl⟩, by simp⟩
  · rename_i c rest
    by_cases hc : c = 'e' ∨ c = 'E'
    · rw [if_pos hc] at h
      split at h
      all_goals
        rw [Option.map_eq_some_iff] at h
        obtain ⟨⟨d, u⟩, h1, h2⟩ := h
        obtain ⟨e1, e2, e3⟩ := scanDigits_sound h1
        simp only [Prod.mk.injEq] at h2
        obtain ⟨rfl, rfl⟩ := h2
        subst e1
      · exact ⟨c :: (['+'] ++ d), rfl, Or.inr ⟨c, ['+'], d, digitsVal d, rfl, hc, (digits_iff _ _).2 ⟨e2, rfl⟩, e3,
          Or.inl ⟨Or.inr rfl, rfl⟩⟩, by simp⟩
      · exact ⟨c :: (['-'] ++ d), rfl, Or.inr ⟨c, ['-'], d, digitsVal d, rfl, hc, (digits_iff _ _).2 ⟨e2, rfl⟩, e3,
          Or.inr ⟨rfl, rfl⟩⟩, by simp⟩
      · exact ⟨c :: ([] ++ d), rfl, Or.inr ⟨c, [], d, digitsVal d, rfl, hc, (digits_iff _ _).2 ⟨e2, rfl⟩, e3,
          Or.inl ⟨Or.inl rfl, rfl⟩⟩, by simp⟩
    · rw [if_neg hc] at h
      simp only [Option.some.injEq, Prod.mk.injEq] at h
      obtain ⟨rfl, rfl⟩ := h
      exact ⟨[], rfl, Or.inl ⟨rfl, rfl⟩, by simp⟩

theorem scanExp_complete {t r : Str} {e : ℤ} (h : ExpPart t e) (hr : NumEnd r) :
    ∃ o, scanExp (t ++ r) = some (o, r) ∧ e = expVal o ∧ (o = none ↔ t = []) := by
  have hn : NoDigit r := fun c hc => (hr c hc).1
  rcases h with ⟨rfl, rfl⟩ | ⟨m, sign, digits, n, rfl, hm, hd, hne, hs⟩
  · exact ⟨none, scanExp_end r hr, rfl, by simp⟩
  · rw [digits_iff] at hd
    have hsd := scanDigits_complete hd.1 hne hn
    rw [List.cons_append, List.append_assoc]
    unfold scanExp
    simp only [if_pos hm]
    rcases hs with ⟨rfl | rfl, rfl⟩ | ⟨rfl, rfl⟩
    · refine ⟨some (false, digits), ?_, by rw [hd.2]; rfl, by simp⟩
      obtain ⟨c, u, rfl⟩ := List.exists_cons_of_ne_nil hne
      have hc := hd.1 c List.mem_cons_self
      rw [List.nil_append]
      split
      · rename_i heq
        injection heq with h1 _
        rw [h1] at hc
        exact absurd hc (by decide)
      · rename_i heq
        injection heq with h1 _
        rw [h1] at hc
        exact absurd hc (by decide)
      · rw [hsd]; rfl
    · refine ⟨some (false, digits), ?_, by rw [hd.2]; rfl, by simp⟩
      show (scanDigits (digits ++ r)).map _ = _
      rw [hsd]
      rfl
    · refine ⟨some (true, digits), ?_, by rw [hd.2]; rfl, by simp⟩
      show (scanDigits (digits ++ r)).map _ = _
      rw [hsd]
      rfl

theorem numberOf_iff (neg : Bool) (int : Str) (f : Option Str) (o : Option (Bool × Str)) (j : Json) :
    numberOf neg int f o = some j ↔
      if f = none ∧ o = none ∧ neg = false ∧ digitsVal int < 2 ^ 64 then j = .num (digitsVal int)
      else if f = none ∧ o = none ∧ neg = true ∧ digitsVal int ≤ 2 ^ 63 then j = .int (digitsVal int)
      else ∃ v, Nearest ((if neg = false then 1 else -1) *
          (digitsVal (int ++ f.getD []) * 10 ^ (expVal o - (f.getD []).length))) v ∧ |v| < 2 ^ 1024 ∧
        j = .float v := by
  have hfl : ∀ j, (toDouble (decimalValue neg int (f.getD []) (expVal o))).map Json.float = some j ↔
      ∃ v, Nearest ((if neg = false then 1 else -1) *
          (digitsVal (int ++ f.getD []) * 10 ^ (expVal o - (f.getD []).length))) v ∧ |v| < 2 ^ 1024 ∧
        j = .float v := by
    intro j
    rw [Option.map_eq_some_iff]
    have : decimalValue neg int (f.getD []) (expVal o) = (if neg = false then 1 else -1) *
          (digitsVal (int ++ f.getD []) * 10 ^ (expVal o - (f.getD []).length)) := by
      cases neg <;> rfl
    rw [this]
    constructor
    · rintro ⟨v, h1, rfl⟩
      rw [toDouble_iff] at h1
      exact ⟨v, h1.1, h1.2, rfl⟩
    · rintro ⟨v, h1, h2, rfl⟩
      exact ⟨v, (toDouble_iff _ _).2 ⟨h1, h2⟩, rfl⟩
  have hdef : numberOf neg int f o = if f = none ∧ o = none then
      if neg then if digitsVal int ≤ 2 ^ 63 then some (.int (digitsVal int))
        else (toDouble (decimalValue neg int (f.getD []) (expVal o))).map Json.float
      else if digitsVal int < 2 ^ 64 then some (.num (digitsVal int))
        else (toDouble (decimalValue neg int (f.getD []) (expVal o))).map Json.float
      else (toDouble (decimalValue neg int (f.getD []) (expVal o))).map Json.float := rfl
  rw [hdef]
  by_cases h1 : f = none ∧ o = none
  · rw [if_pos h1]
    cases neg with
    | true =>
      rw [if_pos rfl]
      rw [if_neg (fun h => Bool.noConfusion h.2.2.1) (c := f = none ∧ o = none ∧ true = false ∧ digitsVal int < 2 ^ 64)]
      by_cases h2 : digitsVal int ≤ 2 ^ 63
      · rw [if_pos h2, if_pos ⟨h1.1, h1.2, rfl, h2⟩, Option.some.injEq, eq_comm]
      · rw [if_neg h2, if_neg (fun h => h2 h.2.2.2)]
        exact hfl j
    | false =>
      rw [if_neg Bool.false_ne_true]
      by_cases h2 : digitsVal int < 2 ^ 64
      · rw [if_pos h2, if_pos ⟨h1.1, h1.2, rfl, h2⟩, Option.some.injEq, eq_comm]
      · rw [if_neg h2, if_neg (fun h => h2 h.2.2.2), if_neg (fun h => Bool.noConfusion h.2.2.1)]
        exact hfl j
  · rw [if_neg h1, if_neg (fun h => h1 ⟨h.1, h.2.1⟩), if_neg (fun h => h1 ⟨h.1, h.2.1⟩)]
    exact hfl j

/-- `scanNumber` behind the sign. -/
def scanRest (neg : Bool) (s : Str) : Option (Json × Str) := do
  let (digits, s) ← scanInt s
  let (frac, s) ← scanFrac s
  let (exp, s) ← scanExp s
  let j ← numberOf neg digits frac exp
  some (j, s)

theorem scanNumber_neg (s : Str) : scanNumber ('-' :: s) = scanRest true s := rfl

theorem scanNumber_pos (s : Str) (h : ∀ t, s ≠ '-' :: t) : scanNumber s = scanRest false s := by
  unfold scanNumber
  split
  rename_i heq
  split at heq
  · exact absurd rfl (h _)
  · simp only [Prod.mk.injEq] at heq
    obtain ⟨rfl, rfl⟩ := heq
    rfl

theorem scanRest_eq_some (neg : Bool) (s r : Str) (j : Json) : scanRest neg s = some (j, r) ↔
    ∃ d s1 f s2 o, scanInt s = some (d, s1) ∧ scanFrac s1 = some (f, s2) ∧ scanExp s2 = some (o, r) ∧
      numberOf neg d f o = some j := by
  simp only [scanRest, Option.bind_eq_bind, Option.bind_eq_some_iff, Prod.exists, Option.some.injEq, Prod.mk.injEq]
  constructor
  · rintro ⟨d, s1, h1, f, s2, h2, o, s3, h3, j', h4, rfl, rfl⟩
    exact ⟨d, s1, f, s2, o, h1, h2, h3, h4⟩
  · rintro ⟨d, s1, f, s2, o, h1, h2, h3, h4⟩
    exact ⟨d, s1, h1, f, s2, h2, o, r, h3, j, h4, rfl, rfl⟩

theorem scanRest_sound {neg : Bool} {s r : Str} {j : Json} (h : scanRest neg s = some (j, r)) :
    ∃ t, s = t ++ r ∧ Number ((if neg then ['-'] else []) ++ t) j := by
  rw [scanRest_eq_some] at h
  obtain ⟨d, s1, f, s2, o, h1, h2, h3, h4⟩ := h
  obtain ⟨e1, i1⟩ := scanInt_sound h1
  obtain ⟨ft, e2, i2, n2, g2⟩ := scanFrac_sound h2
  obtain ⟨et, e3, i3, n3⟩ := scanExp_sound h3
  have hd : ∀ c ∈ d, isDigit c = true := ((digits_iff _ _).1 i1.1).1
  refine ⟨d ++ (ft ++ et), by rw [e1, e2, e3]; simp, if neg then ['-'] else [], d, ft, f.getD [], et, digitsVal d,
    digitsVal (d ++ f.getD []), expVal o, by simp, by cases neg <;> simp, i1, i2, (digits_iff _ _).2 ⟨?_, rfl⟩, i3, ?_⟩
  · intro c hc
    rcases List.mem_append.1 hc with hc | hc
    · exact hd c hc
    · exact g2 c hc
  · rw [numberOf_iff] at h4
    simp only [n2, n3] at h4
    cases neg
    · simpa using h4
    · simpa using h4

theorem number_head {t : Str} {j : Json} (h : Number t j) : ∃ c u, t = c :: u ∧ (c = '-' ∨ isDigit c = true) := by
  obtain ⟨sign, int, frac, digits, exp, n, m, e, rfl, hs, ⟨hi, hne, -⟩, -⟩ := h
  obtain ⟨c, u, rfl⟩ := List.exists_cons_of_ne_nil hne
  rcases hs with rfl | rfl
  · exact ⟨c, _, by simp only [List.nil_append, List.cons_append]; rfl,
      Or.inr (((digits_iff _ _).1 hi).1 c List.mem_cons_self)⟩
  · exact ⟨'-', _, by simp only [List.nil_append, List.cons_append]; rfl, Or.inl rfl⟩

theorem scanNumber_sound {s r : Str} {j : Json} (h : scanNumber s = some (j, r)) :
    ∃ t, s = t ++ r ∧ Number t j := by
  by_cases hs : ∃ t, s = '-' :: t
  · obtain ⟨t, rfl⟩ := hs
    rw [scanNumber_neg] at h
    obtain ⟨u, rfl, hu⟩ := scanRest_sound h
    exact ⟨'-' :: u, rfl, hu⟩
  · rw [scanNumber_pos s (fun t ht => hs ⟨t, ht⟩)] at h
    obtain ⟨u, rfl, hu⟩ := scanRest_sound h
    exact ⟨u, rfl, hu⟩

theorem scanNumber_complete {t : Str} {j : Json} (h : Number t j) {r : Str} (hr : NumEnd r) :
    scanNumber (t ++ r) = some (j, r) := by
  obtain ⟨sign, int, frac, digits, exp, n, m, e, rfl, hs, hi, hf, hm, he, hj⟩ := h
  have hi1 := ((digits_iff _ _).1 hi.1)
  have hm1 := ((digits_iff _ _).1 hm)
  have hdig : ∀ c ∈ digits, isDigit c = true := fun c hc => hm1.1 c (List.mem_append_right _ hc)
  have hn1 : NoDigit (exp ++ r) ∧ ∀ c ∈ (exp ++ r).head?, c ≠ '.' := by
    rcases he with ⟨rfl, -⟩ | ⟨x, sg, dg, k, rfl, hx, -⟩
    · exact ⟨fun c hc => (hr c hc).1, fun c hc => (hr c hc).2.1⟩
    · constructor
      · intro c hc
        simp only [List.cons_append, List.head?_cons, Option.mem_def, Option.some.injEq] at hc
        rw [← hc]
        rcases hx with rfl | rfl <;> decide
      · intro c hc
        simp only [List.cons_append, List.head?_cons, Option.mem_def, Option.some.injEq] at hc
        rw [← hc]
        rcases hx with rfl | rfl <;> decide
  have hn2 : NoDigit (frac ++ (exp ++ r)) := by
    rcases hf with ⟨rfl, -⟩ | ⟨rfl, -⟩
    · exact hn1.1
    · intro c hc
      simp only [List.cons_append, List.head?_cons, Option.mem_def, Option.some.injEq] at hc
      rw [← hc]
      decide
  obtain ⟨o, ho1, ho2, ho3⟩ := scanExp_complete he hr
  have hfd : (if frac = [] then none else some digits).getD [] = digits := by
    rcases hf with ⟨rfl, rfl⟩ | ⟨rfl, -⟩ <;> simp
  have hfn : ((if frac = [] then none else some digits) = none) ↔ frac = [] := by
    by_cases h : frac = [] <;> simp [h]
  have hrest : ∀ neg, (neg = false ↔ sign = []) → (neg = true ↔ sign = ['-']) →
      scanRest neg (int ++ (frac ++ (exp ++ r))) = some (j, r) := by
    intro neg h1 h2
    rw [scanRest_eq_some]
    refine ⟨int, _, _, _, o, scanInt_complete hi hn2, scanFrac_complete hf hdig hn1.1 hn1.2, ho1, ?_⟩
    rw [numberOf_iff, hfd]
    simp only [hfn, ho3, h1, h2]
    rw [← hi1.2, ← hm1.2, ← ho2]
    exact hj
  rcases hs with rfl | rfl
  · have : [] ++ int ++ frac ++ exp ++ r = int ++ (frac ++ (exp ++ r)) := by simp
    rw [this, scanNumber_pos]
    · exact hrest false (by simp) (by simp)
    · intro u hu
      obtain ⟨c, v, rfl⟩ := List.exists_cons_of_ne_nil hi.2.1
      rw [List.cons_append] at hu
      injection hu with hu _
      have := hi1.1 c List.mem_cons_self
      rw [hu] at this
      exact absurd this (by decide)
  · have : ['-'] ++ int ++ frac ++ exp ++ r = '-' :: (int ++ (frac ++ (exp ++ r))) := by simp
    rw [this, scanNumber_neg]
    exact hrest true (by simp) (by simp)

/-! ## Maps -/

/-- The map that `foldl` makes. -/
def mapOf (l m : List (Str × Json)) : List (Str × Json) := l.foldl (fun m e => mapSet m e.1 e.2) m

theorem mapOf_sorted (l m : List (Str × Json)) (h : (m.map (·.1)).Pairwise (· < ·)) :
    ((mapOf l m).map (·.1)).Pairwise (· < ·) := by
  induction l generalizing m with
  | nil => exact h
  | cons e l ih => exact ih _ (mapSet_sorted m e.1 e.2 h)

theorem mem_of_mapGet {m : List (Str × Json)} (h : (m.map (·.1)).Pairwise (· < ·)) (k : Str) (v : Json) :
    (k, v) ∈ m ↔ mapGet m k = some v := by
  induction m with
  | nil => simp [mapGet]
  | cons e m ih =>
    rw [List.map_cons, List.pairwise_cons] at h
    have ih' := ih h.2
    by_cases he : e.1 = k
    · have h1 : mapGet (e :: m) k = some e.2 := by simp [mapGet, he]
      rw [h1]
      constructor
      · intro hm
        rcases List.mem_cons.1 hm with h2 | h2
        · rw [← h2]
        · exfalso
          have := h.1 k (List.mem_map.2 ⟨_, h2, rfl⟩)
          rw [he] at this
          exact List.lt_irrefl _ this
      · intro h2
        injection h2 with h2
        rw [← h2, ← he]
        exact List.mem_cons_self
    · have h1 : mapGet (e :: m) k = mapGet m k := by simp [mapGet, he]
      rw [h1, ← ih', List.mem_cons]
      constructor
      · rintro (h2 | h2)
        · exact absurd (by rw [← h2]) he
        · exact h2
      · exact Or.inr

theorem mapGet_mapOf (l m : List (Str × Json)) (k : Str) (v : Json) : mapGet (mapOf l m) k = some v ↔
    (∃ l1 l2, l = l1 ++ (k, v) :: l2 ∧ ∀ e ∈ l2, e.1 ≠ k) ∨ (mapGet m k = some v ∧ ∀ e ∈ l, e.1 ≠ k) := by
  induction l generalizing m with
  | nil => simp [mapOf]
  | cons e l ih =>
    have h1 : mapOf (e :: l) m = mapOf l (mapSet m e.1 e.2) := rfl
    rw [h1, ih, mapGet_mapSet]
    constructor
    · rintro (⟨l1, l2, rfl, h2⟩ | ⟨h2, h3⟩)
      · exact Or.inl ⟨e :: l1, l2, rfl, h2⟩
      · by_cases hk : e.1 = k
        · rw [if_pos hk] at h2
          injection h2 with h2
          exact Or.inl ⟨[], l, by rw [← hk, ← h2]; rfl, h3⟩
        · rw [if_neg hk] at h2
          refine Or.inr ⟨h2, ?_⟩
          intro x hx
          rcases List.mem_cons.1 hx with rfl | hx
          · exact hk
          · exact h3 x hx
    · rintro (⟨l1, l2, h2, h3⟩ | ⟨h2, h3⟩)
      · cases l1 with
        | nil =>
          injection h2 with h4 h5
          right
          rw [h4, h5]
          exact ⟨if_pos rfl, h3⟩
        | cons x l1 =>
          injection h2 with h4 h5
          exact Or.inl ⟨l1, l2, h5, h3⟩
      · right
        rw [if_neg (h3 e List.mem_cons_self)]
        exact ⟨h2, fun x hx => h3 x (List.mem_cons_of_mem _ hx)⟩

theorem isMap_mapOf (l : List (Str × Json)) : IsMap l (mapOf l []) := by
  have hs := mapOf_sorted l [] List.Pairwise.nil
  refine ⟨hs, fun k v => ?_⟩
  rw [mem_of_mapGet hs, mapGet_mapOf]
  constructor
  · rintro (h | ⟨h, -⟩)
    · exact h
    · cases h
  · exact Or.inl

theorem keys_unique {m m' : List (Str × Json)} (h : (m.map (·.1)).Pairwise (· < ·))
    (h' : (m'.map (·.1)).Pairwise (· < ·)) (he : ∀ k v, (k, v) ∈ m ↔ (k, v) ∈ m') : m = m' := by
  have hp : m.Pairwise (fun a b => a.1 < b.1) := List.pairwise_map.1 h
  have hp' : m'.Pairwise (fun a b => a.1 < b.1) := List.pairwise_map.1 h'
  have hn : m.Nodup := hp.imp (fun hab heq => by rw [heq] at hab; exact List.lt_irrefl _ hab)
  have hn' : m'.Nodup := hp'.imp (fun hab heq => by rw [heq] at hab; exact List.lt_irrefl _ hab)
  have hperm : m.Perm m' := (List.perm_ext_iff_of_nodup hn hn').2 (fun e => he e.1 e.2)
  exact hperm.eq_of_pairwise (fun a b _ _ hab hba => absurd hba (List.lt_asymm hab)) hp hp'

theorem isMap_iff (l m : List (Str × Json)) : IsMap l m ↔ m = mapOf l [] := by
  constructor
  · intro h
    have h' := isMap_mapOf l
    exact keys_unique h.1 h'.1 (fun k v => (h.2 k v).trans (h'.2 k v).symm)
  · rintro rfl
    exact isMap_mapOf l

/-! ## Values -/

theorem parse_sound (fuel : ℕ) :
    (∀ s j r, parseValue fuel s = some (j, r) → ∃ a t, s = a ++ (t ++ r) ∧ Ws a ∧ Value t j) ∧
    (∀ s l r, parseArr fuel s = some (l, r) → ∃ t, s = t ++ ']' :: r ∧ Elements t l) ∧
    (∀ s m m' r, parseMembers fuel s m = some (m', r) → ∃ t l, s = t ++ '}' :: r ∧ Members t l ∧ m' = mapOf l m) := by
  induction fuel with
  | zero =>
    refine ⟨?_, ?_, ?_⟩
    · intro s j r h; rw [parseValue] at h; cases h
    · intro s l r h; rw [parseArr] at h; cases h
    · intro s m m' r h; rw [parseMembers] at h; cases h
  | succ fuel ih =>
    obtain ⟨ih1, ih2, ih3⟩ := ih
    refine ⟨?_, ?_, ?_⟩
    · intro s j r h
      obtain ⟨a, ha, hw⟩ := skipWs_split s
      rw [parseValue] at h
      refine ⟨a, ?_⟩
      suffices hs : ∃ t, skipWs s = t ++ r ∧ Value t j by
        obtain ⟨t, h1, h2⟩ := hs
        exact ⟨t, by rw [← h1]; exact ha, hw, h2⟩
      revert h
      generalize skipWs s = u
      intro h
      split at h
      · cases h
      · rename_i rest
        rw [Option.map_eq_some_iff] at h
        obtain ⟨⟨str, r'⟩, h1, h2⟩ := h
        simp only [Prod.mk.injEq] at h2
        obtain ⟨rfl, rfl⟩ := h2
        obtain ⟨t, rfl, ht⟩ := scanString_sound _ _ _ h1
        exact ⟨'"' :: (t ++ ['"']), by simp, .string ht⟩
      · rename_i rest
        obtain ⟨b, hb, hbw⟩ := skipWs_split rest
        split at h
        · rename_i rest' heq
          simp only [Option.some.injEq, Prod.mk.injEq] at h
          obtain ⟨rfl, rfl⟩ := h
          rw [heq] at hb
          exact ⟨'[' :: (b ++ [']']), by rw [hb]; simp, .emptyArray hbw⟩
        · rw [Option.map_eq_some_iff] at h
          obtain ⟨⟨l, r'⟩, h1, h2⟩ := h
          simp only [Prod.mk.injEq] at h2
          obtain ⟨rfl, rfl⟩ := h2
          obtain ⟨t, rfl, ht⟩ := ih2 _ _ _ h1
          exact ⟨'[' :: (t ++ [']']), by simp, .array ht⟩
      · rename_i rest
        obtain ⟨b, hb, hbw⟩ := skipWs_split rest
        split at h
        · rename_i rest' heq
          simp only [Option.some.injEq, Prod.mk.injEq] at h
          obtain ⟨rfl, rfl⟩ := h
          rw [heq] at hb
          exact ⟨'{' :: (b ++ ['}']), by rw [hb]; simp, .emptyObject hbw⟩
        · rw [Option.map_eq_some_iff] at h
          obtain ⟨⟨m, r'⟩, h1, h2⟩ := h
          simp only [Prod.mk.injEq] at h2
          obtain ⟨rfl, rfl⟩ := h2
          obtain ⟨t, l, rfl, ht, hm⟩ := ih3 _ _ _ _ h1
          exact ⟨'{' :: (t ++ ['}']), by simp, .object ht ((isMap_iff _ _).2 hm)⟩
      · simp only [Option.some.injEq, Prod.mk.injEq] at h
        obtain ⟨rfl, rfl⟩ := h
        exact ⟨_, rfl, .null⟩
      · simp only [Option.some.injEq, Prod.mk.injEq] at h
        obtain ⟨rfl, rfl⟩ := h
        exact ⟨_, rfl, .true⟩
      · simp only [Option.some.injEq, Prod.mk.injEq] at h
        obtain ⟨rfl, rfl⟩ := h
        exact ⟨_, rfl, .false⟩
      · obtain ⟨t, h1, h2⟩ := scanNumber_sound h
        exact ⟨t, h1, .number h2⟩
    · intro s l r h
      rw [parseArr] at h
      split at h
      · cases h
      · rename_i x rest heq
        obtain ⟨a, t, rfl, ha, ht⟩ := ih1 _ _ _ heq
        obtain ⟨b, hb, hbw⟩ := skipWs_split rest
        split at h
        · rename_i rest' heq'
          rw [heq'] at hb
          rw [Option.map_eq_some_iff] at h
          obtain ⟨⟨l', r'⟩, h1, h2⟩ := h
          simp only [Prod.mk.injEq] at h2
          obtain ⟨rfl, rfl⟩ := h2
          obtain ⟨u, rfl, hu⟩ := ih2 _ _ _ h1
          exact ⟨a ++ (t ++ (b ++ ',' :: u)), by rw [hb]; simp, .more ha ht hbw hu⟩
        · rename_i rest' heq'
          rw [heq'] at hb
          simp only [Option.some.injEq, Prod.mk.injEq] at h
          obtain ⟨rfl, rfl⟩ := h
          exact ⟨a ++ (t ++ b), by rw [hb]; simp, .one ha ht hbw⟩
        · cases h
    · intro s m m' r h
      obtain ⟨a, ha, haw⟩ := skipWs_split s
      rw [parseMembers] at h
      split at h
      · rename_i rest heq
        rw [heq] at ha
        split at h
        · cases h
        · rename_i key rest1 heq1
          obtain ⟨k, rfl, hk⟩ := scanString_sound _ _ _ heq1
          obtain ⟨b, hb, hbw⟩ := skipWs_split rest1
          split at h
          · rename_i rest2 heq2
            rw [heq2] at hb
            split at h
            · cases h
            · rename_i x rest3 heq3
              obtain ⟨c, t, rfl, hc, ht⟩ := ih1 _ _ _ heq3
              obtain ⟨d, hd, hdw⟩ := skipWs_split rest3
              split at h
              · rename_i rest4 heq4
                rw [heq4] at hd
                obtain ⟨u, l, rfl, hu, hm⟩ := ih3 _ _ _ _ h
                exact ⟨_, _, by rw [ha, hb, hd]; simp, .more haw hk hbw hc ht hdw hu, by rw [hm]; rfl⟩
              · rename_i rest4 heq4
                rw [heq4] at hd
                simp only [Option.some.injEq, Prod.mk.injEq] at h
                obtain ⟨rfl, rfl⟩ := h
                exact ⟨_, _, by rw [ha, hb, hd]; simp, .one haw hk hbw hc ht hdw, rfl⟩
              · cases h
          · cases h
      · cases h

theorem digit_head {c : Char} (h : c = '-' ∨ isDigit c = true) {d : Char} (hd : d ≠ '-') (hd' : isDigit d = false) :
    c ≠ d := by
  rintro rfl
  rcases h with h | h
  · exact hd h
  · rw [hd'] at h; cases h

theorem value_head {t : Str} {j : Json} (h : Value t j) : ∃ c u, t = c :: u ∧
    ¬(c = ' ' ∨ c = '\t' ∨ c = '\n' ∨ c = '\r') ∧ c ≠ ']' ∧ c ≠ '}' ∧ c.toNat ≠ 0xFEFF := by
  cases h with
  | null => exact ⟨_, _, rfl, by decide, by decide, by decide, by decide⟩
  | true => exact ⟨_, _, rfl, by decide, by decide, by decide, by decide⟩
  | false => exact ⟨_, _, rfl, by decide, by decide, by decide, by decide⟩
  | number hn =>
    obtain ⟨c, u, rfl, hc⟩ := number_head hn
    refine ⟨c, u, rfl, ?_, digit_head hc (by decide) (by decide), digit_head hc (by decide) (by decide), ?_⟩
    · rintro (h | h | h | h) <;> revert h <;> exact digit_head hc (by decide) (by decide)
    · intro h
      rcases hc with rfl | hc
      · revert h; decide
      · simp only [isDigit, Bool.and_eq_true, decide_eq_true_eq] at hc
        omega
  | string => exact ⟨_, _, rfl, by decide, by decide, by decide, by decide⟩
  | emptyArray => exact ⟨_, _, rfl, by decide, by decide, by decide, by decide⟩
  | array => exact ⟨_, _, rfl, by decide, by decide, by decide, by decide⟩
  | emptyObject => exact ⟨_, _, rfl, by decide, by decide, by decide, by decide⟩
  | object => exact ⟨_, _, rfl, by decide, by decide, by decide, by decide⟩

theorem numEnd_ws {b : Str} (hb : Ws b) {r : Str} (hr : NumEnd r) : NumEnd (b ++ r) := by
  cases b with
  | nil => exact hr
  | cons c b =>
    intro x hx
    simp only [List.cons_append, List.head?_cons, Option.mem_def, Option.some.injEq] at hx
    rw [← hx]
    rcases hb c List.mem_cons_self with rfl | rfl | rfl | rfl <;> decide

/-- A value behind white space begins with its first character. -/
theorem skipWs_value {a t : Str} {j : Json} (ha : Ws a) (h : Value t j) (r : Str) :
    ∃ c u, skipWs (a ++ (t ++ r)) = c :: u ∧ c ≠ ']' ∧ c ≠ '}' := by
  obtain ⟨c, u, rfl, h1, h2, h3, -⟩ := value_head h
  exact ⟨c, u ++ r, by rw [skipWs_append ha, List.cons_append, skipWs_cons h1], h2, h3⟩

theorem elements_head {t : Str} {l : List Json} (h : Elements t l) (r : Str) :
    ∃ c u, skipWs (t ++ r) = c :: u ∧ c ≠ ']' := by
  cases h with
  | one ha ht hb =>
    rename_i b _
    obtain ⟨c, u, h1, h2, -⟩ := skipWs_value ha ht (b ++ r)
    exact ⟨c, u, by rw [← h1]; simp, h2⟩
  | more ha ht hb hu =>
    rename_i b _ v _
    obtain ⟨c, u, h1, h2, -⟩ := skipWs_value ha ht ((b ++ ',' :: v) ++ r)
    exact ⟨c, u, by rw [← h1]; simp, h2⟩

theorem members_head {t : Str} {l : List (Str × Json)} (h : Members t l) (r : Str) :
    ∃ u, skipWs (t ++ r) = '"' :: u := by
  cases h with
  | one ha =>
    rw [List.append_assoc, skipWs_append ha, List.cons_append, skipWs_cons (by decide)]
    exact ⟨_, rfl⟩
  | more ha =>
    rw [List.append_assoc, skipWs_append ha, List.cons_append, skipWs_cons (by decide)]
    exact ⟨_, rfl⟩

theorem parseValue_number {c : Char} {u s : Str} (hc : c = '-' ∨ isDigit c = true) (h : skipWs s = c :: u)
    (fuel : ℕ) : parseValue (fuel + 1) s = scanNumber (c :: u) := by
  rw [parseValue, h]
  split
  · simp_all
  all_goals
    rename_i heq
    simp only [List.cons.injEq] at heq
    first
    | exact absurd heq.1 (digit_head hc (by decide) (by decide))
    | rw [heq.1, heq.2]

theorem parseArr_step {fuel : ℕ} {s rest : Str} {x : Json} (h : parseValue fuel s = some (x, rest)) :
    parseArr (fuel + 1) s = match skipWs rest with
      | ',' :: rest' => (parseArr fuel rest').map (fun r => (x :: r.1, r.2))
      | ']' :: rest' => some ([x], rest')
      | _ => none := by
  rw [parseArr, h]
  rfl

theorem parse_complete {t : Str} {j : Json} (h : Value t j) : ∀ a fuel r, Ws a → 2 * t.length ≤ fuel → NumEnd r →
    parseValue fuel (a ++ (t ++ r)) = some (j, r) := by
  refine Value.rec
    (motive_1 := fun t j _ => ∀ a fuel r, Ws a → 2 * t.length ≤ fuel → NumEnd r →
      parseValue fuel (a ++ (t ++ r)) = some (j, r))
    (motive_2 := fun t l _ => ∀ fuel r, 2 * t.length + 1 ≤ fuel → parseArr fuel (t ++ ']' :: r) = some (l, r))
    (motive_3 := fun t l _ => ∀ fuel r m, 2 * t.length + 1 ≤ fuel →
      parseMembers fuel (t ++ '}' :: r) m = some (mapOf l m, r))
    ?_ ?_ ?_ ?_ ?_ ?_ ?_ ?_ ?_ ?_ ?_ ?_ ?_ h
  · intro a fuel r ha hf hr
    obtain ⟨fuel, rfl⟩ : ∃ k, fuel = k + 1 := ⟨fuel - 1, by simp at hf; omega⟩
    rw [parseValue, skipWs_append ha]
    rfl
  · intro a fuel r ha hf hr
    obtain ⟨fuel, rfl⟩ : ∃ k, fuel = k + 1 := ⟨fuel - 1, by simp at hf; omega⟩
    rw [parseValue, skipWs_append ha]
    rfl
  · intro a fuel r ha hf hr
    obtain ⟨fuel, rfl⟩ : ∃ k, fuel = k + 1 := ⟨fuel - 1, by simp at hf; omega⟩
    rw [parseValue, skipWs_append ha]
    rfl
  · intro t j hn a fuel r ha hf hr
    obtain ⟨c, u, rfl, hc⟩ := number_head hn
    obtain ⟨fuel, rfl⟩ : ∃ k, fuel = k + 1 := ⟨fuel - 1, by simp at hf; omega⟩
    obtain ⟨c', u', e, hws, -⟩ := value_head (.number hn)
    injection e with e1 e2
    rw [← e1] at hws
    rw [parseValue_number hc (u := u ++ r) (by rw [skipWs_append ha, List.cons_append, skipWs_cons hws])]
    exact scanNumber_complete hn hr
  · intro t s hs a fuel r ha hf hr
    obtain ⟨fuel, rfl⟩ : ∃ k, fuel = k + 1 := ⟨fuel - 1, by simp at hf; omega⟩
    have e : '"' :: (t ++ ['"']) ++ r = '"' :: (t ++ '"' :: r) := by simp
    rw [parseValue, skipWs_append ha, e, skipWs_cons (by decide)]
    show (scanString (t ++ '"' :: r)).map _ = _
    rw [scanString_complete hs]
    rfl
  · intro w hw a fuel r ha hf hr
    obtain ⟨fuel, rfl⟩ : ∃ k, fuel = k + 1 := ⟨fuel - 1, by simp at hf; omega⟩
    have e : '[' :: (w ++ [']']) ++ r = '[' :: (w ++ ']' :: r) := by simp
    have e2 : skipWs (w ++ ']' :: r) = ']' :: r := by rw [skipWs_append hw, skipWs_cons (by decide)]
    rw [parseValue, skipWs_append ha, e, skipWs_cons (by decide)]
    simp only [e2]
  · intro t l hl ih a fuel r ha hf hr
    simp only [List.length_cons, List.length_append, List.length_nil] at hf
    obtain ⟨fuel, rfl⟩ : ∃ k, fuel = k + 1 := ⟨fuel - 1, by omega⟩
    have e : '[' :: (t ++ [']']) ++ r = '[' :: (t ++ ']' :: r) := by simp
    rw [parseValue, skipWs_append ha, e, skipWs_cons (by decide)]
    obtain ⟨c, u, hc1, hc2⟩ := elements_head hl (']' :: r)
    simp only [hc1]
    split
    · rename_i heq
      injection heq with h1 _
      exact absurd h1 hc2
    · rw [ih fuel r (by omega)]
      rfl
  · intro w hw a fuel r ha hf hr
    obtain ⟨fuel, rfl⟩ : ∃ k, fuel = k + 1 := ⟨fuel - 1, by simp at hf; omega⟩
    have e : '{' :: (w ++ ['}']) ++ r = '{' :: (w ++ '}' :: r) := by simp
    have e2 : skipWs (w ++ '}' :: r) = '}' :: r := by rw [skipWs_append hw, skipWs_cons (by decide)]
    rw [parseValue, skipWs_append ha, e, skipWs_cons (by decide)]
    simp only [e2]
  · intro t l m hl hm ih a fuel r ha hf hr
    simp only [List.length_cons, List.length_append, List.length_nil] at hf
    obtain ⟨fuel, rfl⟩ : ∃ k, fuel = k + 1 := ⟨fuel - 1, by omega⟩
    have e : '{' :: (t ++ ['}']) ++ r = '{' :: (t ++ '}' :: r) := by simp
    rw [parseValue, skipWs_append ha, e, skipWs_cons (by decide)]
    obtain ⟨u, hc1⟩ := members_head hl ('}' :: r)
    simp only [hc1]
    rw [ih fuel r [] (by omega), (isMap_iff _ _).1 hm]
    rfl
  · intro a t b j ha ht hb ih fuel r hf
    simp only [List.length_append] at hf
    obtain ⟨fuel, rfl⟩ : ∃ k, fuel = k + 1 := ⟨fuel - 1, by omega⟩
    have e : a ++ (t ++ b) ++ ']' :: r = a ++ (t ++ (b ++ ']' :: r)) := by simp
    rw [e, parseArr_step (ih a fuel _ ha (by omega) (numEnd_ws hb (numEnd_bracket r))), skipWs_append hb,
      skipWs_cons (by decide)]
    rfl
  · intro a t b j u l ha ht hb hu ih ih2 fuel r hf
    simp only [List.length_append, List.length_cons] at hf
    obtain ⟨fuel, rfl⟩ : ∃ k, fuel = k + 1 := ⟨fuel - 1, by omega⟩
    have e : a ++ (t ++ (b ++ ',' :: u)) ++ ']' :: r = a ++ (t ++ (b ++ ',' :: (u ++ ']' :: r))) := by simp
    rw [e, parseArr_step (ih a fuel _ ha (by omega) (numEnd_ws hb (numEnd_comma _))), skipWs_append hb,
      skipWs_cons (by decide)]
    show (parseArr fuel (u ++ ']' :: r)).map _ = _
    rw [ih2 fuel r (by omega)]
    rfl
  · intro a k s b c t d j ha hk hb hc ht hd ih fuel r m hf
    simp only [List.length_append, List.length_cons] at hf
    obtain ⟨fuel, rfl⟩ : ∃ k, fuel = k + 1 := ⟨fuel - 1, by omega⟩
    have e : a ++ '"' :: (k ++ '"' :: (b ++ ':' :: (c ++ (t ++ d)))) ++ '}' :: r =
      a ++ '"' :: (k ++ '"' :: (b ++ ':' :: (c ++ (t ++ (d ++ '}' :: r))))) := by simp
    rw [e, parseMembers, skipWs_append ha, skipWs_cons (by decide)]
    simp only [scanString_complete hk, skipWs_append hb]
    rw [skipWs_cons (by decide)]
    simp only [ih c fuel _ hc (by omega) (numEnd_ws hd (numEnd_brace r)), skipWs_append hd]
    rw [skipWs_cons (by decide)]
    rfl
  · intro a k s b c t d j u l ha hk hb hc ht hd hu ih ih2 fuel r m hf
    simp only [List.length_append, List.length_cons] at hf
    obtain ⟨fuel, rfl⟩ : ∃ k, fuel = k + 1 := ⟨fuel - 1, by omega⟩
    have e : a ++ '"' :: (k ++ '"' :: (b ++ ':' :: (c ++ (t ++ (d ++ ',' :: u))))) ++ '}' :: r =
      a ++ '"' :: (k ++ '"' :: (b ++ ':' :: (c ++ (t ++ (d ++ ',' :: (u ++ '}' :: r)))))) := by simp
    rw [e, parseMembers, skipWs_append ha, skipWs_cons (by decide)]
    simp only [scanString_complete hk, skipWs_append hb]
    rw [skipWs_cons (by decide)]
    simp only [ih c fuel _ hc (by omega) (numEnd_ws hd (numEnd_comma _)), skipWs_append hd]
    rw [skipWs_cons (by decide)]
    show parseMembers fuel (u ++ '}' :: r) (mapSet m s j) = _
    rw [ih2 fuel r _ (by omega)]
    rfl

/-! ## Texts -/

theorem atEnd_iff (s : Str) : atEnd s = true ↔ s = [] ∨ s.head? = some (Char.ofNat 0) := by
  cases s with
  | nil => simp [atEnd]
  | cons c s =>
    simp only [atEnd, decide_eq_true_eq, List.head?_cons, Option.some.injEq, reduceCtorEq, false_or]
    constructor
    · exact char_eq_of_toNat
    · rintro rfl; rfl

theorem skipWs_end {s : Str} (h : s = [] ∨ s.head? = some (Char.ofNat 0)) : skipWs s = s := by
  rcases h with rfl | h
  · rfl
  · cases s with
    | nil => cases h
    | cons c s =>
      simp only [List.head?_cons, Option.some.injEq] at h
      subst h
      exact skipWs_cons (by decide)

theorem numEnd_end {s : Str} (h : s = [] ∨ s.head? = some (Char.ofNat 0)) : NumEnd s := by
  intro c hc
  rcases h with rfl | h
  · cases hc
  · rw [h] at hc
    injection hc with hc
    rw [← hc]
    decide

theorem parse_iff (t : Str) (j : Json) : Json.parse t = .ok j ↔ Text t j := by
  constructor
  · intro h
    unfold Json.parse at h
    split at h
    · rename_i j' rest heq
      split at h
      · rename_i hend
        injection h with h
        subst h
        obtain ⟨a, v, h1, h2, h3⟩ := (parse_sound _).1 _ _ _ heq
        obtain ⟨b, h4, h5⟩ := skipWs_split rest
        rw [atEnd_iff] at hend
        have hb : ∃ bom, t = bom ++ skipBom t ∧ (bom = [] ∨ bom = [Char.ofNat 0xFEFF]) := by
          cases t with
          | nil => exact ⟨[], rfl, Or.inl rfl⟩
          | cons c t =>
            by_cases hc : c.toNat = 0xFEFF
            · refine ⟨[c], ?_, Or.inr (by rw [char_eq_of_toNat hc])⟩
              rw [skipBom, if_pos hc]; rfl
            · refine ⟨[], ?_, Or.inl rfl⟩
              rw [skipBom, if_neg hc]; rfl
        obtain ⟨bom, h6, h7⟩ := hb
        exact ⟨bom, a, v, b, skipWs rest, by rw [← h4, ← h1]; exact h6, h7, h2, h3, h5, hend⟩
      · cases h
    · cases h
  · rintro ⟨bom, a, v, b, rest, rfl, hbom, ha, hv, hb, hend⟩
    obtain ⟨c, u, hcu, hw, -, -, hc⟩ := value_head hv
    have h1 : skipBom (bom ++ (a ++ (v ++ (b ++ rest)))) = a ++ (v ++ (b ++ rest)) := by
      rcases hbom with rfl | rfl
      · rw [List.nil_append]
        cases a with
        | nil => rw [hcu, List.nil_append, List.cons_append, skipBom, if_neg hc]
        | cons x a =>
          rw [List.cons_append, skipBom, if_neg]
          rcases ha x List.mem_cons_self with rfl | rfl | rfl | rfl <;> decide
      · rw [List.cons_append, List.nil_append, skipBom, if_pos (by decide)]
    rw [Json.parse, h1, parse_complete hv a _ _ ha (by simp only [List.length_append]; omega)
      (numEnd_ws hb (numEnd_end hend))]
    simp only [skipWs_append hb, skipWs_end hend, (atEnd_iff rest).2 hend, if_true]

end EG
