import Verif.Spec.Json
import Verif.Lemmas.Hash
import Mathlib.Tactic.IntervalCases

/-!
# Reading back what was written
-/

namespace EG

/-! ## Strings -/

theorem hexQuad_escape : ∀ n < 32,
    hexQuad '0' '0' (escapeHex.hexLower (n / 16)) (escapeHex.hexLower (n % 16)) = some n := by
  decide +kernel

theorem char_eq_of_toNat {c : Char} {n : ℕ} (h : c.toNat = n) : c = Char.ofNat n := by
  rw [← h, Char.ofNat_toNat]

theorem scanString_char (c : Char) (rest : Str) :
    scanString (escapeChar c ++ rest) = (scanString rest).map (fun r => (c :: r.1, r.2)) := by
  unfold escapeChar
  by_cases h1 : c = '"'
  · subst h1
    simp [scanString]
  rw [if_neg h1]
  by_cases h2 : c = '\\'
  · subst h2
    simp [scanString]
  rw [if_neg h2]
  by_cases h3 : c.toNat = 8
  · rw [if_pos h3, char_eq_of_toNat h3]
    simp [scanString]
  rw [if_neg h3]
  by_cases h4 : c.toNat = 9
  · rw [if_pos h4, char_eq_of_toNat h4]
    simp [scanString]
  rw [if_neg h4]
  by_cases h5 : c.toNat = 10
  · rw [if_pos h5, char_eq_of_toNat h5]
    simp [scanString]
  rw [if_neg h5]
  by_cases h6 : c.toNat = 12
  · rw [if_pos h6, char_eq_of_toNat h6]
    simp [scanString]
  rw [if_neg h6]
  by_cases h7 : c.toNat = 13
  · rw [if_pos h7, char_eq_of_toNat h7]
    simp [scanString]
  rw [if_neg h7]
  by_cases h8 : c.toNat < 32
  · rw [if_pos h8]
    have hq := hexQuad_escape c.toNat h8
    simp only [escapeHex, List.cons_append, List.nil_append]
    rw [scanString, hq]
    dsimp only
    rw [if_neg (by omega), if_neg (by omega), Char.ofNat_toNat]
  rw [if_neg h8]
  simp only [List.cons_append, List.nil_append]
  rw [scanString.eq_def]
  split
  · simp at *
  · simp_all
  · simp_all
  · simp_all
  · simp_all
  · rename_i heq
    simp only [List.cons.injEq] at heq
    obtain ⟨rfl, rfl⟩ := heq
    rw [if_neg h8]

theorem scanString_dump (s rest : Str) :
    scanString (s.flatMap escapeChar ++ '"' :: rest) = some (s, rest) := by
  induction s with
  | nil => simp [scanString]
  | cons c s ih =>
    rw [List.flatMap_cons, List.append_assoc, scanString_char, ih]
    rfl

/-! ## Numbers -/

/-- The text does not continue a number. -/
def NumEnd (rest : Str) : Prop := ∀ c ∈ rest.head?, isDigit c = false ∧ c ≠ '.' ∧ c ≠ 'e' ∧ c ≠ 'E'

theorem isDigit_ofNat {d : ℕ} (h : d < 10) : isDigit (Char.ofNat (48 + d)) = true ∧
    (Char.ofNat (48 + d)).toNat = 48 + d := by
  interval_cases d <;> decide

theorem dumpNum_digits (n : ℕ) : ∀ c ∈ dumpNum n, isDigit c = true := by
  intro c hc
  unfold dumpNum at hc
  split at hc
  · rw [List.mem_singleton.1 hc]; decide
  · unfold decimal at hc
    obtain ⟨d, hd, rfl⟩ := List.mem_map.1 hc
    exact (isDigit_ofNat (Nat.digits_lt_base (by norm_num) (List.mem_reverse.1 hd))).1

theorem decimal_value (n : ℕ) :
    (decimal n).foldl (fun acc c => 10 * acc + (c.toNat - 48)) 0 = n := by
  unfold decimal
  rw [List.foldl_map]
  have : ∀ l : List ℕ, (∀ d ∈ l, d < 10) →
      l.reverse.foldl (fun acc d => 10 * acc + ((Char.ofNat (48 + d)).toNat - 48)) 0 = Nat.ofDigits 10 l := by
    intro l hl
    induction l with
    | nil => rfl
    | cons d l ih =>
      rw [List.reverse_cons, List.foldl_append, ih (fun x hx => hl x (by simp [hx])), Nat.ofDigits_cons]
      simp only [List.foldl_cons, List.foldl_nil]
      rw [(isDigit_ofNat (hl d (by simp))).2]
      omega
  rw [this _ (fun d hd => Nat.digits_lt_base (by norm_num) hd), Nat.ofDigits_digits]

theorem takeWhile_append_all {α : Type} (p : α → Bool) (l r : List α) (hl : ∀ x ∈ l, p x = true)
    (hr : ∀ x ∈ r.head?, p x = false) :
    (l ++ r).takeWhile p = l ∧ (l ++ r).dropWhile p = r := by
  induction l with
  | nil =>
    cases r with
    | nil => exact ⟨rfl, rfl⟩
    | cons x r =>
      have := hr x (by simp)
      simp [this]
  | cons x l ih =>
    have := hl x (by simp)
    obtain ⟨h1, h2⟩ := ih (fun y hy => hl y (by simp [hy]))
    simp [this, h1, h2]

theorem dumpNum_value (n : ℕ) :
    (dumpNum n).foldl (fun acc c => 10 * acc + (c.toNat - 48)) 0 = n := by
  unfold dumpNum
  split
  · rename_i h; subst h; rfl
  · exact decimal_value n

theorem dumpNum_ne_nil (n : ℕ) : dumpNum n ≠ [] := by
  unfold dumpNum
  split
  · simp
  · rename_i h
    unfold decimal
    simpa [Nat.digits_ne_nil_iff_ne_zero] using h

theorem dumpNum_zero_head (n : ℕ) (d : Char) (more : Str) (h : dumpNum n = d :: more) (hd : d = '0') :
    more = [] := by
  unfold dumpNum at h
  split at h
  · simp only [List.cons.injEq] at h; exact h.2.symm
  · rename_i hn
    exfalso
    unfold decimal at h
    rw [List.map_eq_cons_iff] at h
    obtain ⟨x, l, h1, h2, -⟩ := h
    have hlast : (Nat.digits 10 n).getLast? = some x := by
      rw [← List.head?_reverse, h1]; rfl
    have hx0 : x ≠ 0 := by
      have hne : Nat.digits 10 n ≠ [] := Nat.digits_ne_nil_iff_ne_zero.2 hn
      have := Nat.getLast_digit_ne_zero 10 hn
      rw [List.getLast?_eq_some_getLast hne] at hlast
      simp only [Option.some.injEq] at hlast
      rwa [hlast] at this
    have hx : x < 10 := Nat.digits_lt_base (b := 10) (m := n) (by norm_num)
      (List.mem_reverse.1 (h1 ▸ List.mem_cons_self ..))
    have := (isDigit_ofNat hx).2
    rw [h2, hd] at this
    change 48 = 48 + x at this
    omega

theorem scanInt_dump (n : ℕ) (rest : Str) (hr : NumEnd rest) :
    scanInt (dumpNum n ++ rest) = some (dumpNum n, rest) := by
  obtain ⟨h1, h2⟩ := takeWhile_append_all isDigit (dumpNum n) rest (dumpNum_digits n)
    (fun c hc => (hr c hc).1)
  cases hd : dumpNum n with
  | nil => exact absurd hd (dumpNum_ne_nil n)
  | cons d more =>
    have hc := dumpNum_digits n d (by rw [hd]; simp)
    rw [hd, List.cons_append, List.takeWhile_cons_of_pos hc, List.cons.injEq] at h1
    rw [hd, List.cons_append, List.dropWhile_cons_of_pos hc] at h2
    rw [List.cons_append, scanInt]
    by_cases h0 : d = '0'
    · have := dumpNum_zero_head n d more hd h0
      subst this h0
      rfl
    · rw [if_neg h0, if_pos hc, h1.2, h2]

theorem scanFrac_end (rest : Str) (hr : NumEnd rest) : scanFrac rest = some (none, rest) := by
  unfold scanFrac
  split
  · exact absurd rfl (hr '.' (by simp)).2.1
  · rfl

theorem scanExp_end (rest : Str) (hr : NumEnd rest) : scanExp rest = some (none, rest) := by
  cases rest with
  | nil => rfl
  | cons c rest =>
    obtain ⟨-, -, b, e⟩ := hr c (by simp)
    unfold scanExp
    exact if_neg (by rintro (h | h) <;> contradiction)

theorem scanNumber_dump (n : ℕ) (hn : n < 2 ^ 64) (rest : Str) (hr : NumEnd rest) :
    scanNumber (dumpNum n ++ rest) = some (.num n, rest) := by
  have h0 : ∀ t, dumpNum n ++ rest ≠ '-' :: t := by
    intro t h
    cases hd : dumpNum n with
    | nil => exact absurd hd (dumpNum_ne_nil n)
    | cons d more =>
      have hc := dumpNum_digits n d (by rw [hd]; simp)
      rw [hd] at h
      simp only [List.cons_append, List.cons.injEq] at h
      rw [h.1] at hc
      exact absurd hc (by decide)
  unfold scanNumber
  norm_num at hn
  simp [scanInt_dump n rest hr, scanFrac_end rest hr, scanExp_end rest hr, numberOf, digitsVal, dumpNum_value, hn]

theorem scanNumber_int (n : ℕ) (hn : n ≤ 2 ^ 63) (rest : Str) (hr : NumEnd rest) :
    scanNumber ('-' :: dumpNum n ++ rest) = some (.int n, rest) := by
  unfold scanNumber
  norm_num at hn
  simp [scanInt_dump n rest hr, scanFrac_end rest hr, scanExp_end rest hr, numberOf, digitsVal, dumpNum_value, hn]

/-! ## Values -/

theorem skipWs_cons {c : Char} {rest : Str} (h : ¬(c = ' ' ∨ c = '\t' ∨ c = '\n' ∨ c = '\r')) :
    skipWs (c :: rest) = c :: rest := by
  rw [skipWs, if_neg h]

theorem mapSet_last {V : Type} (m : List (Str × V)) (k : Str) (v : V) (h : ∀ e ∈ m, e.1 < k) :
    mapSet m k v = m ++ [(k, v)] := by
  induction m with
  | nil => rfl
  | cons e m ih =>
    have he := h e (by simp)
    rw [mapSet, if_neg (fun hh => List.lt_irrefl k (by rw [← hh] at he; exact he)), if_neg (List.lt_asymm he),
      ih (fun x hx => h x (by simp [hx]))]
    rfl

/-- The first character of the text of a document. -/
theorem dump_head (j : Json) (hj : j.WF) : ∃ c rest, j.dump = c :: rest ∧
    ¬(c = ' ' ∨ c = '\t' ∨ c = '\n' ∨ c = '\r') ∧ c ≠ ']' ∧ c ≠ '}' ∧ c.toNat ≠ 0xFEFF := by
  cases j with
  | null => exact ⟨_, _, rfl, by decide, by decide, by decide, by decide⟩
  | bool b => cases b <;> exact ⟨_, _, rfl, by decide, by decide, by decide, by decide⟩
  | num n =>
    rw [Json.dump]
    cases hd : dumpNum n with
    | nil => exact absurd hd (dumpNum_ne_nil n)
    | cons c rest =>
      have hc := dumpNum_digits n c (by rw [hd]; simp)
      refine ⟨c, rest, rfl, ?_, ?_, ?_, ?_⟩
      · rintro (rfl | rfl | rfl | rfl) <;> exact absurd hc (by decide)
      · rintro rfl; exact absurd hc (by decide)
      · rintro rfl; exact absurd hc (by decide)
      · intro h
        rw [isDigit, h] at hc
        exact absurd hc (by decide)
  | int n =>
    rw [Json.WF] at hj
    rw [Json.dump, if_neg (by omega)]
    exact ⟨_, _, rfl, by decide, by decide, by decide, by decide⟩
  | float v => exact absurd hj (by rw [Json.WF]; exact id)
  | str s => exact ⟨_, _, rfl, by decide, by decide, by decide, by decide⟩
  | arr l => exact ⟨_, _, rfl, by decide, by decide, by decide, by decide⟩
  | obj m => exact ⟨_, _, rfl, by decide, by decide, by decide, by decide⟩

theorem parseValue_num (n : ℕ) (hn : n < 2 ^ 64) (fuel : ℕ) (rest : Str) (hr : NumEnd rest) :
    parseValue (fuel + 1) (dumpNum n ++ rest) = some (.num n, rest) := by
  have hs := scanNumber_dump n hn rest hr
  cases hd : dumpNum n with
  | nil => exact absurd hd (dumpNum_ne_nil n)
  | cons c more =>
    have hc := dumpNum_digits n c (by rw [hd]; simp)
    rw [hd] at hs
    rw [List.cons_append] at hs ⊢
    have hw : ¬(c = ' ' ∨ c = '\t' ∨ c = '\n' ∨ c = '\r') := by
      rintro (rfl | rfl | rfl | rfl) <;> exact absurd hc (by decide)
    rw [parseValue, skipWs_cons hw]
    split
    · simp_all
    · rename_i heq; simp only [List.cons.injEq] at heq; rw [heq.1] at hc; exact absurd hc (by decide)
    · rename_i heq; simp only [List.cons.injEq] at heq; rw [heq.1] at hc; exact absurd hc (by decide)
    · rename_i heq; simp only [List.cons.injEq] at heq; rw [heq.1] at hc; exact absurd hc (by decide)
    · rename_i heq; simp only [List.cons.injEq] at heq; rw [heq.1] at hc; exact absurd hc (by decide)
    · rename_i heq; simp only [List.cons.injEq] at heq; rw [heq.1] at hc; exact absurd hc (by decide)
    · rename_i heq; simp only [List.cons.injEq] at heq; rw [heq.1] at hc; exact absurd hc (by decide)
    · rename_i heq
      rw [← heq, hs]

theorem parseValue_int (n : ℕ) (hn : n ≤ 2 ^ 63) (fuel : ℕ) (rest : Str) (hr : NumEnd rest) :
    parseValue (fuel + 1) ('-' :: dumpNum n ++ rest) = some (.int n, rest) := by
  have hs := scanNumber_int n hn rest hr
  rw [parseValue]
  rw [List.cons_append] at hs ⊢
  rw [skipWs_cons (by decide)]
  exact hs

theorem numEnd_comma (s : Str) : NumEnd (',' :: s) := by
  intro c hc
  simp only [List.head?_cons, Option.mem_some_iff] at hc
  subst hc
  decide

theorem numEnd_bracket (s : Str) : NumEnd (']' :: s) := by
  intro c hc
  simp only [List.head?_cons, Option.mem_some_iff] at hc
  subst hc
  decide

theorem numEnd_brace (s : Str) : NumEnd ('}' :: s) := by
  intro c hc
  simp only [List.head?_cons, Option.mem_some_iff] at hc
  subst hc
  decide

mutual

theorem parseValue_dump : ∀ (j : Json) (_ : j.WF) (fuel : ℕ) (_ : 2 * j.dump.length ≤ fuel) (rest : Str)
    (_ : NumEnd rest), parseValue fuel (j.dump ++ rest) = some (j, rest)
  | .null, _, fuel, hf, rest, _ => by
    obtain ⟨f, rfl⟩ : ∃ f, fuel = f + 1 := ⟨fuel - 1, by simp [Json.dump] at hf; omega⟩
    simp [Json.dump, parseValue, skipWs]
  | .bool true, _, fuel, hf, rest, _ => by
    obtain ⟨f, rfl⟩ : ∃ f, fuel = f + 1 := ⟨fuel - 1, by simp [Json.dump] at hf; omega⟩
    simp [Json.dump, parseValue, skipWs]
  | .bool false, _, fuel, hf, rest, _ => by
    obtain ⟨f, rfl⟩ : ∃ f, fuel = f + 1 := ⟨fuel - 1, by simp [Json.dump] at hf; omega⟩
    simp [Json.dump, parseValue, skipWs]
  | .num n, hw, fuel, hf, rest, hr => by
    have : 0 < (dumpNum n).length := List.length_pos_of_ne_nil (dumpNum_ne_nil n)
    obtain ⟨f, rfl⟩ : ∃ f, fuel = f + 1 := ⟨fuel - 1, by rw [Json.dump] at hf; omega⟩
    rw [Json.dump]
    exact parseValue_num n hw f rest hr
  | .int n, hw, fuel, hf, rest, hr => by
    rw [Json.WF] at hw
    have : n ≠ 0 := by omega
    rw [Json.dump, if_neg this] at hf ⊢
    rw [List.length_cons] at hf
    obtain ⟨f, rfl⟩ : ∃ f, fuel = f + 1 := ⟨fuel - 1, by omega⟩
    exact parseValue_int n hw.2 f rest hr
  | .float v, hw, _, _, _, _ => by
    exact absurd hw (by rw [Json.WF]; exact id)
  | .str s, _, fuel, hf, rest, _ => by
    obtain ⟨f, rfl⟩ : ∃ f, fuel = f + 1 := ⟨fuel - 1, by simp [Json.dump, dumpStr] at hf; omega⟩
    have e : (Json.str s).dump ++ rest = '"' :: (s.flatMap escapeChar ++ '"' :: rest) := by
      simp [Json.dump, dumpStr]
    rw [e, parseValue, skipWs_cons (by decide)]
    simp [scanString_dump]
  | .arr [], _, fuel, hf, rest, _ => by
    obtain ⟨f, rfl⟩ : ∃ f, fuel = f + 1 := ⟨fuel - 1, by simp [Json.dump, dumpArr] at hf; omega⟩
    simp [Json.dump, dumpArr, parseValue, skipWs]
  | .arr (x :: l), hw, fuel, hf, rest, _ => by
    obtain ⟨f, rfl⟩ : ∃ f, fuel = f + 1 := ⟨fuel - 1, by simp [Json.dump] at hf; omega⟩
    have e : (Json.arr (x :: l)).dump ++ rest = '[' :: (dumpArr (x :: l) ++ ']' :: rest) := by
      simp [Json.dump]
    have hl : 2 * (dumpArr (x :: l)).length + 1 ≤ f := by
      simp only [Json.dump, List.length_append, List.length_cons, List.length_nil] at hf
      omega
    have hp := parseArr_dump (x :: l) (by simp) (by rw [Json.WF] at hw; exact hw) f hl rest
    obtain ⟨c, t, hd, hws, hb, -⟩ := dump_head x (by rw [Json.WF, wfArr] at hw; exact hw.1)
    have hh : ∃ t', dumpArr (x :: l) ++ ']' :: rest = c :: t' := by
      cases l with
      | nil => exact ⟨t ++ ']' :: rest, by rw [dumpArr, hd]; rfl⟩
      | cons y l => exact ⟨_, by rw [dumpArr, hd]; rfl⟩
    obtain ⟨t', ht'⟩ := hh
    rw [e, parseValue, skipWs_cons (by decide)]
    simp only
    rw [ht', skipWs_cons hws, ← ht']
    split
    · rename_i heq
      rw [ht'] at heq
      simp only [List.cons.injEq] at heq
      exact absurd heq.1 hb
    · rw [hp]; rfl
  | .obj [], _, fuel, hf, rest, _ => by
    obtain ⟨f, rfl⟩ : ∃ f, fuel = f + 1 := ⟨fuel - 1, by simp [Json.dump, dumpMembers] at hf; omega⟩
    simp [Json.dump, dumpMembers, parseValue, skipWs]
  | .obj ((k, x) :: m), hw, fuel, hf, rest, _ => by
    obtain ⟨f, rfl⟩ : ∃ f, fuel = f + 1 := ⟨fuel - 1, by simp [Json.dump] at hf; omega⟩
    have e : (Json.obj ((k, x) :: m)).dump ++ rest = '{' :: (dumpMembers ((k, x) :: m) ++ '}' :: rest) := by
      simp [Json.dump]
    have hl : 2 * (dumpMembers ((k, x) :: m)).length + 1 ≤ f := by
      simp only [Json.dump, List.length_append, List.length_cons, List.length_nil] at hf
      omega
    rw [Json.WF] at hw
    have hp := parseMembers_dump ((k, x) :: m) (by simp) hw.2 hw.1 f hl rest [] (by simp)
    have hh : ∃ t', dumpMembers ((k, x) :: m) ++ '}' :: rest = '"' :: t' := by
      cases m with
      | nil => exact ⟨_, by rw [dumpMembers]; rfl⟩
      | cons y m => exact ⟨_, by rw [dumpMembers]; rfl⟩
    obtain ⟨t', ht'⟩ := hh
    rw [e, parseValue, skipWs_cons (by decide)]
    simp only
    rw [ht', skipWs_cons (by decide), ← ht']
    split
    · rename_i heq
      rw [ht'] at heq
      simp at heq
    · rw [hp]; rfl

theorem parseArr_dump : ∀ (l : List Json) (_ : l ≠ []) (_ : wfArr l) (fuel : ℕ)
    (_ : 2 * (dumpArr l).length + 1 ≤ fuel) (rest : Str),
    parseArr fuel (dumpArr l ++ ']' :: rest) = some (l, rest)
  | [], h, _, _, _, _ => absurd rfl h
  | [x], _, hw, fuel, hf, rest => by
    obtain ⟨f, rfl⟩ : ∃ f, fuel = f + 1 := ⟨fuel - 1, by omega⟩
    rw [dumpArr] at hf ⊢
    rw [wfArr] at hw
    rw [parseArr, parseValue_dump x hw.1 f (by omega) _ (numEnd_bracket rest)]
    simp only
    rw [skipWs_cons (by decide)]
    rfl
  | x :: y :: l, _, hw, fuel, hf, rest => by
    obtain ⟨f, rfl⟩ : ∃ f, fuel = f + 1 := ⟨fuel - 1, by omega⟩
    rw [dumpArr] at hf ⊢
    rw [wfArr] at hw
    simp only [List.length_append, List.length_cons] at hf
    rw [List.append_assoc, List.cons_append, parseArr,
      parseValue_dump x hw.1 f (by omega) _ (numEnd_comma _)]
    simp only
    rw [skipWs_cons (by decide)]
    simp only
    rw [parseArr_dump (y :: l) (by simp) hw.2 f (by omega) rest]
    rfl

theorem parseMembers_dump : ∀ (l : List (Str × Json)) (_ : l ≠ []) (_ : wfMembers l)
    (_ : (l.map (·.1)).Pairwise (· < ·)) (fuel : ℕ)
    (_ : 2 * (dumpMembers l).length + 1 ≤ fuel) (rest : Str) (m : List (Str × Json))
    (_ : ∀ e ∈ m, ∀ e' ∈ l, e.1 < e'.1),
    parseMembers fuel (dumpMembers l ++ '}' :: rest) m = some (m ++ l, rest)
  | [], h, _, _, _, _, _, _, _ => absurd rfl h
  | [(k, x)], _, hw, _, fuel, hf, rest, m, hm => by
    obtain ⟨f, rfl⟩ : ∃ f, fuel = f + 1 := ⟨fuel - 1, by omega⟩
    rw [dumpMembers] at hf ⊢
    rw [wfMembers] at hw
    have e : dumpStr k ++ ':' :: x.dump ++ '}' :: rest =
      '"' :: (k.flatMap escapeChar ++ '"' :: (':' :: (x.dump ++ '}' :: rest))) := by simp [dumpStr]
    simp only [List.length_append, List.length_cons] at hf
    rw [e, parseMembers, skipWs_cons (by decide)]
    simp only
    rw [scanString_dump]
    simp only
    rw [skipWs_cons (by decide)]
    simp only
    rw [parseValue_dump x hw.1 f (by omega) _ (numEnd_brace rest)]
    simp only
    rw [skipWs_cons (by decide)]
    simp only
    rw [mapSet_last m k x (fun e he => hm e he (k, x) (by simp))]
  | (k, x) :: y :: l, _, hw, hs, fuel, hf, rest, m, hm => by
    obtain ⟨f, rfl⟩ : ∃ f, fuel = f + 1 := ⟨fuel - 1, by omega⟩
    rw [dumpMembers] at hf ⊢
    rw [wfMembers] at hw
    have e : dumpStr k ++ ':' :: (x.dump ++ ',' :: dumpMembers (y :: l)) ++ '}' :: rest =
      '"' :: (k.flatMap escapeChar ++ '"' :: (':' :: (x.dump ++ ',' :: (dumpMembers (y :: l) ++ '}' :: rest)))) := by
      simp [dumpStr]
    simp only [List.length_append, List.length_cons] at hf
    rw [e, parseMembers, skipWs_cons (by decide)]
    simp only
    rw [scanString_dump]
    simp only
    rw [skipWs_cons (by decide)]
    simp only
    rw [parseValue_dump x hw.1 f (by omega) _ (numEnd_comma _)]
    simp only
    rw [skipWs_cons (by decide)]
    simp only
    rw [List.map_cons, List.pairwise_cons] at hs
    rw [mapSet_last m k x (fun e he => hm e he (k, x) (by simp)),
      parseMembers_dump (y :: l) (by simp) hw.2 hs.2 f (by omega) rest (m ++ [(k, x)])]
    · simp
    · intro e he e' he'
      rcases List.mem_append.1 he with he | he
      · exact hm e he e' (List.mem_cons_of_mem _ he')
      · rw [List.mem_singleton.1 he]
        exact hs.1 e'.1 (List.mem_map_of_mem he')

end

theorem parse_dump (j : Json) (hj : j.WF) : Json.parse j.dump = .ok j := by
  have := parseValue_dump j hj (2 * j.dump.length + 2) (by omega) [] (by simp [NumEnd])
  rw [List.append_nil] at this
  obtain ⟨c, t, hd, -, -, -, hb⟩ := dump_head j hj
  have hbom : skipBom j.dump = j.dump := by
    rw [hd, skipBom, if_neg hb]
  unfold Json.parse
  rw [hbom, this]
  rfl

end EG
