import Verif.Lemmas.Hex
import Mathlib.Data.List.TakeWhile

/-! Helper lemmas: parsing strings that do not consist of hex digits only. -/

namespace EG

open Spec

theorem hexVal_digit (c : Char) (n : ℕ) (h : IsDigit c n) : hexVal c = some n ∧ n < 16 := by
  have hU : ∀ n : Fin 16, hexVal (digitsUpper[n.val]?.getD ' ') = some n.val := by decide +kernel
  have hL : ∀ n : Fin 16, hexVal (digitsLower[n.val]?.getD ' ') = some n.val := by decide +kernel
  rcases h with h | h
  · have hd : n < 16 := (List.getElem?_eq_some_iff.1 h).1
    have := hU ⟨n, hd⟩
    simp only [h, Option.getD_some] at this
    exact ⟨this, hd⟩
  · have hd : n < 16 := (List.getElem?_eq_some_iff.1 h).1
    have := hL ⟨n, hd⟩
    simp only [h, Option.getD_some] at this
    exact ⟨this, hd⟩

theorem digit_hexVal (c : Char) (n : ℕ) (h : hexVal c = some n) : IsDigit c n := by
  have e : c = Char.ofNat c.toNat := (Char.ofNat_toNat c).symm
  unfold hexVal at h
  have key : ∀ m : Fin 103, ∀ k : Fin 16,
      (if '0' ≤ Char.ofNat m ∧ Char.ofNat m ≤ '9' then some ((Char.ofNat m).toNat - 48)
        else if 'A' ≤ Char.ofNat m ∧ Char.ofNat m ≤ 'F' then some ((Char.ofNat m).toNat - 55)
        else if 'a' ≤ Char.ofNat m ∧ Char.ofNat m ≤ 'f' then some ((Char.ofNat m).toNat - 87)
        else none) = some k.val →
      digitsUpper[k.val]? = some (Char.ofNat m) ∨ digitsLower[k.val]? = some (Char.ofNat m) := by
    decide +kernel
  have hb : c.toNat < 103 ∧ n < 16 := by
    have h9 : ∀ d : Char, c ≤ d → c.toNat ≤ d.toNat := fun d hd => hd
    have h0 : ∀ d : Char, d ≤ c → d.toNat ≤ c.toNat := fun d hd => hd
    split_ifs at h with h1 h2 h3
    · have a1 := h9 _ h1.2
      have a2 := h0 _ h1.1
      have a3 : '9'.toNat = 57 := rfl
      have a4 : '0'.toNat = 48 := rfl
      injection h with h
      omega
    · have a1 := h9 _ h2.2
      have a2 := h0 _ h2.1
      have a3 : 'F'.toNat = 70 := rfl
      have a4 : 'A'.toNat = 65 := rfl
      injection h with h
      omega
    · have a1 := h9 _ h3.2
      have a2 := h0 _ h3.1
      have a3 : 'f'.toNat = 102 := rfl
      have a4 : 'a'.toNat = 97 := rfl
      injection h with h
      omega
  have := key ⟨c.toNat, hb.1⟩ ⟨n, hb.2⟩
  simp only [← e] at this
  exact this h

theorem hexVal_iff (c : Char) (n : ℕ) : hexVal c = some n ↔ IsDigit c n :=
  ⟨digit_hexVal c n, fun h => (hexVal_digit c n h).1⟩

theorem hexVal_none (c : Char) : hexVal c = none ↔ ∀ n, ¬ IsDigit c n := by
  constructor
  · intro h n hn
    rw [(hexVal_digit c n hn).1] at h
    cases h
  · intro h
    cases e : hexVal c with
    | none => rfl
    | some n => exact absurd (digit_hexVal c n e) (h n)

theorem isSpaceC_iff (c : Char) : isSpaceC c = true ↔ c ∈ blanks := by
  simp only [isSpaceC, blanks, Bool.or_eq_true, decide_eq_true_eq, List.mem_cons, List.not_mem_nil,
    or_false]
  tauto

theorem isLeadingChar_iff (c : Char) : isLeadingChar c = true ↔ c = '0' ∨ c ∈ blanks := by
  rw [isLeadingChar, Bool.or_eq_true, decide_eq_true_eq, isSpaceC_iff]

theorem blank_not_hex : ∀ c ∈ blanks, hexVal c = none ∧ c ≠ '+' ∧ c ≠ '-' := by decide +kernel

theorem sign_not_hex : hexVal '+' = none ∧ hexVal '-' = none ∧ isSpaceC '+' = false ∧
    isSpaceC '-' = false := by decide +kernel

/-- The rest of `stoi16Byte` behind white space and sign, for at most two characters. -/
def stoiTail (neg : Bool) (s : List Char) : Res UInt8 :=
  match s.takeWhile (fun c => (hexVal c).isSome) with
  | [] => .throw .invalidArgument
  | d :: ds =>
    let v := hexDigitsVal (d :: ds)
    .ok (UInt8.ofNat ((if neg then 2 ^ 16 - v % 2 ^ 16 else v) % 256))

/-- The part of `stoi16Byte` that drops a prefix. -/
def dropPrefix (s : List Char) : List Char :=
  match s with
  | '0' :: 'x' :: d :: t => if (hexVal d).isSome then d :: t else s
  | '0' :: 'X' :: d :: t => if (hexVal d).isSome then d :: t else s
  | t => t

/-- The part of `stoi16Byte` that drops a sign. -/
def dropSign (s : List Char) : List Char :=
  match s with | '-' :: t => t | '+' :: t => t | t => t

def isNeg (s : List Char) : Bool := match s with | '-' :: _ => true | _ => false

theorem prefix_short (s : List Char) (h : s.length ≤ 2) : dropPrefix s = s := by
  unfold dropPrefix
  revert h
  split <;> simp

theorem stoi16Byte_parts (s : List Char) : stoi16Byte s =
    stoiTail (isNeg (s.dropWhile isSpaceC)) (dropPrefix (dropSign (s.dropWhile isSpaceC))) := rfl

theorem dropSign_length (s : List Char) : (dropSign s).length ≤ s.length := by
  unfold dropSign
  split <;> simp

theorem stoi16Byte_tail (s : List Char) (h : s.length ≤ 2) :
    stoi16Byte s = stoiTail (isNeg (s.dropWhile isSpaceC)) (dropSign (s.dropWhile isSpaceC)) := by
  have hl : (s.dropWhile isSpaceC).length ≤ 2 :=
    le_trans (List.dropWhile_sublist isSpaceC).length_le h
  rw [stoi16Byte_parts, prefix_short _ (le_trans (dropSign_length _) hl)]

theorem no_sign (a : Char) (s : List Char) (h1 : a ≠ '-') (h2 : a ≠ '+') :
    isNeg (a :: s) = false ∧ dropSign (a :: s) = a :: s := by
  unfold isNeg dropSign
  constructor
  · split
    · rename_i h; injection h with h _; exact absurd h h1
    · rfl
  · split
    · rename_i h; injection h with h _; exact absurd h h1
    · rename_i h; injection h with h _; exact absurd h h2
    · rfl

theorem stoiTail_one (neg : Bool) (b : Char) :
    stoiTail neg [b] = match hexVal b with
      | some n => .ok (UInt8.ofNat ((if neg then 2 ^ 16 - n % 2 ^ 16 else n) % 256))
      | none => .throw .invalidArgument := by
  cases hb : hexVal b with
  | none => simp [stoiTail, hb]
  | some n => simp [stoiTail, hb, hexDigitsVal]

theorem stoiTail_two (neg : Bool) (a b : Char) (m : ℕ) (ha : hexVal a = some m) :
    stoiTail neg [a, b] = match hexVal b with
      | some n => .ok (UInt8.ofNat ((if neg then 2 ^ 16 - (16 * m + n) % 2 ^ 16 else 16 * m + n) % 256))
      | none => .ok (UInt8.ofNat ((if neg then 2 ^ 16 - m % 2 ^ 16 else m) % 256)) := by
  cases hb : hexVal b with
  | none => simp [stoiTail, ha, hb, hexDigitsVal]
  | some n => simp [stoiTail, ha, hb, hexDigitsVal]

theorem stoiTail_none (neg : Bool) (a : Char) (s : List Char) (ha : hexVal a = none) :
    stoiTail neg (a :: s) = .throw .invalidArgument := by
  simp [stoiTail, ha]

/-- Two characters are read as a byte exactly if they are one in the wide sense. -/
theorem stoi16Byte_lax (a b : Char) :
    (∃ n, LaxByte a b n ∧ n < 256 ∧ stoi16Byte [a, b] = .ok (UInt8.ofNat n)) ∨
      ((∀ n, ¬ LaxByte a b n) ∧ stoi16Byte [a, b] = .throw .invalidArgument) := by
  rw [stoi16Byte_tail [a, b] (by simp)]
  have hnone : hexVal a = none → a ∉ blanks → a ≠ '+' → a ≠ '-' → ∀ n, ¬ LaxByte a b n := by
    intro h1 h2 h3 h4 n hn
    cases hn with
    | both h _ => rw [(hexVal_digit _ _ h).1] at h1; cases h1
    | first h _ => rw [(hexVal_digit _ _ h).1] at h1; cases h1
    | blank h _ => exact h2 h
    | plus _ => exact h3 rfl
    | minus _ => exact h4 rfl
  have hnone2 : hexVal a = none → hexVal b = none → ∀ n, ¬ LaxByte a b n := by
    intro h1 h2 n hn
    cases hn with
    | both h _ => rw [(hexVal_digit _ _ h).1] at h1; cases h1
    | first h _ => rw [(hexVal_digit _ _ h).1] at h1; cases h1
    | blank _ h => rw [(hexVal_digit _ _ h).1] at h2; cases h2
    | plus h => rw [(hexVal_digit _ _ h).1] at h2; cases h2
    | minus h => rw [(hexVal_digit _ _ h).1] at h2; cases h2
  by_cases hs : a ∈ blanks
  · have ha := (isSpaceC_iff a).2 hs
    have hx := (blank_not_hex a hs).1
    rw [List.dropWhile_cons_of_pos ha]
    by_cases hsb : b ∈ blanks
    · right
      refine ⟨hnone2 hx (blank_not_hex b hsb).1, ?_⟩
      rw [List.dropWhile_cons_of_pos ((isSpaceC_iff b).2 hsb)]
      rfl
    · rw [List.dropWhile_cons_of_neg (by rw [isSpaceC_iff]; exact hsb)]
      by_cases h1 : b = '-'
      · subst h1
        right
        exact ⟨hnone2 hx sign_not_hex.2.1, rfl⟩
      by_cases h2 : b = '+'
      · subst h2
        right
        exact ⟨hnone2 hx sign_not_hex.1, rfl⟩
      rw [(no_sign b [] h1 h2).1, (no_sign b [] h1 h2).2, stoiTail_one]
      cases hb : hexVal b with
      | none => exact .inr ⟨hnone2 hx hb, rfl⟩
      | some n =>
        have hd := digit_hexVal b n hb
        have := (hexVal_digit b n hd).2
        refine .inl ⟨n, .blank hs hd, by omega, ?_⟩
        simp [Nat.mod_eq_of_lt (show n < 256 by omega)]
  · rw [List.dropWhile_cons_of_neg (by rw [isSpaceC_iff]; exact hs)]
    by_cases h1 : a = '-'
    · subst h1
      cases hb : hexVal b with
      | none => exact .inr ⟨hnone2 sign_not_hex.2.1 hb, by show stoiTail true [b] = _; rw [stoiTail_one, hb]⟩
      | some n =>
        have hd := digit_hexVal b n hb
        have hn := (hexVal_digit b n hd).2
        refine .inl ⟨(256 - n) % 256, .minus hd, Nat.mod_lt _ (by norm_num), ?_⟩
        show stoiTail true [b] = _
        rw [stoiTail_one, hb]
        show Res.ok _ = _
        rw [show (if true = true then 2 ^ 16 - n % 2 ^ 16 else n) % 256 = (256 - n) % 256 by
          rw [if_pos rfl]; omega]
    by_cases h2 : a = '+'
    · subst h2
      cases hb : hexVal b with
      | none => exact .inr ⟨hnone2 sign_not_hex.1 hb, by show stoiTail false [b] = _; rw [stoiTail_one, hb]⟩
      | some n =>
        have hd := digit_hexVal b n hb
        have hn := (hexVal_digit b n hd).2
        refine .inl ⟨n, .plus hd, by omega, ?_⟩
        show stoiTail false [b] = _
        rw [stoiTail_one, hb]
        simp [Nat.mod_eq_of_lt (show n < 256 by omega)]
    rw [(no_sign a [b] h1 h2).1, (no_sign a [b] h1 h2).2]
    cases ha : hexVal a with
    | none => exact .inr ⟨hnone ha hs h2 h1, stoiTail_none _ _ _ ha⟩
    | some m =>
      have hda := digit_hexVal a m ha
      have hm := (hexVal_digit a m hda).2
      rw [stoiTail_two _ _ _ _ ha]
      cases hb : hexVal b with
      | none =>
        refine .inl ⟨m, .first hda ((hexVal_none b).1 hb), by omega, ?_⟩
        simp [Nat.mod_eq_of_lt (show m < 256 by omega)]
      | some n =>
        have hdb := digit_hexVal b n hb
        have hn := (hexVal_digit b n hdb).2
        refine .inl ⟨16 * m + n, .both hda hdb, by omega, ?_⟩
        simp [Nat.mod_eq_of_lt (show 16 * m + n < 256 by omega)]

theorem laxByte_unique {a b : Char} {m n : ℕ} (h : LaxByte a b m) (h' : LaxByte a b n) : m = n := by
  have dig : ∀ {c : Char} {x y : ℕ}, IsDigit c x → IsDigit c y → x = y := by
    intro c x y hx hy
    have e := (hexVal_digit c x hx).1.symm.trans (hexVal_digit c y hy).1
    injection e
  have bl : ∀ {c : Char} {x : ℕ}, IsDigit c x → c ∈ blanks → False := by
    intro c x hx hb
    have := (hexVal_digit c x hx).1
    rw [(blank_not_hex c hb).1] at this
    cases this
  have pl : ∀ {x : ℕ}, ¬ IsDigit '+' x := by
    intro x hx
    have := (hexVal_digit _ x hx).1
    rw [sign_not_hex.1] at this
    cases this
  have mi : ∀ {x : ℕ}, ¬ IsDigit '-' x := by
    intro x hx
    have := (hexVal_digit _ x hx).1
    rw [sign_not_hex.2.1] at this
    cases this
  have blp : '+' ∉ blanks := by decide
  have blm : '-' ∉ blanks := by decide
  cases h with
  | both h1 h2 =>
    cases h' with
    | both h3 h4 => rw [dig h1 h3, dig h2 h4]
    | first _ h4 => exact absurd h2 (h4 _)
    | blank h3 _ => exact (bl h1 h3).elim
    | plus _ => exact (pl h1).elim
    | minus _ => exact (mi h1).elim
  | first h1 h2 =>
    cases h' with
    | both _ h4 => exact absurd h4 (h2 _)
    | first h3 _ => exact dig h1 h3
    | blank h3 _ => exact (bl h1 h3).elim
    | plus _ => exact (pl h1).elim
    | minus _ => exact (mi h1).elim
  | blank h1 h2 =>
    cases h' with
    | both h3 _ => exact (bl h3 h1).elim
    | first h3 _ => exact (bl h3 h1).elim
    | blank _ h4 => exact dig h2 h4
    | plus _ => exact absurd h1 blp
    | minus _ => exact absurd h1 blm
  | plus h2 =>
    cases h' with
    | both h3 _ => exact (pl h3).elim
    | first h3 _ => exact (pl h3).elim
    | blank h3 _ => exact absurd h3 blp
    | plus h4 => exact dig h2 h4
  | minus h2 =>
    cases h' with
    | both h3 _ => exact (mi h3).elim
    | first h3 _ => exact (mi h3).elim
    | blank h3 _ => exact absurd h3 blm
    | minus h4 => rw [dig h2 h4]

/-- The number of bytes and the number they denote, from the front. -/
theorem laxHex_cons (s : List Char) (a b : Char) (k n m : ℕ) (h : LaxHex s k n) (hb : LaxByte a b m) :
    LaxHex (a :: b :: s) (k + 1) (m * 256 ^ k + n) := by
  induction h with
  | nil => simpa using LaxHex.snoc [] a b 0 0 m .nil hb
  | snoc s c d k n x hs hx ih =>
    have := LaxHex.snoc (a :: b :: s) c d _ _ x ih hx
    rw [show 256 * (m * 256 ^ k + n) + x = m * 256 ^ (k + 1) + (256 * n + x) by rw [pow_succ]; ring]
      at this
    exact this

theorem laxHex_length {s : List Char} {k n : ℕ} (h : LaxHex s k n) : s.length = 2 * k := by
  induction h with
  | nil => rfl
  | snoc s a b k n m _ _ ih => simp [ih]; ring

theorem laxHex_nil {k n : ℕ} (h : LaxHex [] k n) : k = 0 ∧ n = 0 := by
  generalize e : ([] : List Char) = t at h
  cases h with
  | nil => exact ⟨rfl, rfl⟩
  | snoc s => simp at e

theorem laxHex_uncons {t : List Char} {k n : ℕ} (h : LaxHex t k n) : ∀ a b s, t = a :: b :: s →
    ∃ m j x, k = j + 1 ∧ n = m * 256 ^ j + x ∧ LaxByte a b m ∧ LaxHex s j x := by
  induction h with
  | nil => intro a b s h; cases h
  | snoc t c d k n m ht hm ih =>
    intro a b s e
    match t, e with
    | [], e =>
      simp at e
      obtain ⟨rfl, rfl, rfl⟩ := e
      cases k with
      | zero =>
        refine ⟨m, 0, 0, rfl, ?_, hm, .nil⟩
        have hn : n = 0 := (laxHex_nil ht).2
        rw [hn]; simp
      | succ k => have := laxHex_length ht; simp at this
    | [x], _ => have := laxHex_length ht; simp at this; omega
    | x :: y :: t, e =>
      simp only [List.cons_append, List.cons.injEq] at e
      obtain ⟨rfl, rfl, rfl⟩ := e
      obtain ⟨m', j, z, rfl, rfl, h1, h2⟩ := ih x y t rfl
      refine ⟨m', j + 1, 256 * z + m, rfl, by rw [pow_succ]; ring, h1, .snoc t c d j z m h2 hm⟩

/-- A text of even length is read from the front, pair by pair. -/
theorem hexToBytes_lax (k : ℕ) : ∀ s : List Char, s.length = 2 * k →
    (∃ n bs, LaxHex s k n ∧ hexToBytes s = .ok bs ∧ bs.length = k ∧ ofBytesBE bs = n) ∨
      ((∀ j n, ¬ LaxHex s j n) ∧ hexToBytes s = .throw .invalidArgument) := by
  induction k with
  | zero =>
    intro s hl
    have : s = [] := by simpa using hl
    subst this
    exact .inl ⟨0, [], .nil, rfl, rfl, rfl⟩
  | succ k ih =>
    intro s hl
    match s, hl with
    | a :: b :: s, hl =>
      rcases stoi16Byte_lax a b with ⟨m, h1, h2, h3⟩ | ⟨h1, h2⟩
      · rcases ih s (by simp at hl; omega) with ⟨n, bs, h4, h5, h6, h7⟩ | ⟨h4, h5⟩
        · refine .inl ⟨_, UInt8.ofNat m :: bs, laxHex_cons s a b k n m h4 h1, ?_, by simp [h6], ?_⟩
          · rw [hexToBytes, h3, Res.bind_ok, h5]; rfl
          · rw [ofBytesBE_cons, h6, h7]
            congr 2
            simp; omega
        · right
          refine ⟨?_, by rw [hexToBytes, h3, Res.bind_ok, h5]; rfl⟩
          intro j n hn
          obtain ⟨_, _, _, _, _, _, h⟩ := laxHex_uncons hn a b s rfl
          exact h4 _ _ h
      · right
        refine ⟨?_, by rw [hexToBytes, h2]; rfl⟩
        intro j n hn
        obtain ⟨_, _, _, _, _, h, _⟩ := laxHex_uncons hn a b s rfl
        exact h1 _ h

theorem laxHex_unique {s : List Char} {k n : ℕ} (h : LaxHex s k n) : ∀ {j m}, LaxHex s j m → k = j ∧ n = m := by
  induction h with
  | nil => intro j m h; obtain ⟨rfl, rfl⟩ := laxHex_nil h; exact ⟨rfl, rfl⟩
  | snoc s a b k n x _ hx ih =>
    intro j m h
    generalize e : s ++ [a, b] = t at h
    cases h with
    | nil => simp at e
    | snoc s' a' b' j n' x' h1 h2 =>
      obtain ⟨rfl, e2⟩ := List.append_inj' e rfl
      simp at e2
      obtain ⟨rfl, rfl⟩ := e2
      obtain ⟨rfl, rfl⟩ := ih h1
      rw [laxByte_unique hx h2]
      exact ⟨rfl, rfl⟩

theorem sanitizeHex_blank (s : List Char) (h : ∀ c ∈ s, c = '0' ∨ c ∈ blanks) :
    sanitizeHex s = .throw .outOfRange := by
  have : s.dropWhile isLeadingChar = [] := by
    rw [List.dropWhile_eq_nil_iff]
    exact fun c hc => (isLeadingChar_iff c).2 (h c hc)
  rw [sanitizeHex, this]

theorem dropWhile_lead (lead t : List Char) (h : ∀ c ∈ lead, c = '0' ∨ c ∈ blanks)
    (ht : ∀ c ∈ t.head?, c ≠ '0' ∧ c ∉ blanks) : (lead ++ t).dropWhile isLeadingChar = t := by
  induction lead with
  | nil =>
    cases t with
    | nil => rfl
    | cons c t =>
      rw [List.nil_append, List.dropWhile_cons_of_neg]
      rw [isLeadingChar_iff]
      have := ht c (by simp)
      tauto
  | cons c l ih =>
    rw [List.cons_append, List.dropWhile_cons_of_pos ((isLeadingChar_iff c).2 (h c (by simp)))]
    exact ih (fun x hx => h x (by simp [hx]))

theorem sanitizeHex_stripped (s t : List Char) (h : Stripped s t) :
    sanitizeHex s = .ok t ∧ t.length % 2 = 0 ∧ t ≠ [] := by
  cases h with
  | even lead t h1 h2 h3 h4 =>
    rw [sanitizeHex, dropWhile_lead lead t h1 h3]
    refine ⟨?_, h4, h2⟩
    cases t with
    | nil => exact absurd rfl h2
    | cons c t => simp only []; rw [if_neg (by omega)]
  | odd lead t h1 h3 h4 =>
    rw [sanitizeHex, dropWhile_lead lead t h1 h3]
    refine ⟨?_, by simp; omega, by simp⟩
    cases t with
    | nil => simp at h4
    | cons c t => simp only []; rw [if_pos (by omega)]

theorem stripped_cases (s : List Char) :
    (∀ c ∈ s, c = '0' ∨ c ∈ blanks) ∨ ∃ t, Stripped s t := by
  by_cases h : ∀ c ∈ s, c = '0' ∨ c ∈ blanks
  · exact .inl h
  right
  have hne : s.dropWhile isLeadingChar ≠ [] := by
    intro e
    rw [List.dropWhile_eq_nil_iff] at e
    exact h fun c hc => (isLeadingChar_iff c).1 (e c hc)
  have e := List.takeWhile_append_dropWhile (p := isLeadingChar) (l := s)
  have hl : ∀ c ∈ s.takeWhile isLeadingChar, c = '0' ∨ c ∈ blanks :=
    fun c hc => (isLeadingChar_iff c).1 (List.mem_takeWhile_imp hc)
  have hh : ∀ c ∈ (s.dropWhile isLeadingChar).head?, c ≠ '0' ∧ c ∉ blanks := by
    intro c hc
    have h1 := List.head_dropWhile_not (p := isLeadingChar) (l := s) hne
    have h2 : c = (s.dropWhile isLeadingChar).head hne := by
      rw [List.head?_eq_some_head hne] at hc
      simpa using hc.symm
    rw [← h2] at h1
    have h3 := isLeadingChar_iff c
    rw [h1] at h3
    simp at h3
    exact h3
  by_cases hp : (s.dropWhile isLeadingChar).length % 2 = 0
  · have := Stripped.even _ _ hl hne hh hp
    rw [e] at this
    exact ⟨_, this⟩
  · have := Stripped.odd _ _ hl hh (by omega)
    rw [e] at this
    exact ⟨_, this⟩

end EG
