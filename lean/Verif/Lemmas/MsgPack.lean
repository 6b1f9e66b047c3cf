import Verif.Lemmas.Binary

/-!
# Reading MessagePack follows the grammar
-/

namespace EG.Binary

open EG.Spec.Binary
open EG.Spec.JsonText (IsMap)

theorem u8_eq {b c : UInt8} (h : b.toNat = c.toNat) : b = c := UInt8.toNat_inj.1 h

/-! ## The first byte -/

/-- All cases of the first byte. -/
inductive HeadSpec (b : UInt8) : Head → Prop
  | positive : b.toNat < 128 → HeadSpec b (.value (.num b.toNat))
  | obj {n} : n < 16 → b.toNat = 0x80 + n → HeadSpec b (.obj (.now n))
  | arr {n} : n < 16 → b.toNat = 0x90 + n → HeadSpec b (.arr (.now n))
  | str {n} : n < 32 → b.toNat = 0xA0 + n → HeadSpec b (.str (.now n))
  | null : b = 0xC0 → HeadSpec b (.value .null)
  | unused : HeadSpec b .unused
  | false : b = 0xC2 → HeadSpec b (.value (.bool false))
  | true : b = 0xC3 → HeadSpec b (.value (.bool true))
  | binary : HeadSpec b .binary
  | float32 : b = 0xCA → HeadSpec b .float32
  | float64 : b = 0xCB → HeadSpec b .float64
  | unsigned {k} : b = 0xCC ∧ k = 1 ∨ b = 0xCD ∧ k = 2 ∨ b = 0xCE ∧ k = 4 ∨ b = 0xCF ∧ k = 8 →
      HeadSpec b (.unsigned k)
  | signed {k} : b = 0xD0 ∧ k = 1 ∨ b = 0xD1 ∧ k = 2 ∨ b = 0xD2 ∧ k = 4 ∨ b = 0xD3 ∧ k = 8 →
      HeadSpec b (.signed k)
  | strBehind {k} : b = 0xD9 ∧ k = 1 ∨ b = 0xDA ∧ k = 2 ∨ b = 0xDB ∧ k = 4 → HeadSpec b (.str (.behind k))
  | arrBehind {k} : b = 0xDC ∧ k = 2 ∨ b = 0xDD ∧ k = 4 → HeadSpec b (.arr (.behind k))
  | objBehind {k} : b = 0xDE ∧ k = 2 ∨ b = 0xDF ∧ k = 4 → HeadSpec b (.obj (.behind k))
  | negative {n} : 0 < n → n ≤ 32 → b.toNat + n = 256 → HeadSpec b (.value (.int n))

theorem head_spec (b : UInt8) : HeadSpec b (head b) := by
  have hb := b.toNat_lt
  have lit : ∀ c : UInt8, b.toNat = c.toNat → b = c := fun c h => u8_eq h
  unfold head
  dsimp only
  by_cases h1 : b.toNat < 0x80
  · rw [if_pos h1]; exact .positive h1
  rw [if_neg h1]
  by_cases h2 : b.toNat < 0x90
  · rw [if_pos h2]; exact .obj (by omega) (by omega)
  rw [if_neg h2]
  by_cases h3 : b.toNat < 0xA0
  · rw [if_pos h3]; exact .arr (by omega) (by omega)
  rw [if_neg h3]
  by_cases h4 : b.toNat < 0xC0
  · rw [if_pos h4]; exact .str (by omega) (by omega)
  rw [if_neg h4]
  by_cases h5 : b.toNat = 0xC0
  · rw [if_pos h5]; exact .null (lit 0xC0 h5)
  rw [if_neg h5]
  by_cases h6 : b.toNat = 0xC1
  · rw [if_pos h6]; exact .unused
  rw [if_neg h6]
  by_cases h7 : b.toNat = 0xC2
  · rw [if_pos h7]; exact .false (lit 0xC2 h7)
  rw [if_neg h7]
  by_cases h8 : b.toNat = 0xC3
  · rw [if_pos h8]; exact .true (lit 0xC3 h8)
  rw [if_neg h8]
  by_cases h9 : b.toNat < 0xCA
  · rw [if_pos h9]; exact .binary
  rw [if_neg h9]
  by_cases h10 : b.toNat = 0xCA
  · rw [if_pos h10]; exact .float32 (lit 0xCA h10)
  rw [if_neg h10]
  by_cases h11 : b.toNat = 0xCB
  · rw [if_pos h11]; exact .float64 (lit 0xCB h11)
  rw [if_neg h11]
  by_cases h12 : b.toNat < 0xD0
  · rw [if_pos h12]
    have hc : b.toNat = 0xCC ∨ b.toNat = 0xCD ∨ b.toNat = 0xCE ∨ b.toNat = 0xCF := by omega
    rcases hc with hc | hc | hc | hc <;> rw [hc]
    · exact .unsigned (Or.inl ⟨lit 0xCC hc, rfl⟩)
    · exact .unsigned (Or.inr (Or.inl ⟨lit 0xCD hc, rfl⟩))
    · exact .unsigned (Or.inr (Or.inr (Or.inl ⟨lit 0xCE hc, rfl⟩)))
    · exact .unsigned (Or.inr (Or.inr (Or.inr ⟨lit 0xCF hc, rfl⟩)))
  rw [if_neg h12]
  by_cases h13 : b.toNat < 0xD4
  · rw [if_pos h13]
    have hc : b.toNat = 0xD0 ∨ b.toNat = 0xD1 ∨ b.toNat = 0xD2 ∨ b.toNat = 0xD3 := by omega
    rcases hc with hc | hc | hc | hc <;> rw [hc]
    · exact .signed (Or.inl ⟨lit 0xD0 hc, rfl⟩)
    · exact .signed (Or.inr (Or.inl ⟨lit 0xD1 hc, rfl⟩))
    · exact .signed (Or.inr (Or.inr (Or.inl ⟨lit 0xD2 hc, rfl⟩)))
    · exact .signed (Or.inr (Or.inr (Or.inr ⟨lit 0xD3 hc, rfl⟩)))
  rw [if_neg h13]
  by_cases h14 : b.toNat < 0xD9
  · rw [if_pos h14]; exact .binary
  rw [if_neg h14]
  by_cases h15 : b.toNat < 0xDC
  · rw [if_pos h15]
    have hc : b.toNat = 0xD9 ∨ b.toNat = 0xDA ∨ b.toNat = 0xDB := by omega
    rcases hc with hc | hc | hc <;> rw [hc]
    · exact .strBehind (Or.inl ⟨lit 0xD9 hc, rfl⟩)
    · exact .strBehind (Or.inr (Or.inl ⟨lit 0xDA hc, rfl⟩))
    · exact .strBehind (Or.inr (Or.inr ⟨lit 0xDB hc, rfl⟩))
  rw [if_neg h15]
  by_cases h16 : b.toNat < 0xDE
  · rw [if_pos h16]
    have hc : b.toNat = 0xDC ∨ b.toNat = 0xDD := by omega
    rcases hc with hc | hc <;> rw [hc]
    · exact .arrBehind (Or.inl ⟨lit 0xDC hc, rfl⟩)
    · exact .arrBehind (Or.inr ⟨lit 0xDD hc, rfl⟩)
  rw [if_neg h16]
  by_cases h17 : b.toNat < 0xE0
  · rw [if_pos h17]
    have hc : b.toNat = 0xDE ∨ b.toNat = 0xDF := by omega
    rcases hc with hc | hc <;> rw [hc]
    · exact .objBehind (Or.inl ⟨lit 0xDE hc, rfl⟩)
    · exact .objBehind (Or.inr ⟨lit 0xDF hc, rfl⟩)
  rw [if_neg h17]
  exact .negative (by omega) (by omega) (by omega)

theorem head_value {b : UInt8} {j : Json} (h : head b = .value j) : Pack [b] j := by
  have hs := head_spec b
  rw [h] at hs
  cases hs with
  | positive h' => exact .number (.positive h')
  | null h' => rw [h']; exact .nil
  | false h' => rw [h']; exact .false
  | true h' => rw [h']; exact .true
  | negative h0 h1 h2 => exact .number (.negative h0 h1 h2)

theorem head_unsigned {b : UInt8} {k : ℕ} (h : head b = .unsigned k) :
    b = 0xCC ∧ k = 1 ∨ b = 0xCD ∧ k = 2 ∨ b = 0xCE ∧ k = 4 ∨ b = 0xCF ∧ k = 8 := by
  have hs := head_spec b
  rw [h] at hs
  cases hs with
  | unsigned h => exact h

theorem head_signed {b : UInt8} {k : ℕ} (h : head b = .signed k) :
    b = 0xD0 ∧ k = 1 ∨ b = 0xD1 ∧ k = 2 ∨ b = 0xD2 ∧ k = 4 ∨ b = 0xD3 ∧ k = 8 := by
  have hs := head_spec b
  rw [h] at hs
  cases hs with
  | signed h => exact h

theorem head_float32 {b : UInt8} (h : head b = .float32) : b = 0xCA := by
  have hs := head_spec b
  rw [h] at hs
  cases hs with
  | float32 h => exact h

theorem head_float64 {b : UInt8} (h : head b = .float64) : b = 0xCB := by
  have hs := head_spec b
  rw [h] at hs
  cases hs with
  | float64 h => exact h

/-- The head of a string. -/
theorem head_str {b : UInt8} {l : Len} {s r : List UInt8} {n : ℕ} (h : head b = .str l)
    (hl : readLen l s = .ok (n, r)) : ∃ t, b :: s = t ++ r ∧ StrHead t n := by
  have hs := head_spec b
  rw [h] at hs
  rw [readLen_iff] at hl
  cases hs with
  | str h1 h2 =>
    obtain ⟨rfl, rfl⟩ := hl
    exact ⟨[b], rfl, .fix h1 h2⟩
  | strBehind h1 =>
    obtain ⟨t, rfl, ht, hn⟩ := hl
    rcases h1 with ⟨rfl, rfl⟩ | ⟨rfl, rfl⟩ | ⟨rfl, rfl⟩
    · exact ⟨_ :: t, rfl, .str8 ht hn⟩
    · exact ⟨_ :: t, rfl, .str16 ht hn⟩
    · exact ⟨_ :: t, rfl, .str32 ht hn⟩

theorem head_arr {b : UInt8} {l : Len} {s r : List UInt8} {n : ℕ} (h : head b = .arr l)
    (hl : readLen l s = .ok (n, r)) : ∃ t, b :: s = t ++ r ∧ ArrHead t n := by
  have hs := head_spec b
  rw [h] at hs
  rw [readLen_iff] at hl
  cases hs with
  | arr h1 h2 =>
    obtain ⟨rfl, rfl⟩ := hl
    exact ⟨[b], rfl, .fix h1 h2⟩
  | arrBehind h1 =>
    obtain ⟨t, rfl, ht, hn⟩ := hl
    rcases h1 with ⟨rfl, rfl⟩ | ⟨rfl, rfl⟩
    · exact ⟨_ :: t, rfl, .arr16 ht hn⟩
    · exact ⟨_ :: t, rfl, .arr32 ht hn⟩

theorem head_obj {b : UInt8} {l : Len} {s r : List UInt8} {n : ℕ} (h : head b = .obj l)
    (hl : readLen l s = .ok (n, r)) : ∃ t, b :: s = t ++ r ∧ MapHead t n := by
  have hs := head_spec b
  rw [h] at hs
  rw [readLen_iff] at hl
  cases hs with
  | obj h1 h2 =>
    obtain ⟨rfl, rfl⟩ := hl
    exact ⟨[b], rfl, .fix h1 h2⟩
  | objBehind h1 =>
    obtain ⟨t, rfl, ht, hn⟩ := hl
    rcases h1 with ⟨rfl, rfl⟩ | ⟨rfl, rfl⟩
    · exact ⟨_ :: t, rfl, .map16 ht hn⟩
    · exact ⟨_ :: t, rfl, .map32 ht hn⟩

theorem readKey_sound {s r : List UInt8} {k : Str} (h : readKey s = .ok (k, r)) :
    ∃ t, s = (t ++ k.bytes) ++ r ∧ StrHead t k.bytes.length := by
  cases s with
  | nil => cases h
  | cons b s =>
    simp only [readKey] at h
    split at h
    · rename_i l hl
      rw [readStr_iff] at h
      obtain ⟨t, h1, h2⟩ := head_str hl h
      exact ⟨t, by rw [h1, List.append_assoc], h2⟩
    · cases h

theorem readNum_iff (k : ℕ) (s r : List UInt8) (f : ℕ → Except Bad Json) (j : Json) :
    readNum k s f = .ok (j, r) ↔ ∃ t, s = t ++ r ∧ t.length = k ∧ f (beNum t) = .ok j := by
  unfold readNum
  constructor
  · intro h
    cases ht : take k s with
    | error e => rw [ht] at h; cases h
    | ok p =>
      obtain ⟨x, s'⟩ := p
      rw [ht] at h
      simp only at h
      obtain ⟨h1, h2⟩ := (take_iff _ _ _ _).1 ht
      cases hf : f (beNum x) with
      | error e => rw [hf] at h; cases h
      | ok j' =>
        rw [hf] at h
        injection h with h
        injection h with h3 h4
        exact ⟨x, by rw [h1, h4], h2, by rw [hf, h3]⟩
  · rintro ⟨t, rfl, h1, h2⟩
    rw [(take_iff _ _ _ _).2 ⟨rfl, h1⟩]
    simp only
    rw [h2]

/-! ## Soundness -/

theorem unpack_sound (fuel : ℕ) :
    (∀ s r j, readValue fuel s = .ok (j, r) → ∃ t, s = t ++ r ∧ Pack t j) ∧
    (∀ n s r l, readArr fuel n s = .ok (l, r) → ∃ t, s = t ++ r ∧ l.length = n ∧ Packs t l) ∧
    (∀ n s r m m', readMembers fuel n s m = .ok (m', r) →
      ∃ t l, s = t ++ r ∧ l.length = n ∧ PackMap t l ∧ m' = mapOf l m) := by
  induction fuel with
  | zero =>
    refine ⟨?_, ?_, ?_⟩
    · intro s r j h; simp [readValue] at h
    · intro n s r l h
      cases n with
      | zero =>
        simp only [readArr] at h
        injection h with h; injection h with h1 h2
        exact ⟨[], by simpa using h2, by rw [← h1]; rfl, by rw [← h1]; exact .nil⟩
      | succ n => simp [readArr] at h
    · intro n s r m m' h
      cases n with
      | zero =>
        simp only [readMembers] at h
        injection h with h; injection h with h1 h2
        exact ⟨[], [], by simpa using h2, rfl, .nil, h1.symm⟩
      | succ n => simp [readMembers] at h
  | succ fuel ih =>
    obtain ⟨ihv, iha, ihm⟩ := ih
    refine ⟨?_, ?_, ?_⟩
    · intro s r j h
      cases s with
      | nil => simp [readValue] at h
      | cons b s =>
        simp only [readValue] at h
        split at h
        · rename_i j' hh
          injection h with h; injection h with h1 h2
          exact ⟨[b], by rw [h2]; rfl, by rw [← h1]; exact head_value hh⟩
        · rename_i k hh
          obtain ⟨t, h1, h2, h3⟩ := (readNum_iff _ _ _ _ _).1 h
          injection h3 with h3
          refine ⟨b :: t, by rw [h1]; rfl, ?_⟩
          rw [← h3]
          rcases head_unsigned hh with ⟨rfl, rfl⟩ | ⟨rfl, rfl⟩ | ⟨rfl, rfl⟩ | ⟨rfl, rfl⟩
          · exact .number (.uint8 h2 (big_beNum t))
          · exact .number (.uint16 h2 (big_beNum t))
          · exact .number (.uint32 h2 (big_beNum t))
          · exact .number (.uint64 h2 (big_beNum t))
        · rename_i k hh
          obtain ⟨t, h1, h2, h3⟩ := (readNum_iff _ _ _ _ _).1 h
          injection h3 with h3
          refine ⟨b :: t, by rw [h1]; rfl, ?_⟩
          have hk : 0 < k := by rcases head_signed hh with ⟨_, h⟩ | ⟨_, h⟩ | ⟨_, h⟩ | ⟨_, h⟩ <;> omega
          have h4 := (signed_iff k (beNum t) hk (by rw [← h2]; exact beNum_lt t) j).2 h3
          rcases head_signed hh with ⟨rfl, rfl⟩ | ⟨rfl, rfl⟩ | ⟨rfl, rfl⟩ | ⟨rfl, rfl⟩
          · exact .number (.int8 h2 (big_beNum t) h4)
          · exact .number (.int16 h2 (big_beNum t) h4)
          · exact .number (.int32 h2 (big_beNum t) h4)
          · exact .number (.int64 h2 (big_beNum t) h4)
        · rename_i hh
          obtain ⟨t, h1, h2, h3⟩ := (readNum_iff _ _ _ _ _).1 h
          have hlt := beNum_lt t
          rw [h2] at hlt
          obtain ⟨v, h4, rfl⟩ := (float_iff 8 23 _ (by simpa using hlt) j).1 h3
          exact ⟨b :: t, by rw [h1]; rfl, by rw [head_float32 hh]; exact .number (.float32 h2 (big_beNum t) h4)⟩
        · rename_i hh
          obtain ⟨t, h1, h2, h3⟩ := (readNum_iff _ _ _ _ _).1 h
          have hlt := beNum_lt t
          rw [h2] at hlt
          obtain ⟨v, h4, rfl⟩ := (float_iff 11 52 _ (by simpa using hlt) j).1 h3
          exact ⟨b :: t, by rw [h1]; rfl, by rw [head_float64 hh]; exact .number (.float64 h2 (big_beNum t) h4)⟩
        · rename_i l hh
          cases hs : readStr l s with
          | error e => rw [hs] at h; cases h
          | ok p =>
            obtain ⟨x, s'⟩ := p
            rw [hs] at h
            injection h with h; injection h with h1 h2
            rw [readStr_iff] at hs
            obtain ⟨t, h3, h4⟩ := head_str hh hs
            exact ⟨t ++ x.bytes, by rw [h3, h2, List.append_assoc], by rw [← h1]; exact .str h4⟩
        · rename_i l hh
          cases hs : readLen l s with
          | error e => rw [hs] at h; cases h
          | ok p =>
            obtain ⟨n, s'⟩ := p
            rw [hs] at h
            simp only at h
            cases ha : readArr fuel n s' with
            | error e => rw [ha] at h; cases h
            | ok p =>
              obtain ⟨x, s''⟩ := p
              rw [ha] at h
              injection h with h; injection h with h1 h2
              obtain ⟨t, h3, h4⟩ := head_arr hh hs
              obtain ⟨u, h5, h6, h7⟩ := iha _ _ _ _ ha
              exact ⟨t ++ u, by rw [h3, h5, h2, List.append_assoc], by rw [← h1]; exact .arr (by rw [h6]; exact h4) h7⟩
        · rename_i l hh
          cases hs : readLen l s with
          | error e => rw [hs] at h; cases h
          | ok p =>
            obtain ⟨n, s'⟩ := p
            rw [hs] at h
            simp only at h
            cases ha : readMembers fuel n s' [] with
            | error e => rw [ha] at h; cases h
            | ok p =>
              obtain ⟨x, s''⟩ := p
              rw [ha] at h
              injection h with h; injection h with h1 h2
              obtain ⟨t, h3, h4⟩ := head_obj hh hs
              obtain ⟨u, l', h5, h6, h7, h8⟩ := ihm _ _ _ _ _ ha
              refine ⟨t ++ u, by rw [h3, h5, h2, List.append_assoc], ?_⟩
              rw [← h1]
              exact .map (by rw [h6]; exact h4) h7 ((isMap_iff _ _).2 h8)
        · cases h
        · cases h
    · intro n s r l h
      cases n with
      | zero =>
        simp only [readArr] at h
        injection h with h; injection h with h1 h2
        exact ⟨[], by simpa using h2, by rw [← h1]; rfl, by rw [← h1]; exact .nil⟩
      | succ n =>
        simp only [readArr] at h
        cases hv : readValue fuel s with
        | error e => rw [hv] at h; cases h
        | ok p =>
          obtain ⟨x, s'⟩ := p
          rw [hv] at h
          simp only at h
          cases ha : readArr fuel n s' with
          | error e => rw [ha] at h; cases h
          | ok p =>
            obtain ⟨l', s''⟩ := p
            rw [ha] at h
            injection h with h; injection h with h1 h2
            obtain ⟨t, h3, h4⟩ := ihv _ _ _ hv
            obtain ⟨u, h5, h6, h7⟩ := iha _ _ _ _ ha
            refine ⟨t ++ u, by rw [h3, h5, h2, List.append_assoc], ?_, ?_⟩
            · rw [← h1, List.length_cons, h6]
            · rw [← h1]; exact .cons h4 h7
    · intro n s r m m' h
      cases n with
      | zero =>
        simp only [readMembers] at h
        injection h with h; injection h with h1 h2
        exact ⟨[], [], by simpa using h2, rfl, .nil, h1.symm⟩
      | succ n =>
        simp only [readMembers] at h
        cases hk : readKey s with
        | error e => rw [hk] at h; cases h
        | ok p =>
          obtain ⟨k, s'⟩ := p
          rw [hk] at h
          simp only at h
          cases hv : readValue fuel s' with
          | error e => rw [hv] at h; cases h
          | ok p =>
            obtain ⟨x, s''⟩ := p
            rw [hv] at h
            simp only at h
            obtain ⟨t, h1, h2⟩ := readKey_sound hk
            obtain ⟨u, h3, h4⟩ := ihv _ _ _ hv
            obtain ⟨v, l, h5, h6, h7, h8⟩ := ihm _ _ _ _ _ h
            refine ⟨(t ++ k.bytes) ++ (u ++ v), (k, x) :: l, ?_, ?_, .cons h2 h4 h7, h8⟩
            · rw [h1, h3, h5]; simp only [List.append_assoc]
            · rw [List.length_cons, h6]

/-! ## Completeness -/

theorem head_fix_str {b : UInt8} {n : ℕ} (h : n < 32) (hb : b.toNat = 0xA0 + n) : head b = .str (.now n) := by
  unfold head
  simp only [hb]
  rw [if_neg (by omega), if_neg (by omega), if_neg (by omega), if_pos (by omega), Nat.add_sub_cancel_left]

theorem head_fix_arr {b : UInt8} {n : ℕ} (h : n < 16) (hb : b.toNat = 0x90 + n) : head b = .arr (.now n) := by
  unfold head
  simp only [hb]
  rw [if_neg (by omega), if_neg (by omega), if_pos (by omega), Nat.add_sub_cancel_left]

theorem head_fix_obj {b : UInt8} {n : ℕ} (h : n < 16) (hb : b.toNat = 0x80 + n) : head b = .obj (.now n) := by
  unfold head
  simp only [hb]
  rw [if_neg (by omega), if_pos (by omega), Nat.add_sub_cancel_left]

theorem strHead_read {t : List UInt8} {n : ℕ} (h : StrHead t n) (r : List UInt8) :
    ∃ b l s, t ++ r = b :: s ∧ head b = .str l ∧ readLen l s = .ok (n, r) := by
  cases h with
  | fix h hb => exact ⟨_, .now n, r, rfl, head_fix_str h hb, rfl⟩
  | str8 h hn => exact ⟨_, .behind 1, _, rfl, rfl, (readLen_iff _ _ _ _).2 ⟨_, rfl, h, hn⟩⟩
  | str16 h hn => exact ⟨_, .behind 2, _, rfl, rfl, (readLen_iff _ _ _ _).2 ⟨_, rfl, h, hn⟩⟩
  | str32 h hn => exact ⟨_, .behind 4, _, rfl, rfl, (readLen_iff _ _ _ _).2 ⟨_, rfl, h, hn⟩⟩

theorem arrHead_read {t : List UInt8} {n : ℕ} (h : ArrHead t n) (r : List UInt8) :
    ∃ b l s, t ++ r = b :: s ∧ head b = .arr l ∧ readLen l s = .ok (n, r) := by
  cases h with
  | fix h hb => exact ⟨_, .now n, r, rfl, head_fix_arr h hb, rfl⟩
  | arr16 h hn => exact ⟨_, .behind 2, _, rfl, rfl, (readLen_iff _ _ _ _).2 ⟨_, rfl, h, hn⟩⟩
  | arr32 h hn => exact ⟨_, .behind 4, _, rfl, rfl, (readLen_iff _ _ _ _).2 ⟨_, rfl, h, hn⟩⟩

theorem mapHead_read {t : List UInt8} {n : ℕ} (h : MapHead t n) (r : List UInt8) :
    ∃ b l s, t ++ r = b :: s ∧ head b = .obj l ∧ readLen l s = .ok (n, r) := by
  cases h with
  | fix h hb => exact ⟨_, .now n, r, rfl, head_fix_obj h hb, rfl⟩
  | map16 h hn => exact ⟨_, .behind 2, _, rfl, rfl, (readLen_iff _ _ _ _).2 ⟨_, rfl, h, hn⟩⟩
  | map32 h hn => exact ⟨_, .behind 4, _, rfl, rfl, (readLen_iff _ _ _ _).2 ⟨_, rfl, h, hn⟩⟩

theorem strHead_pos {t : List UInt8} {n : ℕ} (h : StrHead t n) : 0 < t.length := by cases h <;> simp
theorem arrHead_pos {t : List UInt8} {n : ℕ} (h : ArrHead t n) : 0 < t.length := by cases h <;> simp
theorem mapHead_pos {t : List UInt8} {n : ℕ} (h : MapHead t n) : 0 < t.length := by cases h <;> simp

theorem readKey_complete {t : List UInt8} {s : Str} (h : StrHead t s.bytes.length) (r : List UInt8) :
    readKey ((t ++ s.bytes) ++ r) = .ok (s, r) := by
  obtain ⟨b, l, u, h1, h2, h3⟩ := strHead_read h (s.bytes ++ r)
  rw [List.append_assoc, h1]
  simp only [readKey, h2]
  rw [readStr_iff, h3]

theorem readValue_unsigned {b : UInt8} {k : ℕ} (hb : head b = .unsigned k) {t : List UInt8} {n : ℕ} (h : t.length = k)
    (hn : Big t n) (fuel : ℕ) (r : List UInt8) : readValue (fuel + 1) (b :: t ++ r) = .ok (.num n, r) := by
  rw [List.cons_append]
  simp only [readValue, hb]
  exact (readNum_iff k _ _ _ _).2 ⟨t, rfl, h, by rw [(big_iff _ _).1 hn]⟩

theorem readValue_signed {b : UInt8} {k : ℕ} (hk : 0 < k) (hb : head b = .signed k) {t : List UInt8} {n : ℕ} {j : Json}
    (h : t.length = k) (hn : Big t n) (hs : Signed k n j) (fuel : ℕ) (r : List UInt8) :
    readValue (fuel + 1) (b :: t ++ r) = .ok (j, r) := by
  rw [(big_iff _ _).1 hn] at hs
  rw [List.cons_append]
  simp only [readValue, hb]
  exact (readNum_iff k _ _ _ _).2 ⟨t, rfl, h, congrArg _
    ((signed_iff k _ hk (by rw [← h]; exact beNum_lt t) _).1 hs)⟩

theorem number_read {t : List UInt8} {j : Json} (h : PackNumber t j) (fuel : ℕ) (r : List UInt8) :
    readValue (fuel + 1) (t ++ r) = .ok (j, r) := by
  cases h with
  | @positive b h =>
    have : head b = .value (.num b.toNat) := by unfold head; simp only; rw [if_pos h]
    simp only [List.cons_append, List.nil_append, readValue, this]
  | @negative b n h0 h1 h2 =>
    have hn : b.toNat = 256 - n := by omega
    have : head b = .value (.int n) := by
      unfold head
      simp only [hn]
      repeat rw [if_neg (by omega)]
      congr 2
      omega
    simp only [List.cons_append, List.nil_append, readValue, this]
  | uint8 h hn => exact readValue_unsigned rfl h hn fuel r
  | uint16 h hn => exact readValue_unsigned rfl h hn fuel r
  | uint32 h hn => exact readValue_unsigned rfl h hn fuel r
  | uint64 h hn => exact readValue_unsigned rfl h hn fuel r
  | int8 h hn hs => exact readValue_signed (by omega) rfl h hn hs fuel r
  | int16 h hn hs => exact readValue_signed (by omega) rfl h hn hs fuel r
  | int32 h hn hs => exact readValue_signed (by omega) rfl h hn hs fuel r
  | int64 h hn hs => exact readValue_signed (by omega) rfl h hn hs fuel r
  | @float32 t n v h hn hs =>
    rw [(big_iff _ _).1 hn] at hs
    have hlt := beNum_lt t
    rw [h] at hlt
    have hb : head 0xCA = .float32 := rfl
    rw [List.cons_append]
    simp only [readValue, hb]
    exact (readNum_iff 4 _ _ _ _).2 ⟨_, rfl, h, (float_iff 8 23 _ (by simpa using hlt) _).2 ⟨v, hs, rfl⟩⟩
  | @float64 t n v h hn hs =>
    rw [(big_iff _ _).1 hn] at hs
    have hlt := beNum_lt t
    rw [h] at hlt
    have hb : head 0xCB = .float64 := rfl
    rw [List.cons_append]
    simp only [readValue, hb]
    exact (readNum_iff 8 _ _ _ _).2 ⟨_, rfl, h, (float_iff 11 52 _ (by simpa using hlt) _).2 ⟨v, hs, rfl⟩⟩

theorem number_pos {t : List UInt8} {j : Json} (h : PackNumber t j) : 0 < t.length := by cases h <;> simp

theorem pack_pos {t : List UInt8} {j : Json} (h : Pack t j) : 0 < t.length := by
  cases h with
  | nil => simp
  | false => simp
  | true => simp
  | number h => exact number_pos h
  | str h => have := strHead_pos h; rw [List.length_append]; omega
  | arr h _ => have := arrHead_pos h; rw [List.length_append]; omega
  | map h _ _ => have := mapHead_pos h; rw [List.length_append]; omega

mutual

theorem unpack_complete {t : List UInt8} {j : Json} (h : Pack t j) : ∀ fuel r, 2 * t.length ≤ fuel →
    readValue fuel (t ++ r) = .ok (j, r) := by
  intro fuel r hf
  have hp := pack_pos h
  obtain ⟨fuel, rfl⟩ : ∃ f, fuel = f + 1 := ⟨fuel - 1, by omega⟩
  cases h with
  | nil => rfl
  | false => rfl
  | true => rfl
  | number h => exact number_read h fuel r
  | @str h s hh =>
    obtain ⟨b, l, u, h1, h2, h3⟩ := strHead_read hh (s.bytes ++ r)
    rw [List.append_assoc, h1]
    simp only [readValue, h2]
    rw [(readStr_iff l u r s).2 h3]
  | @arr h t l hh ht =>
    have := arrHead_pos hh
    rw [List.length_append] at hf
    obtain ⟨b, le, u, h1, h2, h3⟩ := arrHead_read hh (t ++ r)
    rw [List.append_assoc, h1]
    simp only [readValue, h2, h3]
    rw [unpackArr_complete ht fuel r (by omega)]
  | @map h t l m hh ht hm =>
    have := mapHead_pos hh
    rw [List.length_append] at hf
    obtain ⟨b, le, u, h1, h2, h3⟩ := mapHead_read hh (t ++ r)
    rw [List.append_assoc, h1]
    simp only [readValue, h2, h3]
    rw [unpackMap_complete ht fuel r [] (by omega)]
    simp only
    rw [(isMap_iff l m).1 hm]

theorem unpackArr_complete {t : List UInt8} {l : List Json} (h : Packs t l) : ∀ fuel r, 2 * t.length + 1 ≤ fuel →
    readArr fuel l.length (t ++ r) = .ok (l, r) := by
  intro fuel r hf
  obtain ⟨fuel, rfl⟩ : ∃ f, fuel = f + 1 := ⟨fuel - 1, by omega⟩
  cases h with
  | nil => rfl
  | @cons t j u l ht hu =>
    have := pack_pos ht
    rw [List.length_append] at hf
    rw [List.append_assoc, List.length_cons]
    simp only [readArr]
    rw [unpack_complete ht fuel (u ++ r) (by omega)]
    simp only
    rw [unpackArr_complete hu fuel r (by omega)]

theorem unpackMap_complete {t : List UInt8} {l : List (Str × Json)} (h : PackMap t l) :
    ∀ fuel r m, 2 * t.length + 1 ≤ fuel → readMembers fuel l.length (t ++ r) m = .ok (mapOf l m, r) := by
  intro fuel r m hf
  obtain ⟨fuel, rfl⟩ : ∃ f, fuel = f + 1 := ⟨fuel - 1, by omega⟩
  cases h with
  | nil => rfl
  | @cons h s t j u l hh ht hu =>
    have := pack_pos ht
    simp only [List.length_append] at hf
    rw [List.append_assoc, List.length_cons]
    simp only [readMembers]
    rw [readKey_complete hh, List.append_assoc]
    simp only
    rw [unpack_complete ht fuel (u ++ r) (by omega)]
    simp only
    rw [unpackMap_complete hu fuel r _ (by omega)]
    rfl

end

theorem whole_iff {α : Type} (x : Read α) (a : α) : whole x = .ok a ↔ x = .ok (a, []) := by
  unfold whole
  split
  · simp
  · constructor
    · intro h; injection h with h; rw [h]
    · intro h; injection h with h; injection h with h1 h2; rw [h1]
  · constructor
    · intro h; cases h
    · intro h; injection h with h; injection h with h1 h2; cases h2

theorem unpack_iff (t : List UInt8) (j : Json) : unpack t = .ok j ↔ Pack t j := by
  rw [unpack, whole_iff]
  constructor
  · intro h
    obtain ⟨u, h1, h2⟩ := (unpack_sound _).1 _ _ _ h
    rw [h1, List.append_nil]
    exact h2
  · intro h
    have := unpack_complete h (2 * t.length + 1) [] (by omega)
    rwa [List.append_nil] at this

end EG.Binary
