import Verif.Lemmas.MsgPack

/-!
# Reading BSON follows the grammar
-/

namespace EG.Binary

open EG.Spec.Binary
open EG.Spec.JsonText (IsMap)

theorem cstr_iff (s k r : List UInt8) : cstr s = .ok (k, r) ↔ s = k ++ 0 :: r ∧ 0 ∉ k := by
  induction s generalizing k with
  | nil => simp [cstr]
  | cons b s ih =>
    simp only [cstr]
    by_cases hb : b = 0
    · rw [if_pos hb]
      constructor
      · intro h
        injection h with h; injection h with h1 h2
        rw [← h1, h2, hb]
        exact ⟨rfl, by simp⟩
      · rintro ⟨h1, h2⟩
        cases k with
        | nil =>
          injection h1 with h3 h4
          rw [h4]
        | cons c k =>
          injection h1 with h3 h4
          rw [← h3, hb] at h2
          exact absurd List.mem_cons_self h2
    · rw [if_neg hb]
      constructor
      · intro h
        cases hc : cstr s with
        | error e => rw [hc] at h; cases h
        | ok p =>
          obtain ⟨k', r'⟩ := p
          rw [hc] at h
          injection h with h; injection h with h1 h2
          rw [h2] at hc
          obtain ⟨h3, h4⟩ := (ih k').1 hc
          rw [← h1, h3]
          refine ⟨rfl, ?_⟩
          rw [List.mem_cons]
          rintro (h | h)
          · exact hb h.symm
          · exact h4 h
      · rintro ⟨h1, h2⟩
        cases k with
        | nil =>
          injection h1 with h3 h4
          exact absurd h3 hb
        | cons c k =>
          injection h1 with h3 h4
          rw [(ih k).2 ⟨h4, fun h => h2 (List.mem_cons_of_mem _ h)⟩, h3]

theorem decodeKeys_iff (l : List (List UInt8 × Json)) (m : List (Str × Json)) :
    decodeKeys l = .ok m ↔ l = m.map fun e => (e.1.bytes, e.2) := by
  induction l generalizing m with
  | nil =>
    simp only [decodeKeys]
    constructor
    · intro h; injection h with h; rw [← h]; rfl
    · intro h
      cases m with
      | nil => rfl
      | cons e m => cases h
  | cons x l ih =>
    obtain ⟨k, x⟩ := x
    simp only [decodeKeys]
    constructor
    · intro h
      cases hd : decode k with
      | error e => rw [hd] at h; cases h
      | ok k' =>
        rw [hd] at h
        simp only at h
        cases hl : decodeKeys l with
        | error e => rw [hl] at h; cases h
        | ok l' =>
          rw [hl] at h
          injection h with h
          rw [← h, List.map_cons, ← (ih l').1 hl, (decode_iff _ _).1 hd]
    · intro h
      cases m with
      | nil => cases h
      | cons e m =>
        rw [List.map_cons] at h
        injection h with h1 h2
        injection h1 with h3 h4
        rw [(decode_iff k e.1).2 h3]
        simp only
        rw [(ih m).2 h2, h4]

theorem bsonNum_iff (k : ℕ) (s r : List UInt8) (f : ℕ → Except Bad Json) (j : Json) :
    bsonNum k s f = .ok (j, r) ↔ ∃ t, s = t ++ r ∧ t.length = k ∧ f (leNum t) = .ok j := by
  unfold bsonNum
  constructor
  · intro h
    cases ht : take k s with
    | error e => rw [ht] at h; cases h
    | ok p =>
      obtain ⟨x, s'⟩ := p
      rw [ht] at h
      simp only at h
      obtain ⟨h1, h2⟩ := (take_iff _ _ _ _).1 ht
      cases hf : f (leNum x) with
      | error e => rw [hf] at h; cases h
      | ok j' =>
        rw [hf] at h
        injection h with h
        injection h with h3 h4
        exact ⟨x, by rw [h1, h4], h2, by rw [hf, h3]⟩
  · rintro ⟨t, rfl, h1, h2⟩
    rw [(take_iff _ _ _ _).2 ⟨rfl, h1⟩]
    simp only
    rw [h2]

theorem bsonStr_iff (s r : List UInt8) (x : Str) : bsonStr s = .ok (x, r) ↔
    ∃ t z, s = (t ++ (x.bytes ++ [z])) ++ r ∧ t.length = 4 ∧ Little t (x.bytes.length + 1) ∧
      x.bytes.length + 1 < 2 ^ 31 := by
  unfold bsonStr
  constructor
  · intro h
    cases ht : take 4 s with
    | error e => rw [ht] at h; cases h
    | ok p =>
      obtain ⟨n, s1⟩ := p
      rw [ht] at h
      simp only at h
      obtain ⟨h1, h2⟩ := (take_iff _ _ _ _).1 ht
      by_cases hn : leNum n = 0 ∨ 2 ^ 31 ≤ leNum n
      · rw [if_pos hn] at h; cases h
      · rw [if_neg hn] at h
        cases hu : take (leNum n - 1) s1 with
        | error e => rw [hu] at h; cases h
        | ok p =>
          obtain ⟨y, s2⟩ := p
          rw [hu] at h
          simp only at h
          obtain ⟨h3, h4⟩ := (take_iff _ _ _ _).1 hu
          cases s2 with
          | nil => cases h
          | cons z s2 =>
            simp only at h
            cases hd : decode y with
            | error e => rw [hd] at h; cases h
            | ok v =>
              rw [hd] at h
              injection h with h; injection h with h5 h6
              have h7 := (decode_iff _ _).1 hd
              rw [h5] at h7
              have h8 : leNum n = x.bytes.length + 1 := by rw [← h7]; omega
              refine ⟨n, z, ?_, h2, (little_iff _ _).2 h8.symm, by omega⟩
              rw [h1, h3, h7, h6]
              simp
  · rintro ⟨t, z, rfl, h1, h2, h3⟩
    rw [List.append_assoc, (take_iff _ _ _ _).2 ⟨rfl, h1⟩]
    simp only
    rw [← (little_iff _ _).1 h2, if_neg (by omega), Nat.add_sub_cancel]
    rw [(take_iff _ _ x.bytes ([z] ++ r)).2 ⟨by simp, rfl⟩]
    simp only [List.cons_append, List.nil_append]
    rw [(decode_iff _ _).2 rfl]

/-! ## Soundness -/

theorem ofBson_sound (fuel : ℕ) :
    (∀ y s r j, readElem fuel y s = .ok (j, r) → ∃ t, s = t ++ r ∧ Elem false y t j) ∧
    (∀ s r l, readElems fuel s = .ok (l, r) → ∃ t, s = (t ++ [0]) ++ r ∧ Elems false t l) ∧
    (∀ s r l, readDoc fuel s = .ok (l, r) → ∃ n t, s = (n ++ (t ++ [0])) ++ r ∧ n.length = 4 ∧ Elems false t l) := by
  induction fuel with
  | zero =>
    refine ⟨?_, ?_, ?_⟩
    · intro y s r j h; simp [readElem] at h
    · intro s r l h; simp [readElems] at h
    · intro s r l h; simp [readDoc] at h
  | succ fuel ih =>
    obtain ⟨ihe, ihl, ihd⟩ := ih
    refine ⟨?_, ?_, ?_⟩
    · intro y s r j h
      rw [readElem] at h
      by_cases h1 : y = 0x01
      · rw [if_pos h1] at h
        obtain ⟨t, h2, h3, h4⟩ := (bsonNum_iff _ _ _ _ _).1 h
        have hlt := leNum_lt t
        rw [h3] at hlt
        obtain ⟨v, h5, rfl⟩ := (float_iff 11 52 _ (by simpa using hlt) j).1 h4
        exact ⟨t, h2, by rw [h1]; exact .double h3 (little_leNum t) h5⟩
      rw [if_neg h1] at h
      by_cases h2 : y = 0x02
      · rw [if_pos h2] at h
        cases hs : bsonStr s with
        | error e => rw [hs] at h; cases h
        | ok p =>
          obtain ⟨x, s'⟩ := p
          rw [hs] at h
          injection h with h; injection h with h3 h4
          rw [h4] at hs
          obtain ⟨t, z, h5, h6, h7, h8⟩ := (bsonStr_iff _ _ _).1 hs
          exact ⟨_, h5, by rw [h2, ← h3]; exact .string h6 h7 h8 (by simp)⟩
      rw [if_neg h2] at h
      by_cases h3 : y = 0x03
      · rw [if_pos h3] at h
        cases hd : readDoc fuel s with
        | error e => rw [hd] at h; cases h
        | ok p =>
          obtain ⟨l, s'⟩ := p
          rw [hd] at h
          simp only at h
          cases hk : decodeKeys l with
          | error e => rw [hk] at h; cases h
          | ok m =>
            rw [hk] at h
            injection h with h; injection h with h4 h5
            rw [h5] at hd
            obtain ⟨n, t, h6, h7, h8⟩ := ihd _ _ _ hd
            refine ⟨_, h6, ?_⟩
            rw [h3, ← h4]
            rw [(decodeKeys_iff _ _).1 hk] at h8
            exact .doc (.mk ⟨h7, by simp⟩ h8 ((isMap_iff _ _).2 rfl))
      rw [if_neg h3] at h
      by_cases h4 : y = 0x04
      · rw [if_pos h4] at h
        cases hd : readDoc fuel s with
        | error e => rw [hd] at h; cases h
        | ok p =>
          obtain ⟨l, s'⟩ := p
          rw [hd] at h
          injection h with h; injection h with h5 h6
          rw [h6] at hd
          obtain ⟨n, t, h7, h8, h9⟩ := ihd _ _ _ hd
          exact ⟨_, h7, by rw [h4, ← h5]; exact .array ⟨h8, by simp⟩ h9⟩
      rw [if_neg h4] at h
      by_cases h5 : y = 0x05
      · rw [if_pos h5] at h; cases h
      rw [if_neg h5] at h
      by_cases h6 : y = 0x08
      · rw [if_pos h6] at h
        cases s with
        | nil => cases h
        | cons b s =>
          injection h with h; injection h with h7 h8
          exact ⟨[b], by rw [h8]; rfl, by rw [h6, ← h7]; exact .bool (by simp)⟩
      rw [if_neg h6] at h
      by_cases h7 : y = 0x0A
      · rw [if_pos h7] at h
        injection h with h; injection h with h8 h9
        exact ⟨[], by rw [h9]; rfl, by rw [h7, ← h8]; exact .null⟩
      rw [if_neg h7] at h
      by_cases h8 : y = 0x10
      · rw [if_pos h8] at h
        obtain ⟨t, h9, h10, h11⟩ := (bsonNum_iff _ _ _ _ _).1 h
        injection h11 with h11
        exact ⟨t, h9, by
          rw [h8]
          exact .int32 h10 (little_leNum t)
            ((signed_iff 4 _ (by omega) (by rw [← h10]; exact leNum_lt t) j).2 h11)⟩
      rw [if_neg h8] at h
      by_cases h9 : y = 0x12
      · rw [if_pos h9] at h
        obtain ⟨t, h10, h11, h12⟩ := (bsonNum_iff _ _ _ _ _).1 h
        injection h12 with h12
        exact ⟨t, h10, by
          rw [h9]
          exact .int64 h11 (little_leNum t)
            ((signed_iff 8 _ (by omega) (by rw [← h11]; exact leNum_lt t) j).2 h12)⟩
      rw [if_neg h9] at h
      cases h
    · intro s r l h
      cases s with
      | nil => simp [readElems] at h
      | cons y s =>
        rw [readElems] at h
        by_cases hy : y = 0
        · rw [if_pos hy] at h
          injection h with h; injection h with h1 h2
          exact ⟨[], by rw [hy, h2]; rfl, by rw [← h1]; exact .nil⟩
        rw [if_neg hy] at h
        cases hc : cstr s with
        | error e => rw [hc] at h; cases h
        | ok p =>
          obtain ⟨k, s1⟩ := p
          rw [hc] at h
          simp only at h
          obtain ⟨h1, h2⟩ := (cstr_iff _ _ _).1 hc
          cases he : readElem fuel y s1 with
          | error e => rw [he] at h; cases h
          | ok p =>
            obtain ⟨x, s2⟩ := p
            rw [he] at h
            simp only at h
            obtain ⟨t, h3, h4⟩ := ihe _ _ _ _ he
            cases hl : readElems fuel s2 with
            | error e => rw [hl] at h; cases h
            | ok p =>
              obtain ⟨l', s3⟩ := p
              rw [hl] at h
              injection h with h; injection h with h5 h6
              obtain ⟨u, h7, h8⟩ := ihl _ _ _ hl
              refine ⟨y :: (k ++ 0 :: (t ++ u)), ?_, by rw [← h5]; exact .cons h2 h4 h8⟩
              rw [h1, h3, h7, h6]
              simp
    · intro s r l h
      rw [readDoc] at h
      cases ht : take 4 s with
      | error e => rw [ht] at h; cases h
      | ok p =>
        obtain ⟨n, s'⟩ := p
        rw [ht] at h
        simp only at h
        obtain ⟨h1, h2⟩ := (take_iff _ _ _ _).1 ht
        obtain ⟨t, h3, h4⟩ := ihl _ _ _ h
        exact ⟨n, t, by rw [h1, h3]; simp, h2, h4⟩

/-! ## Completeness -/

theorem Elem.type_ne {strict : Bool} {y : UInt8} {t : List UInt8} {j : Json} (h : Elem strict y t j) : y ≠ 0 := by
  cases h <;> decide

theorem bdoc_of {t : List UInt8} {l : List (List UInt8 × Json)} {n : List UInt8} (hn : n.length = 4) {fuel : ℕ}
    {r : List UInt8} (hf : 0 < fuel)
    (h : readElems (fuel - 1) ((t ++ [0]) ++ r) = .ok (l, r)) :
    readDoc fuel ((n ++ (t ++ [0])) ++ r) = .ok (l, r) := by
  obtain ⟨fuel, rfl⟩ : ∃ f, fuel = f + 1 := ⟨fuel - 1, by omega⟩
  rw [List.append_assoc, readDoc, (take_iff _ _ _ _).2 ⟨rfl, hn⟩]
  exact h

mutual

theorem elem_complete {y : UInt8} {t : List UInt8} {j : Json} (h : Elem false y t j) : ∀ fuel r, 3 * t.length + 1 ≤ fuel →
    readElem fuel y (t ++ r) = .ok (j, r) := by
  intro fuel r hf
  obtain ⟨fuel, rfl⟩ : ∃ f, fuel = f + 1 := ⟨fuel - 1, by omega⟩
  rw [readElem]
  cases h with
  | @double t n v h hn hv =>
    rw [if_pos rfl]
    have hlt := leNum_lt t
    rw [h] at hlt
    rw [(little_iff _ _).1 hn] at hv
    exact (bsonNum_iff _ _ _ _ _).2 ⟨t, rfl, h, (float_iff 11 52 _ (by simpa using hlt) _).2 ⟨v, hv, rfl⟩⟩
  | @string t z s h hn hl hz =>
    rw [if_neg (by decide), if_pos rfl, (bsonStr_iff _ r s).2 ⟨t, z, rfl, h, hn, hl⟩]
  | doc h =>
    rw [if_neg (by decide), if_neg (by decide), if_pos rfl]
    cases h with
    | @mk n t l m hs he hm =>
      simp only [List.length_append, List.length_cons, List.length_nil] at hf
      rw [bdoc_of hs.1 (by omega) (elems_complete he (fuel - 1) r (by omega))]
      simp only
      rw [(decodeKeys_iff _ l).2 rfl, (isMap_iff l m).1 hm]
      rfl
  | @array n t l hs he =>
    rw [if_neg (by decide), if_neg (by decide), if_neg (by decide), if_pos rfl]
    simp only [List.length_append, List.length_cons, List.length_nil] at hf
    rw [bdoc_of hs.1 (by omega) (elems_complete he (fuel - 1) r (by omega))]
  | bool hb =>
    rw [if_neg (by decide), if_neg (by decide), if_neg (by decide), if_neg (by decide), if_neg (by decide), if_pos rfl]
    rfl
  | null =>
    rw [if_neg (by decide), if_neg (by decide), if_neg (by decide), if_neg (by decide), if_neg (by decide),
      if_neg (by decide), if_pos rfl]
    rfl
  | @int32 t n _ h hn hs =>
    rw [if_neg (by decide), if_neg (by decide), if_neg (by decide), if_neg (by decide), if_neg (by decide),
      if_neg (by decide), if_neg (by decide), if_pos rfl]
    rw [(little_iff _ _).1 hn] at hs
    exact (bsonNum_iff _ _ _ _ _).2 ⟨t, rfl, h, congrArg _
      ((signed_iff 4 _ (by omega) (by rw [← h]; exact leNum_lt t) _).1 hs)⟩
  | @int64 t n _ h hn hs =>
    rw [if_neg (by decide), if_neg (by decide), if_neg (by decide), if_neg (by decide), if_neg (by decide),
      if_neg (by decide), if_neg (by decide), if_neg (by decide), if_pos rfl]
    rw [(little_iff _ _).1 hn] at hs
    exact (bsonNum_iff _ _ _ _ _).2 ⟨t, rfl, h, congrArg _
      ((signed_iff 8 _ (by omega) (by rw [← h]; exact leNum_lt t) _).1 hs)⟩

theorem elems_complete {t : List UInt8} {l : List (List UInt8 × Json)} (h : Elems false t l) : ∀ fuel r,
    3 * t.length + 1 ≤ fuel → readElems fuel ((t ++ [0]) ++ r) = .ok (l, r) := by
  intro fuel r hf
  obtain ⟨fuel, rfl⟩ : ∃ f, fuel = f + 1 := ⟨fuel - 1, by omega⟩
  cases h with
  | nil => rfl
  | @cons y k t j u l hk he hu =>
    simp only [List.length_append, List.length_cons] at hf
    have e : (y :: (k ++ 0 :: (t ++ u)) ++ [0]) ++ r = y :: (k ++ 0 :: (t ++ ((u ++ [0]) ++ r))) := by simp
    rw [e, readElems, if_neg (Elem.type_ne he), (cstr_iff _ k _).2 ⟨rfl, hk⟩]
    simp only
    rw [elem_complete he fuel _ (by omega)]
    simp only
    rw [elems_complete hu fuel r (by omega)]

end

theorem ofBson_iff (t : List UInt8) (j : Json) : ofBson t = .ok j ↔ Doc false t j := by
  unfold ofBson
  constructor
  · intro h
    cases hw : whole (readDoc (3 * t.length + 3) t) with
    | error e => rw [hw] at h; cases h
    | ok l =>
      rw [hw] at h
      simp only at h
      rw [whole_iff] at hw
      cases hk : decodeKeys l with
      | error e => rw [hk] at h; cases h
      | ok m =>
        rw [hk] at h
        injection h with h
        obtain ⟨n, u, h1, h2, h3⟩ := (ofBson_sound _).2.2 _ _ _ hw
        rw [List.append_nil] at h1
        rw [(decodeKeys_iff _ _).1 hk] at h3
        rw [h1, ← h]
        exact .mk ⟨h2, by simp⟩ h3 ((isMap_iff _ _).2 rfl)
  · intro h
    cases h with
    | @mk n u l m hs he hm =>
      have := bdoc_of hs.1 (Nat.succ_pos _) (elems_complete he (3 * (n ++ (u ++ [0])).length + 3 - 1) [] (by
        simp only [List.length_append, List.length_cons, List.length_nil]; omega))
      rw [List.append_nil] at this
      rw [this]
      simp only [whole]
      rw [(decodeKeys_iff _ l).2 rfl, (isMap_iff l m).1 hm]
      rfl

end EG.Binary
