import Verif.Lemmas.Bson

/-!
# What is written to MessagePack and BSON is in the grammars
-/

namespace EG.Binary

open EG.Spec.Binary
open EG.Spec.JsonText (IsMap)

theorem isMap_self {m : List (Str × Json)} (h : (m.map (·.1)).Pairwise (· < ·)) : IsMap m m := by
  refine ⟨h, fun k v => ⟨fun hm => ?_, fun ⟨l1, l2, hl, _⟩ => by rw [hl]; simp⟩⟩
  obtain ⟨l1, l2, hl⟩ := List.append_of_mem hm
  refine ⟨l1, l2, hl, fun e he heq => ?_⟩
  rw [hl, List.map_append, List.map_cons, List.pairwise_append, List.pairwise_cons] at h
  have := h.2.1.1 e.1 (List.mem_map_of_mem he)
  rw [heq] at this
  exact List.lt_irrefl _ this

theorem encode_nul (c : Char) (h : (0 : UInt8) ∈ String.utf8EncodeChar c) : c = Char.ofNat 0 := by
  unfold String.utf8EncodeChar at h
  simp only at h
  have hv : c.val.toNat < 1114112 := by
    rcases c.valid with h | h
    · exact lt_trans h (by norm_num)
    · exact h.2
  have key : ∀ n : ℕ, (0 : UInt8) = UInt8.ofNat n → n % 256 = 0 := by
    intro n hn
    have := congrArg UInt8.toNat hn
    rw [UInt8.toNat_ofNat'] at this
    exact this.symm
  split_ifs at h
  · simp only [List.mem_cons, List.not_mem_nil, or_false] at h
    have := key _ h
    apply Char.ext
    apply UInt32.toNat_inj.1
    show c.val.toNat = 0
    omega
  · simp only [List.mem_cons, List.not_mem_nil, or_false] at h
    rcases h with h | h <;> · have := key _ h; omega
  · simp only [List.mem_cons, List.not_mem_nil, or_false] at h
    rcases h with h | h | h <;> · have := key _ h; omega
  · simp only [List.mem_cons, List.not_mem_nil, or_false] at h
    rcases h with h | h | h | h <;> · have := key _ h; omega

theorem nul_iff (k : Str) : 0 ∈ k.bytes ↔ Char.ofNat 0 ∈ k := by
  unfold Str.bytes
  rw [List.mem_flatMap]
  constructor
  · rintro ⟨c, hc, h⟩
    rwa [← encode_nul c h]
  · intro h
    exact ⟨_, h, by decide⟩

theorem u8_toNat {n : ℕ} (h : n < 256) : (UInt8.ofNat n).toNat = n := by
  rw [UInt8.toNat_ofNat']; exact Nat.mod_eq_of_lt h

/-! ## MessagePack -/

theorem strHead_spec {n : ℕ} (h : n < 2 ^ 32) : StrHead (strHead n) n := by
  unfold strHead
  by_cases h1 : n < 32
  · rw [if_pos h1]; exact .fix h1 (u8_toNat (by omega))
  rw [if_neg h1]
  by_cases h2 : n < 2 ^ 8
  · rw [if_pos h2]; exact .str8 (beBytes_length _ _) (big_beBytes _ _ (by omega))
  rw [if_neg h2]
  by_cases h3 : n < 2 ^ 16
  · rw [if_pos h3]; exact .str16 (beBytes_length _ _) (big_beBytes _ _ (by omega))
  rw [if_neg h3, if_pos h]
  exact .str32 (beBytes_length _ _) (big_beBytes _ _ (by omega))

theorem arrHead_spec {n : ℕ} (h : n < 2 ^ 32) : ArrHead (arrHead n) n := by
  unfold arrHead
  by_cases h1 : n < 16
  · rw [if_pos h1]; exact .fix h1 (u8_toNat (by omega))
  rw [if_neg h1]
  by_cases h3 : n < 2 ^ 16
  · rw [if_pos h3]; exact .arr16 (beBytes_length _ _) (big_beBytes _ _ (by omega))
  rw [if_neg h3, if_pos h]
  exact .arr32 (beBytes_length _ _) (big_beBytes _ _ (by omega))

theorem objHead_spec {n : ℕ} (h : n < 2 ^ 32) : MapHead (objHead n) n := by
  unfold objHead
  by_cases h1 : n < 16
  · rw [if_pos h1]; exact .fix h1 (u8_toNat (by omega))
  rw [if_neg h1]
  by_cases h3 : n < 2 ^ 16
  · rw [if_pos h3]; exact .map16 (beBytes_length _ _) (big_beBytes _ _ (by omega))
  rw [if_neg h3, if_pos h]
  exact .map32 (beBytes_length _ _) (big_beBytes _ _ (by omega))

theorem packNum_spec {n : ℕ} (h : n < 2 ^ 64) : PackNumber (packNum n) (.num n) := by
  unfold packNum
  by_cases h1 : n < 128
  · rw [if_pos h1]
    have := PackNumber.positive (b := UInt8.ofNat n) (by rw [u8_toNat (by omega)]; exact h1)
    rwa [u8_toNat (by omega)] at this
  rw [if_neg h1]
  by_cases h2 : n < 2 ^ 8
  · rw [if_pos h2]; exact .uint8 (beBytes_length _ _) (big_beBytes _ _ (by omega))
  rw [if_neg h2]
  by_cases h3 : n < 2 ^ 16
  · rw [if_pos h3]; exact .uint16 (beBytes_length _ _) (big_beBytes _ _ (by omega))
  rw [if_neg h3]
  by_cases h4 : n < 2 ^ 32
  · rw [if_pos h4]; exact .uint32 (beBytes_length _ _) (big_beBytes _ _ (by omega))
  rw [if_neg h4]
  exact .uint64 (beBytes_length _ _) (big_beBytes _ _ (by omega))

theorem signed_neg {k n : ℕ} (hk : 0 < k) (h0 : 0 < n) (h : n ≤ 2 ^ (8 * k - 1)) : Signed k (2 ^ (8 * k) - n) (.int n) := by
  have e : (2 : ℕ) ^ (8 * k) = 2 * 2 ^ (8 * k - 1) := by
    rw [← pow_succ', Nat.sub_add_cancel (by omega)]
  have e2 : (256 : ℕ) ^ k = 2 ^ (8 * k) := by rw [pow_mul]; norm_num
  rw [signed_iff k _ hk (by rw [e2]; omega)]
  unfold signed
  rw [if_neg (by omega), Nat.sub_sub_self (by omega)]

theorem packNeg_spec {n : ℕ} (h0 : 0 < n) (h : n ≤ 2 ^ 63) : PackNumber (packNeg n) (.int n) := by
  unfold packNeg
  by_cases h1 : n ≤ 32
  · rw [if_pos h1]; exact .negative h0 h1 (by rw [u8_toNat (by omega)]; omega)
  rw [if_neg h1]
  by_cases h2 : n ≤ 2 ^ 7
  · rw [if_pos h2]
    exact .int8 (beBytes_length _ _) (big_beBytes _ _ (by omega)) (signed_neg (k := 1) (by omega) h0 h2)
  rw [if_neg h2]
  by_cases h3 : n ≤ 2 ^ 15
  · rw [if_pos h3]
    exact .int16 (beBytes_length _ _) (big_beBytes _ _ (by omega)) (signed_neg (k := 2) (by omega) h0 h3)
  rw [if_neg h3]
  by_cases h4 : n ≤ 2 ^ 31
  · rw [if_pos h4]
    exact .int32 (beBytes_length _ _) (big_beBytes _ _ (by omega)) (signed_neg (k := 4) (by omega) h0 h4)
  rw [if_neg h4]
  exact .int64 (beBytes_length _ _) (big_beBytes _ _ (by omega)) (signed_neg (k := 8) (by omega) h0 h)

theorem packs_length {t : List UInt8} {l : List Json} (h : Packs t l) : l.length ≤ t.length := by
  induction l generalizing t with
  | nil => simp
  | cons j l ih =>
    cases h with
    | cons h1 h2 =>
      have := pack_pos h1
      have := ih h2
      simp only [List.length_append, List.length_cons]
      omega

theorem packMap_length {t : List UInt8} {l : List (Str × Json)} (h : PackMap t l) : l.length ≤ t.length := by
  induction l generalizing t with
  | nil => simp
  | cons j l ih =>
    cases h with
    | cons h0 h1 h2 =>
      have := pack_pos h1
      have := ih h2
      simp only [List.length_append, List.length_cons]
      omega

mutual

theorem pack_spec : ∀ (j : Json), j.WF → (pack j).length < 2 ^ 32 → Pack (pack j) j
  | .null, _, _ => by simp only [pack]; exact .nil
  | .bool true, _, _ => by simp only [pack]; exact .true
  | .bool false, _, _ => by simp only [pack]; exact .false
  | .num n, h, _ => by
    simp only [pack]
    exact .number (packNum_spec h)
  | .int n, h, _ => by
    simp only [pack]
    simp only [Json.WF] at h
    rw [if_neg (by omega)]
    exact .number (packNeg_spec h.1 h.2)
  | .float _, h, _ => by simp only [Json.WF] at h
  | .str s, _, hl => by
    simp only [pack, packStr, List.length_append] at hl ⊢
    exact .str (strHead_spec (by omega))
  | .arr l, h, hl => by
    simp only [pack, List.length_append] at hl ⊢
    have := packArr_spec l h (by omega)
    have h2 := packs_length this
    exact .arr (arrHead_spec (by omega)) this
  | .obj m, h, hl => by
    simp only [pack, List.length_append] at hl ⊢
    have := packMembers_spec m h.2 (by omega)
    have h2 := packMap_length this
    exact .map (objHead_spec (by omega)) this (isMap_self h.1)

theorem packArr_spec : ∀ (l : List Json), wfArr l → (packArr l).length < 2 ^ 32 → Packs (packArr l) l
  | [], _, _ => by simp only [packArr]; exact .nil
  | x :: l, h, hl => by
    simp only [packArr, List.length_append] at hl ⊢
    exact .cons (pack_spec x h.1 (by omega)) (packArr_spec l h.2 (by omega))

theorem packMembers_spec : ∀ (m : List (Str × Json)), wfMembers m → (packMembers m).length < 2 ^ 32 →
    PackMap (packMembers m) m
  | [], _, _ => by simp only [packMembers]; exact .nil
  | (k, x) :: l, h, hl => by
    simp only [packMembers, packStr, List.length_append] at hl ⊢
    exact .cons (strHead_spec (by omega)) (pack_spec x h.1 (by omega)) (packMembers_spec l h.2 (by omega))

end

/-! ## BSON -/

theorem dumpNum_nul (i : ℕ) : 0 ∉ (dumpNum i).bytes := by
  intro h
  have := dumpNum_digits i _ ((nul_iff _).1 h)
  revert this
  decide

mutual

theorem bsonValue_spec : ∀ (j : Json) (y : UInt8) (t : List UInt8), j.WF → bsonValue j = .ok (y, t) → t.length < 2 ^ 31 →
    Elem true y t j
  | .null, y, t, _, h, _ => by
    simp only [bsonValue] at h
    injection h with h; injection h with h1 h2
    rw [← h1, ← h2]; exact .null
  | .bool b, y, t, _, h, _ => by
    simp only [bsonValue] at h
    injection h with h; injection h with h1 h2
    rw [← h1, ← h2]
    cases b
    · exact .bool (fun _ => .inl rfl)
    · exact .bool (fun _ => .inr rfl)
  | .num n, y, t, _, h, _ => by
    simp only [bsonValue] at h
    by_cases h1 : n < 2 ^ 31
    · rw [if_pos h1] at h
      injection h with h; injection h with h2 h3
      rw [← h2, ← h3]
      refine .int32 (leBytes_length _ _) (little_leBytes _ n (by omega)) ?_
      rw [signed_iff 4 _ (by omega) (by omega)]
      unfold signed
      rw [if_pos (by omega)]
    rw [if_neg h1] at h
    by_cases h2 : n < 2 ^ 63
    · rw [if_pos h2] at h
      injection h with h; injection h with h2 h3
      rw [← h2, ← h3]
      refine .int64 (leBytes_length _ _) (little_leBytes _ n (by omega)) ?_
      rw [signed_iff 8 _ (by omega) (by omega)]
      unfold signed
      rw [if_pos (by omega)]
    rw [if_neg h2] at h
    cases h
  | .int n, y, t, hw, h, _ => by
    simp only [bsonValue] at h
    simp only [Json.WF] at hw
    by_cases h1 : n ≤ 2 ^ 31
    · rw [if_pos h1] at h
      injection h with h; injection h with h2 h3
      rw [← h2, ← h3]
      exact .int32 (leBytes_length _ _) (little_leBytes _ _ (by omega)) (signed_neg (k := 4) (by omega) hw.1 h1)
    · rw [if_neg h1] at h
      injection h with h; injection h with h2 h3
      rw [← h2, ← h3]
      exact .int64 (leBytes_length _ _) (little_leBytes _ _ (by omega)) (signed_neg (k := 8) (by omega) hw.1 hw.2)
  | .float _, y, t, h, _, _ => by simp only [Json.WF] at h
  | .str s, y, t, _, h, hl => by
    simp only [bsonValue] at h
    injection h with h; injection h with h1 h2
    rw [← h2] at hl
    simp only [List.length_append, leBytes_length, List.length_cons, List.length_nil] at hl
    rw [← h1, ← h2]
    exact .string (leBytes_length _ _) (little_leBytes _ _ (by omega)) (by omega) (fun _ => rfl)
  | .arr l, y, t, hw, h, hl => by
    simp only [bsonValue] at h
    cases hb : bsonArr 0 l with
    | ok body =>
      rw [hb, Res.bind_ok] at h
      injection h with h; injection h with h1 h2
      rw [← h2] at hl
      simp only [bsonDoc, List.length_append, leBytes_length, List.length_cons, List.length_nil] at hl
      obtain ⟨m, h3, h4⟩ := bsonArr_spec l 0 body hw hb (by omega)
      rw [← h1, ← h2, bsonDoc, ← h4]
      exact .array ⟨leBytes_length _ _, fun _ => little_leBytes _ _ (by omega)⟩ h3
    | throw e => rw [hb] at h; cases h
    | ub => rw [hb] at h; cases h
  | .obj m, y, t, hw, h, hl => by
    simp only [bsonValue] at h
    cases hb : bsonMembers m with
    | ok body =>
      rw [hb, Res.bind_ok] at h
      injection h with h; injection h with h1 h2
      rw [← h2] at hl
      simp only [bsonDoc, List.length_append, leBytes_length, List.length_cons, List.length_nil] at hl
      have h3 := bsonMembers_spec m body hw.2 hb (by omega)
      rw [← h1, ← h2, bsonDoc]
      exact .doc (.mk ⟨leBytes_length _ _, fun _ => little_leBytes _ _ (by omega)⟩ h3 (isMap_self hw.1))
    | throw e => rw [hb] at h; cases h
    | ub => rw [hb] at h; cases h

theorem bsonArr_spec : ∀ (l : List Json) (i : ℕ) (t : List UInt8), wfArr l → bsonArr i l = .ok t → t.length < 2 ^ 31 →
    ∃ m, Elems true t m ∧ m.map (·.2) = l
  | [], i, t, _, h, _ => by
    simp only [bsonArr] at h
    injection h with h
    rw [← h]
    exact ⟨[], .nil, rfl⟩
  | x :: l, i, t, hw, h, hl => by
    simp only [bsonArr] at h
    cases hv : bsonValue x with
    | throw e => rw [hv] at h; cases h
    | ub => rw [hv] at h; cases h
    | ok v =>
      obtain ⟨y, u⟩ := v
      rw [hv, Res.bind_ok, bsonEntry, if_neg (dumpNum_nul i), Res.bind_ok] at h
      cases hr : bsonArr (i + 1) l with
      | throw e => rw [hr] at h; cases h
      | ub => rw [hr] at h; cases h
      | ok r =>
        rw [hr, Res.bind_ok] at h
        injection h with h
        rw [← h] at hl
        simp only [List.length_append, List.length_cons] at hl
        have h1 := bsonValue_spec x y u hw.1 hv (by omega)
        obtain ⟨m, h2, h3⟩ := bsonArr_spec l (i + 1) r hw.2 hr (by omega)
        refine ⟨((dumpNum i).bytes, x) :: m, ?_, by rw [List.map_cons, h3]⟩
        rw [← h]
        have := Elems.cons (dumpNum_nul i) h1 h2
        simpa using this

theorem bsonMembers_spec : ∀ (l : List (Str × Json)) (t : List UInt8), wfMembers l → bsonMembers l = .ok t →
    t.length < 2 ^ 31 → Elems true t (l.map fun e : Str × Json => (e.1.bytes, e.2))
  | [], t, _, h, _ => by
    simp only [bsonMembers] at h
    injection h with h
    rw [← h]
    exact .nil
  | (k, x) :: l, t, hw, h, hl => by
    simp only [bsonMembers] at h
    cases hv : bsonValue x with
    | throw e => rw [hv] at h; cases h
    | ub => rw [hv] at h; cases h
    | ok v =>
      obtain ⟨y, u⟩ := v
      rw [hv, Res.bind_ok, bsonEntry] at h
      by_cases hk : 0 ∈ k.bytes
      · rw [if_pos hk] at h; cases h
      rw [if_neg hk, Res.bind_ok] at h
      cases hr : bsonMembers l with
      | throw e => rw [hr] at h; cases h
      | ub => rw [hr] at h; cases h
      | ok r =>
        rw [hr, Res.bind_ok] at h
        injection h with h
        rw [← h] at hl
        simp only [List.length_append, List.length_cons] at hl
        have h1 := bsonValue_spec x y u hw.1 hv (by omega)
        have h2 := bsonMembers_spec l r hw.2 hr (by omega)
        rw [← h]
        have := Elems.cons hk h1 h2
        simpa using this

end

mutual

theorem Elem.loose : ∀ {y : UInt8} {t : List UInt8} {j : Json}, Elem true y t j → Elem false y t j
  | _, _, _, .double h h1 h2 => .double h h1 h2
  | _, _, _, .string h h1 h2 _ => .string h h1 h2 (by simp)
  | _, _, _, .doc h => .doc (Doc.loose h)
  | _, _, _, .array h h1 => .array ⟨h.1, by simp⟩ (Elems.loose h1)
  | _, _, _, .bool _ => .bool (by simp)
  | _, _, _, .null => .null
  | _, _, _, .int32 h h1 h2 => .int32 h h1 h2
  | _, _, _, .int64 h h1 h2 => .int64 h h1 h2

theorem Elems.loose : ∀ {t : List UInt8} {l : List (List UInt8 × Json)}, Elems true t l → Elems false t l
  | _, _, .nil => .nil
  | _, _, .cons h h1 h2 => .cons h (Elem.loose h1) (Elems.loose h2)

theorem Doc.loose : ∀ {t : List UInt8} {j : Json}, Doc true t j → Doc false t j
  | _, _, .mk h h1 h2 => .mk ⟨h.1, by simp⟩ (Elems.loose h1) h2

end

theorem toBson_spec {j : Json} {t : List UInt8} (hj : j.WF) (h : toBson j = .ok t) (hl : t.length < 2 ^ 31) : Doc true t j := by
  cases j with
  | obj m =>
    simp only [toBson] at h
    cases hb : bsonMembers m with
    | throw e => rw [hb] at h; cases h
    | ub => rw [hb] at h; cases h
    | ok body =>
      rw [hb, Res.bind_ok] at h
      injection h with h
      rw [← h] at hl
      simp only [bsonDoc, List.length_append, leBytes_length, List.length_cons, List.length_nil] at hl
      have h3 := bsonMembers_spec m body hj.2 hb (by omega)
      rw [← h, bsonDoc]
      exact .mk ⟨leBytes_length _ _, fun _ => little_leBytes _ _ (by omega)⟩ h3 (isMap_self hj.1)
  | _ => simp [toBson] at h

/-! ## When BSON is written -/

mutual

theorem bsonValue_ok : ∀ j : Json, (∃ v, bsonValue j = .ok v) ∧ Fits j ∨ bsonValue j = .throw .json ∧ ¬ Fits j
  | .null => .inl ⟨⟨_, by rw [bsonValue]⟩, trivial⟩
  | .bool _ => .inl ⟨⟨_, by rw [bsonValue]⟩, trivial⟩
  | .num n => by
    simp only [bsonValue, Fits]
    by_cases h1 : n < 2 ^ 31
    · rw [if_pos h1]; exact .inl ⟨⟨_, rfl⟩, by omega⟩
    rw [if_neg h1]
    by_cases h2 : n < 2 ^ 63
    · rw [if_pos h2]; exact .inl ⟨⟨_, rfl⟩, h2⟩
    · rw [if_neg h2]; exact .inr ⟨rfl, h2⟩
  | .int n => by
    simp only [bsonValue, Fits]
    by_cases h1 : n ≤ 2 ^ 31
    · rw [if_pos h1]; exact .inl ⟨⟨_, rfl⟩, trivial⟩
    · rw [if_neg h1]; exact .inl ⟨⟨_, rfl⟩, trivial⟩
  | .float _ => .inl ⟨⟨_, by rw [bsonValue]⟩, trivial⟩
  | .str _ => .inl ⟨⟨_, by rw [bsonValue]⟩, trivial⟩
  | .arr l => by
    simp only [bsonValue, Fits]
    rcases bsonArr_ok l 0 with ⟨⟨v, hv⟩, h⟩ | ⟨hv, h⟩
    · rw [hv]; exact .inl ⟨⟨_, rfl⟩, h⟩
    · rw [hv]; exact .inr ⟨rfl, h⟩
  | .obj m => by
    simp only [bsonValue, Fits]
    rcases bsonMembers_ok m with ⟨⟨v, hv⟩, h⟩ | ⟨hv, h⟩
    · rw [hv]; exact .inl ⟨⟨_, rfl⟩, h⟩
    · rw [hv]; exact .inr ⟨rfl, h⟩

theorem bsonArr_ok : ∀ (l : List Json) (i : ℕ),
    (∃ v, bsonArr i l = .ok v) ∧ fitsArr l ∨ bsonArr i l = .throw .json ∧ ¬ fitsArr l
  | [], i => .inl ⟨⟨_, by rw [bsonArr]⟩, trivial⟩
  | x :: l, i => by
    simp only [bsonArr, fitsArr]
    rcases bsonValue_ok x with ⟨⟨v, hv⟩, h⟩ | ⟨hv, h⟩
    · rw [hv, Res.bind_ok, bsonEntry, if_neg (dumpNum_nul i), Res.bind_ok]
      rcases bsonArr_ok l (i + 1) with ⟨⟨w, hw⟩, h'⟩ | ⟨hw, h'⟩
      · rw [hw]; exact .inl ⟨⟨_, rfl⟩, h, h'⟩
      · rw [hw]; exact .inr ⟨rfl, fun c => h' c.2⟩
    · rw [hv]; exact .inr ⟨rfl, fun c => h c.1⟩

theorem bsonMembers_ok : ∀ (l : List (Str × Json)),
    (∃ v, bsonMembers l = .ok v) ∧ fitsMembers l ∨ bsonMembers l = .throw .json ∧ ¬ fitsMembers l
  | [] => .inl ⟨⟨_, by rw [bsonMembers]⟩, trivial⟩
  | (k, x) :: l => by
    simp only [bsonMembers, fitsMembers]
    rcases bsonValue_ok x with ⟨⟨v, hv⟩, h⟩ | ⟨hv, h⟩
    · rw [hv, Res.bind_ok, bsonEntry]
      by_cases hk : 0 ∈ k.bytes
      · rw [if_pos hk]; exact .inr ⟨rfl, fun c => c.1 ((nul_iff k).1 hk)⟩
      rw [if_neg hk, Res.bind_ok]
      rw [nul_iff] at hk
      rcases bsonMembers_ok l with ⟨⟨w, hw⟩, h'⟩ | ⟨hw, h'⟩
      · rw [hw]; exact .inl ⟨⟨_, rfl⟩, hk, h, h'⟩
      · rw [hw]; exact .inr ⟨rfl, fun c => h' c.2.2⟩
    · rw [hv]; exact .inr ⟨rfl, fun c => h c.2.1⟩

end

end EG.Binary
