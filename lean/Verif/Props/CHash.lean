import Verif.Model.CHash
import Verif.Lemmas.CGroup
import Verif.Props.Hash

/-!
# C129: hashing through C

What the three hash functions of the C interface compute, when they are undefined, and which arguments they
keep apart.
-/

namespace EG.CHash

open EG.CText (Status)
open EG.CGroup (Out caught deref cText)

variable (G : Params) (C : Crypto)

theorem texts_some (l : List (List Char)) : texts (l.map some) = .ok (l.map cText) := by
  induction l with
  | nil => rfl
  | cons s l ih =>
    show (do let rest ← texts (l.map some); Res.ok (cText s :: rest)) = _
    rw [ih]; rfl

theorem texts_cases (l : List (Option (List Char))) :
    (none ∈ l ∧ texts l = .ub) ∨ ∃ m : List (List Char), l = m.map some := by
  induction l with
  | nil => exact Or.inr ⟨[], rfl⟩
  | cons p l ih =>
    cases p with
    | none => exact Or.inl ⟨by simp, rfl⟩
    | some s =>
      rcases ih with ⟨h, h'⟩ | ⟨m, rfl⟩
      · refine Or.inl ⟨by simp [h], ?_⟩
        show (do let rest ← texts l; Res.ok (cText s :: rest)) = _
        rw [h']; rfl
      · exact Or.inr ⟨s :: m, rfl⟩

theorem readTexts_some (l : List (List Char)) (rest : List (Option (List Char))) (n : UInt64)
    (hn : n.toNat = l.length) : readTexts (some (l.map some ++ rest)) n = .ok (l.map cText) := by
  unfold readTexts
  split
  · rename_i h
    have : l = [] := List.length_eq_zero_iff.mp (by omega)
    subst this; rfl
  · show (if (l.map some ++ rest).length < n.toNat then Res.ub else texts ((l.map some ++ rest).take n.toNat)) = _
    rw [if_neg (by simp; omega), List.take_append_of_le_length (by simp; omega), hn,
      List.take_of_length_le (by simp), texts_some]

/-- C129: what the array gives. -/
theorem hashStrings_some (l : List (List Char)) (rest : List (Option (List Char))) (n : UInt64)
    (hn : n.toNat = l.length) : hashStrings G C (some (l.map some ++ rest)) n =
      .ok (.success, some (hashElem G C (.vec ((l.map cText).map .str)))) := by
  rw [hashStrings, readTexts_some l rest n hn]; rfl

/-- C129: the functions succeed, with an element of [0,q), unless a pointer that is needed is null or the array
is shorter than said; then the behaviour is undefined.  No other status is ever returned.  With length zero the
array is not looked at. -/
theorem C129_outcome (hG : G.Valid) (a : Option (List Char)) (arr : Option (List (Option (List Char))))
    (len i : UInt64) :
    (if a = none then hashString G C a = .ub
      else ∃ h < G.q, hashString G C a = .ok (.success, some h)) ∧
    (if len = 0 ∨ ∃ l, arr = some l ∧ len.toNat ≤ l.length ∧ none ∉ l.take len.toNat
      then ∃ h < G.q, hashStrings G C arr len = .ok (.success, some h)
      else hashStrings G C arr len = .ub) ∧
    ∃ h < G.q, hashInt G C i = .ok (.success, some h) := by
  have lt : ∀ x, hashElem G C x < G.q := fun x => (C25_hash_in_range G C hG [] x).2
  refine ⟨?_, ?_, _, lt _, rfl⟩
  · cases a with
    | none => rw [if_pos rfl]; rfl
    | some s => rw [if_neg (by simp)]; exact ⟨_, lt _, rfl⟩
  · by_cases h0 : len = 0
    · subst h0
      rw [if_pos (Or.inl rfl)]
      exact ⟨_, lt _, rfl⟩
    · have hn : len.toNat ≠ 0 := fun h => h0 (UInt64.toNat_inj.mp (by simpa using h))
      cases arr with
      | none =>
        rw [if_neg (by simp [h0])]
        simp only [hashStrings, readTexts, if_neg hn]; rfl
      | some l =>
        by_cases hl : l.length < len.toNat
        · rw [if_neg]
          · simp only [hashStrings, readTexts, if_neg hn, deref, Res.bind_ok, if_pos hl]; rfl
          · rintro (h | ⟨l', h1, h2, -⟩)
            · exact h0 h
            · cases h1; omega
        · rcases texts_cases (l.take len.toNat) with ⟨h1, h2⟩ | ⟨m, hm⟩
          · rw [if_neg]
            · simp only [hashStrings, readTexts, if_neg hn, deref, Res.bind_ok, if_neg hl, h2]; rfl
            · rintro (h | ⟨l', h3, -, h4⟩)
              · exact h0 h
              · cases h3; exact h4 h1
          · rw [if_pos (Or.inr ⟨l, rfl, by omega, by rw [hm]; simp⟩)]
            simp only [hashStrings, readTexts, if_neg hn, deref, Res.bind_ok, if_neg hl, hm, texts_some]
            exact ⟨_, lt _, rfl⟩

/-- C129: the hash of a text is SHA-256 of the characters before its first zero between two delimiters, with
"null" for a text that is empty, reduced modulo q. -/
theorem C129_text (hG : G.Valid) (s rest : List Char) (hs : Char.ofNat 0 ∉ s) (t : List Char)
    (ht : t = if s = [] then ['n', 'u', 'l', 'l'] else s) (hmax : C.sha256 ('|' :: (t ++ ['|'])) ≠ 2 ^ 256 - 1) :
    hashString G C (some (s ++ Char.ofNat 0 :: rest)) =
      .ok (.success, some (C.sha256 ('|' :: (t ++ ['|'])) % G.q)) := by
  have hc : cText (s ++ Char.ofNat 0 :: rest) = s := by
    unfold cText
    rw [List.takeWhile_append_of_pos (by intro c hc; simp; rintro rfl; exact hs hc)]
    simp
  have h1 : HElem.render G C (.str s) = t := by
    rw [ht]; cases s <;> rfl
  have h2 := C25_hash_value G C hG [.str s] (by simp)
  simp only [List.map_cons, List.map_nil, h1] at h2
  have h3 : hashInput [t] = '|' :: (t ++ ['|']) := by simp [hashInput]
  rw [h3] at h2
  have h4 : hashElem G C (.str s) = hashElems G C [.str s] := rfl
  show Res.ok (Status.success, some (hashElem G C (.str (cText (s ++ Char.ofNat 0 :: rest))))) = _
  rw [hc, h4, h2 hmax]

theorem cText_self (s : List Char) (h : Char.ofNat 0 ∉ s) : cText s = s := by
  unfold cText
  rw [List.takeWhile_eq_self_iff]
  intro c hc; simp; rintro rfl; exact h hc

theorem map_cText (l : List (List Char)) (hz : ∀ s ∈ l, Char.ofNat 0 ∉ s) : l.map cText = l := by
  conv_rhs => rw [← List.map_id l]
  exact List.map_congr_left (fun s hs => cText_self s (hz s hs))

theorem cText_no_zero (s : List Char) : Char.ofNat 0 ∉ cText s := fun h => by
  simpa using List.mem_takeWhile_imp h

theorem toHexQ_ne (v : ℕ) : (toHexQ v).isEmpty = false := by
  unfold toHexQ bytesToHex
  split
  · rfl
  · rfl

theorem vec_eq (l : List (List Char)) (hl : l ≠ []) :
    hashElem G C (.vec (l.map .str)) = hashElem G C (.str (toHexQ (hashElems G C (l.map HElem.str)))) := by
  have hne : l.isEmpty = false := by cases l with
    | nil => exact absurd rfl hl
    | cons => rfl
  simp only [hashElem, HElem.render, HAtom.render, List.isEmpty_map, hne, toHexQ_ne, Bool.false_eq_true, if_false,
    hashElems, List.map_map]
  rfl

/-- C129: the hash of an array of texts is the hash of a text: of the hexadecimal form of the hash that `hash_elems`
gives for these texts as its arguments.  Only so many entries as said are read. -/
theorem C129_array (l : List (List Char)) (hl : l ≠ []) (rest : List (Option (List Char))) (n : UInt64)
    (hn : n.toNat = l.length) (hz : ∀ s ∈ l, Char.ofNat 0 ∉ s) :
    hashStrings G C (some (l.map some ++ rest)) n =
      hashString G C (some (toHexQ (hashElems G C (l.map HElem.str)))) := by
  rw [hashStrings_some G C l rest n hn, map_cText l hz, vec_eq G C l hl]
  show _ = Res.ok (Status.success, some (hashElem G C (.str (cText (toHexQ _)))))
  rw [toHexQ, CGroup.cText_hex]

/-- C129: the hash of an array with one text is the hash of the hexadecimal form of the hash of this text. -/
theorem C129_one (s : List Char) (rest : List (Option (List Char))) (h : ℕ)
    (hs : hashString G C (some s) = .ok (.success, some h)) :
    hashStrings G C (some (some s :: rest)) 1 = hashString G C (some (toHexQ h)) := by
  have e : hashElem G C (.str (cText s)) = h := by
    have : Res.ok (Status.success, some (hashElem G C (.str (cText s)))) = Res.ok (Status.success, some h) := hs
    simpa using this
  have h1 := hashStrings_some G C [s] rest 1 rfl
  simp only [List.map_cons, List.map_nil, List.cons_append, List.nil_append] at h1
  have h2 := vec_eq G C [cText s] (by simp)
  have h3 : hashElems G C ([cText s].map HElem.str) = h := e
  rw [h3] at h2
  simp only [List.map_cons, List.map_nil] at h2
  rw [h1, h2]
  show _ = Res.ok (Status.success, some (hashElem G C (.str (cText (toHexQ h)))))
  rw [toHexQ, CGroup.cText_hex]

/-- C129: so the hash of an array of several texts is not what `hash_elems` gives in C++ for these texts as its
arguments, unless two of the strings hashed collide. -/
theorem C129_not_the_list (l : List (List Char)) (hl : 2 ≤ l.length) (n : UInt64) (hn : n.toNat = l.length)
    (hp : ∀ s ∈ l, Char.ofNat 0 ∉ s ∧ '|' ∉ s)
    (hc : NoCollision G C (hashQueries G C [.vec (l.map .str)] ++ hashQueries G C (l.map HElem.str))) :
    hashStrings G C (some (l.map some)) n ≠ .ok (.success, some (hashElems G C (l.map HElem.str))) := by
  intro h
  have h1 := hashStrings_some G C l [] n hn
  rw [List.append_nil, map_cText l (fun s hs => (hp s hs).1)] at h1
  rw [h1] at h
  have he : (l.map HElem.str).isEmpty = false := by
    cases l with
    | nil => simp at hl
    | cons => rfl
  have h2 : digestQ G C (hashInput ([HElem.vec (l.map .str)].map (HElem.render G C))) =
      digestQ G C (hashInput ((l.map HElem.str).map (HElem.render G C))) := by
    have h' : hashElem G C (.vec (l.map .str)) = hashElems G C (l.map HElem.str) := by
      simpa using h
    simpa only [hashElem, hashElems, he, Bool.false_eq_true, if_false, List.map_cons, List.map_nil] using h'
  have h3 := hashInput_inj _ _ ?_ ?_ (hc _ (by simp [hashQueries]) _ (by simp [hashQueries, he]) h2)
  · have h4 := congrArg List.length h3
    simp at h4
    omega
  · intro s hs
    simp only [List.map_cons, List.map_nil, List.mem_singleton] at hs
    subst hs
    rw [HElem.render]
    split
    · decide
    · exact (toHexQ_no_delim _).1
  · intro s hs
    simp only [List.map_map, List.mem_map] at hs
    obtain ⟨t, ht, rfl⟩ := hs
    exact render_str t (hp t ht).2

/-- C129, what holds of binding: arrays of texts other than "null" and without delimiter, texts of this kind and
integers are determined by their hash, unless two of the strings hashed collide; arrays may have different
lengths.  Missing: the cases of `C129_ambiguous`. -/
theorem C129_binding_partial (hG : G.Valid) :
    (∀ (l m : List (List Char)) (n k : UInt64), n.toNat = l.length → k.toNat = m.length →
      (∀ s ∈ l ++ m, Char.ofNat 0 ∉ s ∧ '|' ∉ s ∧ s ≠ ['n', 'u', 'l', 'l']) →
      NoCollision G C (hashQueries G C [.vec (l.map .str)] ++ hashQueries G C [.vec (m.map .str)]) →
      hashStrings G C (some (l.map some)) n = hashStrings G C (some (m.map some)) k → l = m) ∧
    (∀ s t : List Char, (∀ u ∈ [s, t], Char.ofNat 0 ∉ u ∧ '|' ∉ u ∧ u ≠ ['n', 'u', 'l', 'l']) →
      NoCollision G C (hashQueries G C [.str s] ++ hashQueries G C [.str t]) →
      hashString G C (some s) = hashString G C (some t) → s = t) ∧
    ∀ i j : UInt64, NoCollision G C (hashQueries G C [.u64 i.toNat] ++ hashQueries G C [.u64 j.toNat]) →
      hashInt G C i = hashInt G C j → i = j := by
  have inj : ∀ a b : ℕ, Res.ok (Status.success, some a) = Res.ok (Status.success, some b) → a = b := by
    intro a b h; simpa using h
  refine ⟨?_, ?_, ?_⟩
  · intro l m n k hn hk hp hc h
    have h1 := hashStrings_some G C l [] n hn
    have h2 := hashStrings_some G C m [] k hk
    rw [List.append_nil, map_cText _ (fun s hs => (hp s (by simp [hs])).1)] at h1 h2
    rw [h1, h2] at h
    have h3 := C26_hash_binding_partial G C hG [.vec (l.map .str)] [.vec (m.map .str)] ?_ ?_ ?_ hc (inj _ _ h)
    · simp only [List.cons.injEq, HElem.vec.injEq, and_true] at h3
      exact List.map_injective_iff.mpr (fun a b h => by simpa using h) h3
    · intro x hx
      simp only [List.mem_singleton] at hx
      subst hx
      intro a ha
      obtain ⟨s, hs, rfl⟩ := List.mem_map.mp ha
      exact ⟨(hp s (by simp [hs])).2.2, (hp s (by simp [hs])).2.1⟩
    · intro x hx
      simp only [List.mem_singleton] at hx
      subst hx
      intro a ha
      obtain ⟨s, hs, rfl⟩ := List.mem_map.mp ha
      exact ⟨(hp s (by simp [hs])).2.2, (hp s (by simp [hs])).2.1⟩
    · refine .cons ?_ .nil
      intro a ha b hb
      obtain ⟨s, -, rfl⟩ := List.mem_map.mp ha
      obtain ⟨t, -, rfl⟩ := List.mem_map.mp hb
      trivial
  · intro s t hp hc h
    have h' : hashElem G C (.str (cText s)) = hashElem G C (.str (cText t)) := inj _ _ h
    rw [cText_self s (hp s (by simp)).1, cText_self t (hp t (by simp)).1] at h'
    have h3 := C26_hash_binding_partial G C hG [.str s] [.str t] ?_ ?_ (.cons trivial .nil) hc h'
    · simpa using h3
    · intro x hx
      simp only [List.mem_singleton] at hx
      subst hx
      exact ⟨(hp s (by simp)).2.2, (hp s (by simp)).2.1⟩
    · intro x hx
      simp only [List.mem_singleton] at hx
      subst hx
      exact ⟨(hp t (by simp)).2.2, (hp t (by simp)).2.1⟩
  · intro i j hc h
    have h3 := C26_hash_binding_partial G C hG [.u64 i.toNat] [.u64 j.toNat] (by simp [HElem.Plain, HAtom.Plain])
      (by simp [HElem.Plain, HAtom.Plain]) (.cons trivial .nil) hc (inj _ _ h)
    simp only [List.cons.injEq, HElem.atom.injEq, HAtom.u64.injEq, and_true] at h3
    exact UInt64.toNat_inj.mp h3

/-- C129 is violated in general, for every digest function: the integer 0, the empty text, the text "null" and an
array of length zero have the same hash; an integer other than 0 has the hash of its decimal text; a text with a zero inside has the hash
of what is before it; an array with a text that contains a delimiter has the hash of an array with two texts. -/
theorem C129_ambiguous (arr : Option (List (Option (List Char)))) (i : UInt64) (s rest : List Char) :
    hashInt G C 0 = hashString G C (some []) ∧
    hashInt G C 0 = hashString G C (some ['n', 'u', 'l', 'l']) ∧
    hashInt G C 0 = hashStrings G C arr 0 ∧
    (i ≠ 0 → hashInt G C i = hashString G C (some (decimal i.toNat))) ∧
    hashString G C (some (s ++ Char.ofNat 0 :: rest)) = hashString G C (some s) ∧
    hashStrings G C (some [some ['a', '|', 'b']]) 1 = hashStrings G C (some [some ['a'], some ['b']]) 2 := by
  refine ⟨rfl, rfl, rfl, fun hi => ?_, ?_, rfl⟩
  · have h0 : i.toNat ≠ 0 := fun h => hi (UInt64.toNat_inj.mp (by simpa using h))
    have hz : Char.ofNat 0 ∉ decimal i.toNat := by
      have h : ∀ d : Fin 10, Char.ofNat (48 + d.val) ≠ Char.ofNat 0 := by decide +kernel
      unfold decimal
      rw [List.mem_map]
      rintro ⟨d, hd, he⟩
      exact h ⟨d, Nat.digits_lt_base (by norm_num) (List.mem_reverse.1 hd)⟩ he
    have hne : (decimal i.toNat).isEmpty = false := by
      rw [List.isEmpty_eq_false_iff]
      simpa [decimal, Nat.digits_eq_nil_iff_eq_zero] using h0
    show Res.ok (Status.success, some (hashElem G C (.u64 i.toNat))) =
      Res.ok (Status.success, some (hashElem G C (.str (cText (decimal i.toNat)))))
    rw [cText_self _ hz]
    simp only [hashElem, HElem.render, HAtom.render, hne, if_pos h0, Bool.false_eq_true, if_false]
  · have h : cText (s ++ Char.ofNat 0 :: rest) = cText s := by
      unfold cText
      rw [List.takeWhile_append]
      split
      · rename_i h
        have h' := (List.takeWhile_prefix (fun x => decide (x ≠ Char.ofNat 0)) (l := s)).eq_of_length h
        rw [h']
        simp
      · rfl
    show Res.ok (Status.success, some (hashElem G C (.str (cText (s ++ Char.ofNat 0 :: rest))))) = _
    rw [h]; rfl

/-! The hypotheses can be met. -/

example : ∃ h < Params.test.q, hashStrings .test demoCrypto (some [some ['a'], some ['b'], none]) 2 =
    .ok (.success, some h) := by
  have h := (C129_outcome .test demoCrypto C54_test_valid none (some [some ['a'], some ['b'], none]) 2 0).2.1
  rwa [if_pos (Or.inr ⟨_, rfl, by decide, by decide⟩)] at h

example : hashStrings .test demoCrypto (some [some ['a'], some ['b'], none]) 3 = .ub := rfl

example : hashStrings .test demoCrypto (some [some ['a'], some ['b'], none]) 2 =
    hashString .test demoCrypto (some (toHexQ (hashElems .test demoCrypto [.str ['a'], .str ['b']]))) :=
  C129_array .test demoCrypto [['a'], ['b']] (by simp) [none] 2 rfl (by decide)

example : hashStrings .std demoCrypto (some [some ['a'], some ['b']]) 2 ≠
    .ok (.success, some (hashElems .std demoCrypto [.str ['a'], .str ['b']])) :=
  C129_not_the_list .std demoCrypto [['a'], ['b']] (by simp) 2 rfl (by decide) (by
    unfold NoCollision; decide +kernel)

example : hashStrings .std demoCrypto (some [some ['a'], some ['b']]) 2 ≠
    hashStrings .std demoCrypto (some [some ['a', 'b']]) 1 := fun h => by
  have := (C129_binding_partial .std demoCrypto C54_std_valid).1 [['a'], ['b']] [['a', 'b']] 2 1 rfl rfl (by decide) (by
    unfold NoCollision; decide +kernel) h
  cases this

end EG.CHash
