import Verif.Lemmas.Hash
import Verif.Spec.Hash
import Verif.Props.Params

/-!
# C25-C27: hashing and nonces
-/

namespace EG

variable (G : Params) (C : Crypto)

/-- A concrete pair of functions, used only to show that hypotheses can be met: the "hash" reads
the string as a number in base 1000003, reduced. -/
def demoCrypto : Crypto where
  sha256 s := (s.foldl (fun acc c => acc * 1000003 + c.toNat + 1) 0) % 2 ^ 250
  sha256_lt s := lt_of_lt_of_le (Nat.mod_lt _ (by norm_num))
    (Nat.pow_le_pow_right (by norm_num) (by norm_num))
  hmac k m := (toBytesBE 32 (ofBytesBE (k ++ m)))
  hmac_length _ _ := toBytesBE_length _ _

/-! ## C25 -/

/-- C25: `hash_elems` always returns an element of `[0,q)`. -/
theorem C25_hash_in_range (hG : G.Valid) (xs : List HElem) (x : HElem) :
    hashElems G C xs < G.q ∧ hashElem G C x < G.q :=
  ⟨hashElems_lt hG xs, digestQ_lt hG _⟩

/-- C25: what is computed: the SHA-256 value of the delimited texts, reduced modulo `q`.  (The
only exception is the all-ones digest.) -/
theorem C25_hash_value (hG : G.Valid) (xs : List HElem) (hne : xs ≠ [])
    (hmax : C.sha256 (hashInput (xs.map (HElem.render G C))) ≠ 2 ^ 256 - 1) :
    hashElems G C xs = C.sha256 (hashInput (xs.map (HElem.render G C))) % G.q := by
  have h1 := C.sha256_lt (hashInput (xs.map (HElem.render G C)))
  have h2 : xs.isEmpty = false := by cases xs with
    | nil => exact absurd rfl hne
    | cons => rfl
  rw [hashElems, h2]
  exact addModQ_zero hG _ (by omega)

/-- C25: the all-ones digest is reduced to 189 instead of 188 by the standard constants. -/
theorem C25_all_ones (s : List Char) (h : C.sha256 s = 2 ^ 256 - 1) : digestQ .std C s = 189 := by
  rw [digestQ, h]
  decide +kernel

/-- C25: the result depends only on the texts of the arguments. -/
theorem C25_depends_on_texts (xs ys : List HElem) (hx : xs ≠ [])
    (h : xs.map (HElem.render G C) = ys.map (HElem.render G C)) :
    hashElems G C xs = hashElems G C ys := by
  cases xs with
  | nil => exact absurd rfl hx
  | cons x xs =>
    cases ys with
    | nil => simp at h
    | cons y ys => simp only [hashElems, List.isEmpty_cons, Bool.false_eq_true, if_false, h]

example : hashElems .test demoCrypto [.q 5, .u64 7] < Params.test.q :=
  (C25_hash_in_range _ _ C54_test_valid _ .nul).1

/-! ## C26 -/

theorem render_u64 (n : ℕ) : '|' ∉ HAtom.render (.u64 n) := by
  rw [HAtom.render]
  split
  · exact decimal_no_delim n
  · decide

theorem render_str (s : List Char) (h : '|' ∉ s) : '|' ∉ HAtom.render (.str s) := by
  rw [HAtom.render]
  split
  · decide
  · exact h

theorem atom_no_delim (a : HAtom) (h : a.Plain) : '|' ∉ a.render := by
  cases a with
  | p v => rw [HAtom.render]; exact (toHexP_no_delim v).1
  | q v => rw [HAtom.render]; exact (toHexQ_no_delim v).1
  | u64 n => exact render_u64 n
  | str s => exact render_str s h.2

theorem decimal_ne_null (n : ℕ) : decimal n ≠ nullString := by
  intro h
  have h1 : 'n' ∈ decimal n := by rw [h]; decide
  have hd : ∀ d : Fin 10, Char.ofNat (48 + d.val) ≠ 'n' := by decide +kernel
  unfold decimal at h1
  rw [List.mem_map] at h1
  obtain ⟨d, hd1, he⟩ := h1
  have : d < 10 := Nat.digits_lt_base (by omega) (List.mem_reverse.1 hd1)
  exact hd ⟨d, this⟩ he

theorem atom_render_inj (a b : HAtom) (ha : a.Plain) (hb : b.Plain) (ht : a.SameType b)
    (h : a.render = b.render) : a = b := by
  cases a <;> cases b <;> simp only [HAtom.SameType] at ht
  · rw [toHexP_inj _ _ ha hb h]
  · rw [toHexQ_inj _ _ ha hb h]
  · rename_i m n
    simp only [HAtom.render] at h
    by_cases hm : m = 0 <;> by_cases hn : n = 0 <;> simp only [hm, hn, ne_eq, not_true_eq_false,
      not_false_eq_true, if_true, if_false] at h ⊢
    · exact absurd h.symm (decimal_ne_null n)
    · exact absurd h (decimal_ne_null m)
    · rw [decimal_inj _ _ h]
  · rename_i s t
    cases s with
    | nil =>
      cases t with
      | nil => rfl
      | cons c t =>
        simp only [HAtom.render, List.isEmpty_nil, List.isEmpty_cons, if_true, Bool.false_eq_true,
          if_false] at h
        exact absurd h.symm hb.1
    | cons c s =>
      cases t with
      | nil =>
        simp only [HAtom.render, List.isEmpty_nil, List.isEmpty_cons, if_true, Bool.false_eq_true,
          if_false] at h
        exact absurd h ha.1
      | cons d t =>
        simp only [HAtom.render, List.isEmpty_cons, Bool.false_eq_true, if_false] at h
        rw [h]

theorem atoms_render_inj (l m : List HAtom) (hl : ∀ a ∈ l, a.Plain) (hm : ∀ a ∈ m, a.Plain)
    (ht : ∀ a ∈ l, ∀ b ∈ m, a.SameType b) (h : l.map HAtom.render = m.map HAtom.render) : l = m := by
  induction l generalizing m with
  | nil => simpa using h.symm
  | cons a l ih =>
    cases m with
    | nil => simp at h
    | cons b m =>
      simp only [List.map_cons, List.cons.injEq] at h
      rw [atom_render_inj a b (hl a (by simp)) (hm b (by simp)) (ht a (by simp) b (by simp)) h.1,
        ih m (fun x hx => hl x (by simp [hx])) (fun x hx => hm x (by simp [hx]))
          (fun x hx y hy => ht x (by simp [hx]) y (by simp [hy])) h.2]

theorem null_not_hex (bs : List UInt8) : nullString ≠ bytesToHex bs := by
  intro h
  have := (bytesToHex_no_delim bs).2
  rw [← h] at this
  exact this (by decide)

theorem elem_no_delim (x : HElem) (h : x.Plain) : '|' ∉ x.render G C := by
  cases x with
  | nul => rw [HElem.render]; decide
  | atom a => exact atom_no_delim a h
  | vec l =>
    rw [HElem.render]
    split
    · decide
    · exact (toHexQ_no_delim _).1
  | bytes b => exact (bytesToHex_no_delim b).1

theorem elem_render_inj (hG : G.Valid) (x y : HElem) (hx : x.Plain) (hy : y.Plain)
    (ht : x.SameType y) (hc : NoCollision G C (x.queries ++ y.queries))
    (h : x.render G C = y.render G C) : x = y := by
  cases x <;> cases y <;> simp only [HElem.SameType] at ht
  · rfl
  · rename_i a
    cases a with
    | p v => exact absurd h (null_not_hex (toBytesP v))
    | q v => exact absurd h (null_not_hex (toBytesQ v))
    | u64 n => exact absurd ht id
    | str s => exact absurd ht id
  · rename_i a
    cases a with
    | p v => exact absurd h.symm (null_not_hex (toBytesP v))
    | q v => exact absurd h.symm (null_not_hex (toBytesQ v))
    | u64 n => exact absurd ht id
    | str s => exact absurd ht id
  · have ht : HAtom.SameType _ _ := ht
    exact congrArg _ (atom_render_inj _ _ hx hy ht h)
  · rename_i l m
    simp only [HElem.render] at h
    cases l with
    | nil =>
      cases m with
      | nil => rfl
      | cons b m =>
        simp only [List.isEmpty_nil, if_true, List.isEmpty_cons, Bool.false_eq_true, if_false] at h
        exact absurd h (null_not_hex _)
    | cons a l =>
      cases m with
      | nil =>
        simp only [List.isEmpty_nil, if_true, List.isEmpty_cons, Bool.false_eq_true, if_false] at h
        exact absurd h.symm (null_not_hex _)
      | cons b m =>
        simp only [List.isEmpty_cons, Bool.false_eq_true, if_false] at h
        have h1 := toHexQ_inj _ _ (lt_trans (digestQ_lt hG _) hG.q_lt)
          (lt_trans (digestQ_lt hG _) hG.q_lt) h
        have h2 := hc _ (by simp [HElem.queries]) _ (by simp [HElem.queries]) h1
        have h3 := hashInput_inj _ _
          (by intro s hs; rw [List.mem_map] at hs; obtain ⟨a', ha', rfl⟩ := hs
              exact atom_no_delim _ (hx a' ha'))
          (by intro s hs; rw [List.mem_map] at hs; obtain ⟨a', ha', rfl⟩ := hs
              exact atom_no_delim _ (hy a' ha')) h2
        rw [atoms_render_inj _ _ hx hy ht h3]
  · rename_i b c
    have h1 := bytesToHex_inj b c h
    have h2 := toBytesBE_ofBytesBE b
    rw [h1, ht, toBytesBE_ofBytesBE] at h2
    rw [h2]

/-- C26, what holds: for argument lists of the same types whose texts are unambiguous (group
elements and null pointers to them, integers, delimiter-free strings other than "null", vectors of
these, byte vectors of equal length), equal hashes mean equal arguments, unless two of the strings hashed on the way
collide.  Missing: the arguments listed in `C26_ambiguous`. -/
theorem C26_hash_binding_partial (hG : G.Valid) (xs ys : List HElem)
    (hx : ∀ x ∈ xs, x.Plain) (hy : ∀ y ∈ ys, y.Plain) (ht : List.Forall₂ HElem.SameType xs ys)
    (hc : NoCollision G C (hashQueries G C xs ++ hashQueries G C ys))
    (h : hashElems G C xs = hashElems G C ys) : xs = ys := by
  cases ht with
  | nil => rfl
  | @cons x y xs ys h0 ht =>
    have h1 : hashInput ((x :: xs).map (HElem.render G C)) =
        hashInput ((y :: ys).map (HElem.render G C)) :=
      hc _ (by simp [hashQueries]) _ (by simp [hashQueries]) (by
        simpa only [hashElems, List.isEmpty_cons, Bool.false_eq_true, if_false] using h)
    have h2 := hashInput_inj _ _
      (by intro s hs; rw [List.mem_map] at hs; obtain ⟨a', ha', rfl⟩ := hs
          exact elem_no_delim G C _ (hx a' ha'))
      (by intro s hs; rw [List.mem_map] at hs; obtain ⟨a', ha', rfl⟩ := hs
          exact elem_no_delim G C _ (hy a' ha')) h1
    have ht' : List.Forall₂ HElem.SameType (x :: xs) (y :: ys) := .cons h0 ht
    have hc' : ∀ s ∈ (x :: xs).flatMap HElem.queries ++ (y :: ys).flatMap HElem.queries,
        s ∈ hashQueries G C (x :: xs) ++ hashQueries G C (y :: ys) := by
      intro s hs
      simp only [hashQueries, List.mem_append, List.mem_cons] at hs ⊢
      tauto
    have hcol : NoCollision G C
        ((x :: xs).flatMap HElem.queries ++ (y :: ys).flatMap HElem.queries) :=
      fun s hs t ht => hc s (hc' s hs) t (hc' t ht)
    generalize x :: xs = us at *
    generalize y :: ys = vs at *
    clear h h0 ht hc' h1 hc
    induction ht' with
    | nil => rfl
    | @cons u v us vs huv _ ih =>
      simp only [List.map_cons, List.cons.injEq] at h2
      have e1 := elem_render_inj G C hG u v (hx u (by simp)) (hy v (by simp)) huv
        (fun s hs t ht => hcol s (by simp only [List.flatMap_cons, List.mem_append] at hs ⊢; tauto)
          t (by simp only [List.flatMap_cons, List.mem_append] at ht ⊢; tauto)) h2.1
      rw [e1, ih (fun z hz => hx z (by simp [hz])) (fun z hz => hy z (by simp [hz])) h2.2
        (fun s hs t ht => hcol s (by simp only [List.flatMap_cons, List.mem_append] at hs ⊢; tauto)
          t (by simp only [List.flatMap_cons, List.mem_append] at ht ⊢; tauto))]

/-- C26: the same for argument lists that may have different lengths. -/
theorem C26_hash_binding_lists_partial (hG : G.Valid) (xs ys : List HElem) (hnx : xs ≠ [])
    (hny : ys ≠ []) (hx : ∀ x ∈ xs, x.Plain) (hy : ∀ y ∈ ys, y.Plain)
    (ht : ∀ (i : ℕ) (x y : HElem), xs[i]? = some x → ys[i]? = some y → x.SameType y)
    (hc : NoCollision G C (hashQueries G C xs ++ hashQueries G C ys))
    (h : hashElems G C xs = hashElems G C ys) : xs = ys := by
  have e1 : xs.isEmpty = false := by cases xs <;> simp_all
  have e2 : ys.isEmpty = false := by cases ys <;> simp_all
  have h1 : hashInput (xs.map (HElem.render G C)) = hashInput (ys.map (HElem.render G C)) :=
    hc _ (by simp [hashQueries, e1]) _ (by simp [hashQueries, e2]) (by
      simpa only [hashElems, e1, e2, Bool.false_eq_true, if_false] using h)
  have h2 := hashInput_inj _ _
    (by intro s hs; rw [List.mem_map] at hs; obtain ⟨a', ha', rfl⟩ := hs
        exact elem_no_delim G C _ (hx a' ha'))
    (by intro s hs; rw [List.mem_map] at hs; obtain ⟨a', ha', rfl⟩ := hs
        exact elem_no_delim G C _ (hy a' ha')) h1
  have hlen : xs.length = ys.length := by simpa using congrArg List.length h2
  refine C26_hash_binding_partial G C hG xs ys hx hy ?_ hc h
  rw [List.forall₂_iff_get]
  refine ⟨hlen, fun i h1 h2 => ht i _ _ ?_ ?_⟩
  · simp [List.getElem?_eq_getElem h1]
  · simp [List.getElem?_eq_getElem h2]

/-- C26: for lists of scalars the SHA-256 inputs themselves differ (no assumption on the hash). -/
theorem C26_encoding_injective_partial (xs ys : List HAtom) (hx : ∀ x ∈ xs, x.Plain)
    (hy : ∀ y ∈ ys, y.Plain) (ht : List.Forall₂ HAtom.SameType xs ys)
    (h : hashInput (xs.map HAtom.render) = hashInput (ys.map HAtom.render)) : xs = ys := by
  have h2 := hashInput_inj _ _
    (by intro s hs; rw [List.mem_map] at hs; obtain ⟨a', ha', rfl⟩ := hs
        exact atom_no_delim _ (hx a' ha'))
    (by intro s hs; rw [List.mem_map] at hs; obtain ⟨a', ha', rfl⟩ := hs
        exact atom_no_delim _ (hy a' ha')) h
  clear h
  induction ht with
  | nil => rfl
  | @cons u v us vs huv _ ih =>
    simp only [List.map_cons, List.cons.injEq] at h2
    rw [atom_render_inj u v (hx u (by simp)) (hy v (by simp)) huv h2.1,
      ih (fun z hz => hx z (by simp [hz])) (fun z hz => hy z (by simp [hz])) h2.2]

/-- C26 is violated in general: for every digest function these different arguments hash alike:
null, 0, the empty string, the empty vector and the string "null"; a string with a delimiter and
two strings; a q-element and its hex string; byte vectors that differ in leading zeros. -/
theorem C26_ambiguous :
    hashElems G C [.nul] = hashElems G C [.u64 0] ∧
    hashElems G C [.nul] = hashElems G C [.str []] ∧
    hashElems G C [.nul] = hashElems G C [.vec []] ∧
    hashElems G C [.nul] = hashElems G C [.str nullString] ∧
    hashElems G C [.nul] = hashElems G C [] ∧
    hashElems G C [.str ['a', '|', 'b']] = hashElems G C [.str ['a'], .str ['b']] ∧
    hashElems G C [.q 10] = hashElems G C [.str ['0', 'A']] ∧
    hashElems G C [.bytes [0, 1]] = hashElems G C [.bytes [1]] := by
  refine ⟨C25_depends_on_texts G C _ _ (by simp) rfl, C25_depends_on_texts G C _ _ (by simp) rfl,
    C25_depends_on_texts G C _ _ (by simp) rfl, C25_depends_on_texts G C _ _ (by simp) rfl, ?_, ?_,
    ?_, ?_⟩
  · simp only [hashElems, List.isEmpty_cons, List.isEmpty_nil, Bool.false_eq_true, if_false, if_true,
      List.map_cons, List.map_nil]
  · have h : hashInput ([HElem.str ['a', '|', 'b']].map (HElem.render G C)) =
        hashInput ([HElem.str ['a'], HElem.str ['b']].map (HElem.render G C)) := rfl
    simp only [hashElems, List.isEmpty_cons, Bool.false_eq_true, if_false, h]
  · have h1 : HElem.render G C (.q 10) = ['0', 'A'] := by
      change toHexQ 10 = _
      decide +kernel
    have h2 : HElem.render G C (.str ['0', 'A']) = ['0', 'A'] := rfl
    simp only [hashElems, List.isEmpty_cons, List.map_cons, h1, h2]
  · have h1 : HElem.render G C (.bytes [0, 1]) = HElem.render G C (.bytes [1]) := by
      change bytesToHex [0, 1] = bytesToHex [1]
      decide +kernel
    simp only [hashElems, List.isEmpty_cons, List.map_cons, h1]

example : NoCollision .std demoCrypto
    (hashQueries .std demoCrypto [.str ['a'], .vec [.str ['b']]] ++
      hashQueries .std demoCrypto [.str ['a'], .vec [.str ['c']]]) := by
  unfold NoCollision
  decide +kernel

example : NoCollision .std demoCrypto
    (hashQueries .std demoCrypto [.str ['a'], .nul] ++
      hashQueries .std demoCrypto [.str [], .q 5, .u64 0]) := by
  unfold NoCollision
  decide +kernel

/-! ## C27 -/

/-- The operations of a `Nonces` object. -/
inductive NonceOp where
  | get (i : ℕ)
  | getWith (i : ℕ) (headers : List Char)
  | next
  | range (start count : ℕ)

/-- One call: the nonces returned and the new state. -/
def NonceOp.run (op : NonceOp) (s : Nonces) : List ℕ × Nonces :=
  match op with
  | .get i => let r := s.get G C i; ([r.1], r.2)
  | .getWith i h => let r := s.getWith G C i h; ([r.1], r.2)
  | .next => let r := s.next G C; ([r.1], r.2)
  | .range a n => s.getRange G C a n

/-- State after a history of calls. -/
def runNonceOps (s : Nonces) (ops : List NonceOp) : Nonces :=
  ops.foldl (fun s op => (op.run G C s).2) s

theorem getLoop_seed (s : Nonces) (i n : ℕ) : (Nonces.getLoop G C s i n).2.seed = s.seed := by
  induction n generalizing s i with
  | zero => rfl
  | succ n ih => simp only [Nonces.getLoop]; rw [ih]; rfl

theorem runNonceOps_seed (s : Nonces) (ops : List NonceOp) :
    (runNonceOps G C s ops).seed = s.seed := by
  induction ops generalizing s with
  | nil => rfl
  | cons op ops ih =>
    rw [runNonceOps, List.foldl_cons]
    change (runNonceOps G C (op.run G C s).2 ops).seed = _
    rw [ih]
    cases op with
    | range a n => exact getLoop_seed G C s a _
    | _ => rfl

/-- C27: after any history of calls, `get(i)`, `get(i, headers)` and `get(start, count)` return what
they return on the fresh object. -/
theorem C27_history_independent (s : Nonces) (ops : List NonceOp) (i n : ℕ) (h : List Char) :
    ((runNonceOps G C s ops).get G C i).1 = (s.get G C i).1 ∧
    ((runNonceOps G C s ops).getWith G C i h).1 = (s.getWith G C i h).1 ∧
    ((runNonceOps G C s ops).getRange G C i n).1 = (s.getRange G C i n).1 := by
  have hs := runNonceOps_seed G C s ops
  generalize runNonceOps G C s ops = t at *
  have key : ∀ (k i : ℕ) (s t : Nonces), t.seed = s.seed →
      (Nonces.getLoop G C t i k).1 = (Nonces.getLoop G C s i k).1 := by
    intro k
    induction k with
    | zero => intro _ _ _ _; rfl
    | succ k ih =>
      intro i s t hst
      simp only [Nonces.getLoop, List.cons.injEq]
      exact ⟨by simp [Nonces.get, hst], ih _ _ _ hst⟩
  exact ⟨by simp [Nonces.get, hs], by simp [Nonces.getWith, hs], key _ _ _ _ hs⟩

/-- `n` successive calls of `next()`. -/
def nextTimes (s : Nonces) : ℕ → List ℕ × Nonces
  | 0 => ([], s)
  | n + 1 =>
    let r := s.next G C
    let rest := nextTimes r.2 n
    (r.1 :: rest.1, rest.2)

/-- C27: after `get(i)`, successive calls of `next()` return `get(i+1), get(i+2), …`. -/
theorem C27_next_after_get (s : Nonces) (i n : ℕ) (hi : i + n < 2 ^ 64) :
    (nextTimes G C (s.get G C i).2 n).1 =
      (List.range n).map (fun k => (s.get G C (i + 1 + k)).1) := by
  have key : ∀ (n j : ℕ) (t : Nonces), t.seed = s.seed → t.nextItem = j → j + n ≤ 2 ^ 64 →
      (nextTimes G C t n).1 = (List.range n).map (fun k => (s.get G C (j + k)).1) := by
    intro n
    induction n with
    | zero => intro _ _ _ _ _; rfl
    | succ n ih =>
      intro j t hs hj hb
      rw [List.range_succ_eq_map, List.map_cons, List.map_map, nextTimes]
      simp only [List.cons.injEq]
      refine ⟨by simp [Nonces.next, Nonces.get, hs, hj], ?_⟩
      by_cases hn : n = 0
      · subst hn; rfl
      · have hj' : (t.next G C).2.nextItem = j + 1 := by
          simp only [Nonces.next, Nonces.get, hj]; omega
        rw [ih (j + 1) (t.next G C).2 hs hj' (by omega)]
        apply List.map_congr_left
        intro k _
        simp only [Function.comp, Nat.succ_eq_add_one]
        rw [show j + 1 + k = j + (k + 1) by omega]
  by_cases hn : n = 0
  · subst hn; rfl
  · exact key n (i + 1) _ rfl (by simp [Nonces.get]; omega) (by omega)

/-- C27: `get(start, count)` returns the `count` elements `get(start), get(start+1), …`. -/
theorem C27_get_range (s : Nonces) (start count : ℕ) (h : start + count < 2 ^ 64) :
    (s.getRange G C start count).1 = (List.range count).map (fun k => (s.get G C (start + k)).1) := by
  have key : ∀ (n j : ℕ) (t : Nonces), t.seed = s.seed →
      (Nonces.getLoop G C t j n).1 = (List.range n).map (fun k => (s.get G C (j + k)).1) := by
    intro n
    induction n with
    | zero => intro _ _ _; rfl
    | succ n ih =>
      intro j t hs
      rw [List.range_succ_eq_map, List.map_cons, List.map_map, Nonces.getLoop]
      simp only [List.cons.injEq]
      refine ⟨by simp [Nonces.get, hs], ?_⟩
      rw [ih (j + 1) (t.get G C j).2 hs]
      apply List.map_congr_left
      intro k _
      simp only [Function.comp, Nat.succ_eq_add_one]
      rw [show j + 1 + k = j + (k + 1) by omega]
  have h1 : (start + count) % 2 ^ 64 - start = count := by
    rw [Nat.mod_eq_of_lt h]; omega
  unfold Nonces.getRange
  simp only [h1]
  exact key count start s rfl

/-- C27, limit: when `start + count` overflows 64 bits, nothing is returned. -/
theorem C27_get_range_overflow (s : Nonces) (start count : ℕ) (hs : start < 2 ^ 64)
    (hc : count < 2 ^ 64) (h : 2 ^ 64 ≤ start + count) : (s.getRange G C start count).1 = [] := by
  have h1 : (start + count) % 2 ^ 64 - start = 0 := by omega
  unfold Nonces.getRange
  simp only [h1]
  rfl

/-- C27: different indices give different nonces unless the two strings hashed collide. -/
theorem C27_distinct (s : Nonces) (i j : ℕ) (hij : i ≠ j)
    (hc : NoCollision G C (hashQueries G C [.q s.seed, .u64 i] ++ hashQueries G C [.q s.seed, .u64 j])) :
    (s.get G C i).1 ≠ (s.get G C j).1 := by
  intro h
  have h1 := hc _ (by simp [hashQueries]) _ (by simp [hashQueries]) h
  have hd : ∀ k, '|' ∉ HAtom.render (.u64 k) := by
    intro k
    rw [HAtom.render]
    split
    · exact decimal_no_delim k
    · decide
  have hq : '|' ∉ HAtom.render (.q s.seed) := by
    rw [HAtom.render]; exact (toHexQ_no_delim _).1
  have h2 := hashInput_inj [HAtom.render (.q s.seed), HAtom.render (.u64 i)]
    [HAtom.render (.q s.seed), HAtom.render (.u64 j)]
    (by intro x hx; simp at hx; rcases hx with rfl | rfl; exacts [hq, hd i])
    (by intro x hx; simp at hx; rcases hx with rfl | rfl; exacts [hq, hd j]) h1
  simp only [List.cons.injEq, and_true, true_and] at h2
  have hn : ∀ k, decimal k ≠ nullString := by
    intro k hk
    have : 'n' ∈ decimal k := by rw [hk]; decide
    unfold decimal at this
    rw [List.mem_map] at this
    obtain ⟨d, hd, he⟩ := this
    have hch : ∀ d : Fin 10, Char.ofNat (48 + d.val) ≠ 'n' := by decide +kernel
    exact hch ⟨d, Nat.digits_lt_base (by norm_num) (List.mem_reverse.1 hd)⟩ he
  simp only [HAtom.render] at h2
  by_cases hi : i = 0
  · have hj : j ≠ 0 := by omega
    rw [if_neg (by omega), if_pos hj] at h2
    exact hn j h2.symm
  · by_cases hj : j = 0
    · rw [if_pos hi, if_neg (by omega)] at h2
      exact hn i h2
    · rw [if_pos hi, if_pos hj] at h2
      exact hij (decimal_inj _ _ h2)

example : ((Nonces.make 9).getRange .test demoCrypto 3 2).1 =
    [hashElems .test demoCrypto [.q 9, .u64 3], hashElems .test demoCrypto [.q 9, .u64 4]] := by
  rw [C27_get_range _ _ _ _ _ (by norm_num)]; simp [List.range_succ, Nonces.get, Nonces.make]

end EG
