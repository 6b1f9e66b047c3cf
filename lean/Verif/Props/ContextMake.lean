import Verif.Spec.ContextMake
import Verif.Lemmas.Collections
import Verif.Props.Collections
import Verif.Props.Serialize

/-!
# C99: all ways of creating an election context make the same context
-/

namespace EG

open CList (Mem LList Malloc Status)

/-! ## Maps -/

theorem holds_nil : Holds [] [] := by
  refine ⟨List.nodup_nil, fun key v => ⟨fun h => absurd h (by simp), ?_⟩⟩
  rintro ⟨pre, post, h, -⟩
  simp at h

theorem lastValue_append (es : List (Str × Str)) (k v key w : Str) :
    LastValue (es ++ [(k, v)]) key w ↔ (key = k ∧ w = v) ∨ (key ≠ k ∧ LastValue es key w) := by
  constructor
  · rintro ⟨pre, post, h, hp⟩
    rcases List.eq_nil_or_concat post with rfl | ⟨post', x, rfl⟩
    · have := List.append_inj' h rfl
      simp only [List.cons.injEq, Prod.mk.injEq, and_true] at this
      exact Or.inl ⟨this.2.1.symm, this.2.2.symm⟩
    · rw [List.concat_eq_append, ← List.cons_append, ← List.append_assoc] at h
      obtain ⟨h1, h2⟩ := List.append_inj' h rfl
      simp only [List.cons.injEq, and_true] at h2
      subst h2
      right
      refine ⟨fun hk => hp (k, v) (by simp) hk.symm, pre, post', h1, fun e he => hp e (by simp [he])⟩
  · rintro (⟨rfl, rfl⟩ | ⟨hk, pre, post, rfl, hp⟩)
    · exact ⟨es, [], rfl, by simp⟩
    · refine ⟨pre, post ++ [(k, v)], by simp, ?_⟩
      intro e he
      rcases List.mem_append.1 he with he | he
      · exact hp e he
      · rw [List.mem_singleton.1 he]
        exact fun h => hk h.symm

theorem holds_assign {d : Entries} {es : List (Str × Str)} (h : Holds d es) (k v : Str) :
    Holds (d.assign k v) (es ++ [(k, v)]) := by
  obtain ⟨hn, hm⟩ := h
  unfold Entries.assign
  by_cases hk : d.any (fun e => e.1 == k)
  · rw [if_pos hk]
    obtain ⟨e0, he0, hek⟩ := List.any_eq_true.1 hk
    have hek : e0.1 = k := by simpa using hek
    constructor
    · have : (d.map (fun e => if e.1 = k then (k, v) else e)).map Prod.fst = d.map Prod.fst := by
        rw [List.map_map]
        apply List.map_congr_left
        intro e _
        dsimp only [Function.comp]
        by_cases h : e.1 = k
        · rw [if_pos h, h]
        · rw [if_neg h]
      rw [this]
      exact hn
    · intro key w
      rw [lastValue_append, ← hm, List.mem_map]
      constructor
      · rintro ⟨e, he, heq⟩
        by_cases h : e.1 = k
        · rw [if_pos h] at heq
          injection heq with h1 h2
          exact Or.inl ⟨h1.symm, h2.symm⟩
        · rw [if_neg h] at heq
          subst heq
          exact Or.inr ⟨h, he⟩
      · rintro (⟨rfl, rfl⟩ | ⟨h, he⟩)
        · exact ⟨e0, he0, by rw [if_pos hek]⟩
        · exact ⟨(key, w), he, by rw [if_neg h]⟩
  · rw [if_neg hk]
    have hno : ∀ w, (k, w) ∉ d := by
      intro w hw
      exact hk (List.any_eq_true.2 ⟨_, hw, by simp⟩)
    constructor
    · rw [List.map_append, List.nodup_append']
      refine ⟨hn, by simp, ?_⟩
      intro x hx hx'
      obtain ⟨⟨a, w⟩, he, rfl⟩ := List.mem_map.1 hx
      simp only [List.map_cons, List.map_nil, List.mem_singleton] at hx'
      subst hx'
      exact hno w he
    · intro key w
      rw [lastValue_append, ← hm, List.mem_append, List.mem_singleton, Prod.mk.injEq]
      constructor
      · rintro (he | he)
        · right
          exact ⟨fun hk' => hno w (hk' ▸ he), he⟩
        · exact Or.inl he
      · rintro (he | ⟨-, he⟩)
        · exact Or.inr he
        · exact Or.inl he

/-- A list with distinct keys is held by its permutations only. -/
theorem holds_perm {d es : List (Str × Str)} (h : Holds d es) (hn : (es.map Prod.fst).Nodup) : d.Perm es := by
  apply (List.perm_ext_iff_of_nodup (List.Nodup.of_map _ h.1) (List.Nodup.of_map _ hn)).2
  rintro ⟨k, v⟩
  rw [h.2]
  constructor
  · rintro ⟨pre, post, rfl, -⟩
    simp
  · intro hmem
    obtain ⟨pre, post, rfl⟩ := List.append_of_mem hmem
    refine ⟨pre, post, rfl, ?_⟩
    intro e he hek
    rw [List.map_append, List.nodup_append'] at hn
    have := hn.2.1
    rw [List.map_cons, List.nodup_cons] at this
    exact this.1 (List.mem_map.2 ⟨e, he, hek⟩)

/-! ## Reading a list -/

theorem strAt_read {m : Mem} {a : CList.Addr} {s : Str} (h : CList.StrAt m a (some s)) : CList.readStr m a = .ok s := h

theorem readLoop_shows {m : Mem} {l : LList} {es : List (Str × Str)} (h : ShowsTexts m l es) (n i : ℕ) (d : Entries)
    (hi : i + n = es.length) (hd : Holds d (es.take i)) : ∃ d', readLoop m l n i d = .ok (some d') ∧ Holds d' es := by
  induction n generalizing i d with
  | zero =>
    refine ⟨d, rfl, ?_⟩
    rwa [List.take_of_length_le (by omega)] at hd
  | succ n ih =>
    have hlt : i < es.length := by omega
    obtain ⟨k, v, he, hk, hv⟩ := h.element i (by rwa [List.length_map])
    rw [List.getElem_map] at hk hv
    have hd' := holds_assign hd es[i].1 es[i].2
    rw [List.take_append_getElem hlt] at hd'
    obtain ⟨d', h1, h2⟩ := ih (i + 1) _ (by omega) hd'
    refine ⟨d', ?_, h2⟩
    unfold readLoop
    rw [he, Res.bind_ok]
    dsimp only
    rw [strAt_read hk, Res.bind_ok, strAt_read hv, Res.bind_ok]
    exact h1

theorem readList_shows {m : Mem} {l : LList} {es : List (Str × Str)} (h : ShowsTexts m l es) :
    ∃ d, readList m l = .ok (some d) ∧ Holds d es := by
  apply readLoop_shows h
  · rw [h.count, List.length_map, Nat.zero_add]
  · exact holds_nil

/-! ## C++ -/

section
variable (G : Params) (C : Crypto)

/-- The overloads that take elements: whatever is given is stored, the rest has its standard value. -/
theorem C99_elements (a : MakeArgs) (c : Config) (d : Entries) :
    (makePlain G C a).IsFor G C a ⟨true, 1000000⟩ ∧ (makePlain G C a).extendedData = [] ∧
    (makeConfig G C a c).IsFor G C a c ∧ (makeConfig G C a c).extendedData = [] ∧
    (makeData G C a d).IsFor G C a ⟨true, 1000000⟩ ∧ (makeData G C a d).extendedData = d ∧
    (makeConfigData G C a c d).IsFor G C a c ∧ (makeConfigData G C a c d).extendedData = d := by
  refine ⟨?_, rfl, ?_, rfl, ?_, rfl, ?_, rfl⟩ <;> exact ⟨rfl, rfl, rfl, rfl, rfl, rfl, rfl, rfl, rfl⟩

/-- The overloads that take texts agree with those that take elements. -/
theorem C99_hex_partial (hG : G.Valid) (a : MakeArgs) (c : Config) (d : Entries) (hp : Nonzero G.p a.pub)
    (hc : Nonzero G.q a.commitment) (hm : Nonzero G.q a.manifest) :
    let h : HexArgs := ⟨a.guardians, a.quorum, toHexP a.pub, toHexQ a.commitment, toHexQ a.manifest⟩
    makeHexPlain G C h = .ok (makePlain G C a) ∧ makeHexConfig G C h c = .ok (makeConfig G C a c) ∧
    makeHexData G C h d = .ok (makeData G C a d) ∧ makeHexConfigData G C h c d = .ok (makeConfigData G C a c d) := by
  intro h
  have hr : h.read G = .ok a := by
    unfold HexArgs.read
    rw [hexP_read hG hp, hexQ_read hG hc, hexQ_read hG hm]
    rfl
  unfold makeHexPlain makeHexConfig makeHexData makeHexConfigData
  rw [hr]
  exact ⟨rfl, rfl, rfl, rfl⟩

/-- `quorum` must not exceed the number of guardians (election.hpp, Election.cs), but nothing checks it: contexts are
made for every pair of numbers. -/
theorem C99_quorum_violated (n k pub commitment manifest : ℕ) (hk : n < k) :
    ∃ c, egMake G C ⟨n, k, pub, commitment, manifest⟩ = .ok (.success, some c) ∧
      c.context.numberOfGuardians < c.context.quorum :=
  ⟨_, rfl, hk⟩

/-! ## C -/

theorem withList_shows {m : Mem} {l : LList} {es : List (Str × Str)} (h : ShowsTexts m l es)
    (f : Entries → Res FullContext) : ∃ d, Holds d es ∧ withList m l f = caught (f d) := by
  obtain ⟨d, h1, h2⟩ := readList_shows h
  refine ⟨d, h2, ?_⟩
  unfold withList
  rw [h1]
  rfl

/-- The functions of the C interface that take elements: they succeed, and store each key of the list with its last
value. -/
theorem C99_c_elements (a : MakeArgs) (cfg : Config) (m : Mem) (l : LList) (es : List (Str × Str))
    (h : ShowsTexts m l es) :
    (∃ c, egMake G C a = .ok (.success, some c) ∧ c.IsFor G C a ⟨true, 1000000⟩ ∧ c.extendedData = []) ∧
    (∃ c, egMakeConfig G C a cfg = .ok (.success, some c) ∧ c.IsFor G C a cfg ∧ c.extendedData = []) ∧
    (∃ c, egMakeData G C a m l = .ok (.success, some c) ∧ c.IsFor G C a ⟨true, 1000000⟩ ∧ Holds c.extendedData es) ∧
    (∃ c, egMakeConfigData G C a cfg m l = .ok (.success, some c) ∧ c.IsFor G C a cfg ∧ Holds c.extendedData es) := by
  have hf := C99_elements G C a cfg
  refine ⟨⟨_, rfl, (hf []).1, rfl⟩, ⟨_, rfl, (hf []).2.2.1, rfl⟩, ?_, ?_⟩
  · obtain ⟨d, h1, h2⟩ := withList_shows h (fun d => .ok (makeData G C a d))
    exact ⟨_, h2, (hf d).2.2.2.2.1, h1⟩
  · obtain ⟨d, h1, h2⟩ := withList_shows h (fun d => .ok (makeConfigData G C a ⟨cfg.allowOvervotes, cfg.maxBallots⟩ d))
    exact ⟨_, h2, (hf d).2.2.2.2.2.2.1, h1⟩

/-- Creating a context of texts fails with a status exactly if the overload of C++ throws. -/
theorem C99_c_hex (a : HexArgs) :
    (∀ c, egMakeHex G C a = .ok (.success, some c) ↔ makeHexPlain G C a = .ok c) ∧
    (egMakeHex G C a = .ok (.badAlloc, none) ↔ ∃ e, makeHexPlain G C a = .throw e) := by
  unfold egMakeHex
  cases makeHexPlain G C a with
  | ok c => simp [caught]
  | throw e => simp [caught]
  | ub => simp [caught]

/-- `eg_ciphertext_election_context_make_from_hex_with_extended_data` loses the extended data, whatever it is. -/
theorem C99_hex_data_violated (a : HexArgs) (m : Mem) (l : LList) (es : List (Str × Str)) (h : ShowsTexts m l es) :
    egMakeHexData G C a m l = egMakeHex G C a ∧
      ∀ c, egMakeHexData G C a m l = .ok (.success, some c) → c.extendedData = [] := by
  obtain ⟨d, -, h2⟩ := withList_shows h (fun _ => makeHexPlain G C a)
  have he : egMakeHexData G C a m l = egMakeHex G C a := h2
  refine ⟨he, ?_⟩
  intro c hc
  rw [he] at hc
  have := ((C99_c_hex G C a).1 c).1 hc
  unfold makeHexPlain at this
  obtain ⟨b, -, hb⟩ := (Res.bind_eq_ok _ _ _).1 this
  injection hb with hb
  rw [← hb]
  rfl

/-- If `strdup` failed when an entry was appended, which `append` does not report, creating a context is undefined. -/
theorem C99_missing_text_violated (a : MakeArgs) (m : Mem) (l : LList) (e : CList.Entry) (es : List CList.Entry)
    (h : CList.Shows m l (e :: es)) (he : e.1 = none ∨ e.2 = none) : egMakeData G C a m l = .ub := by
  obtain ⟨k, v, h1, hk, hv⟩ := h.element 0 (by simp)
  have hc : CList.getCount l = es.length + 1 := by rw [h.count, List.length_cons]
  rw [List.getElem_cons_zero] at hk hv
  unfold egMakeData withList readList
  rw [hc, readLoop, h1, Res.bind_ok]
  dsimp only
  have hz : CList.readStr m 0 = .ub := rfl
  obtain ⟨ek, ev⟩ := e
  cases ek with
  | none =>
    rw [show k = 0 from hk, hz]
    rfl
  | some s =>
    rcases he with he | he
    · cases he
    · cases he
      rw [show CList.readStr m k = .ok s from hk, show v = 0 from hv, hz]
      rfl

end

/-! ## The extended data as a list -/

/-- The text is the entry's up to the first zero, or missing. -/
def Shown (e : Str × Str) (x : CList.Entry) : Prop :=
  (x.1 = none ∨ x.1 = some (cText e.1)) ∧ (x.2 = none ∨ x.2 = some (cText e.2))

theorem appendAll_rep (A : Malloc) (d : Entries) {h0 : CList.Heap} {m : Mem} {l : LList} {xs : List CList.Item}
    {es : List CList.Entry} (r : CList.Rep h0 m l xs es) :
    ∃ l' m' xs' ks ns, appendAll A d m l = .ok (l', m') ∧ CList.Rep h0 m' l' xs' (es ++ ns) ∧ ks.Sublist d ∧
      List.Forall₂ Shown ks ns := by
  induction d generalizing m l xs es with
  | nil => exact ⟨l, m, xs, [], [], rfl, by rwa [List.append_nil], List.Sublist.refl _, .nil⟩
  | cons e d ih =>
    obtain ⟨st, l1, m1, h1, h2⟩ := CList.append_rep A r (cText e.1) (cText e.2)
    rcases h2 with ⟨-, r1, -⟩ | ⟨-, x, n, r1, he1, he2⟩
    · obtain ⟨l', m', xs', ks, ns, h3, h4, h5, h6⟩ := ih r1
      refine ⟨l', m', xs', ks, ns, ?_, h4, h5.cons _, h6⟩
      rw [appendAll, h1, Res.bind_ok]
      exact h3
    · obtain ⟨l', m', xs', ks, ns, h3, h4, h5, h6⟩ := ih r1
      refine ⟨l', m', xs', e :: ks, n :: ns, ?_, ?_, h5.cons_cons _, .cons ⟨he1, he2⟩ h6⟩
      · rw [appendAll, h1, Res.bind_ok]
        exact h3
      · rwa [List.append_assoc] at h4

/-- Whatever `malloc` does, giving out the extended data is defined; the list shows some of the entries, in order, with
texts up to the first zero or missing; the rest of the memory is untouched. -/
theorem C99_get_partial (A : Malloc) (m : Mem) (c : FullContext) :
    (∃ m', egGetExtendedData A m c = .ok (.badAlloc, none, m')) ∨
    ∃ l m' ks ns, egGetExtendedData A m c = .ok (.success, some l, m') ∧ CList.Shows m' l ns ∧
      ks.Sublist c.extendedData ∧ List.Forall₂ Shown ks ns ∧ ∀ b, m.heap b ≠ none → m'.heap b = m.heap b := by
  unfold egGetExtendedData
  dsimp only
  by_cases h : (CList.malloc A m .raw).1 = 0
  · rw [if_pos h]
    exact Or.inl ⟨_, rfl⟩
  · rw [if_neg h]
    obtain ⟨l', m', xs', ks, ns, h1, h2, h3, h4⟩ := appendAll_rep A c.extendedData (CList.rep_new (CList.malloc A m .raw).2)
    refine Or.inr ⟨l', m', ks, ns, ?_, h2.shows, h3, h4, ?_⟩
    · rw [h1]
      rfl
    · intro b hb
      rcases CList.malloc_spec A m .raw with ⟨h0, -⟩ | ⟨-, -, hf, hh⟩
      · exact absurd h0 h
      have hne : b ≠ (CList.malloc A m .raw).1 := by
        rintro rfl
        exact hb hf
      have hb' : (CList.malloc A m .raw).2.heap b = m.heap b := by
        rw [hh, Function.update_of_ne hne]
      rw [h2.frame b (fun hc => hb (by rw [← hb', h2.unused b hc])), hb']

/-- If the list has as many elements as there are entries and no text is missing, it shows the entries. -/
theorem C99_get_complete (A : Malloc) (m m' : Mem) (c : FullContext) (l : LList)
    (h : egGetExtendedData A m c = .ok (.success, some l, m')) (hc : CList.getCount l = c.extendedData.length)
    (hn : ∀ i k v, CList.getElementAt m' l i = .ok (.success, some (k, v)) → k ≠ 0 ∧ v ≠ 0) :
    ShowsTexts m' l (c.extendedData.map (fun e => (cText e.1, cText e.2))) := by
  rcases C99_get_partial A m c with ⟨m1, h1⟩ | ⟨l1, m1, ks, ns, h1, hs, hk, hf, -⟩
  · rw [h] at h1
    simp at h1
  rw [h] at h1
  simp only [Res.ok.injEq, Prod.mk.injEq, Option.some.injEq, true_and] at h1
  obtain ⟨rfl, rfl⟩ := h1
  have hks : ks = c.extendedData := by
    apply hk.eq_of_length
    rw [← hc, hs.count, hf.length_eq]
  subst hks
  unfold ShowsTexts
  rw [List.map_map]
  have : ns = c.extendedData.map ((fun e => (some e.1, some e.2)) ∘ fun e => (cText e.1, cText e.2)) := by
    apply List.ext_getElem (by simp [hf.length_eq])
    intro i hi hi'
    have hi'' : i < c.extendedData.length := by simpa using hi'
    obtain ⟨k, v, h6, h7, h8⟩ := hs.element i hi
    obtain ⟨hk0, hv0⟩ := hn i k v h6
    have h9 := (List.forall₂_iff_get.1 hf).2 i hi'' hi
    simp only [List.get_eq_getElem] at h9
    rw [List.getElem_map]
    apply Prod.ext
    · rcases h9.1 with h | h
      · rw [h] at h7
        exact absurd h7 hk0
      · exact h
    · rcases h9.2 with h | h
      · rw [h] at h8
        exact absurd h8 hv0
      · exact h
  rwa [← this]

theorem cText_of (s : Str) (h : Char.ofNat 0 ∉ s) : cText s = s := by
  unfold cText
  induction s with
  | nil => rfl
  | cons c s ih =>
    rw [List.mem_cons, not_or] at h
    rw [List.takeWhile_cons_of_pos (by simpa using fun hc => h.1 hc.symm), ih h.2]

/-- Giving the extended data out and making a context of the list: the same context, if nothing was lost for lack of
memory and no text has a zero in it. -/
theorem C99_round_trip (G : Params) (C : Crypto) (A : Malloc) (m m' : Mem) (a : MakeArgs) (d : Entries) (l : LList)
    (hd : (d.map Prod.fst).Nodup) (h0 : ∀ e ∈ d, Char.ofNat 0 ∉ e.1 ∧ Char.ofNat 0 ∉ e.2)
    (h : egGetExtendedData A m (makeData G C a d) = .ok (.success, some l, m')) (hc : CList.getCount l = d.length)
    (hn : ∀ i k v, CList.getElementAt m' l i = .ok (.success, some (k, v)) → k ≠ 0 ∧ v ≠ 0) :
    ∃ d', egMakeData G C a m' l = .ok (.success, some { makeData G C a d with extendedData := d' }) ∧ d'.Perm d := by
  have h1 := C99_get_complete A m m' (makeData G C a d) l h hc hn
  have h2 : (makeData G C a d).extendedData.map (fun e => (cText e.1, cText e.2)) = d := by
    show d.map _ = d
    conv_rhs => rw [← List.map_id d]
    apply List.map_congr_left
    intro e he
    rw [cText_of _ (h0 e he).1, cText_of _ (h0 e he).2]
    rfl
  rw [h2] at h1
  obtain ⟨d', h3, h4⟩ := withList_shows h1 (fun d => .ok (makeData G C a d))
  exact ⟨d', h4, holds_perm h3 hd⟩

/-- Success is reported although entries are lost for lack of memory. -/
theorem C99_get_violated (G : Params) (C : Crypto) (a : MakeArgs) (key value : Str) :
    ∃ A l m', egGetExtendedData A CList.emptyMem (makeData G C a [(key, value)]) = .ok (.success, some l, m') ∧
      CList.getCount l = 0 := by
  exact ⟨CList.bump (fun t => t == 1), CList.new,
    ⟨(CList.malloc (CList.bump (fun t => t == 1)) CList.emptyMem .raw).2.heap, 2⟩, rfl, rfl⟩

/-- The text of an entry is cut at the first zero. -/
theorem C99_zero_violated (A : Malloc) (m m' : Mem) (c : FullContext) (l : LList) (key s t : Str)
    (hd : c.extendedData = [(key, s ++ Char.ofNat 0 :: t)])
    (h : egGetExtendedData A m c = .ok (.success, some l, m')) (i : ℕ) (v : CList.Addr) (u : Str)
    (hv : CList.getValueAt m' l i = .ok (.success, some v)) (hu : CList.readStr m' v = .ok u) : u.length ≤ s.length := by
  rcases C99_get_partial A m c with ⟨m1, h1⟩ | ⟨l1, m1, ks, ns, h1, hs, hk, hf, -⟩
  · rw [h] at h1
    simp at h1
  rw [h] at h1
  simp only [Res.ok.injEq, Prod.mk.injEq, Option.some.injEq, true_and] at h1
  obtain ⟨rfl, rfl⟩ := h1
  by_cases hi : i < ns.length
  · obtain ⟨v', h2, h3⟩ := hs.value i hi
    rw [hv] at h2
    simp only [Res.ok.injEq, Prod.mk.injEq, Option.some.injEq, true_and] at h2
    subst h2
    have h9 := (List.forall₂_iff_get.1 hf).2 i (by rw [hf.length_eq]; exact hi) hi
    simp only [List.get_eq_getElem] at h9
    rcases h9.2 with h5 | h5
    · rw [h5] at h3
      rw [show v = 0 from h3] at hu
      cases hu
    · rw [h5] at h3
      rw [strAt_read h3] at hu
      injection hu with hu
      have hmem := hk.subset (List.getElem_mem (show i < ks.length by rw [hf.length_eq]; exact hi))
      rw [hd, List.mem_singleton] at hmem
      rw [← hu, hmem]
      unfold cText
      rw [List.takeWhile_append]
      split_ifs with hc
      · simp
      · exact (List.takeWhile_prefix _).length_le
  · rw [(hs.outside i (by omega)).2] at hv
    simp at hv

/-! ## C# -/

/-- Reading the value of a key from the list of C#: the first one, where the context holds the last one. -/
theorem C99_duplicate_violated (G : Params) (C : Crypto) (a : MakeArgs) (m : Mem) (l : LList) (key v w : Str)
    (h : ShowsTexts m l [(key, v), (key, w)]) :
    csIndex m l key = .ok (some v) ∧
      ∃ c, egMakeData G C a m l = .ok (.success, some c) ∧ c.extendedData = [(key, w)] := by
  have hc : CList.getCount l = 2 := h.count
  obtain ⟨k0, v0, h0, hk0, hv0⟩ := h.element 0 (by simp)
  obtain ⟨k1, v1, h1, hk1, hv1⟩ := h.element 1 (by simp)
  simp only [List.map_cons, List.map_nil, List.getElem_cons_zero, List.getElem_cons_succ] at hk0 hv0 hk1 hv1
  have ne : ∀ {b s}, CList.StrAt m b (some s) → b ≠ 0 := by
    rintro b s hb rfl
    cases hb
  constructor
  · unfold csIndex
    rw [hc, csFind, h0, Res.bind_ok]
    dsimp only
    unfold csString
    rw [if_neg (ne hk0), strAt_read hk0, Res.bind_ok, Res.bind_ok, if_pos rfl, if_neg (ne hv0), strAt_read hv0]
    rfl
  · refine ⟨makeData G C a [(key, w)], ?_, rfl⟩
    unfold egMakeData withList readList
    rw [hc, readLoop, h0, Res.bind_ok]
    dsimp only
    rw [strAt_read hk0, Res.bind_ok, strAt_read hv0, Res.bind_ok, readLoop, h1, Res.bind_ok]
    dsimp only
    rw [strAt_read hk1, Res.bind_ok, strAt_read hv1, Res.bind_ok, readLoop]
    have : ((Entries.assign [] key v).assign key w) = [(key, w)] := by simp [Entries.assign]
    rw [this]
    rfl

/-- Reading the value of a key from the list of C#: that of the context, if the keys are distinct. -/
theorem C99_index_partial (m : Mem) (l : LList) (es : List (Str × Str)) (d : Entries) (h : ShowsTexts m l es)
    (hn : (es.map Prod.fst).Nodup) (hd : Holds d es) (key : Str) :
    ∃ r, csIndex m l key = .ok r ∧ ∀ v, r = some v ↔ (key, v) ∈ d := by
  have hp := holds_perm hd hn
  have gen : ∀ n i, i + n = es.length → ∃ r, csFind m l key n i = .ok r ∧ ∀ v, r = some v ↔ (key, v) ∈ es.drop i := by
    intro n
    induction n with
    | zero =>
      intro i hi
      refine ⟨none, rfl, fun v => ?_⟩
      rw [List.drop_of_length_le (by omega)]
      simp
    | succ n ih =>
      intro i hi
      have hlt : i < es.length := by omega
      obtain ⟨k, a, he, hk, hv⟩ := h.element i (by rwa [List.length_map])
      rw [List.getElem_map] at hk hv
      have ne : ∀ {b s}, CList.StrAt m b (some s) → b ≠ 0 := by
        rintro b s hb rfl
        cases hb
      have e1 : csString m k = .ok (some es[i].1) := by
        unfold csString
        rw [if_neg (ne hk), strAt_read hk]
        rfl
      have e2 : csString m a = .ok (some es[i].2) := by
        unfold csString
        rw [if_neg (ne hv), strAt_read hv]
        rfl
      rw [List.drop_eq_getElem_cons hlt]
      by_cases hkey : es[i].1 = key
      · refine ⟨some es[i].2, ?_, fun v => ?_⟩
        · rw [csFind, he, Res.bind_ok]
          dsimp only
          rw [e1, Res.bind_ok, if_pos (by rw [hkey]), e2]
        · rw [Option.some.injEq, List.mem_cons]
          constructor
          · intro hv'
            left
            rw [← hkey, ← hv']
          · rintro (h1 | h1)
            · rw [← h1]
            · exfalso
              have : ((es.drop i).map Prod.fst).Nodup := by
                rw [List.map_drop]
                exact hn.sublist (List.drop_sublist _ _)
              rw [List.drop_eq_getElem_cons hlt, List.map_cons, List.nodup_cons] at this
              exact this.1 (List.mem_map.2 ⟨_, h1, hkey.symm⟩)
      · obtain ⟨r, h1, h2⟩ := ih (i + 1) (by omega)
        refine ⟨r, ?_, fun v => ?_⟩
        · rw [csFind, he, Res.bind_ok]
          dsimp only
          rw [e1, Res.bind_ok, if_neg (by rw [Option.some.injEq]; exact hkey), h1]
        · rw [h2, List.mem_cons]
          constructor
          · exact Or.inr
          · rintro (h3 | h3)
            · exact absurd (by rw [← h3]) hkey
            · exact h3
  obtain ⟨r, h1, h2⟩ := gen (CList.getCount l) 0 (by rw [h.count, List.length_map, Nat.zero_add])
  refine ⟨r, h1, fun v => ?_⟩
  rw [h2, List.drop_zero, hp.mem_iff]

/-! ## Non-vacuity -/

/-- A list with a key twice. -/
theorem sample_shows : ∃ m l, ShowsTexts m l [(['k'], ['v']), (['k'], ['w'])] := by
  obtain ⟨l, m, h⟩ : ∃ l m, CList.runAll (CList.bump fun _ => false) [.append ['k'] ['v'], .append ['k'] ['w']]
      CList.emptyMem CList.new = .ok ([.success, .success], l, m) ∧
      CList.getElementAt m l 0 = .ok (.success, some (2, 3)) ∧ CList.getElementAt m l 1 = .ok (.success, some (5, 6)) ∧
      CList.getCount l = 2 := by
    refine ⟨_, _, rfl, ?_, ?_, ?_⟩ <;> decide
  refine ⟨m, l, CList.C50_no_failure _ _ _ _ l m h.1 (by simp) ?_⟩
  intro i k v hi
  match i with
  | 0 =>
    rw [h.2.1] at hi
    simp only [Res.ok.injEq, Prod.mk.injEq, Option.some.injEq, true_and] at hi
    obtain ⟨rfl, rfl⟩ := hi
    exact ⟨by decide, by decide⟩
  | 1 =>
    rw [h.2.2.1] at hi
    simp only [Res.ok.injEq, Prod.mk.injEq, Option.some.injEq, true_and] at hi
    obtain ⟨rfl, rfl⟩ := hi
    exact ⟨by decide, by decide⟩
  | i + 2 =>
    exfalso
    rw [CList.getElementAt, if_pos (Or.inr (by rw [show l.count = 2 from h.2.2.2]; omega))] at hi
    simp at hi

example (G : Params) (C : Crypto) : ∃ m l v w, v ≠ w ∧ csIndex m l ['k'] = .ok (some v) ∧
    ∃ c, egMakeData G C ⟨5, 3, 1, 2, 3⟩ m l = .ok (.success, some c) ∧ c.extendedData = [(['k'], w)] := by
  obtain ⟨m, l, h⟩ := sample_shows
  exact ⟨m, l, ['v'], ['w'], by decide, C99_duplicate_violated G C _ m l _ _ _ h⟩

/-- The extended data is lost: the function with texts returns a context without any. -/
example (C : Crypto) : ∃ m l c, egMakeHexData .std C ⟨5, 3, toHexP 4, toHexQ 2, toHexQ 3⟩ m l = .ok (.success, some c) ∧
    c.extendedData = [] ∧ ∃ v, LastValue [(['k'], ['v']), (['k'], ['w'])] ['k'] v ∧
      ShowsTexts m l [(['k'], ['v']), (['k'], ['w'])] := by
  obtain ⟨m, l, h⟩ := sample_shows
  obtain ⟨h1, h2⟩ := C99_hex_data_violated .std C ⟨5, 3, toHexP 4, toHexQ 2, toHexQ 3⟩ m l _ h
  have h3 := (C99_hex_partial .std C C54_std_valid ⟨5, 3, 4, 2, 3⟩ .standard [] ⟨by norm_num, by decide +kernel⟩
    ⟨by norm_num, by decide +kernel⟩ ⟨by norm_num, by decide +kernel⟩).1
  have h4 := ((C99_c_hex .std C _).1 _).2 h3
  rw [← h1] at h4
  exact ⟨m, l, _, h4, h2 _ h4, ['w'], ⟨[(['k'], ['v'])], [], rfl, by simp⟩, h⟩

/-- A list with a text missing. -/
example : ∃ l m es, CList.runAll (CList.bump fun t => t == 2) [.append ['k'] ['v']] CList.emptyMem CList.new =
    .ok ([.success], l, m) ∧ CList.Shows m l ((some ['k'], none) :: es) := by
  obtain ⟨ss, l, m, es, h1, h2, h3, -⟩ := CList.C50_history (CList.bump fun t => t == 2) [.append ['k'] ['v']] CList.emptyMem
  obtain ⟨l', m', h4⟩ : ∃ l m, CList.runAll (CList.bump fun t => t == 2) [.append ['k'] ['v']] CList.emptyMem CList.new =
      .ok ([.success], l, m) ∧ CList.getElementAt m l 0 = .ok (.success, some (2, 0)) := by
    refine ⟨_, _, rfl, ?_⟩
    decide
  have := h4.1
  rw [h1] at this
  simp only [Res.ok.injEq, Prod.mk.injEq] at this
  obtain ⟨rfl, rfl, rfl⟩ := this
  obtain ⟨mid, ⟨e, rfl, he1, he2⟩, hes⟩ := h2
  simp only [CList.Effects] at hes
  subst hes
  obtain ⟨k, v, h5, h6, h7⟩ := h3.element 0 (by simp)
  rw [h4.2] at h5
  simp only [Res.ok.injEq, Prod.mk.injEq, Option.some.injEq, true_and] at h5
  obtain ⟨rfl, rfl⟩ := h5
  refine ⟨l, m, [], h1, ?_⟩
  simp only [List.nil_append, List.getElem_cons_zero] at h6 h7
  obtain ⟨e1, e2⟩ := e
  dsimp only at he1 he2 h6 h7
  have a1 : e1 = some ['k'] := by
    rcases he1 with rfl | rfl
    · cases h6
    · rfl
  have a2 : e2 = none := by
    rcases he2 with rfl | rfl
    · rfl
    · cases h7
  rw [← a1, ← a2]
  exact h3

/-- The hypotheses of `C99_round_trip`. -/
example (G : Params) (C : Crypto) : ∃ A m m' l,
    egGetExtendedData A m (makeData G C ⟨5, 3, 1, 2, 3⟩ [(['k'], ['v'])]) = .ok (.success, some l, m') ∧
    CList.getCount l = 1 ∧ CList.getElementAt m' l 0 = .ok (.success, some (3, 4)) := by
  refine ⟨CList.bump fun _ => false, CList.emptyMem, _, _, rfl, ?_, ?_⟩ <;> decide

end EG
