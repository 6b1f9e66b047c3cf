import Verif.Spec.Precompute
import Verif.Props.ElGamal

/-!
# C28-C30: precompute buffers
-/

namespace EG

variable (G : Params)

/-! ## C28 -/

/-- The combined entries generated by an operation. -/
def newQuads (s : PreState) (op : PreOp) : List TwoTriplesQuad :=
  match op with
  | .iterate pub _ d => if s.populateOk then
      [⟨genTriple G pub d.t1, genTriple G pub d.t2, genQuadruple G pub d.q1 d.q2⟩] else []
  | _ => []

/-- The single triples generated by an operation. -/
def newTriples (s : PreState) (op : PreOp) : List Triple :=
  match op with
  | .iterate pub it d => if s.populateOk ∧ it % 3 = 0 then
      [genTriple G pub d.c1, genTriple G pub d.c2] else []
  | _ => []

/-- The combined entries generated by a history, in order of generation. -/
def generatedQuads (s : PreState) : List PreOp → List TwoTriplesQuad
  | [] => []
  | op :: ops => newQuads G s op ++ generatedQuads (s.step G op).2 ops

/-- The single triples generated by a history, in order of generation. -/
def generatedTriples (s : PreState) : List PreOp → List Triple
  | [] => []
  | op :: ops => newTriples G s op ++ generatedTriples (s.step G op).2 ops

/-- C28: in every history, what was handed out followed by what is still queued is a subsequence of
what was queued at the start followed by what was generated: so each generated entry is handed out at
most once and in the order of generation.  (Subsequence: positions, not values.) -/
theorem C28_at_most_once_in_order (s : PreState) (ops : List PreOp) :
    ((s.run G ops).1.filterMap PreOut.quad ++ (s.run G ops).2.quads).Sublist
        (s.quads ++ generatedQuads G s ops) ∧
    ((s.run G ops).1.filterMap PreOut.triple ++ (s.run G ops).2.triples).Sublist
        (s.triples ++ generatedTriples G s ops) := by
  induction ops generalizing s with
  | nil => simp [PreState.run, generatedQuads, generatedTriples]
  | cons op ops ih =>
    obtain ⟨ih1, ih2⟩ := ih (s.step G op).2
    rw [PreState.run, generatedQuads, generatedTriples]
    simp only [newQuads, newTriples]
    cases op with
    | init n => simpa [PreState.step, PreState.init] using And.intro ih1 ih2
    | stop => simpa [PreState.step, PreState.stop] using And.intro ih1 ih2
    | iterate pub it d =>
      simp only [PreState.step] at ih1 ih2 ⊢
      by_cases h : s.populateOk = true
      · simp only [h, if_true, true_and, List.filterMap_cons] at ih1 ih2 ⊢
        constructor
        · simpa [PreState.iterate] using ih1
        · by_cases h3 : it % 3 = 0
          · simpa [PreState.iterate, h3] using ih2
          · simpa [PreState.iterate, h3] using ih2
      · simp only [h, List.filterMap_cons] at ih1 ih2 ⊢
        simpa using And.intro ih1 ih2
    | getQuad =>
      simp only [PreState.step, PreState.getQuad] at ih1 ih2 ⊢
      cases hq : s.quads with
      | nil => simp only [hq, List.filterMap_cons] at ih1 ih2 ⊢; simpa using And.intro ih1 ih2
      | cons x xs =>
        simp only [hq, List.filterMap_cons] at ih1 ih2 ⊢
        constructor
        · simpa using ih1
        · simpa using ih2
    | getTriple =>
      simp only [PreState.step, PreState.getTriple] at ih1 ih2 ⊢
      cases hq : s.triples with
      | nil => simp only [hq, List.filterMap_cons] at ih1 ih2 ⊢; simpa using And.intro ih1 ih2
      | cons x xs =>
        simp only [hq, List.filterMap_cons] at ih1 ih2 ⊢
        constructor
        · simpa using ih1
        · simpa using ih2
    | empty =>
      simp only [PreState.step, PreState.empty, List.filterMap_cons, List.nil_append] at ih1 ih2 ⊢
      exact ⟨ih1.trans ((List.drop_sublist _ _).append_right _),
        ih2.trans ((List.drop_sublist _ _).append_right _)⟩

/-- Without `empty_queues` nothing is lost either: handed out and queued entries together are exactly
the generated ones. -/
theorem C28_nothing_lost (s : PreState) (ops : List PreOp) (h : ∀ op ∈ ops, op ≠ .empty) :
    (s.run G ops).1.filterMap PreOut.quad ++ (s.run G ops).2.quads =
        s.quads ++ generatedQuads G s ops ∧
    (s.run G ops).1.filterMap PreOut.triple ++ (s.run G ops).2.triples =
        s.triples ++ generatedTriples G s ops := by
  induction ops generalizing s with
  | nil => simp [PreState.run, generatedQuads, generatedTriples]
  | cons op ops ih =>
    obtain ⟨ih1, ih2⟩ := ih (s.step G op).2 (fun o ho => h o (by simp [ho]))
    rw [PreState.run, generatedQuads, generatedTriples]
    simp only [newQuads, newTriples]
    cases op with
    | init n => simpa [PreState.step, PreState.init] using And.intro ih1 ih2
    | stop => simpa [PreState.step, PreState.stop] using And.intro ih1 ih2
    | iterate pub it d =>
      simp only [PreState.step] at ih1 ih2 ⊢
      by_cases h : s.populateOk = true
      · simp only [h, if_true, true_and, List.filterMap_cons] at ih1 ih2 ⊢
        constructor
        · simpa [PreState.iterate] using ih1
        · by_cases h3 : it % 3 = 0
          · simpa [PreState.iterate, h3] using ih2
          · simpa [PreState.iterate, h3] using ih2
      · simp only [h, List.filterMap_cons] at ih1 ih2 ⊢
        simpa using And.intro ih1 ih2
    | getQuad =>
      simp only [PreState.step, PreState.getQuad] at ih1 ih2 ⊢
      cases hq : s.quads with
      | nil => simp only [hq, List.filterMap_cons] at ih1 ih2 ⊢; simpa using And.intro ih1 ih2
      | cons x xs =>
        simp only [hq, List.filterMap_cons] at ih1 ih2 ⊢
        constructor
        · simpa using ih1
        · simpa using ih2
    | getTriple =>
      simp only [PreState.step, PreState.getTriple] at ih1 ih2 ⊢
      cases hq : s.triples with
      | nil => simp only [hq, List.filterMap_cons] at ih1 ih2 ⊢; simpa using And.intro ih1 ih2
      | cons x xs =>
        simp only [hq, List.filterMap_cons] at ih1 ih2 ⊢
        constructor
        · simpa using ih1
        · simpa using ih2
    | empty => exact absurd rfl (h .empty (by simp))

/-- C28: a `get` returns nothing exactly if the queue is empty. -/
theorem C28_get_none_iff (s : PreState) :
    (s.getQuad.1 = none ↔ s.quads = []) ∧ (s.getTriple.1 = none ↔ s.triples = []) := by
  constructor
  · unfold PreState.getQuad; cases s.quads <;> simp
  · unfold PreState.getTriple; cases s.triples <;> simp

/-- C28: after `empty_queues` (queues below `2^31` entries) nothing generated before is handed out:
everything handed out later was generated later. -/
theorem C28_empty_discards (s : PreState) (ops : List PreOp) (hq : s.quads.length < 2 ^ 31)
    (ht : s.triples.length < 2 ^ 31) :
    ((s.empty.run G ops).1.filterMap PreOut.quad).Sublist (generatedQuads G s.empty ops) ∧
    ((s.empty.run G ops).1.filterMap PreOut.triple).Sublist (generatedTriples G s.empty ops) := by
  have h1 : s.empty.quads = [] := by
    simp only [PreState.empty, popCount]
    rw [Nat.mod_eq_of_lt (by omega), if_pos hq, List.drop_length]
  have h2 : s.empty.triples = [] := by
    simp only [PreState.empty, popCount]
    rw [Nat.mod_eq_of_lt (by omega), if_pos ht, List.drop_length]
  obtain ⟨a, b⟩ := C28_at_most_once_in_order G s.empty ops
  rw [h1, List.nil_append] at a
  rw [h2, List.nil_append] at b
  exact ⟨(List.sublist_append_left _ _).trans a, (List.sublist_append_left _ _).trans b⟩

/-- C28: beyond `2^31` entries `empty_queues` leaves the queue as it is (the size is cast to
`int`). -/
theorem C28_empty_large (s : PreState) (h : 2 ^ 31 ≤ s.quads.length) (h' : s.quads.length < 2 ^ 32) :
    s.empty.quads = s.quads := by
  simp only [PreState.empty, popCount]
  rw [Nat.mod_eq_of_lt h', if_neg (by omega), List.drop_zero]

example : (PreState.initial.run .test [.init 2, .iterate 3 0 ⟨5, 6, 7, 8, 9, 10⟩, .getTriple]).1.filterMap
    PreOut.triple = [genTriple .test 3 9] := rfl

/-! ## C29 -/

theorem populateLoop_spec (pub : ℕ) (draws : ℕ → Draws) (n : ℕ) :
    ∀ (it : ℕ) (s : PreState), s.populateOk = true → s.max - s.quads.length = n →
      it + Nat.max 1 n < 2 ^ 31 →
      ∃ s', PreState.populateLoop G pub draws it s = .ok s' ∧ s'.max = s.max ∧ s'.populateOk = true ∧
        s'.quads.length = s.quads.length + Nat.max 1 n ∧
        s'.triples.length = s.triples.length +
          2 * ((List.range (Nat.max 1 n)).filter (fun k => (it + k) % 3 = 0)).length := by
  have one : ∀ (it : ℕ) (s : PreState), (s.iterate G pub it (draws it)).triples.length =
      s.triples.length + if it % 3 = 0 then 2 else 0 := by
    intro it s
    simp only [PreState.iterate]
    split <;> simp
  induction n with
  | zero =>
    intro it s hok hn hit
    have hit' : it + 1 < 2 ^ 31 := by simpa using hit
    refine ⟨s.iterate G pub it (draws it), ?_, rfl, hok, by simp [PreState.iterate], ?_⟩
    · rw [PreState.populateLoop, if_pos hok, if_neg (by omega), if_neg]
      simp only [PreState.iterate, List.length_append, List.length_singleton]
      omega
    · rw [one]
      by_cases h3 : it % 3 = 0 <;> simp [h3]
  | succ n ih =>
    intro it s hok hn hit
    have hmax : ∀ k, Nat.max 1 (k + 1) = k + 1 := fun k => Nat.max_eq_right (by omega)
    rw [hmax] at hit ⊢
    by_cases hlast : n = 0
    · subst hlast
      refine ⟨s.iterate G pub it (draws it), ?_, rfl, hok, by simp [PreState.iterate], ?_⟩
      · rw [PreState.populateLoop, if_pos hok, if_neg (by omega), if_neg]
        simp only [PreState.iterate, List.length_append, List.length_singleton]
        omega
      · rw [one]
        by_cases h3 : it % 3 = 0 <;> simp [h3]
    · obtain ⟨m, rfl⟩ : ∃ m, n = m + 1 := ⟨n - 1, by omega⟩
      obtain ⟨s', h1, h2, h3, h4, h5⟩ := ih (it + 1) (s.iterate G pub it (draws it)) hok
        (by simp only [PreState.iterate, List.length_append, List.length_singleton]; omega)
        (by rw [hmax]; omega)
      refine ⟨s', ?_, h2, h3, ?_, ?_⟩
      · rw [PreState.populateLoop, if_pos hok, if_neg (by omega), if_pos, h1]
        simp only [PreState.iterate, List.length_append, List.length_singleton]
        omega
      · rw [h4, hmax]
        simp only [PreState.iterate, List.length_append, List.length_singleton]
        omega
      · rw [h5, one, hmax, List.range_succ_eq_map (n := m + 1), List.filter_cons, List.filter_map,
          Nat.add_zero]
        have hc : (fun k => decide ((it + k) % 3 = 0)) ∘ Nat.succ =
            fun k => decide ((it + 1 + k) % 3 = 0) := by
          funext k
          simp only [Function.comp, Nat.succ_eq_add_one]
          rw [show it + (k + 1) = it + 1 + k by omega]
        rw [hc]
        by_cases h3 : it % 3 = 0
        · simp [h3]; omega
        · simp [h3]

theorem count_third (n : ℕ) :
    ((List.range n).filter (fun k => (0 + k) % 3 = 0)).length = (n + 2) / 3 := by
  induction n with
  | zero => rfl
  | succ n ih =>
    rw [List.range_succ, List.filter_append, List.length_append, ih]
    by_cases h : (0 + n) % 3 = 0
    · simp only [List.filter_cons, h, decide_true, if_true, List.filter_nil, List.length_singleton]
      omega
    · simp only [List.filter_cons, h, decide_false, Bool.false_eq_true, if_false, List.filter_nil,
        List.length_nil]
      omega

/-- C29: an uninterrupted `populate` fills the combined queue to exactly `max` entries if it starts
below, and otherwise adds exactly one; the triple queue gets two entries for each third iteration,
starting with the first. -/
theorem C29_populate_size (s : PreState) (pub : ℕ) (draws : ℕ → Draws) (hok : s.populateOk = true)
    (hsz : s.max < 2 ^ 31) :
    ∃ s', PreState.populate G pub draws s = .ok s' ∧
      s'.quads.length = Nat.max s.max (s.quads.length + 1) ∧
      s'.triples.length = s.triples.length +
        2 * ((s'.quads.length - s.quads.length + 2) / 3) := by
  obtain ⟨s', h1, -, -, h4, h5⟩ := populateLoop_spec G pub draws (s.max - s.quads.length) 0 s hok rfl (by
    rcases Nat.le_total 1 (s.max - s.quads.length) with h | h
    · rw [show Nat.max 1 (s.max - s.quads.length) = _ from Nat.max_eq_right h]; omega
    · rw [show Nat.max 1 (s.max - s.quads.length) = _ from Nat.max_eq_left h]; omega)
  refine ⟨s', h1, ?_, ?_⟩
  · rw [h4]
    change _ + max _ _ = max _ _
    omega
  · rw [h5, count_third, h4]
    congr 3
    omega

/-- C29: once stopped, or before any `init`, `populate` adds nothing. -/
theorem C29_stopped (s : PreState) (pub : ℕ) (draws : ℕ → Draws) :
    PreState.populate G pub draws s.stop = .ok s.stop ∧
    PreState.populate G pub draws .initial = .ok .initial := by
  constructor <;>
  · unfold PreState.populate
    rw [PreState.populateLoop]
    rfl

/-- C29: `init` sets the target, 5000 if zero is given, and enables generation; queues are kept. -/
theorem C29_init (s : PreState) (n : ℕ) :
    (s.init n).max = (if n = 0 then 5000 else n) ∧ (s.init n).populateOk = true ∧
      (s.init n).quads = s.quads ∧ (s.init n).triples = s.triples := by
  refine ⟨?_, rfl, rfl, rfl⟩
  simp only [PreState.init, defaultPrecomputeSize]
  by_cases h : n = 0 <;> simp [h]

example (pub : ℕ) (draws : ℕ → Draws) : ∃ s', PreState.populate G pub draws (PreState.initial.init 7) =
    .ok s' ∧ s'.quads.length = 7 ∧ s'.triples.length = 6 := by
  obtain ⟨s', h1, h2, h3⟩ := C29_populate_size G (PreState.initial.init 7) pub draws rfl (by decide)
  have h2' : s'.quads.length = 7 := h2
  exact ⟨s', h1, h2', by rw [h3, h2']; rfl⟩

/-! ## C30 -/

/-- The triple consists of an exponent below `q` and the powers of the generator and of the key. -/
def Triple.ForKey (K : ℕ) (t : Triple) : Prop :=
  t.exp < G.q ∧ t.gToExp = G.g ^ t.exp % G.p ∧ t.pubkeyToExp = K ^ t.exp % G.p

def Quadruple.ForKey (K : ℕ) (t : Quadruple) : Prop :=
  t.exp1 < G.q ∧ t.exp2 < G.q ∧ t.gToExp1 = G.g ^ t.exp1 % G.p ∧
    t.gToExp2MulPubkeyToExp1 = G.g ^ t.exp2 * K ^ t.exp1 % G.p

def TwoTriplesQuad.ForKey (K : ℕ) (t : TwoTriplesQuad) : Prop :=
  t.triple1.ForKey G K ∧ t.triple2.ForKey G K ∧ t.quad.ForKey G K

/-- The exponents come from `rand_q`, which returns numbers below `q` (C10). -/
def Draws.Below (d : Draws) (q : ℕ) : Prop :=
  d.t1 < q ∧ d.t2 < q ∧ d.q1 < q ∧ d.q2 < q ∧ d.c1 < q ∧ d.c2 < q

theorem genTriple_forKey (hG : G.Valid) (K e : ℕ) (hK : K < 2 ^ 4096) (he : e < G.q) :
    (genTriple G K e).ForKey G K := by
  have h := lt_512_of_lt (lt_trans he hG.q_lt)
  exact ⟨he, gPowP_eq hG e h, powModP_eq hG K e hK h⟩

theorem genQuadruple_forKey (hG : G.Valid) (K e f : ℕ) (hK : K < 2 ^ 4096) (he : e < G.q)
    (hf : f < G.q) : (genQuadruple G K e f).ForKey G K := by
  have h := lt_512_of_lt (lt_trans he hG.q_lt)
  have h' := lt_512_of_lt (lt_trans hf hG.q_lt)
  have hp : ∀ x, x % G.p < 2 ^ 4096 := fun x =>
    lt_trans (Nat.mod_lt _ (by have := hG.p_gt; omega)) hG.p_lt
  refine ⟨he, hf, gPowP_eq hG e h, ?_⟩
  simp only [genQuadruple]
  rw [gPowP_eq hG f h', powModP_eq hG K e hK h, mulModP_eq hG _ _ (hp _) (hp _), ← Nat.mul_mod]

/-- C30, what holds: if every `populate` in the history used the same key and the queues were empty at
the start, everything handed out is of the right form for that key. -/
theorem C30_single_key_partial (hG : G.Valid) (K : ℕ) (hK : K < 2 ^ 4096) (s : PreState)
    (ops : List PreOp) (h0 : s.quads = []) (h1 : s.triples = [])
    (hops : ∀ pub it d, PreOp.iterate pub it d ∈ ops → pub = K ∧ d.Below G.q) :
    (∀ t ∈ (s.run G ops).1.filterMap PreOut.quad, t.ForKey G K) ∧
    (∀ t ∈ (s.run G ops).1.filterMap PreOut.triple, t.ForKey G K) := by
  obtain ⟨a, b⟩ := C28_at_most_once_in_order G s ops
  rw [h0, List.nil_append] at a
  rw [h1, List.nil_append] at b
  have gq : ∀ (ops : List PreOp) (s : PreState),
      (∀ pub it d, PreOp.iterate pub it d ∈ ops → pub = K ∧ d.Below G.q) →
      (∀ t ∈ generatedQuads G s ops, t.ForKey G K) ∧
      (∀ t ∈ generatedTriples G s ops, t.ForKey G K) := by
    intro ops
    induction ops with
    | nil => intro s _; simp [generatedQuads, generatedTriples]
    | cons op ops ih =>
      intro s hops
      obtain ⟨i1, i2⟩ := ih (s.step G op).2 (fun pub it d hm => hops pub it d (by simp [hm]))
      constructor
      · intro t ht
        rw [generatedQuads, List.mem_append] at ht
        rcases ht with ht | ht
        · cases op with
          | iterate pub it d =>
            obtain ⟨rfl, d1, d2, d3, d4, d5, d6⟩ := hops pub it d (by simp)
            simp only [newQuads, newTriples] at ht
            split at ht
            · rw [List.mem_singleton.1 ht]
              exact ⟨genTriple_forKey G hG _ _ hK d1, genTriple_forKey G hG _ _ hK d2,
                genQuadruple_forKey G hG _ _ _ hK d3 d4⟩
            · simp at ht
          | _ => simp [newQuads, newTriples] at ht
        · exact i1 t ht
      · intro t ht
        rw [generatedTriples, List.mem_append] at ht
        rcases ht with ht | ht
        · cases op with
          | iterate pub it d =>
            obtain ⟨rfl, d1, d2, d3, d4, d5, d6⟩ := hops pub it d (by simp)
            simp only [newQuads, newTriples] at ht
            split at ht
            · simp only [List.mem_cons, List.not_mem_nil, or_false] at ht
              rcases ht with rfl | rfl
              · exact genTriple_forKey G hG _ _ hK d5
              · exact genTriple_forKey G hG _ _ hK d6
            · simp at ht
          | _ => simp [newQuads, newTriples] at ht
        · exact i2 t ht
  obtain ⟨g1, g2⟩ := gq ops s hops
  exact ⟨fun t ht => g1 t (a.subset (by simp [ht])), fun t ht => g2 t (b.subset (by simp [ht]))⟩

/-- The history used below: fill for key `K`, initialise again, fill for key `K'`, take a triple. -/
def switchHistory (K K' e : ℕ) : List PreOp :=
  [.init 1, .iterate K 0 ⟨e, e, e, e, e, e⟩, .init 1, .iterate K' 0 ⟨e, e, e, e, e, e⟩, .getTriple]

/-- C30 (the property is violated): after switching to another key, `getTriple` still hands out a
triple of the old key.  It is not of the right form for the new key whenever the keys are powers of
the generator with different exponents. -/
theorem C30_violated (hG : G.Valid) (s s' e : ℕ) (hs : s < 2 ^ 256) (hs' : s' < 2 ^ 256)
    (he : e < G.q) (he0 : e ≠ 0) (hne : s % G.q ≠ s' % G.q) :
    ∃ t, (PreState.initial.run G (switchHistory (gPowP G s) (gPowP G s') e)).1.filterMap PreOut.triple
        = [t] ∧ t.ForKey G (gPowP G s) ∧ ¬ t.ForKey G (gPowP G s') := by
  have he256 := lt_trans he hG.q_lt
  refine ⟨genTriple G (gPowP G s) e, rfl,
    genTriple_forKey G hG _ _ (lt_trans (gPowP_lt hG s hs) hG.p_lt) he, ?_⟩
  rintro ⟨-, -, h3⟩
  have h1 := powModP_eq hG (gPowP G s) e (lt_trans (gPowP_lt hG s hs) hG.p_lt) (lt_512_of_lt he256)
  rw [show (genTriple G (gPowP G s) e).pubkeyToExp = powModP G (gPowP G s) e from rfl, h1,
    show (genTriple G (gPowP G s) e).exp = e from rfl] at h3
  have h4 : (gPowP G s) ^ e ≡ (gPowP G s') ^ e [MOD G.p] := h3
  rw [modEq_cast] at h4
  push_cast at h4
  rw [cast_gPowP hG s hs, cast_gPowP hG s' hs', ← pow_mul, ← pow_mul, g_pow_eq_iff hG] at h4
  have hcop : Nat.Coprime G.q e := (Nat.Prime.coprime_iff_not_dvd hG.q_prime).2 (fun hd =>
    he0 (Nat.eq_zero_of_dvd_of_lt hd he))
  rw [mul_comm s, mul_comm s'] at h4
  exact hne (Nat.ModEq.cancel_left_of_coprime hcop h4)

example : 3 < Params.std.q ∧ (2 : ℕ) % Params.std.q ≠ 5 % Params.std.q := by decide +kernel

end EG
