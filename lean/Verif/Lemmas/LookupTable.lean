import Verif.Lemmas.Group

/-! Helper lemmas: the fixed-base tables evaluate powers. -/

namespace EG

open Hacl

variable {G : Params}

theorem genRow_spec {c : Ctx} (h : GoodCtx c) (rowBase : ℕ) (b : ZMod c.n) (hrb : rowBase < c.n)
    (hb : Rep c rowBase b) (n : ℕ) : ∀ (running j : ℕ), running < c.n → Rep c running (b ^ j) →
    (genRow c rowBase n running).2 < c.n ∧ Rep c (genRow c rowBase n running).2 (b ^ (j + n)) ∧
    ∀ i < n, ∃ x, (genRow c rowBase n running).1[i]? = some x ∧ x < c.n ∧ Rep c x (b ^ (j + i)) := by
  induction n with
  | zero => intro running j h1 h2; exact ⟨h1, h2, by simp⟩
  | succ n ih =>
    intro running j h1 h2
    obtain ⟨h3, h4⟩ := fieldMul_spec h running rowBase _ _ h1 hrb h2 hb
    rw [← pow_succ] at h4
    obtain ⟨h5, h6, h7⟩ := ih _ (j + 1) h3 h4
    refine ⟨h5, ?_, ?_⟩
    · rw [show j + (n + 1) = j + 1 + n by omega]; exact h6
    · intro i hi
      cases i with
      | zero => exact ⟨running, rfl, h1, h2⟩
      | succ i =>
        obtain ⟨x, hx1, hx2, hx3⟩ := h7 i (by omega)
        refine ⟨x, hx1, hx2, ?_⟩
        rw [show j + (i + 1) = j + 1 + i by omega]; exact hx3

/-- A table whose row `i` holds at entry `j ∈ [1,255]` the Montgomery form of `b^(256^i * j)`. -/
def GoodRows (c : Ctx) : List (List ℕ) → ZMod c.n → Prop
  | [], _ => True
  | row :: rows, b =>
    (∀ j, 0 < j → j < 256 → ∃ x, row[j]? = some x ∧ x < c.n ∧ Rep c x (b ^ j)) ∧
      GoodRows c rows (b ^ 256)

theorem genRows_spec {c : Ctx} (h : GoodCtx c) (n : ℕ) : ∀ (rb : ℕ) (b : ZMod c.n), rb < c.n →
    Rep c rb b → (genRows c n rb rb).length = n ∧ GoodRows c (genRows c n rb rb) b := by
  induction n with
  | zero => intro rb b _ _; exact ⟨rfl, trivial⟩
  | succ n ih =>
    intro rb b h1 h2
    obtain ⟨h3, h4, h5⟩ := genRow_spec h rb b h1 h2 255 rb 1 h1 (by rw [pow_one]; exact h2)
    obtain ⟨h6, h7⟩ := ih _ _ h3 h4
    refine ⟨?_, ?_, ?_⟩
    · simp only [genRows, List.length_cons, h6]
    · intro j hj0 hj
      obtain ⟨j', rfl⟩ : ∃ j', j = j' + 1 := ⟨j - 1, by omega⟩
      obtain ⟨x, hx1, hx2, hx3⟩ := h5 j' (by omega)
      refine ⟨x, hx1, hx2, ?_⟩
      rw [Nat.add_comm]; exact hx3
    · exact h7

theorem lutLoop_spec {c : Ctx} (h : GoodCtx c) : ∀ (rows : List (List ℕ)) (bytes : List UInt8)
    (b a : ZMod c.n) (acc : ℕ), GoodRows c rows b → bytes.length = rows.length → acc < c.n →
    Rep c acc a → ∃ x, lutLoop c rows bytes acc = .ok x ∧ x < c.n ∧
      Rep c x (a * b ^ ofBytesLE bytes) := by
  intro rows
  induction rows with
  | nil =>
    intro bytes b a acc _ hl h1 h2
    have : bytes = [] := by simpa using hl
    subst this
    exact ⟨acc, rfl, h1, by simpa [ofBytesLE] using h2⟩
  | cons row rows ih =>
    intro bytes b a acc hg hl h1 h2
    match bytes, hl with
    | s :: bytes, hl =>
      have hl' : bytes.length = rows.length := by simpa using hl
      have hexp : a * b ^ ofBytesLE (s :: bytes) =
          a * b ^ s.toNat * (b ^ 256) ^ ofBytesLE bytes := by
        rw [ofBytesLE, pow_add, pow_mul]; ring
      rw [hexp]
      by_cases hs : s = 0
      · subst hs
        obtain ⟨x, hx⟩ := ih bytes (b ^ 256) a acc hg.2 hl' h1 h2
        refine ⟨x, ?_⟩
        simpa [lutLoop] using hx
      · have hne : s.toNat ≠ 0 := fun h => hs (UInt8.toNat_inj.1 (by simpa using h))
        obtain ⟨y, hy1, hy2, hy3⟩ := hg.1 s.toNat (by omega) s.toNat_lt
        obtain ⟨h3, h4⟩ := fieldMul_spec h acc y _ _ h1 hy2 h2 hy3
        obtain ⟨x, hx⟩ := ih bytes (b ^ 256) _ _ hg.2 hl' h3 h4
        refine ⟨x, ?_⟩
        simpa [lutLoop, hs, hy1] using hx

theorem lutPow_spec {c : Ctx} (h : GoodCtx c) (t : Lut) (base e : ℕ) (he : e < 2 ^ 256)
    (hl : t.rows.length = 32) (hr : GoodRows c t.rows (base : ℕ)) (h1 : t.one < c.n)
    (h2 : Rep c t.one ((1 : ℕ) : ZMod c.n)) : lutPow c t e = .ok (base ^ e % c.n) := by
  obtain ⟨x, hx1, hx2, hx3⟩ := lutLoop_spec h t.rows
    (toBytesBE 32 e).reverse _ _ _ hr (by rw [hl, List.length_reverse, toBytesBE_length]) h1 h2
  have he2 : ofBytesLE (toBytesBE 32 e).reverse = e := by
    have := ofBytesBE_toBytesBE 32 e
    rw [ofBytesBE] at this
    rw [this, pow256, Nat.mod_eq_of_lt he]
  rw [he2, ← Nat.cast_pow, ← Nat.cast_mul, Nat.one_mul] at hx3
  unfold lutPow
  rw [hx1, Res.bind_ok, Res.pure_eq]
  exact congrArg Res.ok (fromMont_eq h x (base ^ e) (lt_trans hx2 h.lt) hx3)

theorem genLut_rows (c : Ctx) (base : ℕ) :
    (genLut c base).rows = genRows c 32 (toField c base) (toField c base) := by
  unfold genLut; simp only

theorem genLut_one (c : Ctx) (base : ℕ) : (genLut c base).one = toField c 1 := by
  unfold genLut; simp only

theorem lutPow_genLut {c : Ctx} (h : GoodCtx c) (base e : ℕ) (hb : base < R c.k)
    (he : e < 2 ^ 256) : lutPow c (genLut c base) e = .ok (base ^ e % c.n) := by
  obtain ⟨h1, h2⟩ := toField_spec h base hb
  have hRgt : 1 < R c.k := lt_trans h.gt h.lt
  obtain ⟨h3, h4⟩ := toField_spec h 1 hRgt
  obtain ⟨h5, h6⟩ := genRows_spec h 32 _ _ h1 h2
  rw [← genLut_rows] at h5 h6
  rw [← genLut_one c base] at h3 h4
  exact lutPow_spec h _ base e he h5 h6 h3 h4

/-- Every cached table belongs to the base whose hex string is its key. -/
def CacheInv (G : Params) (cache : LutCache) : Prop :=
  ∀ kv ∈ cache, ∃ b, b < 2 ^ 4096 ∧ kv.1 = toHexP b ∧ kv.2 = genLut (ctxP G) b

theorem getLut_spec (cache : LutCache) (hc : CacheInv G cache) (base : ℕ) (hb : base < 2 ^ 4096) :
    (getLut (ctxP G) cache (toHexP base) base).1 = genLut (ctxP G) base ∧
      CacheInv G (getLut (ctxP G) cache (toHexP base) base).2 := by
  unfold getLut
  split
  · rename_i kv hf
    have hmem := List.mem_of_find?_eq_some hf
    have hkey := List.find?_some hf
    obtain ⟨b, hb1, hb2, hb3⟩ := hc kv hmem
    have : kv.1 = toHexP base := by simpa using hkey
    have hbb : b = base := toHexP_inj b base hb1 hb (by rw [← hb2, this])
    subst hbb
    exact ⟨hb3, hc⟩
  · refine ⟨rfl, ?_⟩
    intro kv hkv
    rcases List.mem_cons.1 hkv with h | h
    · exact ⟨base, hb, by rw [h], by rw [h]⟩
    · exact hc kv h

theorem powModPS_spec (h : G.Valid) (cache : LutCache) (hc : CacheInv G cache) (fixed : Bool)
    (base e : ℕ) (hb : base < 2 ^ 4096) (he : e < 2 ^ 256) :
    (powModPS G cache fixed base e).1 = .ok (base ^ e % G.p) ∧
      CacheInv G (powModPS G cache fixed base e).2 := by
  obtain ⟨h1, h2⟩ := getLut_spec (G := G) cache hc base hb
  unfold powModPS
  split
  · rename_i h0
    subst h0
    exact ⟨by rw [pow_zero, Nat.mod_eq_of_lt h.p_gt], hc⟩
  · split
    · refine ⟨?_, h2⟩
      change lutPow _ (getLut (ctxP G) cache (toHexP base) base).1 e = _
      rw [h1]
      exact lutPow_genLut (ctxP_good h) base e (by change base < R 64; rw [R64]; exact hb) he
    · exact ⟨by rw [powModPP_eq h base e hb (lt_512_of_lt he)], hc⟩

end EG
