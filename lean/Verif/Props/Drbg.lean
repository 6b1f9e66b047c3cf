import Verif.Lemmas.Drbg
import Verif.Props.Group

/-!
# C73: the random generator
-/

namespace EG.Sha

variable {G : Params}

/-- A state as the library creates them: 32-byte key and value. -/
def Drbg.Wf (st : Drbg) : Prop := st.k.length = 32 ∧ st.v.length = 32

/-- `Hacl_HMAC_DRBG_instantiate` computes key and value as in SP 800-90A and sets the counter to 1. -/
theorem C73_instantiate (e n p : Bytes) (h : e.length + n.length + p.length + 33 < 2 ^ 32) :
    ∃ st, drbgInstantiate e n p e.length n.length p.length = .ok st ∧ st.Wf ∧ st.ctr = 1 ∧
      (st.k, st.v) = Fips.drbgInstantiate e n p :=
  ⟨_, drbgInstantiate_ok e n p h, drbgUpdate_length _ _, rfl, rfl⟩

/-- `Hacl_HMAC_DRBG_reseed`: from any state, whatever its counter. -/
theorem C73_reseed (st : Drbg) (hw : st.Wf) (e a : Bytes) (h : e.length + a.length + 33 < 2 ^ 32) :
    ∃ st', st.reseed e a e.length a.length = .ok st' ∧ st'.Wf ∧ st'.ctr = 1 ∧
      (st'.k, st'.v) = Fips.drbgUpdate (e ++ a) (st.k, st.v) :=
  ⟨_, drbgReseed_ok st hw.1 hw.2 e a h, drbgUpdate_length _ _, rfl, rfl⟩

/-- `Hacl_HMAC_DRBG_generate` fills the output, whatever it held, with the bytes of SP 800-90A, and
leaves the state prescribed there; the counter goes up by one. -/
theorem C73_generate (st : Drbg) (hw : st.Wf) (hc : st.ctr ≤ 1024) (output add : Bytes)
    (ha : add.length + 33 < 2 ^ 32) :
    ∃ st', st.generate output output.length add add.length =
        .ok (some ((Fips.drbgGenerate output.length add (st.k, st.v)).1, st')) ∧ st'.Wf ∧ st'.ctr = st.ctr + 1 ∧
      (st'.k, st'.v) = (Fips.drbgGenerate output.length add (st.k, st.v)).2 :=
  ⟨_, generate_ok st hw.1 hw.2 hc output add ha, drbgUpdate_length _ _, rfl, rfl⟩

/-- It refuses after 1024 requests. -/
theorem C73_exhausted (st : Drbg) (hc : 1024 < st.ctr) (output add : Bytes) (n al : ℕ) :
    st.generate output n add al = .ok none := by
  unfold Drbg.generate
  rw [if_pos (show st.ctr > reseedInterval from hc)]

theorem drbgGenerate_length (n : ℕ) (add : Bytes) (kv : Bytes × Bytes) (h : kv.2.length = 32) :
    (Fips.drbgGenerate n add kv).1.length = n := by
  unfold Fips.drbgGenerate
  dsimp only
  have hv : (if add = [] then kv else Fips.drbgUpdate add kv).2.length = 32 := by
    split_ifs
    · exact h
    · exact (drbgUpdate_length add kv).2
  rw [List.length_take, (drbgBlocks_length _ _ hv _).1]
  omega

/-- A caller that asks again and again, requests being a buffer and additional input. -/
def runs : Drbg → List (Bytes × Bytes) → Res (List (Option Bytes))
  | _, [] => .ok []
  | st, (output, add) :: reqs => do
    match ← st.generate output output.length add add.length with
    | some (out, st') => do
      let r ← runs st' reqs
      .ok (some out :: r)
    | none => do
      let r ← runs st reqs
      .ok (none :: r)

/-- The answers prescribed by the standard, with a reseed interval of 1024: `c` is the counter. -/
noncomputable def expected : ℕ → Bytes × Bytes → List (Bytes × Bytes) → List (Option Bytes)
  | _, _, [] => []
  | c, kv, (output, add) :: reqs =>
    if c ≤ 1024 then
      some (Fips.drbgGenerate output.length add kv).1 ::
        expected (c + 1) (Fips.drbgGenerate output.length add kv).2 reqs
    else none :: expected c kv reqs

theorem runs_ok (reqs : List (Bytes × Bytes)) (st : Drbg) (hw : st.Wf)
    (hr : ∀ r ∈ reqs, r.2.length + 33 < 2 ^ 32) : runs st reqs = .ok (expected st.ctr (st.k, st.v) reqs) := by
  induction reqs generalizing st with
  | nil => rfl
  | cons r reqs ih =>
    obtain ⟨output, add⟩ := r
    rw [runs, expected]
    have ha := hr _ List.mem_cons_self
    have hr' : ∀ r ∈ reqs, r.2.length + 33 < 2 ^ 32 := fun r h => hr r (List.mem_cons_of_mem _ h)
    by_cases hc : st.ctr ≤ 1024
    · obtain ⟨st', e, w, c, kv⟩ := C73_generate st hw hc output add ha
      rw [e, Res.bind_ok, if_pos hc]
      dsimp only
      rw [ih st' w hr', Res.bind_ok, c, kv]
    · rw [C73_exhausted st (by omega), Res.bind_ok, if_neg hc]
      dsimp only
      rw [ih st hw hr', Res.bind_ok]

/-- From instantiation on: every sequence of requests gets the standard's answers. -/
theorem C73_runs (e n p : Bytes) (h : e.length + n.length + p.length + 33 < 2 ^ 32)
    (reqs : List (Bytes × Bytes)) (hr : ∀ r ∈ reqs, r.2.length + 33 < 2 ^ 32) :
    (do let st ← drbgInstantiate e n p e.length n.length p.length
        runs st reqs) = .ok (expected 1 (Fips.drbgInstantiate e n p) reqs) := by
  obtain ⟨st, e1, w, c, kv⟩ := C73_instantiate e n p h
  rw [e1, Res.bind_ok, runs_ok reqs st w hr, c, kv]

theorem expected_isSome (reqs : List (Bytes × Bytes)) (c : ℕ) (kv : Bytes × Bytes) (i : ℕ) (hi : i < reqs.length) :
    ∃ o, (expected c kv reqs)[i]? = some o ∧ (o.isSome ↔ c + i ≤ 1024) := by
  induction reqs generalizing c kv i with
  | nil => simp at hi
  | cons r reqs ih =>
    obtain ⟨output, add⟩ := r
    rw [expected]
    rw [List.length_cons] at hi
    by_cases hc : c ≤ 1024
    · rw [if_pos hc]
      cases i with
      | zero => exact ⟨_, rfl, by simpa using hc⟩
      | succ i =>
        obtain ⟨o, h1, h2⟩ := ih (c + 1) (Fips.drbgGenerate output.length add kv).2 i (by omega)
        exact ⟨o, by rwa [List.getElem?_cons_succ], by rw [h2]; omega⟩
    · rw [if_neg hc]
      cases i with
      | zero => exact ⟨_, rfl, by simpa using hc⟩
      | succ i =>
        obtain ⟨o, h1, h2⟩ := ih c kv i (by omega)
        exact ⟨o, by rwa [List.getElem?_cons_succ], by rw [h2]; omega⟩

/-- Exactly the first 1024 requests after instantiation are granted. -/
theorem C73_granted (e n p : Bytes) (h : e.length + n.length + p.length + 33 < 2 ^ 32)
    (reqs : List (Bytes × Bytes)) (hr : ∀ r ∈ reqs, r.2.length + 33 < 2 ^ 32) (i : ℕ) (hi : i < reqs.length) :
    ∃ answers o, (do let st ← drbgInstantiate e n p e.length n.length p.length
                     runs st reqs) = .ok answers ∧ answers[i]? = some o ∧ (o.isSome ↔ i < 1024) := by
  obtain ⟨o, h1, h2⟩ := expected_isSome reqs 1 (Fips.drbgInstantiate e n p) i hi
  exact ⟨_, o, C73_runs e n p h reqs hr, h1, by rw [h2]; omega⟩

/-- `Random::getBytes`: if the operating system supplies its bytes, the result has the size asked for and
is the output of the generator of the standard for them. -/
theorem C73_get_bytes (size : ℕ) (entropy nonce time input : Bytes) (he : entropy.length = 2 * size)
    (hn : nonce.length = size) (hi : input.length = size) (h : 3 * size + time.length + 33 < 2 ^ 32) :
    ∃ r, getBytes ⟨some entropy, some nonce, time, some input⟩ size = .ok r ∧ r.length = size ∧
      r = (Fips.drbgGenerate size input (Fips.drbgInstantiate entropy nonce time)).1 := by
  have hv : (Fips.drbgInstantiate entropy nonce time).2.length = 32 := (drbgUpdate_length _ _).2
  refine ⟨_, ?_, drbgGenerate_length size input _ hv, rfl⟩
  have hc : ∀ n, n < 2 ^ 32 → convertSize n = .ok n := by
    intro n hn
    unfold convertSize
    rw [if_neg (by omega)]
  obtain ⟨st, e1, w, c, kv⟩ := C73_instantiate entropy nonce time (by omega)
  obtain ⟨st', e2, -⟩ := C73_generate st w (by omega) (List.replicate size 0) input (by omega)
  rw [List.length_replicate] at e2
  unfold getBytes
  simp only [getRandomBytes, Res.bind_ok]
  rw [hc _ (by omega), Res.bind_ok, hc _ (by omega), Res.bind_ok, hc _ (by omega), Res.bind_ok, e1, Res.bind_ok,
    hc _ (by omega), Res.bind_ok, e2, Res.bind_ok, kv]

/-- It throws `bad_alloc` exactly if the operating system fails to supply one of the three. -/
theorem C73_get_bytes_fails (size : ℕ) (os : Os) (he : ∀ b, os.entropy = some b → b.length = 2 * size)
    (hn : ∀ b, os.nonce = some b → b.length = size) (hi : ∀ b, os.input = some b → b.length = size)
    (h : 3 * size + os.time.length + 33 < 2 ^ 32) :
    getBytes os size = .throw .badAlloc ↔ os.entropy = none ∨ os.nonce = none ∨ os.input = none := by
  obtain ⟨entropy, nonce, time, input⟩ := os
  dsimp only at *
  cases entropy with
  | none => simp [getBytes, getRandomBytes, Res.bind_throw]
  | some e =>
    cases nonce with
    | none => simp [getBytes, getRandomBytes, Res.bind_throw, Res.bind_ok]
    | some n =>
      have he' := he e rfl
      have hn' := hn n rfl
      cases input with
      | none =>
        have hc : ∀ n, n < 2 ^ 32 → convertSize n = .ok n := by
          intro n hn
          unfold convertSize
          rw [if_neg (by omega)]
        obtain ⟨st, e1, -⟩ := C73_instantiate e n time (by omega)
        unfold getBytes
        simp only [getRandomBytes, Res.bind_ok]
        rw [hc _ (by omega), Res.bind_ok, hc _ (by omega), Res.bind_ok, hc _ (by omega), Res.bind_ok, e1, Res.bind_ok]
        simp [Res.bind_throw]
      | some i =>
        obtain ⟨r, h1, -⟩ := C73_get_bytes size e n time i he' hn' (hi i rfl) h
        rw [h1]
        simp

/-- `rand_q` on top of the generator: whatever the operating system supplies, the result is below q, or
`bad_alloc` is thrown because it supplies nothing. -/
theorem C73_rand_q (hG : G.Valid) (os : Os) (he : ∀ b, os.entropy = some b → b.length = 512)
    (hn : ∀ b, os.nonce = some b → b.length = 256) (hi : ∀ b, os.input = some b → b.length = 256)
    (h : os.time.length < 2 ^ 31) :
    (∃ v, (getBytes os 256 >>= randQ G) = .ok v ∧ v < G.q) ∨
      (getBytes os 256 >>= randQ G) = .throw .badAlloc ∧
        (os.entropy = none ∨ os.nonce = none ∨ os.input = none) := by
  by_cases hf : os.entropy = none ∨ os.nonce = none ∨ os.input = none
  · right
    rw [(C73_get_bytes_fails 256 os he hn hi (by omega)).2 hf]
    exact ⟨rfl, hf⟩
  · left
    obtain ⟨entropy, nonce, time, input⟩ := os
    dsimp only at *
    rw [not_or, not_or] at hf
    obtain ⟨e, rfl⟩ := Option.ne_none_iff_exists'.1 hf.1
    obtain ⟨n, rfl⟩ := Option.ne_none_iff_exists'.1 hf.2.1
    obtain ⟨i, rfl⟩ := Option.ne_none_iff_exists'.1 hf.2.2
    obtain ⟨r, h1, h2, -⟩ := C73_get_bytes 256 e n time i (he e rfl) (hn n rfl) (hi i rfl) (by omega)
    rw [h1, Res.bind_ok]
    exact C10_rand_q_partial G hG r (by omega)

/-- `rand_p` has no execution that is defined and returns: it reads 512 bytes of a vector of 256. -/
theorem C73_rand_p_violated (G : Params) (e n time i : Bytes) (he : e.length = 512) (hn : n.length = 256)
    (hi : i.length = 256) (h : time.length < 2 ^ 31) :
    (getBytes ⟨some e, some n, time, some i⟩ 256 >>= randP G) = .ub := by
  obtain ⟨r, h1, h2, -⟩ := C73_get_bytes 256 e n time i he hn hi (by omega)
  rw [h1, Res.bind_ok]
  exact C10_rand_p_ub G r h2

example : ∃ r, getBytes ⟨some (List.replicate 64 1), some (List.replicate 32 2), [3, 4], some (List.replicate 32 5)⟩ 32 =
    .ok r ∧ r.length = 32 := by
  obtain ⟨r, h1, h2, -⟩ := C73_get_bytes 32 (List.replicate 64 1) (List.replicate 32 2) [3, 4] (List.replicate 32 5)
    (by simp) (by simp) (by simp) (by simp)
  exact ⟨r, h1, h2⟩

example : ∃ answers, (do let st ← drbgInstantiate [1] [2] [3] 1 1 1
                         runs st (List.replicate 2000 (List.replicate 7 0, []))) = .ok answers ∧
    (∃ b, answers[1023]? = some (some b)) ∧ answers[1024]? = some none := by
  refine ⟨_, C73_runs [1] [2] [3] (by simp) _ (by intro r h; rw [List.eq_of_mem_replicate h]; simp), ?_, ?_⟩
  · obtain ⟨o, h1, h2⟩ := expected_isSome (List.replicate 2000 (List.replicate 7 0, [])) 1
      (Fips.drbgInstantiate [1] [2] [3]) 1023 (by rw [List.length_replicate]; norm_num)
    obtain ⟨b, hb⟩ := Option.isSome_iff_exists.1 (h2.2 (by norm_num))
    exact ⟨b, by rw [h1, hb]⟩
  · obtain ⟨o, h1, h2⟩ := expected_isSome (List.replicate 2000 (List.replicate 7 0, [])) 1
      (Fips.drbgInstantiate [1] [2] [3]) 1024 (by rw [List.length_replicate]; norm_num)
    have : o = none := by
      cases o with
      | none => rfl
      | some b => exact absurd (h2.1 rfl) (by norm_num)
    rw [h1, this]

end EG.Sha
