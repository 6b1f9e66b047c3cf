import Verif.Model.WipeRandom
import Verif.Lemmas.Wipe
import Verif.Props.Drbg
import Verif.Props.Wipe

/-!
# C98: what the random generator leaves in memory
-/

namespace EG.Wipe

open Sha (Os)

theorem getRandomBytesF_res (b : Option (List UInt8)) : (getRandomBytesF b).res = Sha.getRandomBytes b := by
  cases b <;> rfl

theorem finishF_res (st : Sha.Drbg) (e n : List UInt8) (r : Option (List UInt8 × Sha.Drbg)) :
    (finishF st e n r).res = match r with
      | some (out, _) => .ok out
      | none => .throw .badAlloc := by
  rcases r with _ | ⟨out, st'⟩ <;> rfl

/-- The functions with the memory they give back compute what those of C10 and C73 do. -/
theorem C98_random_same (G : Params) (os : Os) (size : ℕ) :
    (getBytesF os size).res = Sha.getBytes os size ∧ (randQF G os).res = Sha.getBytes os 256 >>= randQ G := by
  have h1 : ∀ size, (getBytesF os size).res = Sha.getBytes os size := by
    intro size
    unfold getBytesF Sha.getBytes
    simp only [Run.res_bind, Run.res_after, getRandomBytesF_res, Run.res_lift]
    cases os.entropy with
    | none => rfl
    | some e =>
      cases os.nonce with
      | none => rfl
      | some n =>
        simp only [Sha.getRandomBytes, Res.bind_ok]
        congr 1; funext el
        congr 1; funext nl
        congr 1; funext pl
        congr 1; funext st
        cases os.input with
        | none => rfl
        | some i =>
          simp only [Res.bind_ok]
          congr 1; funext al
          congr 1; funext r
          exact finishF_res _ _ _ _
  refine ⟨h1 size, ?_⟩
  unfold randQF
  rw [Run.res_bind, h1]
  congr 1
  funext bytes
  rw [Run.res_after, Run.res_bind, Run.res_lift]
  cases randQ G bytes with
  | throw e => rfl
  | ub => rfl
  | ok r =>
    rw [Res.bind_ok, Run.res_bind, Run.res_free, Res.bind_ok, Run.res_bind, Run.res_lift, destroyQ_ok, Res.bind_ok]
    rfl

theorem freed_bind_ok {α β : Type} (x : Run α) (f : α → Run β) (a : α) (h : x.res = .ok a) :
    (x >>= f).freed = x.freed ++ (f a).freed := by
  show (Run.bind x f).freed = _
  unfold Run.bind
  rw [h]

/-- Nothing is wiped: whenever `Random::getBytes` returns, all that the operating system supplied, the last state of the
generator and the result itself are in memory that was given back. -/
theorem C98_random_violated (os : Os) (size : ℕ) (out : List UInt8) (h : Sha.getBytes os size = .ok out) :
    ∃ e n i k v, os.entropy = some e ∧ os.nonce = some n ∧ os.input = some i ∧
      (getBytesF os size).freed = [⟨.osBytes, e⟩, ⟨.osBytes, n⟩, ⟨.osBytes, i⟩, ⟨.entropy, e⟩, ⟨.nonce, n⟩,
        ⟨.drbgKey, k⟩, ⟨.drbgValue, v⟩, ⟨.random, out⟩, ⟨.input, i⟩, ⟨.nonce, n⟩, ⟨.entropy, e⟩] := by
  unfold Sha.getBytes at h
  obtain ⟨e, he, h⟩ := (Res.bind_eq_ok _ _ _).1 h
  obtain ⟨n, hn, h⟩ := (Res.bind_eq_ok _ _ _).1 h
  obtain ⟨el, hel, h⟩ := (Res.bind_eq_ok _ _ _).1 h
  obtain ⟨nl, hnl, h⟩ := (Res.bind_eq_ok _ _ _).1 h
  obtain ⟨pl, hpl, h⟩ := (Res.bind_eq_ok _ _ _).1 h
  obtain ⟨st, hst, h⟩ := (Res.bind_eq_ok _ _ _).1 h
  obtain ⟨i, hi, h⟩ := (Res.bind_eq_ok _ _ _).1 h
  obtain ⟨al, hal, h⟩ := (Res.bind_eq_ok _ _ _).1 h
  obtain ⟨r, hr, h⟩ := (Res.bind_eq_ok _ _ _).1 h
  have some_of : ∀ b c, Sha.getRandomBytes b = .ok c → b = some c := by
    intro b c hb
    cases b with
    | none => cases hb
    | some b => injection hb with hb; rw [hb]
  have he' := some_of _ _ he
  have hn' := some_of _ _ hn
  have hi' := some_of _ _ hi
  rcases r with _ | ⟨out', st'⟩
  · cases h
  injection h with h
  subst h
  refine ⟨e, n, i, st'.k, st'.v, he', hn', hi', ?_⟩
  unfold getBytesF
  rw [freed_bind_ok _ _ e (by rw [getRandomBytesF_res, he]), he']
  show _ ++ (_ ++ _) = _
  rw [freed_bind_ok _ _ n (by rw [getRandomBytesF_res, hn]), hn']
  show _ ++ ((_ ++ (_ ++ _)) ++ _) = _
  rw [freed_bind_ok _ _ el (by rw [Run.res_lift, hel]), freed_bind_ok _ _ nl (by rw [Run.res_lift, hnl]),
    freed_bind_ok _ _ pl (by rw [Run.res_lift, hpl]), freed_bind_ok _ _ st (by rw [Run.res_lift, hst]),
    freed_bind_ok _ _ i (by rw [getRandomBytesF_res, hi]), hi']
  show _ ++ ((_ ++ ((_ ++ (_ ++ (_ ++ (_ ++ (_ ++ (_ ++ _)))))) ++ _)) ++ _) = _
  rw [freed_bind_ok _ _ al (by rw [Run.res_lift, hal]),
    freed_bind_ok _ _ (some (out', st')) (by rw [Run.res_lift, hr])]
  rfl

/-- What `rand_q` frees, after what the generator frees. -/
theorem randQF_freed (G : Params) (os : Os) (r : ℕ) (bytes : List UInt8) (hb : Sha.getBytes os 256 = .ok bytes)
    (hr : randQ G bytes = .ok r) :
    (randQF G os).freed = (getBytesF os 256).freed ++
      ([⟨.bigNum, toBytesLE 32 (maskedQ bytes)⟩,
        ⟨.elementQ, List.replicate 4 0 ++ (toBytesLE 32 (maskedQ bytes)).drop 4⟩] ++ [⟨.random, bytes⟩]) := by
  unfold randQF
  rw [freed_bind_ok _ _ bytes (by rw [(C98_random_same G os 256).1, hb])]
  congr 1
  show _ ++ _ = _
  rw [freed_bind_ok _ _ r (by rw [Run.res_lift, hr]), freed_bind_ok _ _ () (Run.res_free _ _),
    freed_bind_ok _ _ _ (by rw [Run.res_lift, destroyQ_ok])]
  rfl

/-- A random exponent can be computed from any of the two blocks that held the random bytes. -/
theorem C98_rand_q_violated (G : Params) (os : Os) (r : ℕ) (h : (randQF G os).res = .ok r) :
    (∃ b ∈ (randQF G os).freed, b.var = .random) ∧
      ∀ b ∈ (randQF G os).freed, b.var = .random → randQ G b.bytes = .ok r := by
  rw [(C98_random_same G os 256).2] at h
  obtain ⟨bytes, hb, hr⟩ := (Res.bind_eq_ok _ _ _).1 h
  obtain ⟨e, n, i, k, v, -, -, -, hf⟩ := C98_random_violated os 256 bytes hb
  rw [randQF_freed G os r bytes hb hr, hf]
  refine ⟨⟨⟨.random, bytes⟩, by simp, rfl⟩, ?_⟩
  intro b hmem hvar
  have : b.bytes = bytes := by
    simp only [List.mem_append, List.mem_cons, List.not_mem_nil, or_false] at hmem
    rcases hmem with (rfl | rfl | rfl | rfl | rfl | rfl | rfl | rfl | rfl | rfl | rfl) | (rfl | rfl) | rfl
    all_goals first | rfl | cases hvar
  rw [this, hr]

/-- The exponent itself is left as well: in the memory of the number (32 bytes, little endian, to be reduced), and in that
of the element without its first four bytes, which are overwritten by zeros. -/
theorem C98_rand_q_value_violated (G : Params) (hG : G.Valid) (os : Os) (r : ℕ) (h : (randQF G os).res = .ok r) :
    ∃ v : List UInt8, v.length = 32 ∧ ofBytesLE v % G.q = r ∧
      (∃ b ∈ (randQF G os).freed, b.var = .bigNum) ∧ (∃ b ∈ (randQF G os).freed, b.var = .elementQ) ∧
      ∀ b ∈ (randQF G os).freed, (b.var = .bigNum → b.bytes = v) ∧
        (b.var = .elementQ → b.bytes = List.replicate 4 0 ++ v.drop 4) := by
  rw [(C98_random_same G os 256).2] at h
  obtain ⟨bytes, hb, hr⟩ := (Res.bind_eq_ok _ _ _).1 h
  obtain ⟨e, n, i, k, v, -, -, -, hf⟩ := C98_random_violated os 256 bytes hb
  have hlt : maskedQ bytes < 2 ^ 256 - 1 := by
    have hx := ofBytesBE_lt (bytes.take 32)
    have hx : ofBytesBE (bytes.take 32) < 2 ^ 256 := lt_of_lt_of_le hx (by
      rw [show (2 : ℕ) ^ 256 = 256 ^ 32 by norm_num]
      exact Nat.pow_le_pow_right (by norm_num) (by rw [List.length_take]; omega))
    unfold maskedQ
    dsimp only
    generalize ofBytesBE (bytes.take 32) = x at *
    have : x % 2 ^ 64 &&& 0xFFFFFFFFFFFFFF43 ≤ 0xFFFFFFFFFFFFFF43 := Nat.and_le_right
    generalize (x % 2 ^ 64 &&& 0xFFFFFFFFFFFFFF43) = y at *
    omega
  have hval : maskedQ bytes % G.q = r := by
    rw [← addModQ_zero hG _ hlt]
    rw [randQ] at hr
    split at hr
    · cases hr
    · exact Res.ok.inj hr
  refine ⟨toBytesLE 32 (maskedQ bytes), toBytesLE_length _ _, ?_, ?_⟩
  · have h256 : maskedQ bytes < 256 ^ 32 := by
      rw [show (256 : ℕ) ^ 32 = 2 ^ 256 by norm_num]; omega
    rw [ofBytesLE_toBytesLE, Nat.mod_eq_of_lt h256, hval]
  rw [randQF_freed G os r bytes hb hr, hf]
  refine ⟨⟨⟨.bigNum, toBytesLE 32 (maskedQ bytes)⟩, by simp, rfl⟩,
    ⟨⟨.elementQ, List.replicate 4 0 ++ (toBytesLE 32 (maskedQ bytes)).drop 4⟩, by simp, rfl⟩, ?_⟩
  intro b hmem
  simp only [List.mem_append, List.mem_cons, List.not_mem_nil, or_false] at hmem
  rcases hmem with (rfl | rfl | rfl | rfl | rfl | rfl | rfl | rfl | rfl | rfl | rfl) | (rfl | rfl) | rfl
  all_goals refine ⟨fun h => ?_, fun h => ?_⟩ <;> first | rfl | cases h

/-- The hypothesis of `C98_rand_q_violated` and `C98_rand_q_value_violated` holds whenever the operating system supplies its bytes. -/
example (e n i time : List UInt8) (he : e.length = 512) (hn : n.length = 256) (hi : i.length = 256)
    (ht : time.length = 24) : ∃ r, (randQF .std ⟨some e, some n, time, some i⟩).res = .ok r ∧ r < Params.std.q := by
  rw [(C98_random_same .std _ 256).2]
  rcases Sha.C73_rand_q (G := .std) C54_std_valid ⟨some e, some n, time, some i⟩ (fun b h => by injection h with h; rw [← h, he])
    (fun b h => by injection h with h; rw [← h, hn]) (fun b h => by injection h with h; rw [← h, hi])
    (by dsimp only; omega) with h | h
  · exact h
  · exact absurd h.2 (by simp)

end EG.Wipe
