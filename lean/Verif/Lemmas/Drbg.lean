import Verif.Model.Drbg
import Verif.Lemmas.ShaStream

/-! # Lemmas: the random generator -/

namespace EG.Sha

theorem hmac_length (k m : Bytes) : (Fips.hmac k m).length = 32 := sha256_length _

theorem hmac256_all (k data : Bytes) (hk : k.length = 32) (hd : data.length < 2 ^ 32) :
    hmac256 k 32 data data.length = .ok (Fips.hmac k data) := by
  rw [hmac256_ok k data 32 data.length (by omega) (by norm_num) le_rfl hd,
    List.take_of_length_le (by omega), List.take_length]

theorem drbgHalf_ok (tag : UInt8) (k v data : Bytes) (n : ℕ) (hk : k.length = 32) (hv : v.length = 32)
    (hn : n ≤ data.length) (h : 33 + n < 2 ^ 32) :
    drbgHalf tag k v data n = .ok (Fips.hmac k (v ++ [tag] ++ data.take n),
      Fips.hmac (Fips.hmac k (v ++ [tag] ++ data.take n)) v) := by
  unfold drbgHalf
  dsimp only
  rw [Nat.mod_eq_of_lt h]
  have hb := blit_append [] (List.replicate (33 + n) 0) v (by rw [List.length_replicate]; omega)
  rw [List.nil_append, List.nil_append, List.length_nil, hv, List.drop_replicate,
    show 33 + n - 32 = n + 1 by omega] at hb
  rw [hb, Res.bind_ok]
  have hc : copyData (v ++ List.replicate (n + 1) 0) data n = .ok (v ++ [0] ++ data.take n) := by
    unfold copyData
    split_ifs with h0
    · have hdl : ((data.drop 0).take n).length = n := by simp; omega
      rw [slice_ok _ _ _ (by omega), Res.bind_ok, List.replicate_succ,
        show v ++ (0 : UInt8) :: List.replicate n 0 = (v ++ [0]) ++ List.replicate n 0 by simp,
        show 33 = (v ++ [(0 : UInt8)]).length by simp [hv], blit_append _ _ _ (by rw [hdl, List.length_replicate]),
        hdl, List.drop_replicate, Nat.sub_self, List.replicate_zero, List.append_nil, List.drop_zero]
    · have h0' : n = 0 := by omega
      subst h0'
      simp
  rw [hc, Res.bind_ok, List.append_assoc]
  have hb2 := blit_append v ([0] ++ data.take n) [tag] (by simp)
  rw [hv] at hb2
  rw [hb2, Res.bind_ok]
  have e : (v ++ [tag] ++ List.drop [tag].length ([0] ++ data.take n)) = v ++ [tag] ++ data.take n := by simp
  rw [e]
  have hl : (v ++ [tag] ++ data.take n).length = 33 + n := by simp [hv]; omega
  rw [← hl, hmac256_all _ _ hk (by omega), Res.bind_ok]
  have := hmac256_all (Fips.hmac k (v ++ [tag] ++ data.take n)) v (hmac_length _ _) (by omega)
  rw [hv] at this
  rw [this, Res.bind_ok]

theorem drbgUpdate_ok (k v data : Bytes) (n : ℕ) (hk : k.length = 32) (hv : v.length = 32)
    (hn : n ≤ data.length) (h : 33 + n < 2 ^ 32) :
    drbgUpdate k v data n = .ok (Fips.drbgUpdate (data.take n) (k, v)) := by
  unfold drbgUpdate Fips.drbgUpdate
  rw [drbgHalf_ok _ _ _ _ _ hk hv hn h, Res.bind_ok]
  dsimp only
  have hiff : data.take n = [] ↔ n = 0 := by
    rw [← List.length_eq_zero_iff, List.length_take]; omega
  by_cases h0 : n = 0
  · rw [if_neg (by omega), if_pos (hiff.2 h0)]
  · rw [if_pos h0, if_neg (fun hh => h0 (hiff.1 hh)),
      drbgHalf_ok _ _ _ _ _ (hmac_length _ _) (hmac_length _ _) hn h]

theorem drbgUpdate_length (data : Bytes) (kv : Bytes × Bytes) :
    (Fips.drbgUpdate data kv).1.length = 32 ∧ (Fips.drbgUpdate data kv).2.length = 32 := by
  unfold Fips.drbgUpdate
  dsimp only
  split_ifs
  · exact ⟨hmac_length _ _, hmac_length _ _⟩
  · exact ⟨hmac_length _ _, hmac_length _ _⟩

theorem drbgInstantiate_ok (e n p : Bytes) (h : e.length + n.length + p.length + 33 < 2 ^ 32) :
    drbgInstantiate e n p e.length n.length p.length =
      .ok ⟨(Fips.drbgInstantiate e n p).1, (Fips.drbgInstantiate e n p).2, 1⟩ := by
  unfold drbgInstantiate
  dsimp only
  rw [Nat.mod_eq_of_lt (by omega), slice_ok _ _ _ (by omega), Res.bind_ok, List.drop_zero, List.take_length]
  have b1 := blit_append [] (List.replicate (e.length + n.length + p.length) 0) e
    (by rw [List.length_replicate]; omega)
  rw [List.nil_append, List.nil_append, List.length_nil, List.drop_replicate] at b1
  rw [b1, Res.bind_ok, slice_ok _ _ _ (by omega), Res.bind_ok, List.drop_zero, List.take_length,
    blit_append e _ n (by rw [List.length_replicate]; omega), Res.bind_ok, slice_ok _ _ _ (by omega), Res.bind_ok,
    List.drop_zero, List.take_length, List.drop_replicate, ← List.length_append,
    blit_append _ _ p (by rw [List.length_replicate, List.length_append]; omega), Res.bind_ok, List.drop_replicate]
  have hz : (e ++ n).length + p.length - e.length - n.length - p.length = 0 := by
    rw [List.length_append]; omega
  rw [hz, List.replicate_zero, List.append_nil, ← List.length_append,
    drbgUpdate_ok _ _ _ _ (by simp) (by simp) le_rfl (by simp only [List.length_append]; omega), Res.bind_ok,
    List.take_length]
  rfl

theorem drbgReseed_ok (st : Drbg) (hk : st.k.length = 32) (hv : st.v.length = 32) (e a : Bytes)
    (h : e.length + a.length + 33 < 2 ^ 32) :
    st.reseed e a e.length a.length =
      .ok ⟨(Fips.drbgUpdate (e ++ a) (st.k, st.v)).1, (Fips.drbgUpdate (e ++ a) (st.k, st.v)).2, 1⟩ := by
  unfold Drbg.reseed
  dsimp only
  rw [Nat.mod_eq_of_lt (by omega), slice_ok _ _ _ (by omega), Res.bind_ok, List.drop_zero, List.take_length]
  have b1 := blit_append [] (List.replicate (e.length + a.length) 0) e (by rw [List.length_replicate]; omega)
  rw [List.nil_append, List.nil_append, List.length_nil, List.drop_replicate] at b1
  rw [b1, Res.bind_ok, slice_ok _ _ _ (by omega), Res.bind_ok, List.drop_zero, List.take_length,
    blit_append e _ a (by rw [List.length_replicate]; omega), Res.bind_ok, List.drop_replicate,
    show e.length + a.length - e.length - a.length = 0 by omega, List.replicate_zero, List.append_nil,
    ← List.length_append, drbgUpdate_ok _ _ _ _ hk hv le_rfl (by simp only [List.length_append]; omega), Res.bind_ok,
    List.take_length]

theorem drbgBlocks_length (k v : Bytes) (hv : v.length = 32) (n : ℕ) :
    (Fips.drbgBlocks k v n).1.length = 32 * n ∧ (Fips.drbgBlocks k v n).2.length = 32 := by
  induction n with
  | zero => exact ⟨rfl, hv⟩
  | succ n ih =>
    rw [Fips.drbgBlocks]
    refine ⟨?_, hmac_length _ _⟩
    rw [List.length_append, ih.1, hmac_length]; ring

theorem outLoop_ok (k v output : Bytes) (hk : k.length = 32) (hv : v.length = 32) (n : ℕ)
    (ho : 32 * n ≤ output.length) :
    (List.range n).foldlM (outStep k) (v, output) =
      .ok ((Fips.drbgBlocks k v n).2, (Fips.drbgBlocks k v n).1 ++ output.drop (32 * n)) := by
  have := foldlM_range (outStep k) (fun i => ((Fips.drbgBlocks k v i).2,
    (Fips.drbgBlocks k v i).1 ++ output.drop (32 * i))) n (by
      intro i hi
      obtain ⟨l1, l2⟩ := drbgBlocks_length k v hv i
      unfold outStep
      dsimp only
      have hm := hmac256_all k (Fips.drbgBlocks k v i).2 hk (by omega)
      rw [l2] at hm
      rw [hm, Res.bind_ok, show i * 32 = (Fips.drbgBlocks k v i).1.length by omega,
        blit_append _ _ _ (by rw [hmac_length, List.length_drop]; omega), Res.bind_ok, hmac_length, List.drop_drop]
      rfl)
  exact this

theorem outLast_ok (k v output : Bytes) (hk : k.length = 32) (hv : v.length = 32) (n : ℕ)
    (ho : output.length = n) :
    ∃ w, outLast k n ((Fips.drbgBlocks k v (n / 32)).2,
        (Fips.drbgBlocks k v (n / 32)).1 ++ output.drop (32 * (n / 32))) = .ok w ∧
      w = ((Fips.drbgBlocks k v ((n + 31) / 32)).2, (Fips.drbgBlocks k v ((n + 31) / 32)).1.take n) := by
  obtain ⟨l1, l2⟩ := drbgBlocks_length k v hv (n / 32)
  unfold outLast
  split_ifs with h
  · have hm := hmac256_all k (Fips.drbgBlocks k v (n / 32)).2 hk (by omega)
    rw [l2] at hm
    dsimp only
    have hsl : ((List.drop 0 (Fips.hmac k (Fips.drbgBlocks k v (n / 32)).2)).take (n - n / 32 * 32)).length =
        n - n / 32 * 32 := by
      rw [List.drop_zero, List.length_take, hmac_length]; omega
    rw [hm, Res.bind_ok, slice_ok _ _ _ (by rw [hmac_length]; omega), Res.bind_ok]
    conv => enter [1, w, 1, 1, 1]; rw [show n / 32 * 32 = (Fips.drbgBlocks k v (n / 32)).1.length by omega]
    rw [blit_append _ _ _ (by rw [l1]; rw [show 32 * (n / 32) = n / 32 * 32 by omega, hsl, List.length_drop]; omega),
      Res.bind_ok]
    refine ⟨_, rfl, ?_⟩
    have e : (n + 31) / 32 = n / 32 + 1 := by omega
    rw [e, Fips.drbgBlocks]
    dsimp only
    congr 1
    rw [l1, show 32 * (n / 32) = n / 32 * 32 by omega, hsl, List.drop_drop, List.drop_eq_nil_of_le (as := output) (by omega),
      List.append_nil, List.drop_zero, List.take_append,
      List.take_of_length_le (l := (Fips.drbgBlocks k v (n / 32)).1) (by omega), l1,
      show 32 * (n / 32) = n / 32 * 32 by omega]
  · refine ⟨_, rfl, ?_⟩
    have e : (n + 31) / 32 = n / 32 := by omega
    rw [e, List.drop_eq_nil_of_le (by omega), List.append_nil, List.take_of_length_le (by omega)]

theorem generate_ok (st : Drbg) (hk : st.k.length = 32) (hv : st.v.length = 32) (hc : st.ctr ≤ 1024)
    (output add : Bytes) (ha : add.length + 33 < 2 ^ 32) :
    st.generate output output.length add add.length =
      .ok (some ((Fips.drbgGenerate output.length add (st.k, st.v)).1,
        ⟨(Fips.drbgGenerate output.length add (st.k, st.v)).2.1,
          (Fips.drbgGenerate output.length add (st.k, st.v)).2.2, st.ctr + 1⟩)) := by
  unfold Drbg.generate
  rw [if_neg (by unfold reseedInterval; omega)]
  have hpre : preUpdate st add add.length = .ok (if add = [] then (st.k, st.v) else Fips.drbgUpdate add (st.k, st.v)) := by
    unfold preUpdate
    by_cases h : add = []
    · rw [if_neg (by rw [h]; simp), if_pos h]
    · have := List.length_pos_iff.2 h
      rw [if_pos this, if_neg h, drbgUpdate_ok _ _ _ _ hk hv le_rfl (by omega), List.take_length]
  rw [hpre, Res.bind_ok]
  unfold Fips.drbgGenerate
  dsimp only
  generalize hkv : (if add = [] then (st.k, st.v) else Fips.drbgUpdate add (st.k, st.v)) = kv
  have hkl : kv.1.length = 32 ∧ kv.2.length = 32 := by
    rw [← hkv]
    split_ifs
    · exact ⟨hk, hv⟩
    · exact drbgUpdate_length _ _
  obtain ⟨k, v⟩ := kv
  dsimp only at hkl ⊢
  rw [outLoop_ok k v output hkl.1 hkl.2 _ (by omega), Res.bind_ok]
  obtain ⟨w, hw, hwe⟩ := outLast_ok k v output hkl.1 hkl.2 output.length rfl
  rw [hw, Res.bind_ok, hwe]
  dsimp only
  rw [drbgUpdate_ok _ _ _ _ hkl.1 (drbgBlocks_length k v hkl.2 _).2 le_rfl (by omega), Res.bind_ok, List.take_length,
    Nat.mod_eq_of_lt (by omega)]

end EG.Sha
