import Verif.Lemmas.Sha

/-! # Lemmas: padding, streaming, HMAC -/

namespace EG.Sha

open EG.Fips

/-- The padding of a message of `n` bytes. -/
def padding (n : ℕ) : Bytes := [0x80] ++ List.replicate ((55 + 64 - n % 64) % 64) 0 ++ beBytes 8 (8 * n)

theorem pad_eq (m : Bytes) : pad m = m ++ padding m.length := by
  simp only [pad, padding, List.append_assoc]

theorem beBytes_length (k n : ℕ) : (beBytes k n).length = k := by
  induction k generalizing n with
  | zero => rfl
  | succ k ih => rw [beBytes, List.length_append, ih]; rfl

theorem padding_length (n : ℕ) : (padding n).length = 1 + (55 + 64 - n % 64) % 64 + 8 := by
  simp [padding, beBytes_length]; omega

theorem padded_mod (n : ℕ) : (n + (padding n).length) % 64 = 0 := by
  rw [padding_length]; omega

theorem blit_append (x y src : Bytes) (h : src.length ≤ y.length) :
    blit (x ++ y) x.length src = .ok (x ++ src ++ y.drop src.length) := by
  rw [blit_ok _ _ _ (by simp; omega)]
  congr 1
  rw [List.take_left, List.drop_append, List.drop_eq_nil_of_le (by omega), List.nil_append]
  congr 3
  omega

theorem shl3 (n : ℕ) (h : n < 2 ^ 61) : (UInt64.ofNat n <<< 3).toNat = 8 * n := by
  rw [UInt64.toNat_shiftLeft, show (3 : UInt64).toNat % 64 = 3 from rfl, UInt64.toNat_ofNat', Nat.shiftLeft_eq]
  omega

theorem pad256_ok (total : ℕ) (x y : Bytes) (ht : total < 2 ^ 61) (hy : (padding total).length ≤ y.length) :
    pad256 total (x ++ y) x.length = .ok (x ++ padding total ++ y.drop (padding total).length) := by
  have hpz : padZeros total = (55 + 64 - total % 64) % 64 := by unfold padZeros; congr 1; omega
  have hl := padding_length total
  unfold pad256
  rw [blit_append x y [0x80] (by simp; omega), Res.bind_ok]
  have e1 : x.length + 1 = (x ++ [(0x80 : UInt8)]).length := by simp
  rw [e1, blit_append _ _ _ (by simp; omega), Res.bind_ok]
  have e2 : (x ++ [(0x80 : UInt8)]).length + padZeros total =
      (x ++ [(0x80 : UInt8)] ++ List.replicate (padZeros total) 0).length := by simp; omega
  rw [e2, store64be_eq, shl3 _ ht, blit_append _ _ _ (by simp [beBytes_length]; omega)]
  congr 1
  rw [List.drop_drop, List.drop_drop, beBytes_length, hl, List.length_replicate, hpz, padding]
  simp only [List.append_assoc, List.length_cons, List.length_nil]
  rw [show 0 + 1 + ((55 + 64 - total % 64) % 64 + 8) = 1 + (55 + 64 - total % 64) % 64 + 8 by omega]

theorem updateLast_ok (s : H8) (prev : ℕ) (input : Bytes) (len : ℕ) (hp : prev % 64 = 0)
    (hl : len ≤ input.length) (ht : prev + len < 2 ^ 61) :
    ∃ y, updateLast s prev input len = .ok y ∧
      y.st = absorb s.st (input.take len ++ padding (prev + len)) ((len + (padding (prev + len)).length) / 64) := by
  unfold updateLast
  have hm : (prev + len) % 2 ^ 64 = prev + len := Nat.mod_eq_of_lt (by omega)
  have hpl := padding_length (prev + len)
  dsimp only
  rw [hm]
  obtain ⟨y1, h1, hs1⟩ := updateMulti_ok s input (len / 64) (by omega)
  rw [h1, Res.bind_ok, slice_ok _ _ _ (by omega), Res.bind_ok]
  have hrl : ((input.drop (len / 64 * 64)).take (len - len / 64 * 64)).length = len - len / 64 * 64 := by
    simp; omega
  have hb := blit_append [] (List.replicate 128 0) ((input.drop (len / 64 * 64)).take (len - len / 64 * 64))
    (by rw [hrl, List.length_replicate]; omega)
  rw [List.nil_append, List.nil_append, List.length_nil] at hb
  rw [hb, Res.bind_ok]
  have hpd := pad256_ok (prev + len) ((input.drop (len / 64 * 64)).take (len - len / 64 * 64))
    (List.drop ((input.drop (len / 64 * 64)).take (len - len / 64 * 64)).length (List.replicate 128 0)) ht
    (by rw [hrl, hpl, List.length_drop, List.length_replicate]; omega)
  rw [hrl] at hpd ⊢
  rw [hpd, Res.bind_ok]
  have hpz : 1 + padZeros (prev + len) + 8 = (padding (prev + len)).length := by
    rw [hpl]; unfold padZeros
    rw [show 128 - (9 + (prev + len) % 64) = 55 + 64 - (prev + len) % 64 by omega]
  rw [hpz]
  obtain ⟨y2, h2, hs2⟩ := updateMulti_ok y1 ((input.drop (len / 64 * 64)).take (len - len / 64 * 64) ++
    padding (prev + len) ++ List.drop (padding (prev + len)).length
      (List.drop (len - len / 64 * 64) (List.replicate 128 0)))
    ((len - len / 64 * 64 + (padding (prev + len)).length) / 64)
    (by simp only [List.length_append, hrl]; omega)
  refine ⟨y2, h2, ?_⟩
  rw [hs2, hs1, absorb_left _ _ _ _ (by simp only [List.length_append, hrl]; omega)]
  have hsplit : input.take len = input.take (len / 64 * 64) ++
      (input.drop (len / 64 * 64)).take (len - len / 64 * 64) := by
    conv_lhs => rw [show len = len / 64 * 64 + (len - len / 64 * 64) by omega]
    rw [List.take_add]
  rw [hsplit, List.append_assoc, show (len + (padding (prev + len)).length) / 64 =
    len / 64 + (len - len / 64 * 64 + (padding (prev + len)).length) / 64 by omega,
    absorb_append _ _ _ _ _ (by rw [List.length_take, min_eq_left (by omega)]; omega),
    absorb_take _ _ _ _ (by omega)]

/-- The end of every computation: the blocks of `m1` are in the state, the rest is in `input`. -/
theorem last_ok (s : H8) (m1 : Bytes) (n : ℕ) (input : Bytes) (len : ℕ) (hn : m1.length = 64 * n)
    (hs : s.st = absorb initial m1 n) (hl : len ≤ input.length) (ht : 64 * n + len < 2 ^ 61) :
    ∃ y, updateLast s (64 * n) input len = .ok y ∧ finishWords y = sha256 (m1 ++ input.take len) := by
  obtain ⟨y, hy, hst⟩ := updateLast_ok s (64 * n) input len (by omega) hl ht
  refine ⟨y, hy, ?_⟩
  have hml : (m1 ++ input.take len).length = 64 * n + len := by simp; omega
  have hpl := padding_length (64 * n + len)
  rw [digest_st, hst, hs, sha256, pad_eq, hml, ← absorb_append _ _ _ _ _ hn, List.append_assoc]
  congr 2
  simp only [List.length_append, hn, List.length_take, min_eq_left hl]
  omega

theorem hash256_ok (input : Bytes) (len : ℕ) (hl : len ≤ input.length) (ht : len < 2 ^ 61) :
    hash256 input len = .ok (sha256 (input.take len)) := by
  unfold hash256
  dsimp only
  generalize hn : (if len % 64 = 0 ∧ len / 64 > 0 then len / 64 - 1 else len / 64) = n
  have hle : n * 64 ≤ len := by split_ifs at hn <;> omega
  obtain ⟨y, hy, hst⟩ := updateMulti_ok h256 input n (by omega)
  rw [hy, Res.bind_ok, show n * 64 = 64 * n by omega]
  obtain ⟨z, hz, hf⟩ := last_ok y (input.take (64 * n)) n (input.drop (64 * n)) (len - 64 * n)
    (by rw [List.length_take, min_eq_left (by omega)]) (by rw [hst, h256_st, absorb_take _ _ _ _ le_rfl])
    (by rw [List.length_drop]; omega) (by omega)
  rw [hz, Res.bind_ok, hf, ← List.take_add, show 64 * n + (len - 64 * n) = len by omega]

/-! ## Streaming -/

/-- The state holds the message `m`. -/
structure Rep (s : Stream) (m : Bytes) : Prop where
  total : s.totalLen = m.length
  buf : s.buf.length = 64
  state : s.blockState.st = absorb initial m ((m.length - partialLen m.length) / 64)
  rest : s.buf.take (partialLen m.length) = m.drop (m.length - partialLen m.length)

theorem partialLen_le (t : ℕ) : partialLen t ≤ 64 ∧ partialLen t ≤ t ∧ (t - partialLen t) % 64 = 0 ∧
    (t > 0 → 0 < partialLen t) := by
  unfold partialLen
  split_ifs with h <;> refine ⟨by omega, by omega, by omega, fun _ => by omega⟩

theorem partialLen_add (t len : ℕ) (h : len ≤ 64 - partialLen t) : partialLen (t + len) = partialLen t + len := by
  unfold partialLen at *
  split_ifs at * <;> omega

theorem partialLen_full (t len : ℕ) (h : partialLen t = 0 ∨ partialLen t = 64) (hl : 0 < len) :
    partialLen (t + len) = partialLen len ∧ t % 64 = 0 := by
  unfold partialLen at *
  split_ifs at * <;> omega

theorem rep_create : Rep create [] := ⟨rfl, by simp [create], h256_st, rfl⟩

theorem rep_init (s : Stream) (m : Bytes) (h : Rep s m) : Rep s.init [] := ⟨rfl, h.buf, h256_st, rfl⟩

theorem updateSmall_ok (s : Stream) (m data : Bytes) (len : ℕ) (h : Rep s m) (hd : len ≤ data.length)
    (hl : len ≤ 64 - partialLen m.length) (ht : m.length + len < 2 ^ 64) :
    ∃ s', updateSmall s data len = .ok s' ∧ Rep s' (m ++ data.take len) := by
  obtain ⟨p1, p2, p3, -⟩ := partialLen_le m.length
  have hdl : ((data.drop 0).take len).length = len := by simp; omega
  unfold updateSmall
  rw [slice_ok _ _ _ (by omega), Res.bind_ok, h.total, blit_ok _ _ _ (by rw [hdl, h.buf]; omega), Res.bind_ok]
  refine ⟨_, rfl, ?_⟩
  have hml : (m ++ data.take len).length = m.length + len := by simp; omega
  have hpa := partialLen_add m.length len hl
  constructor
  · rw [hml]; exact Nat.mod_eq_of_lt ht
  · change (List.take _ s.buf ++ List.take len (data.drop 0) ++ List.drop _ s.buf).length = 64
    have := h.buf
    simp only [List.length_append, List.length_take, List.length_drop, hdl, h.buf]
    omega
  · rw [hml, hpa, show m.length + len - (partialLen m.length + len) = m.length - partialLen m.length by omega,
      absorb_left _ _ _ _ (by omega)]
    exact h.state
  · rw [hml, hpa, show m.length + len - (partialLen m.length + len) = m.length - partialLen m.length by omega,
      List.drop_append_of_le_length (by omega), ← h.rest]
    change List.take _ (List.take _ s.buf ++ List.take len (data.drop 0) ++ List.drop _ s.buf) = _
    have e : partialLen m.length + len = (List.take (partialLen m.length) s.buf ++ List.take len (data.drop 0)).length := by
      simp only [List.length_append, List.length_take, h.buf, List.length_drop]
      omega
    rw [e, List.take_left, List.drop_zero]

theorem updateBlocks_ok (s : Stream) (m data : Bytes) (len : ℕ) (h : Rep s m) (hd : len ≤ data.length)
    (hp : partialLen m.length = 0 ∨ partialLen m.length = 64) (h0 : 0 < len) (ht : m.length + len < 2 ^ 64) :
    ∃ s', updateBlocks s data len = .ok s' ∧ Rep s' (m ++ data.take len) := by
  obtain ⟨p1, p2, p3, p4⟩ := partialLen_le m.length
  obtain ⟨l1, l2, l3, l4⟩ := partialLen_le len
  obtain ⟨hpf, hm64⟩ := partialLen_full m.length len hp h0
  have hml : (m ++ data.take len).length = m.length + len := by simp; omega
  -- the buffer
  have hfirst : ∃ y, flush s = .ok y ∧ y.st = absorb initial m (m.length / 64) := by
    unfold flush
    rw [h.total]
    split_ifs with hz
    · refine ⟨_, rfl, ?_⟩
      rw [h.state, hz, Nat.sub_zero]
    · have hz' : partialLen m.length = 64 := by tauto
      obtain ⟨y, hy, hst⟩ := updateMulti_ok s.blockState s.buf 1 (by rw [h.buf])
      refine ⟨y, hy, ?_⟩
      have hr := h.rest
      rw [hz', List.take_of_length_le (by rw [h.buf])] at hr
      rw [hst, h.state, hr, hz', show m.length / 64 = (m.length - 64) / 64 + 1 by omega, absorb_add]
      congr 2
      omega
  obtain ⟨y, hy, hyst⟩ := hfirst
  unfold updateBlocks
  rw [hy, Res.bind_ok]
  dsimp only
  generalize hnb : (len - partialLen len) / 64 = nb
  have hnb' : nb * 64 = len - partialLen len := by omega
  rw [show nb * 64 / 64 = nb by omega]
  obtain ⟨z, hz, hzst⟩ := updateMulti_ok y data nb (by omega)
  have hrl : ((data.drop (nb * 64)).take (len - nb * 64)).length = partialLen len := by simp; omega
  rw [hz, Res.bind_ok, slice_ok _ _ _ (by omega), Res.bind_ok, blit_ok _ _ _ (by rw [hrl, h.buf]; omega), Res.bind_ok]
  refine ⟨_, rfl, ?_⟩
  constructor
  · rw [hml, h.total]; exact Nat.mod_eq_of_lt ht
  · change (List.take 0 s.buf ++ _ ++ List.drop _ s.buf).length = 64
    simp only [List.length_append, List.length_take, List.length_drop, h.buf]
    omega
  · change z.st = _
    rw [hml, hpf, hzst, hyst, show (m.length + len - partialLen len) / 64 = m.length / 64 + nb by omega,
      absorb_append _ _ _ _ _ (by omega), absorb_take _ _ _ _ (by omega)]
  · change List.take _ (List.take 0 s.buf ++ (data.drop (nb * 64)).take (len - nb * 64) ++ List.drop _ s.buf) = _
    rw [hml, hpf, List.take_zero, List.nil_append, List.take_left' hrl,
      show m.length + len - partialLen len = m.length + nb * 64 by omega, List.drop_append,
      List.drop_eq_nil_of_le (as := m) (by omega), List.nil_append, List.drop_take,
      show m.length + nb * 64 - m.length = nb * 64 by omega]

theorem update_ok (s : Stream) (m data : Bytes) (len : ℕ) (h : Rep s m) (hd : len ≤ data.length)
    (ht : m.length + len < 2 ^ 64) : ∃ s', s.update data len = .ok s' ∧ Rep s' (m ++ data.take len) := by
  obtain ⟨p1, p2, p3, p4⟩ := partialLen_le m.length
  unfold Stream.update
  dsimp only
  rw [h.total]
  split_ifs with h1 h2
  · exact updateSmall_ok s m data len h hd h1 ht
  · exact updateBlocks_ok s m data len h hd (Or.inl h2) (by omega) ht
  · obtain ⟨s1, hs1, hr1⟩ := updateSmall_ok s m data (64 - partialLen m.length) h (by omega) le_rfl (by omega)
    rw [hs1, Res.bind_ok]
    have hml : (m ++ data.take (64 - partialLen m.length)).length = m.length + (64 - partialLen m.length) := by
      simp; omega
    have hpa := partialLen_add m.length (64 - partialLen m.length) le_rfl
    obtain ⟨s2, hs2, hr2⟩ := updateBlocks_ok s1 _ (data.drop (64 - partialLen m.length))
      (len - (64 - partialLen m.length)) hr1 (by rw [List.length_drop]; omega)
      (by rw [hml, hpa]; right; omega) (by omega) (by rw [hml]; omega)
    refine ⟨s2, hs2, ?_⟩
    rwa [List.append_assoc, ← List.take_add,
      show 64 - partialLen m.length + (len - (64 - partialLen m.length)) = len by omega] at hr2

theorem finish_ok (s : Stream) (m : Bytes) (h : Rep s m) (ht : m.length < 2 ^ 61) :
    s.finish = .ok (sha256 m) := by
  obtain ⟨p1, p2, p3, p4⟩ := partialLen_le m.length
  unfold Stream.finish
  dsimp only
  rw [h.total]
  have hite : (if partialLen m.length % 64 = 0 ∧ partialLen m.length > 0 then 64 else partialLen m.length % 64) =
      partialLen m.length := by split_ifs <;> omega
  rw [hite, Nat.sub_self, List.drop_zero]
  obtain ⟨y, hy, hst⟩ := updateMulti_ok s.blockState s.buf 0 (by omega)
  rw [hy, Res.bind_ok]
  obtain ⟨z, hz, hf⟩ := last_ok y (m.take (m.length - partialLen m.length)) ((m.length - partialLen m.length) / 64)
    s.buf (partialLen m.length) (by rw [List.length_take]; omega)
    (by rw [hst, absorb, h.state, absorb_take _ _ _ _ (by omega)]) (by rw [h.buf]; omega) (by omega)
  rw [show 64 * ((m.length - partialLen m.length) / 64) = m.length - partialLen m.length by omega] at hz
  rw [hz, Res.bind_ok, hf, h.rest, List.take_append_drop]

/-! ## HMAC -/

theorem sha256_length (m : Bytes) : (sha256 m).length = 32 := by
  simp [sha256, digest, beBytes_length]

theorem zipWith_replicate (c : UInt8) (l : Bytes) :
    List.zipWith (· ^^^ ·) (List.replicate l.length c) l = l.map (· ^^^ c) := by
  induction l with
  | nil => rfl
  | cons x l ih => simp only [List.length_cons, List.replicate_succ, List.zipWith_cons_cons, List.map_cons, ih,
      UInt8.xor_comm]

theorem two_part (x data : Bytes) (len : ℕ) (hx : x.length = 64) (hd : len ≤ data.length) (ht : len < 2 ^ 60) :
    ∃ y, (updateMulti h256 x 1 >>= fun s => updateLast s 64 data len) = .ok y ∧
      finishWords y = sha256 (x ++ data.take len) := by
  obtain ⟨y, hy, hst⟩ := updateMulti_ok h256 x 1 (by omega)
  rw [hy, Res.bind_ok]
  exact last_ok y x 1 data len (by omega) (by rw [hst, h256_st]) hd (by omega)

theorem hmac256_ok (key data : Bytes) (keyLen dataLen : ℕ) (hk : keyLen ≤ key.length) (hk32 : keyLen < 2 ^ 32)
    (hd : dataLen ≤ data.length) (hd32 : dataLen < 2 ^ 32) :
    hmac256 key keyLen data dataLen = .ok (hmac (key.take keyLen) (data.take dataLen)) := by
  have hkl : (key.take keyLen).length = keyLen := by simp; omega
  unfold hmac256 hmac
  rw [hkl]
  have hnk : hmacKey key keyLen = .ok (if keyLen ≤ 64 then key.take keyLen else sha256 (key.take keyLen)) := by
    unfold hmacKey
    split_ifs with h
    · rw [slice_ok _ _ _ (by omega), List.drop_zero]
    · exact hash256_ok key keyLen hk (by omega)
  rw [hnk, Res.bind_ok]
  dsimp only
  generalize hnkey : (if keyLen ≤ 64 then key.take keyLen else sha256 (key.take keyLen)) = nkey
  have hnl : nkey.length ≤ 64 := by
    rw [← hnkey]; split_ifs with h
    · omega
    · rw [sha256_length]; norm_num
  have hb := blit_append [] (List.replicate 64 0) nkey (by simpa using hnl)
  rw [List.nil_append, List.nil_append, List.length_nil, List.drop_replicate] at hb
  rw [hb, Res.bind_ok]
  generalize hk0 : nkey ++ List.replicate (64 - nkey.length) (0 : UInt8) = k0
  have hk0l : k0.length = 64 := by rw [← hk0]; simp; omega
  have hz : ∀ c, List.zipWith (· ^^^ ·) (List.replicate 64 c) k0 = k0.map (· ^^^ c) := by
    intro c
    rw [← hk0l]; exact zipWith_replicate c k0
  rw [hz, hz]
  have hil : (k0.map (· ^^^ (0x36 : UInt8))).length = 64 := by rw [List.length_map, hk0l]
  have hol : (k0.map (· ^^^ (0x5c : UInt8))).length = 64 := by rw [List.length_map, hk0l]
  have hinner : ∃ y, hmacInner (k0.map (· ^^^ (0x36 : UInt8))) data dataLen = .ok y ∧
      finishWords y = sha256 (k0.map (· ^^^ (0x36 : UInt8)) ++ data.take dataLen) := by
    unfold hmacInner
    split_ifs with h
    · obtain ⟨y, hy, hf⟩ := last_ok h256 [] 0 (k0.map (· ^^^ (0x36 : UInt8))) 64 rfl h256_st (by rw [hil]) (by norm_num)
      refine ⟨y, hy, ?_⟩
      rw [hf, h, List.take_zero, List.nil_append, List.append_nil, List.take_of_length_le (by rw [hil])]
    · exact two_part _ _ _ hil hd (by omega)
  obtain ⟨y, hy, hf⟩ := hinner
  rw [hy, Res.bind_ok, hf]
  generalize hin : sha256 (k0.map (· ^^^ (0x36 : UInt8)) ++ data.take dataLen) = inner
  have hinl : inner.length = 32 := by rw [← hin]; exact sha256_length _
  have hb2 := blit_append [] (k0.map (· ^^^ (0x36 : UInt8))) inner (by rw [hinl, hil]; norm_num)
  rw [List.nil_append, List.nil_append, List.length_nil] at hb2
  rw [hb2, Res.bind_ok]
  obtain ⟨z, hz', hf'⟩ := two_part (k0.map (· ^^^ (0x5c : UInt8)))
    (inner ++ List.drop inner.length (k0.map (· ^^^ (0x36 : UInt8)))) 32 hol
    (by rw [List.length_append, hinl]; omega) (by norm_num)
  rw [List.take_left' hinl] at hf'
  obtain ⟨w, hw1, hw2⟩ := (Res.bind_eq_ok _ _ _).1 hz'
  rw [hw1, Res.bind_ok, hw2, Res.bind_ok, hf']

end EG.Sha
