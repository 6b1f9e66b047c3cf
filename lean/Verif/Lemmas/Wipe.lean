import Verif.Model.Wipe
import Verif.Spec.Wipe
import Verif.Lemmas.HashedElGamal

/-!
# Blocks given back to the allocator
-/

namespace EG.Wipe

namespace Run

variable {α β : Type}

theorem res_bind (x : Run α) (f : α → Run β) : (x >>= f).res = x.res >>= fun a => (f a).res := by
  show (Run.bind x f).res = _
  unfold Run.bind
  cases x.res <;> rfl

theorem res_pure (a : α) : (pure a : Run α).res = .ok a := rfl

theorem res_lift (r : Res α) : (lift r).res = r := rfl

theorem res_free (v : Var) (b : List UInt8) : (free v b).res = .ok () := rfl

theorem res_after (x : Run α) (l : List Freed) : (x.after l).res = x.res := rfl

theorem mem_bind_left (x : Run α) (f : α → Run β) (b : Freed) (h : b ∈ x.freed) : b ∈ (x >>= f).freed := by
  show b ∈ (Run.bind x f).freed
  unfold Run.bind
  cases x.res
  · exact List.mem_append_left _ h
  · exact h
  · exact h

theorem mem_bind_right (x : Run α) (f : α → Run β) (a : α) (hx : x.res = .ok a) (b : Freed)
    (h : b ∈ (f a).freed) : b ∈ (x >>= f).freed := by
  show b ∈ (Run.bind x f).freed
  unfold Run.bind
  rw [hx]
  exact List.mem_append_right _ h

/-- Every block that is given back has the property. -/
def All (P : Freed → Prop) (x : Run α) : Prop := ∀ b ∈ x.freed, P b

theorem all_bind {P : Freed → Prop} (x : Run α) (f : α → Run β) (hx : All P x)
    (hf : ∀ a, x.res = .ok a → All P (f a)) : All P (x >>= f) := by
  intro b hb
  change b ∈ (Run.bind x f).freed at hb
  unfold Run.bind at hb
  cases h : x.res with
  | ok a =>
    rw [h] at hb
    rcases List.mem_append.1 hb with hb | hb
    · exact hx b hb
    · exact hf a h b hb
  | throw e => rw [h] at hb; exact hx b hb
  | ub => rw [h] at hb; exact hx b hb

theorem all_pure {P : Freed → Prop} (a : α) : All P (pure a : Run α) := fun _ h => absurd h (List.not_mem_nil)

theorem all_lift {P : Freed → Prop} (r : Res α) : All P (lift r) := fun _ h => absurd h (List.not_mem_nil)

theorem all_free {P : Freed → Prop} (v : Var) (b : List UInt8) (h : P ⟨v, b⟩) : All P (free v b) := by
  intro x hx
  rw [List.mem_singleton.1 hx]
  exact h

theorem all_after {P : Freed → Prop} (x : Run α) (l : List Freed) (hx : All P x) (hl : ∀ b ∈ l, P b) :
    All P (x.after l) := by
  intro b hb
  rcases List.mem_append.1 hb with hb | hb
  · exact hx b hb
  · exact hl b hb

end Run

theorem memzero_all (b : List UInt8) : memzero b b.length = .ok (List.replicate b.length 0) := by
  unfold memzero
  rw [if_pos le_rfl, List.drop_length, List.append_nil]

theorem memzero_ok (b : List UInt8) (n : ℕ) (h : n ≤ b.length) :
    memzero b n = .ok (List.replicate n 0 ++ b.drop n) := if_pos h

theorem insert_res (grow : ℕ → ℕ → ℕ) (v : Vec) (xs : List UInt8) :
    ∃ cap, (v.insert grow xs).res = .ok ⟨cap, v.bytes ++ xs⟩ := by
  unfold Vec.insert
  dsimp only
  split_ifs
  all_goals exact ⟨_, rfl⟩

theorem insert_freed (grow : ℕ → ℕ → ℕ) (v : Vec) (xs : List UInt8) (b : Freed)
    (hb : b ∈ (v.insert grow xs).freed) : b = ⟨.outgrown, v.bytes⟩ := by
  unfold Vec.insert at hb
  dsimp only at hb
  split_ifs at hb
  · exact absurd hb (List.not_mem_nil)
  · exact absurd hb (List.not_mem_nil)
  · exact List.mem_singleton.1 hb

theorem hmacDataF_res (grow : ℕ → ℕ → ℕ) (message : List UInt8) (length start : ℕ) :
    ∃ cap, (hmacDataF grow message length start).res =
      .ok ⟨cap, if 0 < length then le32 start ++ message ++ le32 length else message⟩ := by
  unfold hmacDataF
  by_cases h : 0 < length
  · rw [if_pos h, if_pos h]
    obtain ⟨c1, h1⟩ := insert_res grow Vec.empty (le32 start)
    obtain ⟨c2, h2⟩ := insert_res grow ⟨c1, Vec.empty.bytes ++ le32 start⟩ message
    obtain ⟨c3, h3⟩ := insert_res grow ⟨c2, (Vec.empty.bytes ++ le32 start) ++ message⟩ (le32 length)
    rw [Run.res_bind, h1, Res.bind_ok, Run.res_bind, h2, Res.bind_ok, h3]
    exact ⟨c3, rfl⟩
  · rw [if_neg h, if_neg h]
    exact ⟨_, rfl⟩

theorem getHmacF_res (C : Crypto) (grow : ℕ → ℕ → ℕ) (key message : List UInt8) (length start : ℕ) :
    (getHmacF C grow key message length start).res = .ok (getHmac C key message length start) := by
  obtain ⟨cap, h⟩ := hmacDataF_res grow message length start
  unfold getHmacF getHmac
  rw [Run.res_after, Run.res_bind, h, Res.bind_ok]
  dsimp only
  rw [Run.res_bind, Run.res_lift, memzero_all, Res.bind_ok, Run.res_bind, Run.res_free, Res.bind_ok,
    Run.res_pure]
  by_cases h : 0 < length
  · rw [if_pos h, if_pos h]
  · rw [if_neg h, if_neg h]

theorem blocksF_res (C : Crypto) (grow : ℕ → ℕ → ℕ) (session seed nb : ℕ) (data : List UInt8) (n : ℕ) :
    ∀ i (out : Vec),
      (∃ cap l, xorBlocks (blockKey C session seed nb) data i n = .ok l ∧
        (blocksF C grow session seed nb data i n out).res = .ok ⟨cap, out.bytes ++ l⟩) ∨
      (xorBlocks (blockKey C session seed nb) data i n = .ub ∧
        (blocksF C grow session seed nb data i n out).res = .ub) := by
  induction n with
  | zero =>
    intro i out
    left
    exact ⟨out.cap, [], rfl, by rw [List.append_nil]; rfl⟩
  | succ n ih =>
    intro i out
    rw [blocksF, xorBlocks, Run.res_bind, getHmacF_res, Res.bind_ok, Run.res_bind, Run.res_lift]
    have hk : getHmac C (toBytesQ session) (toBytesQ seed) (lengthBits nb) ((i + 1) % 2 ^ 32) =
      blockKey C session seed nb i := rfl
    rw [hk]
    have noThrow : ∀ m idx j, ∀ e, xorAt (blockKey C session seed nb i) data idx j m ≠ .throw e := by
      intro m
      induction m with
      | zero => intro idx j e h; simp [xorAt] at h
      | succ m ihm =>
        intro idx j e h
        rw [xorAt] at h
        cases h1 : data[idx]? with
        | none => rw [h1] at h; simp at h
        | some a =>
          cases h2 : (blockKey C session seed nb i)[j]? with
          | none => rw [h1, h2] at h; simp at h
          | some b =>
            rw [h1, h2] at h
            dsimp only at h
            cases h3 : xorAt (blockKey C session seed nb i) data (idx + 1) (j + 1) m with
            | ok l => rw [h3] at h; simp at h
            | throw e' => exact ihm _ _ _ h3
            | ub => rw [h3] at h; simp at h
    cases hx : xorAt (blockKey C session seed nb i) data (32 * i) 0 32 with
    | throw e => exact absurd hx (noThrow _ _ _ _)
    | ub => right; exact ⟨rfl, rfl⟩
    | ok temp =>
      obtain ⟨c1, h1⟩ := insert_res grow out temp
      simp only [Res.bind_ok, Run.res_bind, Run.res_lift, Run.res_free, memzero_all, h1]
      rcases ih (i + 1) ⟨c1, out.bytes ++ temp⟩ with ⟨cap, l, h2, h3⟩ | ⟨h2, h3⟩
      · left
        refine ⟨cap, temp ++ l, ?_, ?_⟩
        · rw [h2]; rfl
        · rw [h3, List.append_assoc]
      · right
        rw [h2, h3]
        exact ⟨rfl, rfl⟩

theorem macF_res (C : Crypto) (grow : ℕ → ℕ → ℕ) (session seed nb pad : ℕ) (data : List UInt8) :
    (macF C grow session seed nb pad data).res = .ok (macOf C session seed nb pad data) := by
  unfold macF macOf
  simp only [Res.bind_ok, Run.res_bind, Run.res_lift, Run.res_free, memzero_all, getHmacF_res, Run.res_pure]

theorem padF_res (grow : ℕ → ℕ → ℕ) (message : List UInt8) (maxLen : ℕ) (tr : Bool) :
    (∃ cap l, padMessage message maxLen tr = .ok l ∧ (padF grow message maxLen tr).res = .ok ⟨cap, l⟩) ∨
      (padMessage message maxLen tr = .throw .invalidArgument ∧
        padF grow message maxLen tr = Run.lift (.throw .invalidArgument)) := by
  unfold padF padMessage
  by_cases h1 : maxLen ≠ noPadding
  · rw [if_pos h1, if_pos h1]
    by_cases h2 : tr = true ∧ message.length > maxLen
    · rw [if_pos h2, if_pos h2]
      left
      obtain ⟨c1, e1⟩ := insert_res grow Vec.empty (be16 0)
      obtain ⟨c2, e2⟩ := insert_res grow ⟨c1, Vec.empty.bytes ++ be16 0⟩ (message.take maxLen)
      refine ⟨c2, _, rfl, ?_⟩
      rw [Run.res_bind, e1, Res.bind_ok, e2]
      rfl
    · rw [if_neg h2, if_neg h2]
      by_cases h3 : message.length > maxLen
      · rw [if_pos h3, if_pos h3]
        right; exact ⟨rfl, rfl⟩
      · rw [if_neg h3, if_neg h3]
        left
        dsimp only
        generalize (maxLen - message.length) % 2 ^ 16 = k
        obtain ⟨c1, e1⟩ := insert_res grow Vec.empty (be16 k)
        obtain ⟨c2, e2⟩ := insert_res grow ⟨c1, Vec.empty.bytes ++ be16 k⟩ message
        obtain ⟨c3, e3⟩ := insert_res grow ⟨c2, (Vec.empty.bytes ++ be16 k) ++ message⟩ (List.replicate k 0)
        by_cases h4 : 0 < k
        · refine ⟨c3, _, rfl, ?_⟩
          rw [Run.res_bind, e1, Res.bind_ok, Run.res_bind, e2, Res.bind_ok, if_pos h4, e3]
          rfl
        · refine ⟨c2, _, rfl, ?_⟩
          have : k = 0 := by omega
          subst this
          rw [Run.res_bind, e1, Res.bind_ok, Run.res_bind, e2, Res.bind_ok, if_neg h4]
          rw [List.replicate_zero, List.append_nil]
          rfl
  · rw [if_neg h1, if_neg h1]
    by_cases h2 : message.length % 32 ≠ 0
    · rw [if_pos h2, if_pos h2]
      right; exact ⟨rfl, rfl⟩
    · rw [if_neg h2, if_neg h2]
      left
      obtain ⟨c1, e1⟩ := insert_res grow Vec.empty message
      exact ⟨c1, _, rfl, e1⟩

theorem destroyQ_ok (x : ℕ) : destroyQ x = .ok (List.replicate 4 0 ++ (toBytesLE 32 x).drop 4) :=
  memzero_ok _ _ (by rw [toBytesLE_length]; decide)

theorem destroyP_ok (x : ℕ) : destroyP x = .ok (List.replicate 64 0 ++ (toBytesLE 512 x).drop 64) :=
  memzero_ok _ _ (by rw [toBytesLE_length]; decide)

theorem dropKeys_res {α : Type} (session pkR : ℕ) (x : Run α) : (dropKeys session pkR x).res = x.res := by
  unfold dropKeys
  rw [destroyQ_ok, destroyP_ok]
  rfl

theorem mem_dropKeys {α : Type} (session pkR : ℕ) (x : Run α) (b : Freed) (h : b ∈ x.freed) :
    b ∈ (dropKeys session pkR x).freed := by
  unfold dropKeys
  rw [destroyQ_ok, destroyP_ok]
  exact List.mem_append_left _ h

theorem ofBytesLE_replicate (n : ℕ) (l : List UInt8) :
    ofBytesLE (List.replicate n 0 ++ l) = 256 ^ n * ofBytesLE l := by
  induction n with
  | zero => simp
  | succ n ih =>
    rw [List.replicate_succ, List.cons_append, ofBytesLE, ih, pow_succ]
    simp
    ring

theorem toBytesLE_drop (k n x : ℕ) : (toBytesLE (k + n) x).drop k = toBytesLE n (x / 256 ^ k) := by
  induction k generalizing x with
  | zero => simp
  | succ k ih =>
    rw [Nat.add_right_comm, toBytesLE, List.drop_succ_cons, ih, Nat.div_div_eq_div_mul, ← pow_succ']

end EG.Wipe
