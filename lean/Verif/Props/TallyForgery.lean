import Verif.Props.Forgery
import Verif.Props.Replay
import Verif.Spec.Tally

/-!
# C113: whoever makes the ballots, a valid one counts once

The program of C112 ends in any number of ballots, all made by it.  Their totals are what the ballots say: each adds 0 or
1 to every total, and to all totals of a contest together the number in its proof.
-/

namespace EG

variable {G : Params} (C : Crypto) (S : StdSort)

/-- The totals of the ballots are encryptions of sums of votes: of each ballot 0 or 1 for each selection, and for the
selections of a contest together the number in its proof. -/
def Counted (G : Params) (K : ℕ) (bs : List CBallot) : Prop :=
  ∃ vote : CBallot → Str → Str → ℕ,
    (∀ b ∈ bs, ∀ cid sid, vote b cid sid ≤ 1) ∧
    (∀ b ∈ bs, ∀ c ∈ b.contests, ∃ π, c.proof = some π ∧
      (c.selections.map (fun s => vote b c.objectId s.objectId)).sum = π.constant) ∧
    ∀ cid sid, bs.flatMap (·.ciphertextsFor cid sid) ≠ [] → ∃ t N,
      elgamalAdd G (bs.flatMap (·.ciphertextsFor cid sid)) = .ok t ∧
      IsEncryption G K (bs.map (fun b => vote b cid sid)).sum N t ∧
      ∀ T N', IsEncryption G K T N' t → T < G.q → T = (bs.map (fun b => vote b cid sid)).sum

theorem filter_key {α : Type} (f : α → Str) {l : List α} (hl : (l.map f).Nodup) {x : α} (hx : x ∈ l) :
    l.filter (fun y => f y = f x) = [x] := by
  induction l with
  | nil => cases hx
  | cons y l ih =>
    rw [List.map_cons, List.nodup_cons] at hl
    by_cases h : f y = f x
    · have : x = y := by
        rcases List.mem_cons.1 hx with h1 | h1
        · exact h1
        · exact absurd (h ▸ List.mem_map_of_mem h1) hl.1
      subst this
      rw [List.filter_cons_of_pos (by simp), List.filter_eq_nil_iff.2]
      intro z hz
      simp only [decide_eq_true_eq]
      intro hz2
      exact hl.1 (hz2 ▸ List.mem_map_of_mem hz)
    · rw [List.filter_cons_of_neg (by simpa using h)]
      refine ih hl.2 ?_
      rcases List.mem_cons.1 hx with h1 | h1
      · exact absurd (by rw [h1]) h
      · exact h1

theorem keys_contests {b : CBallot} (hn : b.keys.Nodup) : (b.contests.map (·.objectId)).Nodup := by
  refine List.Nodup.sublist ?_ hn
  unfold CBallot.keys
  induction b.contests with
  | nil => simp
  | cons c l ih =>
    rw [List.map_cons, List.flatMap_cons, List.cons_append]
    exact List.Sublist.cons_cons _ (ih.trans (List.sublist_append_right _ _))

theorem keys_selections {b : CBallot} (hn : b.keys.Nodup) {c : CContest} (hc : c ∈ b.contests) :
    (c.selections.map (·.objectId)).Nodup := by
  have h1 := ((List.nodup_flatMap.1 hn).1 c hc)
  have h2 := (List.nodup_cons.1 h1).2
  refine List.Nodup.of_map (fun x => c.objectId ++ '-' :: x) ?_
  rw [List.map_map]
  exact h2

theorem ciphertextsFor_mem {b : CBallot} (hn : b.keys.Nodup) {c : CContest} (hc : c ∈ b.contests) {s : CSelection}
    (hs : s ∈ c.selections) : b.ciphertextsFor c.objectId s.objectId = [s.ciphertext] := by
  unfold CBallot.ciphertextsFor
  rw [filter_key _ (keys_contests hn) hc, List.flatMap_cons, List.flatMap_nil, List.append_nil,
    filter_key _ (keys_selections hn hc) hs]
  rfl

theorem ciphertextsFor_cases {b : CBallot} (hn : b.keys.Nodup) (cid sid : Str) :
    b.ciphertextsFor cid sid = [] ∨
      ∃ c ∈ b.contests, ∃ s ∈ c.selections, c.objectId = cid ∧ s.objectId = sid ∧
        b.ciphertextsFor cid sid = [s.ciphertext] := by
  cases h : b.ciphertextsFor cid sid with
  | nil => exact Or.inl rfl
  | cons m l =>
    have hm : m ∈ b.ciphertextsFor cid sid := by rw [h]; simp
    unfold CBallot.ciphertextsFor at hm
    obtain ⟨c, hc, hm⟩ := List.mem_flatMap.1 hm
    obtain ⟨s, hs, rfl⟩ := List.mem_map.1 hm
    obtain ⟨hc, hci⟩ := List.mem_filter.1 hc
    obtain ⟨hs, hsi⟩ := List.mem_filter.1 hs
    simp only [decide_eq_true_eq] at hci hsi
    refine Or.inr ⟨c, hc, s, hs, hci, hsi, ?_⟩
    rw [← h, ← hci, ← hsi]
    exact ciphertextsFor_mem hn hc hs

open Classical in
/-- The vote in a ciphertext of 0 or 1. -/
noncomputable def voteIn (G : Params) (K : ℕ) (m : Ciphertext) : ℕ := if ∃ r, IsEncryption G K 1 r m then 1 else 0

theorem voteIn_eq (hG : G.Valid) {K v r : ℕ} (hK : Residue G K) {m : Ciphertext} (hv : v < 2)
    (h : IsEncryption G K v r m) : voteIn G K m = v := by
  have hq := hG.q_gt
  unfold voteIn
  split
  · rename_i h1
    obtain ⟨r', h1⟩ := h1
    have := isEncryption_unique G hG hK h1 h
    rw [Nat.mod_eq_of_lt (by omega), Nat.mod_eq_of_lt (by omega)] at this
    exact this
  · rename_i h1
    have : v ≠ 1 := fun e => h1 ⟨r, e ▸ h⟩
    omega

theorem voteIn_le {K : ℕ} {m : Ciphertext} : voteIn G K m ≤ 1 := by
  unfold voteIn
  split <;> omega

theorem voteIn_list (hG : G.Valid) {K : ℕ} (hK : Residue G K) {votes : List ℕ} {l : List CSelection}
    (hf : List.Forall₂ (fun v s => v < 2 ∧ ∃ r, IsEncryption G K v r s.ciphertext) votes l) :
    l.map (fun s => voteIn G K s.ciphertext) = votes ∧
      ∀ s ∈ l, ∃ r, IsEncryption G K (voteIn G K s.ciphertext) r s.ciphertext := by
  induction hf with
  | nil => simp
  | @cons v s _ _ h1 _ ih =>
    obtain ⟨h2, r, h3⟩ := h1
    have h4 := voteIn_eq hG hK h2 h3
    refine ⟨by rw [List.map_cons, ih.1, h4], ?_⟩
    intro s' hs'
    rcases List.mem_cons.1 hs' with h | h
    · rw [h, h4]; exact ⟨r, h3⟩
    · exact ih.2 s' h

/-- What each ballot is worth decides the totals. -/
theorem counted_of_right (hG : G.Valid) {K : ℕ} (hK : Residue G K) (bs : List CBallot) (hlen : bs.length < G.q)
    (hn : ∀ b ∈ bs, b.keys.Nodup) (hr : ∀ b ∈ bs, ∀ c ∈ b.contests, RightVotes G K c) : Counted G K bs := by
  have henc : ∀ b ∈ bs, ∀ c ∈ b.contests, ∀ s ∈ c.selections, ∃ r, IsEncryption G K (voteIn G K s.ciphertext) r s.ciphertext := by
    intro b hb c hc s hs
    obtain ⟨votes, π, -, -, hf⟩ := hr b hb c hc
    exact (voteIn_list hG hK hf).2 s hs
  have hle : ∀ b ∈ bs, ∀ cid sid, ((b.ciphertextsFor cid sid).map (voteIn G K)).sum ≤ 1 := by
    intro b hb cid sid
    rcases ciphertextsFor_cases (hn b hb) cid sid with h | ⟨_, _, s, _, _, _, h⟩
    · rw [h]; simp
    · rw [h]
      simpa using voteIn_le
  refine ⟨fun b cid sid => ((b.ciphertextsFor cid sid).map (voteIn G K)).sum, hle, ?_, ?_⟩
  · intro b hb c hc
    obtain ⟨votes, π, hπ, hsum, hf⟩ := hr b hb c hc
    refine ⟨π, hπ, ?_⟩
    rw [← hsum]
    congr 1
    have e : c.selections.map (fun s => ((b.ciphertextsFor c.objectId s.objectId).map (voteIn G K)).sum) =
        c.selections.map (fun s => voteIn G K s.ciphertext) := by
      refine List.map_congr_left ?_
      intro s hs
      rw [ciphertextsFor_mem (hn b hb) hc hs]
      simp
    rw [e]
    exact (voteIn_list hG hK hf).1
  · intro cid sid hne
    have hall : ∀ m ∈ bs.flatMap (·.ciphertextsFor cid sid), ∃ r, IsEncryption G K (voteIn G K m) r m := by
      intro m hm
      obtain ⟨b, hb, hm⟩ := List.mem_flatMap.1 hm
      rcases ciphertextsFor_cases (hn b hb) cid sid with h | ⟨c, hc, s, hs, _, _, h⟩
      · rw [h] at hm; cases hm
      · rw [h, List.mem_singleton] at hm
        rw [hm]
        exact henc b hb c hc s hs
    have hsum : ((bs.flatMap (·.ciphertextsFor cid sid)).map (voteIn G K)).sum =
        (bs.map (fun b => ((b.ciphertextsFor cid sid).map (voteIn G K)).sum)).sum := by
      clear hall hne hle henc hr hn hlen
      induction bs with
      | nil => rfl
      | cons b bs ih => simp [List.flatMap_cons, ih]
    have hsmall : (bs.map (fun b => ((b.ciphertextsFor cid sid).map (voteIn G K)).sum)).sum < G.q := by
      refine lt_of_le_of_lt ?_ hlen
      clear hsum hall hne henc hr hn hlen
      induction bs with
      | nil => simp
      | cons b bs ih =>
        have h1 := hle b (by simp) cid sid
        have h2 := ih (fun b hb => hle b (by simp [hb]))
        simp only [List.map_cons, List.sum_cons, List.length_cons]
        omega
    have : ∃ nonce : Ciphertext → ℕ, ∀ m ∈ bs.flatMap (·.ciphertextsFor cid sid),
        IsEncryption G K (voteIn G K m) (nonce m) m := by
      classical
      refine ⟨fun m => if h : ∃ r, IsEncryption G K (voteIn G K m) r m then h.choose else 0, ?_⟩
      intro m hm
      dsimp only
      rw [dif_pos (hall m hm)]
      exact (hall m hm).choose_spec
    obtain ⟨nonce, hnonce⟩ := this
    obtain ⟨t, ht, henc⟩ := C12_add_encrypts_sum G hG K
      ((bs.flatMap (·.ciphertextsFor cid sid)).map (fun m => (voteIn G K m, nonce m, m))) (by simpa using hne) (by
        intro x hx
        obtain ⟨m, hm, rfl⟩ := List.mem_map.1 hx
        exact hnonce m hm)
    rw [List.map_map] at ht henc
    rw [show ((fun x : ℕ × ℕ × Ciphertext => x.2.2) ∘ fun m => (voteIn G K m, nonce m, m)) = id from rfl, List.map_id] at ht
    rw [show ((fun x : ℕ × ℕ × Ciphertext => x.1) ∘ fun m => (voteIn G K m, nonce m, m)) = voteIn G K from rfl, hsum] at henc
    refine ⟨t, _, ht, henc, ?_⟩
    intro T N' hT hTq
    have := isEncryption_unique G hG hK hT henc
    rwa [Nat.mod_eq_of_lt hTq, Nat.mod_eq_of_lt hsmall] at this

open Classical in
/-- C113: of the hash functions, the part for which a program with `n` calls ends in a list of ballots, all valid, with
up to `v` proofs together, whose totals are not sums of votes of 0 or 1 per ballot that keep to the numbers in the proofs,
is at most `3 (2 ^ 64 + 1) (n + v) / 2 ^ 256` (for the standard parameters). -/
theorem C113_tally (hG : G.Valid) (hL : G.Large) {K : ℕ} (hK : Residue G K) {X : Finset Str} (hX : HasChallenges X)
    {n v : ℕ} (hvq : v < G.q) (P : Prog (ℕ × ℕ × List CBallot) n) :
    (Finset.univ.filter (fun O : X → Fin (2 ^ 256) =>
      ∃ mh ext bs, P.run (C.withOracle X O).sha256 = (mh, ext, bs) ∧ ext < 2 ^ 256 ∧ bs.length < G.q ∧
        (∀ b ∈ bs, (∀ c ∈ b.contests, CContest.Typed c) ∧ b.keys.Nodup ∧
          b.isValid G (C.withOracle X O) S mh K ext = .ok true) ∧
        (bs.map CBallot.proofs).sum ≤ v ∧ ¬ Counted G K bs)).card * 2 ^ 256 ≤
      fibre G * (2 ^ 64 + 1) * (n + v) * Fintype.card (X → Fin (2 ^ 256)) := by
  refine count_wins C P (Bad G K (2 ^ 64)) (card_bad hG hL (hK.lt hG) (2 ^ 64))
    (fun r => r.2.2.flatMap (fun b => b.challengeStrings r.2.1)) _ ?_
  rintro O ⟨mh, ext, bs, hr, he, hlen, hall, hb, hw⟩
  rw [hr]
  refine ⟨?_, ?_⟩
  · refine le_trans ?_ hb
    clear hw hb hall hlen hr
    induction bs with
    | nil => simp
    | cons b bs ih =>
      have := challengeStrings_length ext b
      simp only [List.flatMap_cons, List.length_append, List.map_cons, List.sum_cons]
      exact Nat.add_le_add this ih
  · by_contra hno
    apply hw
    refine counted_of_right hG hK bs hlen (fun b hb => (hall b hb).2.1) ?_
    intro b hbm
    have hp : b.proofs ≤ v := (List.single_le_sum (by simp) _ (List.mem_map_of_mem hbm)).trans hb
    refine rightVotes_of_answers C S hG hL hK hX O he (hall b hbm).1 (hall b hbm).2.1 (lt_of_le_of_lt hp hvq)
      (hall b hbm).2.2 ?_
    intro s h1 h2
    by_contra h3
    exact hno ⟨s, List.mem_flatMap.2 ⟨b, hbm, h1⟩, h2, fun y hy => by
      by_contra h4
      exact h3 ⟨y, hy, h4⟩⟩

/-- The hypotheses are met: a hash function, two valid ballots with six proofs, and their key. -/
example : ∃ (X : Finset Str) (O : X → Fin (2 ^ 256)) (b : CBallot) (K : ℕ), HasChallenges X ∧ Residue .std K ∧
    (∀ c ∈ b.contests, c.Typed) ∧ b.keys.Nodup ∧ ([b, b].map CBallot.proofs).sum = 6 ∧
    ∀ S, b.isValid .std ((constCrypto 5).withOracle X O) S 6 K 7 = .ok true := by
  obtain ⟨X, hX⟩ := exists_challenges
  obtain ⟨b, K, hK, ht, hn, hl, hv⟩ := exists_valid_ballot
  have hO : (constCrypto 5).withOracle X (fun _ => ⟨5, by norm_num⟩) = constCrypto 5 := by
    unfold Crypto.withOracle
    congr 1
    funext s
    unfold oracle
    split <;> rfl
  have hp : b.proofs = 3 := by
    have e : b.contests.map (fun c => c.selections.length + 1) = (b.contests.map (·.selections.length)).map (· + 1) := by
      rw [List.map_map]
      rfl
    rw [CBallot.proofs, e, hl]
    rfl
  refine ⟨X, fun _ => ⟨5, by norm_num⟩, b, K, hX, hK, ht, hn, by simp [hp], fun S => ?_⟩
  rw [hO]
  exact hv S

end EG
