import Verif.Props.Manifest
import Verif.Props.BallotHash
import Verif.Props.Hash

/-!
# C66, and parts of C19, C27 and C36: looking up selections, seeded selections, checks of contests
-/

namespace EG

variable (G : Params) (C : Crypto) (S : StdSort)

/-! ## C36: the description hash a contest is checked against -/

/-- C36: a contest is never accepted for a description hash that is not its own. -/
theorem C36_contest_seed (c : CContest) (seed pub extHash : ℕ) (h : seed ≠ c.descHash) :
    c.isValid G C S seed pub extHash ≠ .ok true := by
  intro hv
  unfold CContest.isValid at hv
  obtain ⟨_, -, hv⟩ := (Res.bind_eq_ok _ _ _).1 hv
  obtain ⟨_, -, hv⟩ := (Res.bind_eq_ok _ _ _).1 hv
  cases hp : c.proof with
  | none => simp [hp] at hv
  | some π =>
    simp only [hp] at hv
    obtain ⟨_, -, hv⟩ := (Res.bind_eq_ok _ _ _).1 hv
    simp [h] at hv

/-! ## C19: selections with a seeded proof -/

/-- C19: a selection made with a seed for its proof.  For a ciphertext of `x` under the key, with nonce
`n`, and the claimed vote `t`, it is accepted exactly if the vote is right and neither a challenge nor a
response of its proof is zero. -/
theorem C19_seeded_selection (hG : G.Valid) (K x n ext t seed seq descHash : ℕ) (id : Str)
    (m : Ciphertext) (ph : Bool) (hK : Residue G K) (hm : IsEncryption G K x n m) (hn : n < 2 ^ 256)
    (ht : t < 2) :
    ∃ s π, CSelection.makeSeeded G C id seq descHash m K ext seed t ph (some n) = .ok s ∧
      s.proof = some π ∧ s.objectId = id ∧ s.seq = seq ∧ s.descHash = descHash ∧ s.ciphertext = m ∧
      s.isPlaceholder = ph ∧ s.nonce = some n ∧
      (s.isValid G C descHash K ext = true ↔
        x % G.q = t ∧ π.zeroChallenge ≠ 0 ∧ π.oneChallenge ≠ 0 ∧ π.zeroResponse ≠ 0 ∧
          π.oneResponse ≠ 0) := by
  obtain ⟨π, h1, h2, h3, -⟩ := C19_seeded G C hG K x n ext t seed m hK hm hn ht
  refine ⟨_, π, by simp only [CSelection.makeSeeded, h1, Res.bind_ok]; rfl, rfl, rfl, rfl, rfl, rfl, rfl,
    rfl, ?_⟩
  simp only [CSelection.isValid, ne_eq, not_true_eq_false, if_false]
  by_cases hx : x % G.q = t
  · simp only [hx, true_and]
    exact h2 hx
  · simp [hx, h3 hx]

/-- C19: without nonce there is no proof, and the selection is not accepted. -/
theorem C19_seeded_selection_without_nonce (K ext t seed seq descHash : ℕ) (id : Str) (m : Ciphertext)
    (ph : Bool) (dh : ℕ) :
    ∃ s, CSelection.makeSeeded G C id seq descHash m K ext seed t ph none = .ok s ∧ s.proof = none ∧
      s.isValid G C dh K ext = false := by
  refine ⟨_, rfl, rfl, ?_⟩
  simp only [CSelection.isValid]
  split_ifs <;> rfl

/-- The hypotheses are met by every ciphertext the library makes, for example of vote 1 with nonce 7. -/
example (K : ℕ) (hk : K = gPowP .std 2) : ∃ m, elgamalEncrypt .std 1 7 K = .ok m ∧
    IsEncryption .std K 1 7 m ∧ Residue .std K ∧ 1 % Params.std.q = 1 := by
  have hK : Residue .std K := hk ▸ residue_gPowP C54_std_valid 2 (by norm_num)
  obtain ⟨m, h1, h2⟩ := encrypt_isEncryption .std C54_std_valid 1 7 K (by decide) (by decide)
    (by decide) (lt_trans hK.2.1 C54_std_valid.p_lt)
  exact ⟨m, h1, h2, hK, by decide +kernel⟩

/-! ## C27: `next` after `get` with headers -/

/-- C27: `get(i, headers)` moves the position of `next()` like `get(i)`. -/
theorem C27_next_after_get_with (s : Nonces) (i n : ℕ) (h : List Char) (hi : i + n < 2 ^ 64) :
    (nextTimes G C (s.getWith G C i h).2 n).1 =
      (List.range n).map (fun k => (s.get G C (i + 1 + k)).1) := by
  rw [← C27_next_after_get G C s i n hi]
  rfl

example : 5 + 3 < 2 ^ 64 := by decide

/-! ## C66 -/

/-- C66: what `selectionFor` returns is the selection with that id; a placeholder only if no real
selection has it. -/
theorem C66_found (c : ContestDescP) (id : Str) (s : SelectionDesc) (h : c.selectionFor S id = .ok s) :
    s.objectId = id ∧ (s ∈ c.desc.selections ∨
      (s ∈ c.placeholders ∧ ∀ r ∈ c.desc.selections, r.objectId ≠ id)) := by
  unfold ContestDescP.selectionFor at h
  split at h
  · rename_i s' hf
    cases h
    have h1 := List.find?_some hf
    have h2 := List.mem_of_find?_eq_some hf
    exact ⟨by simpa [eq_comm] using h1, .inl (by simpa [ContestDesc.getSelections] using h2)⟩
  · rename_i hf
    split at h
    · rename_i s' hg
      cases h
      have h1 := List.find?_some hg
      have h2 := List.mem_of_find?_eq_some hg
      refine ⟨by simpa [eq_comm] using h1, .inr ⟨by simpa [ContestDescP.getPlaceholders] using h2, ?_⟩⟩
      intro r hr he
      have := List.find?_eq_none.1 hf r (by simpa [ContestDesc.getSelections] using hr)
      simp [he] at this
    · cases h

/-- C66: it throws `out_of_range` exactly if neither a selection nor a placeholder has the id, and does
nothing else than return or throw that. -/
theorem C66_unknown (c : ContestDescP) (id : Str) :
    (c.selectionFor S id = .throw .outOfRange ↔
      ∀ s ∈ c.desc.selections ++ c.placeholders, s.objectId ≠ id) ∧
    (c.selectionFor S id ≠ .throw .outOfRange → ∃ s, c.selectionFor S id = .ok s) := by
  unfold ContestDescP.selectionFor
  constructor
  · constructor
    · intro h s hs he
      split at h
      · cases h
      · rename_i hf
        split at h
        · cases h
        · rename_i hg
          rcases List.mem_append.1 hs with hs | hs
          · have := List.find?_eq_none.1 hf s (by simpa [ContestDesc.getSelections] using hs)
            simp [he] at this
          · have := List.find?_eq_none.1 hg s (by simpa [ContestDescP.getPlaceholders] using hs)
            simp [he] at this
    · intro h
      rw [List.find?_eq_none.2, List.find?_eq_none.2]
      · intro s hs
        have := h s (List.mem_append_right _ (by simpa [ContestDescP.getPlaceholders] using hs))
        simpa [eq_comm] using this
      · intro s hs
        have := h s (List.mem_append_left _ (by simpa [ContestDesc.getSelections] using hs))
        simpa [eq_comm] using this
  · split
    · intro _; exact ⟨_, rfl⟩
    · split
      · intro _; exact ⟨_, rfl⟩
      · intro h; exact absurd rfl h

/-- C66: in a valid contest every real selection is found under its id. -/
theorem C66_selection (c : ContestDescP) (hv : c.desc.isValid = true) (s : SelectionDesc)
    (hs : s ∈ c.desc.selections) : c.selectionFor S s.objectId = .ok s := by
  obtain ⟨r, hr⟩ := (C66_unknown S c s.objectId).2 (fun h =>
    (C66_unknown S c s.objectId).1.1 h s (List.mem_append_left _ hs) rfl)
  rw [hr]
  obtain ⟨h1, h2 | ⟨-, h2⟩⟩ := C66_found S c s.objectId r hr
  · have hn := ((C42_contest_valid c.desc).1 hv).ids.1
    rw [List.inj_on_of_nodup_map hn h2 hs h1]
  · exact absurd rfl (h2 s hs)

/-- C66: in a contest made from a manifest, with sequence numbers as in C43 and no real selection of the
same id, every placeholder is found under its id. -/
theorem C66_placeholder_partial (c : ContestDescP) (hp : c.placeholders = placeholdersFor S c.desc)
    (hq : ∀ s ∈ c.desc.selections, s.seq + 1 < 2 ^ 32) (hn : c.desc.numberElected < 2 ^ 63)
    (p : SelectionDesc) (hm : p ∈ c.placeholders)
    (hd : ∀ s ∈ c.desc.selections, s.objectId ≠ p.objectId) :
    c.selectionFor S p.objectId = .ok p := by
  obtain ⟨r, hr⟩ := (C66_unknown S c p.objectId).2 (fun h =>
    (C66_unknown S c p.objectId).1.1 h p (List.mem_append_right _ hm) rfl)
  rw [hr]
  obtain ⟨h1, h2 | ⟨h2, -⟩⟩ := C66_found S c p.objectId r hr
  · exact absurd h1 (hd r h2)
  · have hu := (C43_distinct_partial S c.desc hq hn).1
    rw [← hp] at hu
    rw [List.inj_on_of_nodup_map hu h2 hm h1]

/-- C66: `IsPlaceholder` says whether some placeholder has the id of the selection, whatever its
candidate and sequence number are. -/
theorem C66_is_placeholder (c : ContestDescP) (s : SelectionDesc) :
    c.isPlaceholder s = true ↔ ∃ p ∈ c.placeholders, p.objectId = s.objectId := by
  simp only [ContestDescP.isPlaceholder, List.any_eq_true, decide_eq_true_eq]
  exact ⟨fun ⟨p, hp, h⟩ => ⟨p, hp, h.symm⟩, fun ⟨p, hp, h⟩ => ⟨p, hp, h.symm⟩⟩

/-- C66 is violated for a valid contest with a selection called like a placeholder: the selection is
reported as a placeholder, and the placeholder cannot be found. -/
theorem C66_violated :
    let c : ContestDescP := ⟨clashingContest, placeholdersFor S clashingContest⟩
    c.desc.isValid = true ∧ (∃ s ∈ c.desc.selections, c.isPlaceholder s = true) ∧
      ∃ p ∈ c.placeholders, c.selectionFor S p.objectId ≠ .ok p := by
  obtain ⟨hv, p, hp, s, hs, he⟩ := C43_id_violated S
  refine ⟨hv, ⟨s, hs, (C66_is_placeholder _ _).2 ⟨p, hp, he⟩⟩, p, hp, ?_⟩
  rw [he, C66_selection S ⟨clashingContest, placeholdersFor S clashingContest⟩ hv s hs]
  have hsort : clashingContest.getSelections S = clashingContest.selections := by
    refine sort_of_sorted S _ _ ?_ ?_ <;> decide +kernel
  intro h
  have h' : s = p := Res.ok.inj h
  subst h'
  have : ∀ s ∈ clashingContest.selections, s.seq = 1 := by decide +kernel
  have h2 : ∀ p ∈ placeholdersFor S clashingContest, p.seq = 2 := by
    simp only [placeholdersFor, hsort]; decide +kernel
  have a := this s hs
  have b := h2 s hp
  omega

example (S : StdSort) : exampleContestP.selectionFor S "s2".toList =
    .ok ⟨"s2".toList, "b".toList, 2⟩ :=
  C66_selection S exampleContestP (by decide +kernel) ⟨"s2".toList, "b".toList, 2⟩ (by decide +kernel)

example : exampleContestP.isPlaceholder ⟨"c-3-placeholder".toList, [], 0⟩ = true ∧
    exampleContestP.isPlaceholder ⟨"s1".toList, "a".toList, 1⟩ = false := by decide +kernel

example (S : StdSort) : exampleContestP.selectionFor S "unknown".toList = .throw .outOfRange :=
  (C66_unknown S _ _).1.2 (by decide +kernel)

example (S : StdSort) : exampleContestP.selectionFor S "c-3-placeholder".toList =
    .ok (placeholderFrom "c".toList 3) := by
  have hs : exampleContest.getSelections S = exampleContest.selections := by
    refine sort_of_sorted S _ _ ?_ ?_ <;> decide +kernel
  refine C66_placeholder_partial S exampleContestP ?_ (by decide +kernel) (by decide +kernel)
    (placeholderFrom "c".toList 3) (by decide +kernel) (by decide +kernel)
  change [placeholderFrom "c".toList 3] = placeholdersFor S exampleContest
  simp only [placeholdersFor, hs]
  decide +kernel

end EG
