import Verif.Model.CText
import Verif.Model.CApiTable
import Verif.Model.CApiSigs

/-!
# C84: text and status codes across the C interface.  C85: headers and definitions.
-/

namespace EG.CText

theorem takeWhile_append_zero (s t : List Nat) :
    (s ++ 0 :: t).takeWhile (· != 0) = s.takeWhile (· != 0) := by
  induction s with
  | nil => simp
  | cons a s ih =>
    by_cases h : a = 0
    · simp [h]
    · simp [h, ih]

theorem length_takeWhile_le' (s : List Nat) : (s.takeWhile (· != 0)).length ≤ s.length := by
  induction s with
  | nil => simp
  | cons a s ih =>
    by_cases h : a = 0
    · simp [h]
    · simpa [h] using ih

theorem takeWhile_eq_self (s : List Nat) : s.takeWhile (· != 0) = s ↔ 0 ∉ s := by
  induction s with
  | nil => simp
  | cons a s ih =>
    by_cases h : a = 0
    · simp [h]
    · simp [h, ih, Ne.symm h]

theorem zero_not_mem_takeWhile (s : List Nat) : 0 ∉ s.takeWhile (· != 0) := by
  rw [← takeWhile_eq_self]
  induction s with
  | nil => simp
  | cons a s ih =>
    by_cases h : a = 0
    · simp [h]
    · simpa [h] using ih

/-- What `dynamicCopy` writes. -/
theorem dynamicCopy_eq (s : List Nat) :
    dynamicCopy true s = some (s.takeWhile (· != 0) ++
      List.replicate (s.length + 1 - (s.takeWhile (· != 0)).length) 0, s.length + 1) := by
  have hl := length_takeWhile_le' s
  simp only [dynamicCopy, strncpy, if_true, takeWhile_append_zero]
  rw [List.take_of_length_le (by omega)]

/-! ## C84 -/

/-- Text handed to C is terminated inside the allocation, whose size is the one reported; what a C
client reads is the text up to its first zero byte, and the rest of the allocation is zero. -/
theorem C84_text (s buf : List Nat) (n : Nat) (h : dynamicCopy true s = some (buf, n)) :
    buf.length = n ∧ n = s.length + 1 ∧ read buf = some (s.takeWhile (· != 0)) ∧
    ∀ i, (s.takeWhile (· != 0)).length ≤ i → i < n → buf[i]? = some 0 := by
  rw [dynamicCopy_eq] at h
  obtain ⟨rfl, rfl⟩ := Prod.mk.inj (Option.some.inj h)
  have hl := length_takeWhile_le' s
  obtain ⟨k, hk⟩ : ∃ k, s.length + 1 - (s.takeWhile (· != 0)).length = k + 1 :=
    ⟨s.length - (s.takeWhile (· != 0)).length, by omega⟩
  refine ⟨by rw [List.length_append, List.length_replicate]; omega, rfl, ?_, ?_⟩
  · unfold read
    rw [hk, List.replicate_succ, if_pos (by simp), takeWhile_append_zero]
    rw [(takeWhile_eq_self _).2 (zero_not_mem_takeWhile s)]
  · intro i h1 h2
    rw [List.getElem?_append_right h1, List.getElem?_replicate, if_pos (by omega)]

/-- So the whole text is read exactly if there is no zero byte in it. -/
theorem C84_text_whole (s buf : List Nat) (n : Nat) (h : dynamicCopy true s = some (buf, n)) :
    read buf = some s ↔ 0 ∉ s := by
  rw [(C84_text s buf n h).2.2.1, Option.some.injEq, takeWhile_eq_self]

/-- Text that a C client passes in comes back unchanged, whatever follows it in memory. -/
theorem C84_round_trip (s rest : List Nat) (hs : 0 ∉ s) :
    setGet true (s ++ 0 :: rest) = some s := by
  have h1 : read (s ++ 0 :: rest) = some s := by
    unfold read
    rw [if_pos (by simp), takeWhile_append_zero, (takeWhile_eq_self s).2 hs]
  have h2 := (C84_text_whole s _ _ (dynamicCopy_eq s)).2 hs
  simp only [setGet, h1, dynamicCopy_eq]
  exact h2

example : dynamicCopy true [72, 105] = some ([72, 105, 0], 3) := by decide
example : dynamicCopy true [72, 0, 105] = some ([72, 0, 0, 0], 4) := by decide
example : setGet true [72, 105, 0, 99] = some [72, 105] := by decide

/-- Every status has the name of its enumerator, and different statuses have different names. -/
theorem C84_status_name_partial (s : Status) :
    getStatus s.code = some (match s with
      | .success => "ELECTIONGUARD_STATUS_SUCCESS"
      | .invalidArgument => "ELECTIONGUARD_STATUS_ERROR_INVALID_ARGUMENT"
      | .outOfRange => "ELECTIONGUARD_STATUS_ERROR_OUT_OF_RANGE"
      | .ioError => "ELECTIONGUARD_STATUS_ERROR_IO_ERROR"
      | .badAccess => "ELECTIONGUARD_STATUS_ERROR_BAD_ACCESS"
      | .badAlloc => "ELECTIONGUARD_STATUS_ERROR_BAD_ALLOC"
      | .alreadyExists => "ELECTIONGUARD_STATUS_ERROR_ALREADY_EXISTS"
      | .runtimeError => "ELECTIONGUARD_STATUS_ERROR_RUNTIME_ERROR"
      | .unknown => "ELECTIONGUARD_STATUS_UNKNOWN") := by
  cases s <;> rfl

/-- Other values should give the name of `UNKNOWN`; in fact each reads outside of the array. -/
theorem C84_status_violated (n : Nat) : getStatus n = none ↔ 8 < n := by
  unfold getStatus
  rw [List.getElem?_eq_none_iff]
  exact Nat.succ_le_iff

/-- A call that fails never reports success. -/
theorem C84_no_false_success (c : CApi.Catch) (e : Exn) : caught c e ≠ some .success := by
  cases c <;> cases e <;> simp [caught]

/-- The status tells an argument that is not valid from other failures.  The part that holds: for
these ten functions; the other functions with a status return the same one whatever was thrown. -/
theorem C84_status_class_partial (f : CApi.Fn) (hf : f ∈ CApi.table) :
    if f.name ∈ ["eg_encryption_mediator_encrypt_ballot",
      "eg_encryption_mediator_compact_encrypt_ballot",
      "eg_encryption_mediator_compact_encrypt_ballot_verify_proofs",
      "eg_encryption_mediator_encrypt_ballot_verify_proofs", "eg_encrypt_selection",
      "eg_encrypt_contest", "eg_encrypt_ballot", "eg_encrypt_ballot_with_nonce",
      "eg_encrypt_compact_ballot", "eg_encrypt_compact_ballot_with_nonce"]
    then ∀ e, caught f.onExn e = some .invalidArgument ↔ e = .invalidArgument
    else ∀ e e', caught f.onExn e = caught f.onExn e' := by
  have key : ∀ f ∈ CApi.table, (decide (f.name ∈ ["eg_encryption_mediator_encrypt_ballot",
      "eg_encryption_mediator_compact_encrypt_ballot",
      "eg_encryption_mediator_compact_encrypt_ballot_verify_proofs",
      "eg_encryption_mediator_encrypt_ballot_verify_proofs", "eg_encrypt_selection",
      "eg_encrypt_contest", "eg_encrypt_ballot", "eg_encrypt_ballot_with_nonce",
      "eg_encrypt_compact_ballot", "eg_encrypt_compact_ballot_with_nonce"])) =
      (f.onExn == .byClass) := by decide +kernel
  have k := key f hf
  split
  · next hm =>
    rw [decide_eq_true hm] at k
    rw [beq_iff_eq.1 k.symm]
    intro e; cases e <;> simp [caught]
  · next hm =>
    rw [decide_eq_false hm] at k
    intro e e'
    have k := k.symm
    revert k
    cases f.onExn <;> simp [caught]

end EG.CText

namespace EG.CApi

/-! ## C85 -/

/-- Every function declared in a header is defined with the types declared.  The part that holds:
for all but eleven functions, which are the following; for two of them nothing is defined under the
name. -/
theorem C85_declared_partial : ∀ s ∈ sigs,
    (s.declared.isSome ∧ s.defn ≠ s.declared ↔ s.name ∈
      ["eg_plaintext_ballot_selection_new_with_extended_data",
        "eg_plaintext_ballot_selection_get_extended_data",
        "eg_ciphertext_ballot_contest_get_proof",
        "eg_ciphertext_ballot_contest_crypto_hash_with",
        "eg_ciphertext_ballot_contest_aggregate_nonce",
        "eg_ciphertext_ballot_contest_elgamal_accumulate",
        "eg_ciphertext_ballot_get_timestamp", "eg_encrypt_contest",
        "eg_contest_description_new_with_title_and_parties",
        "eg_contest_description_with_placeholders_new_with_title",
        "eg_contest_description_with_placeholders_new_with_title_and_parties"]) ∧
    (s.declared.isSome ∧ s.defn = none ↔ s.name ∈
      ["eg_plaintext_ballot_selection_new_with_extended_data",
        "eg_plaintext_ballot_selection_get_extended_data"]) ∧
    (s.declared = none ↔ s.name ∈
      ["eg_plaintext_ballot_selection_new_with_write_in",
        "eg_plaintext_ballot_selection_get_write_in"]) := by
  decide +kernel

end EG.CApi
