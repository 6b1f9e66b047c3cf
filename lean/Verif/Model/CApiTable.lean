import Verif.Model.CApi

/-!
# The C interface: table of functions

One entry per function of `src/electionguard/facades/*.cpp` and `collections.c`, extracted from the
source: name, file, first line, handle parameters in order, output, treatment of exceptions.  Each
handle parameter gives the C type in the signature and the class in the `AS_TYPE` cast.  The classes
of the references returned were read off the C++ getters.
-/

namespace EG.CApi

/-- A parameter that is only used. -/
def r (k : Kind) : Param := { decl := k, cast := k }
/-- … and whose null is rejected. -/
def rn (k : Kind) : Param := { decl := k, cast := k, null := .reject }
/-- … of type `k` cast to `c`. -/
def rc (k c : Kind) : Param := { decl := k, cast := c }
/-- An array of parameters that are only used. -/
def rs (k : Kind) : Param := { decl := k, cast := k, many := true }
/-- A parameter that is moved from. -/
def mv (k : Kind) : Param := { decl := k, cast := k, use := .move }
/-- An array of parameters that are moved from. -/
def mvs (k : Kind) : Param := { decl := k, cast := k, use := .move, many := true }
/-- A parameter that may be null and is not left to the caller. -/
def take (k : Kind) (u : Use) : Param := { decl := k, cast := k, use := u, null := .allow }
/-- The parameter of a `free` function. -/
def fr (k : Kind) : Param := { decl := k, cast := k, use := .free, null := .reject }

/-- ballot.cpp -/
def fnsBallot1 : List Fn := [
  ⟨"eg_extended_data_new", "ballot.cpp", 40, [], .owned .extendedData .extendedData, .badAlloc,
    false⟩,
  ⟨"eg_extended_data_free", "ballot.cpp", 53, [fr .extendedData], .none, .noexcept, false⟩,
  ⟨"eg_extended_data_get_value", "ballot.cpp", 64, [r .extendedData], .owned .text .text,
    .badAlloc, false⟩,
  ⟨"eg_extended_data_get_length", "ballot.cpp", 78, [r .extendedData], .none, .value, false⟩,
  ⟨"eg_plaintext_ballot_selection_new", "ballot.cpp", 92, [],
    .owned .plaintextBallotSelection .plaintextBallotSelection, .badAlloc, false⟩,
  ⟨"eg_plaintext_ballot_selection_new_with_write_in", "ballot.cpp", 108, [],
    .owned .plaintextBallotSelection .plaintextBallotSelection, .badAlloc, false⟩,
  ⟨"eg_plaintext_ballot_selection_free", "ballot.cpp", 124, [fr .plaintextBallotSelection], .none,
    .noexcept, false⟩,
  ⟨"eg_plaintext_ballot_selection_get_object_id", "ballot.cpp", 136, [r .plaintextBallotSelection],
    .owned .text .text, .badAlloc, false⟩,
  ⟨"eg_plaintext_ballot_selection_get_vote", "ballot.cpp", 151, [r .plaintextBallotSelection],
    .none, .value, false⟩,
  ⟨"eg_plaintext_ballot_selection_get_is_placeholder", "ballot.cpp", 162,
    [r .plaintextBallotSelection], .none, .escapes, false⟩,
  ⟨"eg_plaintext_ballot_selection_get_write_in", "ballot.cpp", 167, [r .plaintextBallotSelection],
    .owned .text .text, .badAlloc, false⟩,
  ⟨"eg_plaintext_ballot_selection_is_valid", "ballot.cpp", 182, [r .plaintextBallotSelection],
    .none, .escapes, false⟩,
  ⟨"eg_ciphertext_ballot_selection_free", "ballot.cpp", 192, [fr .ciphertextBallotSelection],
    .none, .noexcept, false⟩,
  ⟨"eg_ciphertext_ballot_selection_get_object_id", "ballot.cpp", 204,
    [r .ciphertextBallotSelection], .owned .text .text, .badAlloc, false⟩,
  ⟨"eg_ciphertext_ballot_selection_get_sequence_order", "ballot.cpp", 219,
    [r .ciphertextBallotSelection], .none, .value, false⟩,
  ⟨"eg_ciphertext_ballot_selection_get_description_hash", "ballot.cpp", 230,
    [r .ciphertextBallotSelection], .ref .elementModQ .elementModQ, .badAlloc, false⟩,
  ⟨"eg_ciphertext_ballot_selection_get_is_placeholder", "ballot.cpp", 244,
    [r .ciphertextBallotSelection], .none, .escapes, false⟩,
  ⟨"eg_ciphertext_ballot_selection_get_ciphertext", "ballot.cpp", 249,
    [r .ciphertextBallotSelection], .ref .elgamalCiphertext .elgamalCiphertext, .badAlloc, false⟩,
  ⟨"eg_ciphertext_ballot_selection_get_crypto_hash", "ballot.cpp", 263,
    [r .ciphertextBallotSelection], .ref .elementModQ .elementModQ, .badAlloc, false⟩,
  ⟨"eg_ciphertext_ballot_selection_get_nonce", "ballot.cpp", 277, [r .ciphertextBallotSelection],
    .ref .elementModQ .elementModQ, .badAlloc, false⟩,
  ⟨"eg_ciphertext_ballot_selection_get_proof", "ballot.cpp", 291, [r .ciphertextBallotSelection],
    .ref .disjunctiveChaumPedersenProof .disjunctiveChaumPedersenProof, .badAlloc, false⟩,
  ⟨"eg_ciphertext_ballot_selection_crypto_hash_with", "ballot.cpp", 305,
    [r .ciphertextBallotSelection, r .elementModQ], .owned .elementModQ .elementModQ, .badAlloc,
    false⟩,
  ⟨"eg_ciphertext_ballot_selection_is_valid_encryption", "ballot.cpp", 321,
    [r .ciphertextBallotSelection, r .elementModQ, r .elementModP, r .elementModQ], .none, .value,
    false⟩,
  ⟨"eg_plaintext_ballot_contest_new", "ballot.cpp", 341, [mvs .plaintextBallotSelection],
    .owned .plaintextBallotContest .plaintextBallotContest, .badAlloc, false⟩,
  ⟨"eg_plaintext_ballot_contest_free", "ballot.cpp", 367, [fr .plaintextBallotContest], .none,
    .noexcept, false⟩,
  ⟨"eg_plaintext_ballot_contest_get_object_id", "ballot.cpp", 378, [r .plaintextBallotContest],
    .owned .text .text, .badAlloc, false⟩,
  ⟨"eg_plaintext_ballot_contest_get_selections_size", "ballot.cpp", 393,
    [r .plaintextBallotContest], .none, .badAlloc, false⟩,
  ⟨"eg_plaintext_ballot_contest_get_selection_at_index", "ballot.cpp", 404,
    [r .plaintextBallotContest], .ref .plaintextBallotSelection .plaintextBallotSelection,
    .badAlloc, false⟩,
  ⟨"eg_plaintext_ballot_contest_is_valid", "ballot.cpp", 421, [r .plaintextBallotContest], .none,
    .value, false⟩,
  ⟨"eg_ciphertext_ballot_contest_free", "ballot.cpp", 442, [fr .ciphertextBallotContest], .none,
    .noexcept, false⟩,
  ⟨"eg_ciphertext_ballot_contest_get_object_id", "ballot.cpp", 453, [r .ciphertextBallotContest],
    .owned .text .text, .badAlloc, false⟩,
  ⟨"eg_ciphertext_ballot_contest_get_sequence_order", "ballot.cpp", 468,
    [r .ciphertextBallotContest], .none, .value, false⟩,
  ⟨"eg_ciphertext_ballot_contest_get_description_hash", "ballot.cpp", 479,
    [r .ciphertextBallotContest], .ref .elementModQ .elementModQ, .badAlloc, false⟩,
  ⟨"eg_ciphertext_ballot_contest_get_selections_size", "ballot.cpp", 493,
    [r .ciphertextBallotContest], .none, .escapes, false⟩,
  ⟨"eg_ciphertext_ballot_contest_get_selection_at_index", "ballot.cpp", 499,
    [r .ciphertextBallotContest], .ref .ciphertextBallotSelection .ciphertextBallotSelection,
    .badAlloc, false⟩,
  ⟨"eg_ciphertext_ballot_contest_get_nonce", "ballot.cpp", 516, [r .ciphertextBallotContest],
    .ref .elementModQ .elementModQ, .badAlloc, false⟩,
  ⟨"eg_ciphertext_ballot_contest_get_ciphertext_accumulation", "ballot.cpp", 530,
    [r .ciphertextBallotContest], .ref .elgamalCiphertext .elgamalCiphertext, .badAlloc, false⟩,
  ⟨"eg_ciphertext_ballot_contest_get_crypto_hash", "ballot.cpp", 543, [r .ciphertextBallotContest],
    .ref .elementModQ .elementModQ, .badAlloc, false⟩,
  ⟨"eg_ciphertext_ballot_contest_get_proof", "ballot.cpp", 557,
    [rc .ciphertextBallotSelection .ciphertextBallotContest],
    .ref .disjunctiveChaumPedersenProof .constantChaumPedersenProof, .badAlloc, false⟩,
  ⟨"eg_ciphertext_ballot_contest_crypto_hash_with", "ballot.cpp", 571, [r .ciphertextBallotContest,
    r .elementModQ], .owned .elementModQ .elementModQ, .badAlloc, false⟩,
  ⟨"eg_ciphertext_ballot_contest_aggregate_nonce", "ballot.cpp", 587, [r .ciphertextBallotContest],
    .owned .elementModQ .elementModQ, .badAlloc, false⟩,
  ⟨"eg_ciphertext_ballot_contest_elgamal_accumulate", "ballot.cpp", 601,
    [r .ciphertextBallotContest], .owned .elgamalCiphertext .elgamalCiphertext, .badAlloc, false⟩,
  ⟨"eg_ciphertext_ballot_contest_is_valid_encryption", "ballot.cpp", 614,
    [r .ciphertextBallotContest, r .elementModQ, r .elementModP, r .elementModQ], .none, .value,
    false⟩,
  ⟨"eg_plaintext_ballot_new", "ballot.cpp", 634, [mvs .plaintextBallotContest],
    .owned .plaintextBallot .plaintextBallot, .badAlloc, false⟩,
  ⟨"eg_plaintext_ballot_free", "ballot.cpp", 662, [fr .plaintextBallot], .none, .noexcept, false⟩,
  ⟨"eg_plaintext_ballot_get_object_id", "ballot.cpp", 673, [r .plaintextBallot],
    .owned .text .text, .badAlloc, false⟩,
  ⟨"eg_plaintext_ballot_get_style_id", "ballot.cpp", 687, [r .plaintextBallot], .owned .text .text,
    .badAlloc, false⟩,
  ⟨"eg_plaintext_ballot_get_contests_size", "ballot.cpp", 701, [r .plaintextBallot], .none,
    .escapes, false⟩,
  ⟨"eg_plaintext_ballot_get_contest_at_index", "ballot.cpp", 707, [r .plaintextBallot],
    .ref .plaintextBallotContest .plaintextBallotContest, .badAlloc, false⟩,
  ⟨"eg_plaintext_ballot_from_json", "ballot.cpp", 724, [],
    .owned .plaintextBallot .plaintextBallot, .badAlloc, false⟩,
  ⟨"eg_plaintext_ballot_from_bson", "ballot.cpp", 739, [],
    .owned .plaintextBallot .plaintextBallot, .badAlloc, false⟩,
  ⟨"eg_plaintext_ballot_from_msgpack", "ballot.cpp", 754, [],
    .owned .plaintextBallot .plaintextBallot, .badAlloc, false⟩,
  ⟨"eg_plaintext_ballot_to_json", "ballot.cpp", 769, [r .plaintextBallot], .owned .text .text,
    .badAlloc, false⟩,
  ⟨"eg_plaintext_ballot_to_bson", "ballot.cpp", 787, [r .plaintextBallot], .owned .bytes .bytes,
    .badAlloc, false⟩,
  ⟨"eg_plaintext_ballot_to_msgpack", "ballot.cpp", 805, [r .plaintextBallot], .owned .bytes .bytes,
    .badAlloc, false⟩,
  ⟨"eg_ciphertext_ballot_free", "ballot.cpp", 827, [fr .ciphertextBallot], .none, .noexcept, false⟩,
  ⟨"eg_ciphertext_ballot_get_object_id", "ballot.cpp", 838, [r .ciphertextBallot],
    .owned .text .text, .badAlloc, false⟩,
  ⟨"eg_ciphertext_ballot_get_style_id", "ballot.cpp", 852, [r .ciphertextBallot],
    .owned .text .text, .badAlloc, false⟩,
  ⟨"eg_ciphertext_ballot_get_manifest_hash", "ballot.cpp", 866, [r .ciphertextBallot],
    .ref .elementModQ .elementModQ, .badAlloc, false⟩,
  ⟨"eg_ciphertext_ballot_get_ballot_code_seed", "ballot.cpp", 880, [r .ciphertextBallot],
    .ref .elementModQ .elementModQ, .badAlloc, false⟩]

/-- ballot.cpp -/
def fnsBallot2 : List Fn := [
  ⟨"eg_ciphertext_ballot_get_contests_size", "ballot.cpp", 894, [r .ciphertextBallot], .none,
    .escapes, false⟩,
  ⟨"eg_ciphertext_ballot_get_contest_at_index", "ballot.cpp", 900, [r .ciphertextBallot],
    .ref .ciphertextBallotContest .ciphertextBallotContest, .badAlloc, false⟩,
  ⟨"eg_ciphertext_ballot_get_ballot_code", "ballot.cpp", 917, [r .ciphertextBallot],
    .ref .elementModQ .elementModQ, .badAlloc, false⟩,
  ⟨"eg_ciphertext_ballot_get_timestamp", "ballot.cpp", 932, [r .ciphertextBallot], .none, .value,
    false⟩,
  ⟨"eg_ciphertext_ballot_get_nonce", "ballot.cpp", 943, [r .ciphertextBallot],
    .ref .elementModQ .elementModQ, .badAlloc, false⟩,
  ⟨"eg_ciphertext_ballot_get_crypto_hash", "ballot.cpp", 956, [r .ciphertextBallot],
    .ref .elementModQ .elementModQ, .badAlloc, false⟩,
  ⟨"eg_ciphertext_ballot_crypto_hash_with", "ballot.cpp", 969, [r .ciphertextBallot,
    r .elementModQ], .owned .elementModQ .elementModQ, .badAlloc, false⟩,
  ⟨"eg_ciphertext_ballot_is_valid_encryption", "ballot.cpp", 985, [r .ciphertextBallot,
    r .elementModQ, r .elementModP, r .elementModQ], .none, .value, false⟩,
  ⟨"eg_ciphertext_ballot_from_json", "ballot.cpp", 1003, [],
    .owned .ciphertextBallot .ciphertextBallot, .badAlloc, false⟩,
  ⟨"eg_ciphertext_ballot_from_bson", "ballot.cpp", 1018, [],
    .owned .ciphertextBallot .ciphertextBallot, .badAlloc, false⟩,
  ⟨"eg_ciphertext_ballot_from_msgpack", "ballot.cpp", 1033, [],
    .owned .ciphertextBallot .ciphertextBallot, .badAlloc, false⟩,
  ⟨"eg_ciphertext_ballot_to_json", "ballot.cpp", 1048, [r .ciphertextBallot], .owned .text .text,
    .badAlloc, false⟩,
  ⟨"eg_ciphertext_ballot_to_json_with_nonces", "ballot.cpp", 1066, [r .ciphertextBallot],
    .owned .text .text, .badAlloc, false⟩,
  ⟨"eg_ciphertext_ballot_to_bson", "ballot.cpp", 1085, [r .ciphertextBallot], .owned .bytes .bytes,
    .badAlloc, false⟩,
  ⟨"eg_ciphertext_ballot_to_bson_with_nonces", "ballot.cpp", 1103, [r .ciphertextBallot],
    .owned .bytes .bytes, .badAlloc, false⟩,
  ⟨"eg_ciphertext_ballot_to_msgpack", "ballot.cpp", 1122, [r .ciphertextBallot],
    .owned .bytes .bytes, .badAlloc, false⟩,
  ⟨"eg_ciphertext_ballot_to_msgpack_with_nonces", "ballot.cpp", 1140, [r .ciphertextBallot],
    .owned .bytes .bytes, .badAlloc, false⟩,
  ⟨"eg_submitted_ballot_free", "ballot.cpp", 1163, [fr .submittedBallot], .none, .noexcept, false⟩,
  ⟨"eg_submitted_ballot_get_state", "ballot.cpp", 1174, [r .submittedBallot], .none, .value, false⟩,
  ⟨"eg_submitted_ballot_from", "ballot.cpp", 1184, [r .ciphertextBallot],
    .owned .submittedBallot .submittedBallot, .badAlloc, false⟩,
  ⟨"eg_submitted_ballot_from_json", "ballot.cpp", 1200, [],
    .owned .submittedBallot .submittedBallot, .badAlloc, false⟩,
  ⟨"eg_submitted_ballot_from_bson", "ballot.cpp", 1215, [],
    .owned .submittedBallot .submittedBallot, .badAlloc, false⟩,
  ⟨"eg_submitted_ballot_from_msgpack", "ballot.cpp", 1230, [],
    .owned .submittedBallot .submittedBallot, .badAlloc, false⟩,
  ⟨"eg_submitted_ballot_to_json", "ballot.cpp", 1245, [r .submittedBallot], .owned .text .text,
    .badAlloc, false⟩,
  ⟨"eg_submitted_ballot_to_bson", "ballot.cpp", 1263, [r .submittedBallot], .owned .bytes .bytes,
    .badAlloc, false⟩,
  ⟨"eg_submitted_ballot_to_msgpack", "ballot.cpp", 1281, [r .submittedBallot],
    .owned .bytes .bytes, .badAlloc, false⟩]

/-- ballot_code.cpp -/
def fnsBallotCode : List Fn := [
  ⟨"eg_ballot_code_get_hash_for_device", "ballot_code.cpp", 17, [],
    .owned .elementModQ .elementModQ, .runtimeError, false⟩,
  ⟨"eg_ballot_code_get_ballot_code", "ballot_code.cpp", 34, [rn .elementModQ, rn .elementModQ],
    .owned .elementModQ .elementModQ, .runtimeError, false⟩]

/-- ballot_compact.cpp -/
def fnsBallotCompact : List Fn := [
  ⟨"eg_compact_plaintext_ballot_free", "ballot_compact.cpp", 25, [fr .compactPlaintextBallot],
    .none, .noexcept, false⟩,
  ⟨"eg_compact_plaintext_ballot_from_msgpack", "ballot_compact.cpp", 36, [],
    .owned .compactPlaintextBallot .compactPlaintextBallot, .badAlloc, false⟩,
  ⟨"eg_compact_plaintext_ballot_to_msgpack", "ballot_compact.cpp", 52, [r .compactPlaintextBallot],
    .owned .bytes .bytes, .badAlloc, false⟩,
  ⟨"eg_compact_plaintext_ballot_msgpack_free", "ballot_compact.cpp", 71, [fr .bytes], .none,
    .noexcept, false⟩,
  ⟨"eg_compact_ciphertext_ballot_free", "ballot_compact.cpp", 85, [fr .compactCiphertextBallot],
    .none, .noexcept, false⟩,
  ⟨"eg_compact_ciphertext_ballot_get_object_id", "ballot_compact.cpp", 96,
    [r .compactCiphertextBallot], .owned .text .text, .badAlloc, false⟩,
  ⟨"eg_compact_ciphertext_ballot_from_msgpack", "ballot_compact.cpp", 111, [],
    .owned .compactCiphertextBallot .compactCiphertextBallot, .badAlloc, false⟩,
  ⟨"eg_compact_ciphertext_ballot_to_msgpack", "ballot_compact.cpp", 127,
    [r .compactCiphertextBallot], .owned .bytes .bytes, .badAlloc, false⟩,
  ⟨"eg_compact_ciphertext_ballot_msgpack_free", "ballot_compact.cpp", 146, [fr .bytes], .none,
    .noexcept, false⟩,
  ⟨"eg_free_int_ptr", "ballot_compact.cpp", 159, [fr .text], .none, .noexcept, false⟩,
  ⟨"eg_delete_int_ptr", "ballot_compact.cpp", 169, [fr .bytes], .none, .noexcept, false⟩]

/-- chaum_pedersen.cpp -/
def fnsChaumPedersen : List Fn := [
  ⟨"eg_disjunctive_chaum_pedersen_proof_free", "chaum_pedersen.cpp", 20,
    [fr .disjunctiveChaumPedersenProof], .none, .noexcept, false⟩,
  ⟨"eg_disjunctive_chaum_pedersen_proof_get_zero_pad", "chaum_pedersen.cpp", 33,
    [r .disjunctiveChaumPedersenProof], .ref .elementModP .elementModP, .escapes, false⟩,
  ⟨"eg_disjunctive_chaum_pedersen_proof_get_zero_data", "chaum_pedersen.cpp", 42,
    [r .disjunctiveChaumPedersenProof], .ref .elementModP .elementModP, .escapes, false⟩,
  ⟨"eg_disjunctive_chaum_pedersen_proof_get_one_pad", "chaum_pedersen.cpp", 51,
    [r .disjunctiveChaumPedersenProof], .ref .elementModP .elementModP, .escapes, false⟩,
  ⟨"eg_disjunctive_chaum_pedersen_proof_get_one_data", "chaum_pedersen.cpp", 60,
    [r .disjunctiveChaumPedersenProof], .ref .elementModP .elementModP, .escapes, false⟩,
  ⟨"eg_disjunctive_chaum_pedersen_proof_get_zero_challenge", "chaum_pedersen.cpp", 69,
    [r .disjunctiveChaumPedersenProof], .ref .elementModQ .elementModQ, .escapes, false⟩,
  ⟨"eg_disjunctive_chaum_pedersen_proof_get_one_challenge", "chaum_pedersen.cpp", 77,
    [r .disjunctiveChaumPedersenProof], .ref .elementModQ .elementModQ, .escapes, false⟩,
  ⟨"eg_disjunctive_chaum_pedersen_proof_get_challenge", "chaum_pedersen.cpp", 86,
    [r .disjunctiveChaumPedersenProof], .ref .elementModQ .elementModQ, .escapes, false⟩,
  ⟨"eg_disjunctive_chaum_pedersen_proof_get_zero_response", "chaum_pedersen.cpp", 95,
    [r .disjunctiveChaumPedersenProof], .ref .elementModQ .elementModQ, .escapes, false⟩,
  ⟨"eg_disjunctive_chaum_pedersen_proof_get_one_response", "chaum_pedersen.cpp", 104,
    [r .disjunctiveChaumPedersenProof], .ref .elementModQ .elementModQ, .escapes, false⟩,
  ⟨"eg_disjunctive_chaum_pedersen_proof_make", "chaum_pedersen.cpp", 113, [rn .elgamalCiphertext,
    rn .elementModQ, rn .elementModP, rn .elementModQ],
    .owned .disjunctiveChaumPedersenProof .disjunctiveChaumPedersenProof, .badAlloc, false⟩,
  ⟨"eg_disjunctive_chaum_pedersen_proof_make_deterministic", "chaum_pedersen.cpp", 138,
    [rn .elgamalCiphertext, rn .elementModQ, rn .elementModP, rn .elementModQ, rn .elementModQ],
    .owned .disjunctiveChaumPedersenProof .disjunctiveChaumPedersenProof, .badAlloc, false⟩,
  ⟨"eg_disjunctive_chaum_pedersen_proof_is_valid", "chaum_pedersen.cpp", 164,
    [rn .disjunctiveChaumPedersenProof, rn .elgamalCiphertext, rn .elementModP, rn .elementModQ],
    .none, .escapes, false⟩,
  ⟨"eg_constant_chaum_pedersen_proof_free", "chaum_pedersen.cpp", 182,
    [fr .constantChaumPedersenProof], .none, .noexcept, false⟩,
  ⟨"eg_constant_chaum_pedersen_proof_get_pad", "chaum_pedersen.cpp", 194,
    [r .constantChaumPedersenProof], .ref .elementModP .elementModP, .escapes, false⟩,
  ⟨"eg_constant_chaum_pedersen_proof_get_data", "chaum_pedersen.cpp", 202,
    [r .constantChaumPedersenProof], .ref .elementModP .elementModP, .escapes, false⟩,
  ⟨"eg_constant_chaum_pedersen_proof_get_challenge", "chaum_pedersen.cpp", 210,
    [r .constantChaumPedersenProof], .ref .elementModQ .elementModQ, .escapes, false⟩,
  ⟨"eg_constant_chaum_pedersen_proof_get_response", "chaum_pedersen.cpp", 218,
    [r .constantChaumPedersenProof], .ref .elementModQ .elementModQ, .escapes, false⟩,
  ⟨"eg_constant_chaum_pedersen_proof_make", "chaum_pedersen.cpp", 226, [rn .elgamalCiphertext,
    rn .elementModQ, rn .elementModP, rn .elementModQ, rn .elementModQ],
    .owned .constantChaumPedersenProof .constantChaumPedersenProof, .badAlloc, false⟩,
  ⟨"eg_constant_chaum_pedersen_proof_is_valid", "chaum_pedersen.cpp", 254,
    [rn .constantChaumPedersenProof, rn .elgamalCiphertext, rn .elementModP, rn .elementModQ],
    .none, .escapes, false⟩]

/-- election.cpp -/
def fnsElection : List Fn := [
  ⟨"eg_ciphertext_election_context_config_get_allowed_overvotes", "election.cpp", 34,
    [rn .contextConfiguration], .none, .escapes, false⟩,
  ⟨"eg_ciphertext_election_context_config_get_max_ballots", "election.cpp", 46,
    [rn .contextConfiguration], .none, .escapes, false⟩,
  ⟨"eg_ciphertext_election_context_config_free", "election.cpp", 58, [fr .contextConfiguration],
    .none, .noexcept, false⟩,
  ⟨"eg_ciphertext_election_context_config_make", "election.cpp", 70, [],
    .owned .contextConfiguration .contextConfiguration, .badAlloc, false⟩,
  ⟨"eg_ciphertext_election_context_free", "election.cpp", 89, [fr .ciphertextElectionContext],
    .none, .noexcept, false⟩,
  ⟨"eg_ciphertext_election_context_get_elgamal_public_key", "election.cpp", 101,
    [r .ciphertextElectionContext], .ref .elementModP .elementModP, .escapes, false⟩,
  ⟨"eg_ciphertext_election_context_get_configuration", "election.cpp", 109,
    [r .ciphertextElectionContext], .ref .contextConfiguration .contextConfiguration, .escapes,
    false⟩,
  ⟨"eg_ciphertext_election_context_get_commitment_hash", "election.cpp", 118,
    [r .ciphertextElectionContext], .ref .elementModQ .elementModQ, .escapes, false⟩,
  ⟨"eg_ciphertext_election_context_get_manifest_hash", "election.cpp", 127,
    [r .ciphertextElectionContext], .ref .elementModQ .elementModQ, .escapes, false⟩,
  ⟨"eg_ciphertext_election_context_get_crypto_base_hash", "election.cpp", 136,
    [r .ciphertextElectionContext], .ref .elementModQ .elementModQ, .escapes, false⟩,
  ⟨"eg_ciphertext_election_context_get_crypto_extended_base_hash", "election.cpp", 145,
    [r .ciphertextElectionContext], .ref .elementModQ .elementModQ, .escapes, false⟩,
  ⟨"eg_ciphertext_election_context_get_extended_data", "election.cpp", 154,
    [r .ciphertextElectionContext], .owned .linkedList .linkedList, .escapes, false⟩,
  ⟨"eg_ciphertext_election_context_make", "election.cpp", 174, [r .elementModP, r .elementModQ,
    r .elementModQ], .owned .ciphertextElectionContext .ciphertextElectionContext, .badAlloc,
    false⟩,
  ⟨"eg_ciphertext_election_context_make_with_configuration", "election.cpp", 196, [r .elementModP,
    r .elementModQ, r .elementModQ, r .contextConfiguration],
    .owned .ciphertextElectionContext .ciphertextElectionContext, .badAlloc, false⟩,
  ⟨"eg_ciphertext_election_context_make_with_extended_data", "election.cpp", 221, [r .elementModP,
    r .elementModQ, r .elementModQ, r .linkedList],
    .owned .ciphertextElectionContext .ciphertextElectionContext, .badAlloc, false⟩,
  ⟨"eg_ciphertext_election_context_make_with_configuration_and_extended_data", "election.cpp", 253,
    [r .elementModP, r .elementModQ, r .elementModQ, r .contextConfiguration, r .linkedList],
    .owned .ciphertextElectionContext .ciphertextElectionContext, .badAlloc, false⟩,
  ⟨"eg_ciphertext_election_context_make_from_hex", "election.cpp", 289, [],
    .owned .ciphertextElectionContext .ciphertextElectionContext, .badAlloc, false⟩,
  ⟨"eg_ciphertext_election_context_make_from_hex_with_extended_data", "election.cpp", 310,
    [r .linkedList], .owned .ciphertextElectionContext .ciphertextElectionContext, .badAlloc,
    false⟩,
  ⟨"eg_ciphertext_election_context_from_json", "election.cpp", 341, [],
    .owned .ciphertextElectionContext .ciphertextElectionContext, .badAlloc, false⟩,
  ⟨"eg_ciphertext_election_context_from_bson", "election.cpp", 356, [],
    .owned .ciphertextElectionContext .ciphertextElectionContext, .badAlloc, false⟩,
  ⟨"eg_ciphertext_election_context_to_json", "election.cpp", 372, [r .ciphertextElectionContext],
    .owned .text .text, .badAlloc, false⟩,
  ⟨"eg_ciphertext_election_context_to_bson", "election.cpp", 391, [r .ciphertextElectionContext],
    .owned .bytes .bytes, .badAlloc, false⟩]

/-- elgamal.cpp -/
def fnsElgamal : List Fn := [
  ⟨"eg_elgamal_keypair_from_secret_new", "elgamal.cpp", 20, [rn .elementModQ],
    .owned .elgamalKeypair .elgamalKeypair, .badAlloc, false⟩,
  ⟨"eg_elgamal_keypair_free", "elgamal.cpp", 39, [fr .elgamalKeypair], .none, .noexcept, false⟩,
  ⟨"eg_elgamal_keypair_get_secret_key", "elgamal.cpp", 50, [rn .elgamalKeypair],
    .ref .elementModQ .elementModQ, .escapes, false⟩,
  ⟨"eg_elgamal_keypair_get_public_key", "elgamal.cpp", 61, [rn .elgamalKeypair],
    .ref .elementModP .elementModP, .escapes, false⟩,
  ⟨"eg_elgamal_ciphertext_free", "elgamal.cpp", 76, [fr .elgamalCiphertext], .none, .noexcept,
    false⟩,
  ⟨"eg_elgamal_ciphertext_get_pad", "elgamal.cpp", 87, [r .elgamalCiphertext],
    .ref .elementModP .elementModP, .escapes, false⟩,
  ⟨"eg_elgamal_ciphertext_get_data", "elgamal.cpp", 95, [r .elgamalCiphertext],
    .ref .elementModP .elementModP, .escapes, false⟩,
  ⟨"eg_elgamal_ciphertext_crypto_hash", "elgamal.cpp", 103, [r .elgamalCiphertext],
    .owned .elementModQ .elementModQ, .badAlloc, false⟩,
  ⟨"eg_elgamal_ciphertext_decrypt_with_secret", "elgamal.cpp", 116, [r .elgamalCiphertext,
    r .elementModQ], .none, .runtimeError, false⟩,
  ⟨"eg_elgamal_encrypt", "elgamal.cpp", 133, [r .elementModQ, r .elementModP],
    .owned .elgamalCiphertext .elgamalCiphertext, .runtimeError, false⟩]

/-- encrypt.cpp -/
def fnsEncrypt : List Fn := [
  ⟨"eg_encryption_device_new", "encrypt.cpp", 43, [], .owned .encryptionDevice .encryptionDevice,
    .badAlloc, false⟩,
  ⟨"eg_encryption_device_free", "encrypt.cpp", 59, [fr .encryptionDevice], .none, .noexcept, false⟩,
  ⟨"eg_encryption_device_get_hash", "encrypt.cpp", 70, [r .encryptionDevice],
    .owned .elementModQ .elementModQ, .badAlloc, false⟩,
  ⟨"eg_encryption_device_from_json", "encrypt.cpp", 83, [],
    .owned .encryptionDevice .encryptionDevice, .badAlloc, false⟩,
  ⟨"eg_encryption_device_to_json", "encrypt.cpp", 96, [r .encryptionDevice], .owned .text .text,
    .badAlloc, false⟩,
  ⟨"eg_encryption_mediator_new", "encrypt.cpp", 115, [r .internalManifest,
    r .ciphertextElectionContext, r .encryptionDevice],
    .owned .encryptionMediator .encryptionMediator, .badAlloc, true⟩,
  ⟨"eg_encryption_mediator_free", "encrypt.cpp", 134, [fr .encryptionMediator], .none, .noexcept,
    false⟩,
  ⟨"eg_encryption_mediator_encrypt_ballot", "encrypt.cpp", 145, [r .encryptionMediator,
    r .plaintextBallot], .owned .ciphertextBallot .ciphertextBallot, .byClass, false⟩,
  ⟨"eg_encryption_mediator_compact_encrypt_ballot", "encrypt.cpp", 169, [r .encryptionMediator,
    r .plaintextBallot], .owned .compactCiphertextBallot .compactCiphertextBallot, .byClass,
    false⟩,
  ⟨"eg_encryption_mediator_compact_encrypt_ballot_verify_proofs", "encrypt.cpp", 191,
    [r .encryptionMediator, r .plaintextBallot],
    .owned .compactCiphertextBallot .compactCiphertextBallot, .byClass, false⟩,
  ⟨"eg_encryption_mediator_encrypt_ballot_verify_proofs", "encrypt.cpp", 213,
    [r .encryptionMediator, r .plaintextBallot], .owned .ciphertextBallot .ciphertextBallot,
    .byClass, false⟩,
  ⟨"eg_encrypt_selection", "encrypt.cpp", 240, [r .plaintextBallotSelection,
    r .selectionDescription, r .elementModP, r .elementModQ, r .elementModQ],
    .owned .ciphertextBallotSelection .ciphertextBallotSelection, .byClass, false⟩,
  ⟨"eg_encrypt_contest", "encrypt.cpp", 277, [r .plaintextBallotContest, r .internalManifest,
    r .contestDescriptionWithPlaceholders, r .elementModP, r .elementModQ, r .elementModQ],
    .owned .ciphertextBallotContest .ciphertextBallotContest, .byClass, false⟩,
  ⟨"eg_encrypt_ballot", "encrypt.cpp", 313, [r .plaintextBallot, r .internalManifest,
    r .ciphertextElectionContext, r .elementModQ], .owned .ciphertextBallot .ciphertextBallot,
    .byClass, false⟩,
  ⟨"eg_encrypt_ballot_with_nonce", "encrypt.cpp", 342, [r .plaintextBallot, r .internalManifest,
    r .ciphertextElectionContext, r .elementModQ, take .elementModQ .own],
    .owned .ciphertextBallot .ciphertextBallot, .byClass, false⟩,
  ⟨"eg_encrypt_compact_ballot", "encrypt.cpp", 375, [r .plaintextBallot, r .internalManifest,
    r .ciphertextElectionContext, r .elementModQ],
    .owned .compactCiphertextBallot .compactCiphertextBallot, .byClass, false⟩,
  ⟨"eg_encrypt_compact_ballot_with_nonce", "encrypt.cpp", 404, [r .plaintextBallot,
    r .internalManifest, r .ciphertextElectionContext, r .elementModQ, take .elementModQ .sink],
    .owned .compactCiphertextBallot .compactCiphertextBallot, .byClass, false⟩,
  ⟨"eg_precompute_init", "encrypt.cpp", 438, [], .none, .runtimeError, false⟩,
  ⟨"eg_precompute_populate", "encrypt.cpp", 450, [r .elementModP], .none, .runtimeError, false⟩,
  ⟨"eg_precompute_stop", "encrypt.cpp", 463, [], .none, .runtimeError, false⟩,
  ⟨"eg_precompute_status", "encrypt.cpp", 475, [], .none, .runtimeError, false⟩]

/-- group.cpp -/
def fnsGroup : List Fn := [
  ⟨"eg_element_mod_p_new", "group.cpp", 38, [], .owned .elementModP .elementModP, .badAlloc, false⟩,
  ⟨"eg_element_mod_p_new_unchecked", "group.cpp", 55, [], .owned .elementModP .elementModP,
    .badAlloc, false⟩,
  ⟨"eg_element_mod_p_free", "group.cpp", 72, [fr .elementModP], .none, .noexcept, false⟩,
  ⟨"eg_element_mod_p_get_data", "group.cpp", 83, [rn .elementModP], .none, .escapes, false⟩,
  ⟨"eg_element_mod_p_to_hex", "group.cpp", 97, [r .elementModP], .owned .text .text, .badAlloc,
    false⟩,
  ⟨"eg_element_mod_q_new", "group.cpp", 114, [], .owned .elementModQ .elementModQ, .badAlloc,
    false⟩,
  ⟨"eg_element_mod_q_new_unchecked", "group.cpp", 131, [], .owned .elementModQ .elementModQ,
    .badAlloc, false⟩,
  ⟨"eg_element_mod_q_free", "group.cpp", 148, [fr .elementModQ], .none, .noexcept, false⟩,
  ⟨"eg_element_mod_q_get_data", "group.cpp", 159, [rn .elementModQ], .none, .escapes, false⟩,
  ⟨"eg_element_mod_q_to_hex", "group.cpp", 173, [r .elementModQ], .owned .text .text, .badAlloc,
    false⟩,
  ⟨"eg_element_mod_q_from_hex", "group.cpp", 186, [], .owned .elementModQ .elementModQ, .badAlloc,
    false⟩,
  ⟨"eg_element_mod_q_from_hex_unchecked", "group.cpp", 200, [], .owned .elementModQ .elementModQ,
    .badAlloc, false⟩,
  ⟨"eg_element_mod_p_constant_g", "group.cpp", 218, [], .const .elementModP 0, .noexcept, false⟩,
  ⟨"eg_element_mod_p_constant_p", "group.cpp", 224, [], .const .elementModP 1, .noexcept, false⟩,
  ⟨"eg_element_mod_p_constant_r", "group.cpp", 230, [], .const .elementModP 2, .noexcept, false⟩,
  ⟨"eg_element_mod_p_constant_zero_mod_p", "group.cpp", 236, [], .const .elementModP 3, .noexcept,
    false⟩,
  ⟨"eg_element_mod_p_constant_one_mod_p", "group.cpp", 243, [], .const .elementModP 4, .noexcept,
    false⟩,
  ⟨"eg_element_mod_p_constant_two_mod_p", "group.cpp", 249, [], .const .elementModP 5, .noexcept,
    false⟩,
  ⟨"eg_element_mod_q_constant_q", "group.cpp", 255, [], .const .elementModQ 6, .noexcept, false⟩,
  ⟨"eg_element_mod_q_constant_zero_mod_q", "group.cpp", 261, [], .const .elementModQ 7, .noexcept,
    false⟩,
  ⟨"eg_element_mod_q_constant_one_mod_q", "group.cpp", 268, [], .const .elementModQ 8, .noexcept,
    false⟩,
  ⟨"eg_element_mod_q_constant_two_mod_q", "group.cpp", 274, [], .const .elementModQ 9, .noexcept,
    false⟩,
  ⟨"eg_element_mod_q_pow_mod_p", "group.cpp", 284, [r .elementModP, r .elementModQ],
    .owned .elementModP .elementModP, .badAlloc, false⟩,
  ⟨"eg_element_mod_q_rand_q_new", "group.cpp", 301, [], .owned .elementModQ .elementModQ,
    .badAlloc, false⟩,
  ⟨"eg_constant_to_json", "group.cpp", 317, [], .owned .text .text, .badAlloc, false⟩]

/-- hash.cpp -/
def fnsHash : List Fn := [
  ⟨"eg_hash_elems_string", "hash.cpp", 16, [], .owned .elementModQ .elementModQ, .badAlloc, false⟩,
  ⟨"eg_hash_elems_strings", "hash.cpp", 28, [], .owned .elementModQ .elementModQ, .badAlloc, false⟩,
  ⟨"eg_hash_elems_int", "hash.cpp", 42, [], .owned .elementModQ .elementModQ, .badAlloc, false⟩]

/-- manifest.cpp -/
def fnsManifest1 : List Fn := [
  ⟨"eg_annotated_string_new", "manifest.cpp", 47, [], .owned .annotatedString .annotatedString,
    .badAlloc, false⟩,
  ⟨"eg_annotated_string_free", "manifest.cpp", 63, [fr .annotatedString], .none, .noexcept, false⟩,
  ⟨"eg_annotated_string_get_annotation", "manifest.cpp", 74, [r .annotatedString],
    .owned .text .text, .badAlloc, false⟩,
  ⟨"eg_annotated_string_get_value", "manifest.cpp", 88, [r .annotatedString], .owned .text .text,
    .badAlloc, false⟩,
  ⟨"eg_annotated_string_crypto_hash", "manifest.cpp", 102, [r .annotatedString],
    .owned .elementModQ .elementModQ, .badAlloc, false⟩,
  ⟨"eg_language_new", "manifest.cpp", 119, [], .owned .language .language, .badAlloc, false⟩,
  ⟨"eg_language_free", "manifest.cpp", 135, [fr .language], .none, .noexcept, false⟩,
  ⟨"eg_language_get_value", "manifest.cpp", 146, [r .language], .owned .text .text, .badAlloc,
    false⟩,
  ⟨"eg_language_get_language", "manifest.cpp", 159, [r .language], .owned .text .text, .badAlloc,
    false⟩,
  ⟨"eg_language_crypto_hash", "manifest.cpp", 172, [r .language], .owned .elementModQ .elementModQ,
    .badAlloc, false⟩,
  ⟨"eg_internationalized_text_new", "manifest.cpp", 189, [rs .language],
    .owned .internationalizedText .internationalizedText, .badAlloc, false⟩,
  ⟨"eg_internationalized_text_free", "manifest.cpp", 213, [fr .internationalizedText], .none,
    .noexcept, false⟩,
  ⟨"eg_internationalized_text_get_text_size", "manifest.cpp", 224, [r .internationalizedText],
    .none, .escapes, false⟩,
  ⟨"eg_internationalized_text_get_text_at_index", "manifest.cpp", 229, [r .internationalizedText],
    .ref .language .language, .badAlloc, false⟩,
  ⟨"eg_intertnationalized_text_crypto_hash", "manifest.cpp", 246,
    [rc .language .internationalizedText], .owned .elementModQ .elementModQ, .badAlloc, false⟩,
  ⟨"eg_contact_information_new", "manifest.cpp", 263, [],
    .owned .contactInformation .contactInformation, .badAlloc, false⟩,
  ⟨"eg_contact_information_new_with_collections", "manifest.cpp", 278, [mvs .annotatedString,
    mvs .annotatedString], .owned .contactInformation .contactInformation, .badAlloc, false⟩,
  ⟨"eg_contact_information_free", "manifest.cpp", 318, [fr .contactInformation], .none, .noexcept,
    false⟩,
  ⟨"eg_contact_information_get_address_line_size", "manifest.cpp", 329, [r .contactInformation],
    .none, .escapes, false⟩,
  ⟨"eg_contact_information_get_address_line_at_index", "manifest.cpp", 334,
    [r .contactInformation], .owned .text .text, .badAlloc, false⟩,
  ⟨"eg_contact_information_get_email_line_size", "manifest.cpp", 351, [r .contactInformation],
    .none, .escapes, false⟩,
  ⟨"eg_contact_information_get_email_line_at_index", "manifest.cpp", 356, [r .contactInformation],
    .ref .internationalizedText .annotatedString, .badAlloc, false⟩,
  ⟨"eg_contact_information_get_phone_line_size", "manifest.cpp", 373, [r .contactInformation],
    .none, .escapes, false⟩,
  ⟨"eg_contact_information_get_phone_line_at_index", "manifest.cpp", 378, [r .contactInformation],
    .ref .internationalizedText .annotatedString, .badAlloc, false⟩,
  ⟨"eg_contact_information_get_name", "manifest.cpp", 395,
    [rc .contactInformation .geopoliticalUnit], .owned .text .text, .badAlloc, false⟩,
  ⟨"eg_contact_information_crypto_hash", "manifest.cpp", 409,
    [rc .contactInformation .internationalizedText], .owned .elementModQ .elementModQ, .badAlloc,
    false⟩,
  ⟨"eg_geopolitical_unit_new", "manifest.cpp", 426, [], .owned .geopoliticalUnit .geopoliticalUnit,
    .badAlloc, false⟩,
  ⟨"eg_geopolitical_unit_new_with_contact_info", "manifest.cpp", 445, [mv .contactInformation],
    .owned .geopoliticalUnit .geopoliticalUnit, .badAlloc, false⟩,
  ⟨"eg_geopolitical_unit_free", "manifest.cpp", 466, [fr .geopoliticalUnit], .none, .noexcept,
    false⟩,
  ⟨"eg_geopolitical_unit_get_object_id", "manifest.cpp", 477, [r .geopoliticalUnit],
    .owned .text .text, .badAlloc, false⟩,
  ⟨"eg_geopolitical_unit_get_name", "manifest.cpp", 491, [r .geopoliticalUnit], .owned .text .text,
    .badAlloc, false⟩,
  ⟨"eg_geopolitical_unit_crypto_hash", "manifest.cpp", 510, [r .geopoliticalUnit],
    .owned .elementModQ .elementModQ, .badAlloc, false⟩,
  ⟨"eg_ballot_style_new", "manifest.cpp", 527, [], .owned .ballotStyle .ballotStyle, .badAlloc,
    false⟩,
  ⟨"eg_ballot_style_new_with_parties", "manifest.cpp", 549, [], .owned .ballotStyle .ballotStyle,
    .badAlloc, false⟩,
  ⟨"eg_ballot_style_free", "manifest.cpp", 580, [fr .ballotStyle], .none, .noexcept, false⟩,
  ⟨"eg_ballot_style_get_object_id", "manifest.cpp", 591, [r .ballotStyle], .owned .text .text,
    .badAlloc, false⟩,
  ⟨"eg_ballot_style_get_geopolitical_unit_ids_size", "manifest.cpp", 605, [r .ballotStyle], .none,
    .escapes, false⟩,
  ⟨"eg_ballot_style_get_geopolitical_unit_id_at_index", "manifest.cpp", 610, [r .ballotStyle],
    .owned .text .text, .badAlloc, false⟩,
  ⟨"eg_ballot_style_get_party_ids_size", "manifest.cpp", 626, [r .ballotStyle], .none, .escapes,
    false⟩,
  ⟨"eg_ballot_style_get_party_id_at_index", "manifest.cpp", 631, [r .ballotStyle],
    .owned .text .text, .badAlloc, false⟩,
  ⟨"eg_ballot_style_get_image_uri", "manifest.cpp", 647, [r .ballotStyle], .owned .text .text,
    .badAlloc, false⟩,
  ⟨"eg_ballot_style_crypto_hash", "manifest.cpp", 661, [r .ballotStyle],
    .owned .elementModQ .elementModQ, .badAlloc, false⟩,
  ⟨"eg_party_new", "manifest.cpp", 678, [], .owned .party .party, .badAlloc, false⟩,
  ⟨"eg_party_new_with_extras", "manifest.cpp", 695, [mv .internationalizedText],
    .owned .party .party, .badAlloc, false⟩,
  ⟨"eg_party_free", "manifest.cpp", 720, [fr .party], .none, .noexcept, false⟩,
  ⟨"eg_party_get_object_id", "manifest.cpp", 731, [r .party], .owned .text .text, .badAlloc, false⟩,
  ⟨"eg_party_get_abbreviation", "manifest.cpp", 744, [r .party], .owned .text .text, .badAlloc,
    false⟩,
  ⟨"eg_party_get_name", "manifest.cpp", 758, [r .party],
    .ref .internationalizedText .internationalizedText, .badAlloc, false⟩,
  ⟨"eg_party_get_color", "manifest.cpp", 771, [r .party], .owned .text .text, .badAlloc, false⟩,
  ⟨"eg_party_get_logo_uri", "manifest.cpp", 784, [r .party], .owned .text .text, .badAlloc, false⟩,
  ⟨"eg_party_crypto_hash", "manifest.cpp", 796, [r .party], .owned .elementModQ .elementModQ,
    .badAlloc, false⟩,
  ⟨"eg_candidate_new", "manifest.cpp", 813, [], .owned .candidate .candidate, .badAlloc, false⟩,
  ⟨"eg_candidate_new_with_party", "manifest.cpp", 831, [], .owned .candidate .candidate, .badAlloc,
    false⟩,
  ⟨"eg_candidate_new_with_extras", "manifest.cpp", 849, [mv .internationalizedText],
    .owned .candidate .candidate, .badAlloc, false⟩,
  ⟨"eg_candidate_free", "manifest.cpp", 874, [fr .candidate], .none, .noexcept, false⟩,
  ⟨"eg_candidate_get_object_id", "manifest.cpp", 885, [r .candidate], .owned .text .text,
    .badAlloc, false⟩,
  ⟨"eg_candidate_get_candidate_id", "manifest.cpp", 899, [r .candidate], .owned .text .text,
    .badAlloc, false⟩,
  ⟨"eg_candidate_get_name", "manifest.cpp", 913, [r .candidate],
    .ref .internationalizedText .internationalizedText, .badAlloc, false⟩,
  ⟨"eg_candidate_get_party_id", "manifest.cpp", 926, [r .candidate], .owned .text .text, .badAlloc,
    false⟩,
  ⟨"eg_candidate_get_image_uri", "manifest.cpp", 940, [r .candidate], .owned .text .text,
    .badAlloc, false⟩]

/-- manifest.cpp -/
def fnsManifest2 : List Fn := [
  ⟨"eg_candidate_get_is_write_in", "manifest.cpp", 954, [r .candidate], .none, .value, false⟩,
  ⟨"eg_candidate_crypto_hash", "manifest.cpp", 964, [rc .candidate .party],
    .owned .elementModQ .elementModQ, .badAlloc, false⟩,
  ⟨"eg_selection_description_new", "manifest.cpp", 981, [],
    .owned .selectionDescription .selectionDescription, .badAlloc, false⟩,
  ⟨"eg_selection_description_free", "manifest.cpp", 999, [fr .selectionDescription], .none,
    .noexcept, false⟩,
  ⟨"eg_selection_description_get_object_id", "manifest.cpp", 1010, [r .selectionDescription],
    .owned .text .text, .badAlloc, false⟩,
  ⟨"eg_selection_description_get_candidate_id", "manifest.cpp", 1024, [r .selectionDescription],
    .owned .text .text, .badAlloc, false⟩,
  ⟨"eg_selection_description_get_sequence_order", "manifest.cpp", 1039, [r .selectionDescription],
    .none, .value, false⟩,
  ⟨"eg_selection_description_crypto_hash", "manifest.cpp", 1049, [r .selectionDescription],
    .owned .elementModQ .elementModQ, .badAlloc, false⟩,
  ⟨"eg_contest_description_new", "manifest.cpp", 1066, [mvs .selectionDescription],
    .owned .contestDescription .contestDescription, .badAlloc, false⟩,
  ⟨"eg_contest_description_new_with_title", "manifest.cpp", 1099, [mv .internationalizedText,
    mv .internationalizedText, mvs .selectionDescription],
    .owned .contestDescription .contestDescription, .badAlloc, false⟩,
  ⟨"eg_contest_description_new_with_parties", "manifest.cpp", 1137, [mvs .selectionDescription],
    .owned .contestDescription .contestDescription, .badAlloc, false⟩,
  ⟨"eg_contest_description_new_with_title_and_parties", "manifest.cpp", 1176,
    [mv .internationalizedText, mv .internationalizedText, mvs .selectionDescription],
    .owned .contestDescription .contestDescription, .badAlloc, false⟩,
  ⟨"eg_contest_description_free", "manifest.cpp", 1222, [fr .contestDescription], .none, .noexcept,
    false⟩,
  ⟨"eg_contest_description_get_object_id", "manifest.cpp", 1234, [r .contestDescription],
    .owned .text .text, .badAlloc, false⟩,
  ⟨"eg_contest_description_get_electoral_district_id", "manifest.cpp", 1248,
    [r .contestDescription], .owned .text .text, .badAlloc, false⟩,
  ⟨"eg_contest_description_get_sequence_order", "manifest.cpp", 1263, [r .contestDescription],
    .none, .escapes, false⟩,
  ⟨"eg_contest_description_get_vote_variation", "manifest.cpp", 1268, [r .contestDescription],
    .none, .escapes, false⟩,
  ⟨"eg_contest_description_get_number_elected", "manifest.cpp", 1273, [r .contestDescription],
    .none, .escapes, false⟩,
  ⟨"eg_contest_description_get_votes_allowed", "manifest.cpp", 1278, [r .contestDescription],
    .none, .escapes, false⟩,
  ⟨"eg_contest_description_get_name", "manifest.cpp", 1283, [r .contestDescription],
    .owned .text .text, .badAlloc, false⟩,
  ⟨"eg_contest_description_get_ballot_title", "manifest.cpp", 1297, [r .contestDescription],
    .ref .internationalizedText .internationalizedText, .badAlloc, false⟩,
  ⟨"eg_contest_description_get_ballot_subtitle", "manifest.cpp", 1311, [r .contestDescription],
    .ref .internationalizedText .internationalizedText, .badAlloc, false⟩,
  ⟨"eg_contest_description_get_selections_size", "manifest.cpp", 1325, [r .contestDescription],
    .none, .escapes, false⟩,
  ⟨"eg_contest_description_get_selection_at_index", "manifest.cpp", 1330, [r .contestDescription],
    .ref .selectionDescription .selectionDescription, .badAlloc, false⟩,
  ⟨"eg_contest_description_crypto_hash", "manifest.cpp", 1347, [r .contestDescription],
    .owned .elementModQ .elementModQ, .badAlloc, false⟩,
  ⟨"eg_contest_description_with_placeholders_new", "manifest.cpp", 1364,
    [mvs .selectionDescription, mvs .selectionDescription],
    .owned .contestDescriptionWithPlaceholders .contestDescriptionWithPlaceholders, .badAlloc,
    false⟩,
  ⟨"eg_contest_description_with_placeholders_new_with_title", "manifest.cpp", 1406,
    [mv .internationalizedText, mv .internationalizedText, mvs .selectionDescription,
    mvs .selectionDescription],
    .owned .contestDescriptionWithPlaceholders .contestDescriptionWithPlaceholders, .badAlloc,
    false⟩,
  ⟨"eg_contest_description_with_placeholders_new_with_parties", "manifest.cpp", 1455,
    [mvs .selectionDescription, mvs .selectionDescription],
    .owned .contestDescriptionWithPlaceholders .contestDescriptionWithPlaceholders, .badAlloc,
    false⟩,
  ⟨"eg_contest_description_with_placeholders_new_with_title_and_parties", "manifest.cpp", 1504,
    [mv .internationalizedText, mv .internationalizedText, mvs .selectionDescription,
    mvs .selectionDescription],
    .owned .contestDescriptionWithPlaceholders .contestDescriptionWithPlaceholders, .badAlloc,
    false⟩,
  ⟨"eg_contest_description_with_placeholders_free", "manifest.cpp", 1560,
    [fr .contestDescriptionWithPlaceholders], .none, .noexcept, false⟩,
  ⟨"eg_contest_description_with_placeholders_get_placeholders_size", "manifest.cpp", 1573,
    [r .contestDescriptionWithPlaceholders], .none, .escapes, false⟩,
  ⟨"eg_contest_description_with_placeholders_get_placeholder_at_index", "manifest.cpp", 1579,
    [r .contestDescriptionWithPlaceholders],
    .ref .contestDescriptionWithPlaceholders .selectionDescription, .badAlloc, false⟩,
  ⟨"eg_contest_description_with_placeholders_is_placeholder", "manifest.cpp", 1596,
    [r .contestDescriptionWithPlaceholders, r .selectionDescription], .none, .escapes, false⟩,
  ⟨"eg_contest_description_with_placeholders_selection_for_id", "manifest.cpp", 1603,
    [r .contestDescriptionWithPlaceholders], .ref .selectionDescription .selectionDescription,
    .badAlloc, false⟩,
  ⟨"eg_election_manifest_new", "manifest.cpp", 1625, [mvs .geopoliticalUnit, mvs .party,
    mvs .candidate, mvs .contestDescription, mvs .ballotStyle],
    .owned .electionManifest .electionManifest, .badAlloc, false⟩,
  ⟨"eg_election_manifest_new_with_contact", "manifest.cpp", 1693, [mvs .geopoliticalUnit,
    mvs .party, mvs .candidate, mvs .contestDescription, mvs .ballotStyle,
    mv .internationalizedText, mv .contactInformation], .owned .electionManifest .electionManifest,
    .badAlloc, false⟩,
  ⟨"eg_election_manifest_free", "manifest.cpp", 1765, [fr .electionManifest], .none, .noexcept,
    false⟩,
  ⟨"eg_election_manifest_get_election_scope_id", "manifest.cpp", 1776, [r .electionManifest],
    .owned .text .text, .badAlloc, false⟩,
  ⟨"eg_election_manifest_get_type", "manifest.cpp", 1790, [r .electionManifest], .none, .escapes,
    false⟩,
  ⟨"eg_election_manifest_get_start_date", "manifest.cpp", 1795, [r .electionManifest], .none,
    .value, false⟩,
  ⟨"eg_election_manifest_get_end_date", "manifest.cpp", 1807, [r .electionManifest], .none, .value,
    false⟩,
  ⟨"eg_election_manifest_get_geopolitical_units_size", "manifest.cpp", 1819, [r .electionManifest],
    .none, .escapes, false⟩,
  ⟨"eg_election_manifest_get_geopolitical_unit_at_index", "manifest.cpp", 1824,
    [r .electionManifest], .ref .geopoliticalUnit .geopoliticalUnit, .badAlloc, false⟩,
  ⟨"eg_election_manifest_get_parties_size", "manifest.cpp", 1840, [r .electionManifest], .none,
    .escapes, false⟩,
  ⟨"eg_election_manifest_get_party_at_index", "manifest.cpp", 1845, [r .electionManifest],
    .ref .party .party, .badAlloc, false⟩,
  ⟨"eg_election_manifest_get_candidates_size", "manifest.cpp", 1862, [r .electionManifest], .none,
    .escapes, false⟩,
  ⟨"eg_election_manifest_get_candidate_at_index", "manifest.cpp", 1867, [r .electionManifest],
    .ref .candidate .candidate, .badAlloc, false⟩,
  ⟨"eg_election_manifest_get_contests_size", "manifest.cpp", 1884, [r .electionManifest], .none,
    .escapes, false⟩,
  ⟨"eg_election_manifest_get_contest_at_index", "manifest.cpp", 1889, [r .electionManifest],
    .ref .contestDescription .contestDescription, .badAlloc, false⟩,
  ⟨"eg_election_manifest_get_ballot_styles_size", "manifest.cpp", 1906, [r .electionManifest],
    .none, .escapes, false⟩,
  ⟨"eg_election_manifest_get_ballot_style_at_index", "manifest.cpp", 1911, [r .electionManifest],
    .ref .ballotStyle .ballotStyle, .badAlloc, false⟩,
  ⟨"eg_election_manifest_get_name", "manifest.cpp", 1928, [r .electionManifest],
    .ref .internationalizedText .internationalizedText, .badAlloc, false⟩,
  ⟨"eg_election_manifest_get_contact_info", "manifest.cpp", 1943, [r .electionManifest],
    .ref .contactInformation .contactInformation, .badAlloc, false⟩,
  ⟨"eg_election_manifest_crypto_hash", "manifest.cpp", 1959, [r .electionManifest],
    .owned .elementModQ .elementModQ, .badAlloc, false⟩,
  ⟨"eg_election_manifest_is_valid", "manifest.cpp", 1972, [r .electionManifest], .none, .value,
    false⟩,
  ⟨"eg_election_manifest_from_json", "manifest.cpp", 1983, [],
    .owned .electionManifest .electionManifest, .badAlloc, false⟩,
  ⟨"eg_election_manifest_from_bson", "manifest.cpp", 1998, [],
    .owned .electionManifest .electionManifest, .badAlloc, false⟩,
  ⟨"eg_election_manifest_from_msgpack", "manifest.cpp", 2013, [],
    .owned .electionManifest .electionManifest, .badAlloc, false⟩,
  ⟨"eg_election_manifest_to_json", "manifest.cpp", 2028, [r .electionManifest], .owned .text .text,
    .badAlloc, false⟩,
  ⟨"eg_election_manifest_to_bson", "manifest.cpp", 2046, [r .electionManifest],
    .owned .bytes .bytes, .badAlloc, false⟩]

/-- manifest.cpp -/
def fnsManifest3 : List Fn := [
  ⟨"eg_election_manifest_to_msgpack", "manifest.cpp", 2064, [r .electionManifest],
    .owned .bytes .bytes, .badAlloc, false⟩,
  ⟨"eg_internal_manifest_new", "manifest.cpp", 2086, [r .electionManifest],
    .owned .internalManifest .internalManifest, .badAlloc, false⟩,
  ⟨"eg_internal_manifest_free", "manifest.cpp", 2101, [fr .internalManifest], .none, .noexcept,
    false⟩,
  ⟨"eg_internal_manifest_get_manifest_hash", "manifest.cpp", 2112, [r .internalManifest],
    .ref .elementModQ .elementModQ, .escapes, false⟩,
  ⟨"eg_internal_manifest_get_geopolitical_units_size", "manifest.cpp", 2121, [r .internalManifest],
    .none, .escapes, false⟩,
  ⟨"eg_internal_manifest_get_geopolitical_unit_at_index", "manifest.cpp", 2126,
    [r .internalManifest], .ref .geopoliticalUnit .geopoliticalUnit, .badAlloc, false⟩,
  ⟨"eg_internal_manifest_get_contests_size", "manifest.cpp", 2142, [r .internalManifest], .none,
    .escapes, false⟩,
  ⟨"eg_internal_manifest_get_contest_at_index", "manifest.cpp", 2147, [r .internalManifest],
    .ref .contestDescriptionWithPlaceholders .contestDescriptionWithPlaceholders, .badAlloc,
    false⟩,
  ⟨"eg_internal_manifest_get_ballot_styles_size", "manifest.cpp", 2164, [r .internalManifest],
    .none, .escapes, false⟩,
  ⟨"eg_internal_manifest_get_ballot_style_at_index", "manifest.cpp", 2169, [r .internalManifest],
    .ref .ballotStyle .ballotStyle, .badAlloc, false⟩,
  ⟨"eg_internal_manifest_get_ballot_style", "manifest.cpp", 2186, [r .internalManifest],
    .ref .ballotStyle .ballotStyle, .badAlloc, false⟩,
  ⟨"eg_internal_manifest_from_json", "manifest.cpp", 2203, [],
    .owned .internalManifest .internalManifest, .badAlloc, false⟩,
  ⟨"eg_internal_manifest_from_bson", "manifest.cpp", 2218, [],
    .owned .internalManifest .internalManifest, .badAlloc, false⟩,
  ⟨"eg_internal_manifest_from_msgpack", "manifest.cpp", 2233, [],
    .owned .internalManifest .internalManifest, .badAlloc, false⟩,
  ⟨"eg_internal_manifest_to_json", "manifest.cpp", 2248, [r .internalManifest], .owned .text .text,
    .badAlloc, false⟩,
  ⟨"eg_internal_manifest_to_bson", "manifest.cpp", 2266, [r .internalManifest],
    .owned .bytes .bytes, .badAlloc, false⟩,
  ⟨"eg_internal_manifest_to_msgpack", "manifest.cpp", 2284, [r .internalManifest],
    .owned .bytes .bytes, .badAlloc, false⟩]

/-- collections.c -/
def fnsCollections : List Fn := [
  ⟨"eg_linked_list_new", "collections.c", 16, [], .owned .linkedList .linkedList, .noexcept, false⟩,
  ⟨"eg_linked_list_free", "collections.c", 30, [take .linkedList .free], .none, .noexcept, false⟩,
  ⟨"eg_linked_list_append", "collections.c", 44, [r .linkedList], .none, .noexcept, false⟩,
  ⟨"eg_linked_list_delete_last", "collections.c", 75, [r .linkedList], .none, .noexcept, false⟩,
  ⟨"eg_linked_list_get_count", "collections.c", 102, [r .linkedList], .none, .noexcept, false⟩,
  ⟨"eg_linked_list_get_element_at", "collections.c", 104, [r .linkedList], .none, .noexcept, false⟩,
  ⟨"eg_linked_list_get_value_at", "collections.c", 127, [r .linkedList], .none, .noexcept, false⟩]

/-- All functions of the C interface. -/
def table : List Fn :=
  fnsBallot1 ++
  fnsBallot2 ++
  fnsBallotCode ++
  fnsBallotCompact ++
  fnsChaumPedersen ++
  fnsElection ++
  fnsElgamal ++
  fnsEncrypt ++
  fnsGroup ++
  fnsHash ++
  fnsManifest1 ++
  fnsManifest2 ++
  fnsManifest3 ++
  fnsCollections

end EG.CApi
