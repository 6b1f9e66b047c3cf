import Verif.Model.CApi

/-!
# The C interface: signatures

One entry per function name of the headers `include/electionguard/*.h` (`EG_API`) and of the
definitions in `src/electionguard/facades/*`, extracted from the source: types of the parameters in
the header with its line, types of the parameters in the definition with its line.  A `const` in
front of a parameter that is not a pointer is dropped, as it is not part of the type of a function;
arrays are pointers.

The headers declare the functions inside `extern "C"`; the definitions in the `.cpp` files are
outside of it.  A definition has C linkage, and so the plain symbol a C client links against, if its
parameter types are those of the declaration; otherwise it is another C++ function of the same name.
-/

namespace EG.CApi

/-- Types of parameters: plain types and enumerations. -/
inductive Base
  | bool | int | u8 | u64 | char | cChar | cU64
  | ballotBoxState | electionType | reportingUnitType | voteVariationType
  deriving DecidableEq, Repr

inductive CTy
  | val (b : Base)
  /-- pointer -/
  | p (b : Base)
  /-- pointer to pointer -/
  | pp (b : Base)
  /-- handle -/
  | h (k : Kind)
  /-- pointer to a handle -/
  | o (k : Kind)
  deriving DecidableEq, Repr

structure Sig where
  name : String
  header : String
  headerLine : Nat
  declared : Option (List CTy)
  file : String
  line : Nat
  defn : Option (List CTy)
  deriving Repr

/-- Same types in header and definition. -/
def s (name header : String) (headerLine : Nat) (file : String) (line : Nat) (ts : List CTy) :
    Sig := ⟨name, header, headerLine, some ts, file, line, some ts⟩

def sigs1 : List Sig := [
  s "eg_extended_data_new" "ballot.h" 49 "ballot.cpp" 40 [.p .char, .val .u64, .o .extendedData],
  s "eg_extended_data_free" "ballot.h" 52 "ballot.cpp" 53 [.h .extendedData],
  s "eg_extended_data_get_value" "ballot.h" 54 "ballot.cpp" 64 [.h .extendedData, .pp .char],
  s "eg_extended_data_get_length" "ballot.h" 57 "ballot.cpp" 78 [.h .extendedData],
  s "eg_plaintext_ballot_selection_new" "ballot.h" 84 "ballot.cpp" 93 [.p .cChar, .val .u64,
    .val .bool, .o .plaintextBallotSelection],
  ⟨"eg_plaintext_ballot_selection_new_with_extended_data", "ballot.h", 88, some [.p .cChar,
    .val .u64, .val .bool, .p .cChar, .val .u64, .o .plaintextBallotSelection], "", 0, none⟩,
  s "eg_plaintext_ballot_selection_free" "ballot.h" 94 "ballot.cpp" 125
    [.h .plaintextBallotSelection],
  s "eg_plaintext_ballot_selection_get_object_id" "ballot.h" 105 "ballot.cpp" 137
    [.h .plaintextBallotSelection, .pp .char],
  s "eg_plaintext_ballot_selection_get_vote" "ballot.h" 111 "ballot.cpp" 151
    [.h .plaintextBallotSelection],
  s "eg_plaintext_ballot_selection_get_is_placeholder" "ballot.h" 117 "ballot.cpp" 162
    [.h .plaintextBallotSelection],
  ⟨"eg_plaintext_ballot_selection_get_extended_data", "ballot.h", 126, some
    [.h .plaintextBallotSelection, .o .extendedData], "", 0, none⟩,
  s "eg_plaintext_ballot_selection_is_valid" "ballot.h" 133 "ballot.cpp" 182
    [.h .plaintextBallotSelection, .p .char],
  s "eg_ciphertext_ballot_selection_free" "ballot.h" 170 "ballot.cpp" 193
    [.h .ciphertextBallotSelection],
  s "eg_ciphertext_ballot_selection_get_object_id" "ballot.h" 172 "ballot.cpp" 205
    [.h .ciphertextBallotSelection, .pp .char],
  s "eg_ciphertext_ballot_selection_get_sequence_order" "ballot.h" 179 "ballot.cpp" 219
    [.h .ciphertextBallotSelection],
  s "eg_ciphertext_ballot_selection_get_description_hash" "ballot.h" 187 "ballot.cpp" 231
    [.h .ciphertextBallotSelection, .o .elementModQ],
  s "eg_ciphertext_ballot_selection_get_is_placeholder" "ballot.h" 194 "ballot.cpp" 244
    [.h .ciphertextBallotSelection],
  s "eg_ciphertext_ballot_selection_get_ciphertext" "ballot.h" 202 "ballot.cpp" 250
    [.h .ciphertextBallotSelection, .o .elgamalCiphertext],
  s "eg_ciphertext_ballot_selection_get_crypto_hash" "ballot.h" 211 "ballot.cpp" 264
    [.h .ciphertextBallotSelection, .o .elementModQ],
  s "eg_ciphertext_ballot_selection_get_nonce" "ballot.h" 220 "ballot.cpp" 278
    [.h .ciphertextBallotSelection, .o .elementModQ],
  s "eg_ciphertext_ballot_selection_get_proof" "ballot.h" 230 "ballot.cpp" 292
    [.h .ciphertextBallotSelection, .o .disjunctiveChaumPedersenProof],
  s "eg_ciphertext_ballot_selection_crypto_hash_with" "ballot.h" 245 "ballot.cpp" 306
    [.h .ciphertextBallotSelection, .h .elementModQ, .o .elementModQ],
  s "eg_ciphertext_ballot_selection_is_valid_encryption" "ballot.h" 263 "ballot.cpp" 321
    [.h .ciphertextBallotSelection, .h .elementModQ, .h .elementModP, .h .elementModQ],
  s "eg_plaintext_ballot_contest_new" "ballot.h" 290 "ballot.cpp" 341 [.p .char,
    .o .plaintextBallotSelection, .val .u64, .o .plaintextBallotContest],
  s "eg_plaintext_ballot_contest_free" "ballot.h" 295 "ballot.cpp" 367 [.h .plaintextBallotContest],
  s "eg_plaintext_ballot_contest_get_object_id" "ballot.h" 301 "ballot.cpp" 379
    [.h .plaintextBallotContest, .pp .char],
  s "eg_plaintext_ballot_contest_get_selections_size" "ballot.h" 308 "ballot.cpp" 393
    [.h .plaintextBallotContest],
  s "eg_plaintext_ballot_contest_get_selection_at_index" "ballot.h" 317 "ballot.cpp" 404
    [.h .plaintextBallotContest, .val .u64, .o .plaintextBallotSelection],
  s "eg_plaintext_ballot_contest_is_valid" "ballot.h" 326 "ballot.cpp" 421
    [.h .plaintextBallotContest, .p .char, .val .u64, .val .u64, .val .u64],
  s "eg_ciphertext_ballot_contest_free" "ballot.h" 357 "ballot.cpp" 442
    [.h .ciphertextBallotContest],
  s "eg_ciphertext_ballot_contest_get_object_id" "ballot.h" 363 "ballot.cpp" 454
    [.h .ciphertextBallotContest, .pp .char],
  s "eg_ciphertext_ballot_contest_get_sequence_order" "ballot.h" 370 "ballot.cpp" 468
    [.h .ciphertextBallotContest],
  s "eg_ciphertext_ballot_contest_get_description_hash" "ballot.h" 378 "ballot.cpp" 480
    [.h .ciphertextBallotContest, .o .elementModQ],
  s "eg_ciphertext_ballot_contest_get_selections_size" "ballot.h" 385 "ballot.cpp" 493
    [.h .ciphertextBallotContest],
  s "eg_ciphertext_ballot_contest_get_selection_at_index" "ballot.h" 394 "ballot.cpp" 499
    [.h .ciphertextBallotContest, .val .u64, .o .ciphertextBallotSelection],
  s "eg_ciphertext_ballot_contest_get_nonce" "ballot.h" 404 "ballot.cpp" 517
    [.h .ciphertextBallotContest, .o .elementModQ],
  s "eg_ciphertext_ballot_contest_get_ciphertext_accumulation" "ballot.h" 413 "ballot.cpp" 530
    [.h .ciphertextBallotContest, .o .elgamalCiphertext],
  s "eg_ciphertext_ballot_contest_get_crypto_hash" "ballot.h" 423 "ballot.cpp" 544
    [.h .ciphertextBallotContest, .o .elementModQ],
  ⟨"eg_ciphertext_ballot_contest_get_proof", "ballot.h", 433, some [.h .ciphertextBallotContest,
    .o .disjunctiveChaumPedersenProof], "ballot.cpp", 558, some [.h .ciphertextBallotSelection,
    .o .disjunctiveChaumPedersenProof]⟩,
  ⟨"eg_ciphertext_ballot_contest_crypto_hash_with", "ballot.h", 448, some
    [.h .ciphertextBallotSelection, .h .elementModQ, .o .elementModQ], "ballot.cpp", 572, some
    [.h .ciphertextBallotContest, .h .elementModQ, .o .elementModQ]⟩,
  ⟨"eg_ciphertext_ballot_contest_aggregate_nonce", "ballot.h", 463, some
    [.h .ciphertextBallotSelection, .o .elementModQ], "ballot.cpp", 588, some
    [.h .ciphertextBallotContest, .o .elementModQ]⟩,
  ⟨"eg_ciphertext_ballot_contest_elgamal_accumulate", "ballot.h", 473, some
    [.h .ciphertextBallotSelection, .o .elgamalCiphertext], "ballot.cpp", 601, some
    [.h .ciphertextBallotContest, .o .elgamalCiphertext]⟩,
  s "eg_ciphertext_ballot_contest_is_valid_encryption" "ballot.h" 486 "ballot.cpp" 614
    [.h .ciphertextBallotContest, .h .elementModQ, .h .elementModP, .h .elementModQ],
  s "eg_plaintext_ballot_new" "ballot.h" 509 "ballot.cpp" 634 [.p .char, .p .char,
    .o .plaintextBallotContest, .val .u64, .o .plaintextBallot],
  s "eg_plaintext_ballot_free" "ballot.h" 513 "ballot.cpp" 662 [.h .plaintextBallot],
  s "eg_plaintext_ballot_get_object_id" "ballot.h" 519 "ballot.cpp" 673 [.h .plaintextBallot,
    .pp .char],
  s "eg_plaintext_ballot_get_style_id" "ballot.h" 527 "ballot.cpp" 687 [.h .plaintextBallot,
    .pp .char],
  s "eg_plaintext_ballot_get_contests_size" "ballot.h" 533 "ballot.cpp" 701 [.h .plaintextBallot],
  s "eg_plaintext_ballot_get_contest_at_index" "ballot.h" 543 "ballot.cpp" 708 [.h .plaintextBallot,
    .val .u64, .o .plaintextBallotContest],
  s "eg_plaintext_ballot_from_json" "ballot.h" 549 "ballot.cpp" 724 [.p .char, .o .plaintextBallot],
  s "eg_plaintext_ballot_from_bson" "ballot.h" 555 "ballot.cpp" 739 [.p .u8, .val .u64,
    .o .plaintextBallot],
  s "eg_plaintext_ballot_from_msgpack" "ballot.h" 561 "ballot.cpp" 754 [.p .u8, .val .u64,
    .o .plaintextBallot],
  s "eg_plaintext_ballot_to_json" "ballot.h" 567 "ballot.cpp" 769 [.h .plaintextBallot, .pp .char,
    .p .u64],
  s "eg_plaintext_ballot_to_bson" "ballot.h" 573 "ballot.cpp" 787 [.h .plaintextBallot, .pp .u8,
    .p .u64],
  s "eg_plaintext_ballot_to_msgpack" "ballot.h" 580 "ballot.cpp" 805 [.h .plaintextBallot, .pp .u8,
    .p .u64],
  s "eg_ciphertext_ballot_free" "ballot.h" 603 "ballot.cpp" 827 [.h .ciphertextBallot],
  s "eg_ciphertext_ballot_get_object_id" "ballot.h" 608 "ballot.cpp" 838 [.h .ciphertextBallot,
    .pp .char],
  s "eg_ciphertext_ballot_get_style_id" "ballot.h" 616 "ballot.cpp" 852 [.h .ciphertextBallot,
    .pp .char],
  s "eg_ciphertext_ballot_get_manifest_hash" "ballot.h" 625 "ballot.cpp" 867 [.h .ciphertextBallot,
    .o .elementModQ],
  s "eg_ciphertext_ballot_get_ballot_code_seed" "ballot.h" 636 "ballot.cpp" 881
    [.h .ciphertextBallot, .o .elementModQ]]

def sigs2 : List Sig := [
  s "eg_ciphertext_ballot_get_contests_size" "ballot.h" 642 "ballot.cpp" 894 [.h .ciphertextBallot],
  s "eg_ciphertext_ballot_get_contest_at_index" "ballot.h" 652 "ballot.cpp" 901
    [.h .ciphertextBallot, .val .u64, .o .ciphertextBallotContest],
  s "eg_ciphertext_ballot_get_ballot_code" "ballot.h" 661 "ballot.cpp" 918 [.h .ciphertextBallot,
    .o .elementModQ],
  ⟨"eg_ciphertext_ballot_get_timestamp", "ballot.h", 670, some [.h .ciphertextBallot, .p .u64],
    "ballot.cpp", 932, some [.h .ciphertextBallot]⟩,
  s "eg_ciphertext_ballot_get_nonce" "ballot.h" 679 "ballot.cpp" 943 [.h .ciphertextBallot,
    .o .elementModQ],
  s "eg_ciphertext_ballot_get_crypto_hash" "ballot.h" 688 "ballot.cpp" 956 [.h .ciphertextBallot,
    .o .elementModQ],
  s "eg_ciphertext_ballot_crypto_hash_with" "ballot.h" 703 "ballot.cpp" 970 [.h .ciphertextBallot,
    .h .elementModQ, .o .elementModQ],
  s "eg_ciphertext_ballot_is_valid_encryption" "ballot.h" 709 "ballot.cpp" 985
    [.h .ciphertextBallot, .h .elementModQ, .h .elementModP, .h .elementModQ],
  s "eg_ciphertext_ballot_from_json" "ballot.h" 717 "ballot.cpp" 1003 [.p .char,
    .o .ciphertextBallot],
  s "eg_ciphertext_ballot_from_bson" "ballot.h" 722 "ballot.cpp" 1018 [.p .u8, .val .u64,
    .o .ciphertextBallot],
  s "eg_ciphertext_ballot_from_msgpack" "ballot.h" 728 "ballot.cpp" 1033 [.p .u8, .val .u64,
    .o .ciphertextBallot],
  s "eg_ciphertext_ballot_to_json" "ballot.h" 734 "ballot.cpp" 1048 [.h .ciphertextBallot,
    .pp .char, .p .u64],
  s "eg_ciphertext_ballot_to_json_with_nonces" "ballot.h" 740 "ballot.cpp" 1066
    [.h .ciphertextBallot, .pp .char, .p .u64],
  s "eg_ciphertext_ballot_to_bson" "ballot.h" 746 "ballot.cpp" 1085 [.h .ciphertextBallot, .pp .u8,
    .p .u64],
  s "eg_ciphertext_ballot_to_bson_with_nonces" "ballot.h" 753 "ballot.cpp" 1103
    [.h .ciphertextBallot, .pp .u8, .p .u64],
  s "eg_ciphertext_ballot_to_msgpack" "ballot.h" 759 "ballot.cpp" 1122 [.h .ciphertextBallot,
    .pp .u8, .p .u64],
  s "eg_ciphertext_ballot_to_msgpack_with_nonces" "ballot.h" 766 "ballot.cpp" 1141
    [.h .ciphertextBallot, .pp .u8, .p .u64],
  s "eg_submitted_ballot_free" "ballot.h" 789 "ballot.cpp" 1163 [.h .submittedBallot],
  s "eg_submitted_ballot_get_state" "ballot.h" 794 "ballot.cpp" 1174 [.h .submittedBallot],
  s "eg_submitted_ballot_from" "ballot.h" 803 "ballot.cpp" 1184 [.h .ciphertextBallot,
    .val .ballotBoxState, .o .submittedBallot],
  s "eg_submitted_ballot_from_json" "ballot.h" 810 "ballot.cpp" 1200 [.p .char, .o .submittedBallot],
  s "eg_submitted_ballot_from_bson" "ballot.h" 816 "ballot.cpp" 1215 [.p .u8, .val .u64,
    .o .submittedBallot],
  s "eg_submitted_ballot_from_msgpack" "ballot.h" 822 "ballot.cpp" 1230 [.p .u8, .val .u64,
    .o .submittedBallot],
  s "eg_submitted_ballot_to_json" "ballot.h" 828 "ballot.cpp" 1245 [.h .submittedBallot, .pp .char,
    .p .u64],
  s "eg_submitted_ballot_to_bson" "ballot.h" 834 "ballot.cpp" 1263 [.h .submittedBallot, .pp .u8,
    .p .u64],
  s "eg_submitted_ballot_to_msgpack" "ballot.h" 841 "ballot.cpp" 1281 [.h .submittedBallot, .pp .u8,
    .p .u64],
  s "eg_ballot_code_get_hash_for_device" "ballot_code.h" 27 "ballot_code.cpp" 17 [.val .u64,
    .val .u64, .val .u64, .p .cChar, .o .elementModQ],
  s "eg_ballot_code_get_ballot_code" "ballot_code.h" 46 "ballot_code.cpp" 34 [.h .elementModQ,
    .val .u64, .h .elementModQ, .o .elementModQ],
  s "eg_compact_plaintext_ballot_free" "ballot_compact.h" 38 "ballot_compact.cpp" 25
    [.h .compactPlaintextBallot],
  s "eg_compact_plaintext_ballot_from_msgpack" "ballot_compact.h" 42 "ballot_compact.cpp" 37
    [.p .u8, .val .u64, .o .compactPlaintextBallot],
  s "eg_compact_plaintext_ballot_to_msgpack" "ballot_compact.h" 45 "ballot_compact.cpp" 53
    [.h .compactPlaintextBallot, .pp .u8, .p .u64],
  s "eg_compact_plaintext_ballot_msgpack_free" "ballot_compact.h" 48 "ballot_compact.cpp" 71
    [.p .u8],
  s "eg_compact_ciphertext_ballot_free" "ballot_compact.h" 70 "ballot_compact.cpp" 85
    [.h .compactCiphertextBallot],
  s "eg_compact_ciphertext_ballot_get_object_id" "ballot_compact.h" 74 "ballot_compact.cpp" 97
    [.h .compactCiphertextBallot, .pp .char],
  s "eg_compact_ciphertext_ballot_from_msgpack" "ballot_compact.h" 77 "ballot_compact.cpp" 112
    [.p .u8, .val .u64, .o .compactCiphertextBallot],
  s "eg_compact_ciphertext_ballot_to_msgpack" "ballot_compact.h" 80 "ballot_compact.cpp" 128
    [.h .compactCiphertextBallot, .pp .u8, .p .u64],
  s "eg_compact_ciphertext_ballot_msgpack_free" "ballot_compact.h" 83 "ballot_compact.cpp" 146
    [.p .u8],
  s "eg_free_int_ptr" "ballot_compact.h" 89 "ballot_compact.cpp" 159 [.p .char],
  s "eg_delete_int_ptr" "ballot_compact.h" 91 "ballot_compact.cpp" 169 [.p .u8],
  s "eg_disjunctive_chaum_pedersen_proof_free" "chaum_pedersen.h" 32 "chaum_pedersen.cpp" 21
    [.h .disjunctiveChaumPedersenProof],
  s "eg_disjunctive_chaum_pedersen_proof_get_zero_pad" "chaum_pedersen.h" 40 "chaum_pedersen.cpp" 34
    [.h .disjunctiveChaumPedersenProof, .o .elementModP],
  s "eg_disjunctive_chaum_pedersen_proof_get_zero_data" "chaum_pedersen.h" 49 "chaum_pedersen.cpp"
    43 [.h .disjunctiveChaumPedersenProof, .o .elementModP],
  s "eg_disjunctive_chaum_pedersen_proof_get_one_pad" "chaum_pedersen.h" 58 "chaum_pedersen.cpp" 52
    [.h .disjunctiveChaumPedersenProof, .o .elementModP],
  s "eg_disjunctive_chaum_pedersen_proof_get_one_data" "chaum_pedersen.h" 67 "chaum_pedersen.cpp" 61
    [.h .disjunctiveChaumPedersenProof, .o .elementModP],
  s "eg_disjunctive_chaum_pedersen_proof_get_zero_challenge" "chaum_pedersen.h" 76
    "chaum_pedersen.cpp" 69 [.h .disjunctiveChaumPedersenProof, .o .elementModQ],
  s "eg_disjunctive_chaum_pedersen_proof_get_one_challenge" "chaum_pedersen.h" 85
    "chaum_pedersen.cpp" 78 [.h .disjunctiveChaumPedersenProof, .o .elementModQ],
  s "eg_disjunctive_chaum_pedersen_proof_get_challenge" "chaum_pedersen.h" 94 "chaum_pedersen.cpp"
    87 [.h .disjunctiveChaumPedersenProof, .o .elementModQ],
  s "eg_disjunctive_chaum_pedersen_proof_get_zero_response" "chaum_pedersen.h" 103
    "chaum_pedersen.cpp" 96 [.h .disjunctiveChaumPedersenProof, .o .elementModQ],
  s "eg_disjunctive_chaum_pedersen_proof_get_one_response" "chaum_pedersen.h" 112
    "chaum_pedersen.cpp" 105 [.h .disjunctiveChaumPedersenProof, .o .elementModQ],
  s "eg_disjunctive_chaum_pedersen_proof_make" "chaum_pedersen.h" 129 "chaum_pedersen.cpp" 114
    [.h .elgamalCiphertext, .h .elementModQ, .h .elementModP, .h .elementModQ, .val .u64,
    .o .disjunctiveChaumPedersenProof],
  s "eg_disjunctive_chaum_pedersen_proof_make_deterministic" "chaum_pedersen.h" 149
    "chaum_pedersen.cpp" 138 [.h .elgamalCiphertext, .h .elementModQ, .h .elementModP,
    .h .elementModQ, .h .elementModQ, .val .u64, .o .disjunctiveChaumPedersenProof],
  s "eg_disjunctive_chaum_pedersen_proof_is_valid" "chaum_pedersen.h" 162 "chaum_pedersen.cpp" 164
    [.h .disjunctiveChaumPedersenProof, .h .elgamalCiphertext, .h .elementModP, .h .elementModQ],
  s "eg_constant_chaum_pedersen_proof_free" "chaum_pedersen.h" 188 "chaum_pedersen.cpp" 183
    [.h .constantChaumPedersenProof],
  s "eg_constant_chaum_pedersen_proof_get_pad" "chaum_pedersen.h" 196 "chaum_pedersen.cpp" 194
    [.h .constantChaumPedersenProof, .o .elementModP],
  s "eg_constant_chaum_pedersen_proof_get_data" "chaum_pedersen.h" 205 "chaum_pedersen.cpp" 202
    [.h .constantChaumPedersenProof, .o .elementModP],
  s "eg_constant_chaum_pedersen_proof_get_challenge" "chaum_pedersen.h" 214 "chaum_pedersen.cpp" 210
    [.h .constantChaumPedersenProof, .o .elementModQ],
  s "eg_constant_chaum_pedersen_proof_get_response" "chaum_pedersen.h" 223 "chaum_pedersen.cpp" 218
    [.h .constantChaumPedersenProof, .o .elementModQ],
  s "eg_constant_chaum_pedersen_proof_make" "chaum_pedersen.h" 237 "chaum_pedersen.cpp" 227
    [.h .elgamalCiphertext, .h .elementModQ, .h .elementModP, .h .elementModQ, .h .elementModQ,
    .val .u64, .o .constantChaumPedersenProof],
  s "eg_constant_chaum_pedersen_proof_is_valid" "chaum_pedersen.h" 249 "chaum_pedersen.cpp" 254
    [.h .constantChaumPedersenProof, .h .elgamalCiphertext, .h .elementModP, .h .elementModQ],
  s "eg_linked_list_new" "collections.h" 31 "collections.c" 16 [.o .linkedList]]

def sigs3 : List Sig := [
  s "eg_linked_list_free" "collections.h" 33 "collections.c" 30 [.h .linkedList],
  s "eg_linked_list_append" "collections.h" 44 "collections.c" 44 [.h .linkedList, .p .char,
    .p .char],
  s "eg_linked_list_delete_last" "collections.h" 53 "collections.c" 75 [.h .linkedList],
  s "eg_linked_list_get_count" "collections.h" 60 "collections.c" 102 [.h .linkedList],
  s "eg_linked_list_get_element_at" "collections.h" 73 "collections.c" 104 [.h .linkedList,
    .val .u64, .pp .char, .pp .char],
  s "eg_linked_list_get_value_at" "collections.h" 87 "collections.c" 127 [.h .linkedList, .val .u64,
    .pp .char],
  s "eg_ciphertext_election_context_config_get_allowed_overvotes" "election.h" 21 "election.cpp" 34
    [.h .contextConfiguration, .p .bool],
  s "eg_ciphertext_election_context_config_get_max_ballots" "election.h" 24 "election.cpp" 46
    [.h .contextConfiguration, .p .u64],
  s "eg_ciphertext_election_context_config_free" "election.h" 28 "election.cpp" 59
    [.h .contextConfiguration],
  s "eg_ciphertext_election_context_config_make" "election.h" 31 "election.cpp" 71 [.val .bool,
    .val .u64, .o .contextConfiguration],
  s "eg_ciphertext_election_context_free" "election.h" 42 "election.cpp" 90
    [.h .ciphertextElectionContext],
  s "eg_ciphertext_election_context_get_elgamal_public_key" "election.h" 50 "election.cpp" 101
    [.h .ciphertextElectionContext, .o .elementModP],
  s "eg_ciphertext_election_context_get_configuration" "election.h" 59 "election.cpp" 110
    [.h .ciphertextElectionContext, .o .contextConfiguration],
  s "eg_ciphertext_election_context_get_commitment_hash" "election.h" 69 "election.cpp" 119
    [.h .ciphertextElectionContext, .o .elementModQ],
  s "eg_ciphertext_election_context_get_manifest_hash" "election.h" 78 "election.cpp" 128
    [.h .ciphertextElectionContext, .o .elementModQ],
  s "eg_ciphertext_election_context_get_crypto_base_hash" "election.h" 87 "election.cpp" 137
    [.h .ciphertextElectionContext, .o .elementModQ],
  s "eg_ciphertext_election_context_get_crypto_extended_base_hash" "election.h" 96 "election.cpp"
    145 [.h .ciphertextElectionContext, .o .elementModQ],
  s "eg_ciphertext_election_context_get_extended_data" "election.h" 105 "election.cpp" 155
    [.h .ciphertextElectionContext, .o .linkedList],
  s "eg_ciphertext_election_context_make" "election.h" 118 "election.cpp" 174 [.val .u64, .val .u64,
    .h .elementModP, .h .elementModQ, .h .elementModQ, .o .ciphertextElectionContext],
  s "eg_ciphertext_election_context_make_with_configuration" "election.h" 123 "election.cpp" 196
    [.val .u64, .val .u64, .h .elementModP, .h .elementModQ, .h .elementModQ,
    .h .contextConfiguration, .o .ciphertextElectionContext],
  s "eg_ciphertext_election_context_make_with_extended_data" "election.h" 139 "election.cpp" 221
    [.val .u64, .val .u64, .h .elementModP, .h .elementModQ, .h .elementModQ, .h .linkedList,
    .o .ciphertextElectionContext],
  s "eg_ciphertext_election_context_make_with_configuration_and_extended_data" "election.h" 145
    "election.cpp" 253 [.val .u64, .val .u64, .h .elementModP, .h .elementModQ, .h .elementModQ,
    .h .contextConfiguration, .h .linkedList, .o .ciphertextElectionContext],
  s "eg_ciphertext_election_context_make_from_hex" "election.h" 161 "election.cpp" 289 [.val .u64,
    .val .u64, .p .cChar, .p .cChar, .p .cChar, .o .ciphertextElectionContext],
  s "eg_ciphertext_election_context_make_from_hex_with_extended_data" "election.h" 177
    "election.cpp" 310 [.val .u64, .val .u64, .p .cChar, .p .cChar, .p .cChar, .h .linkedList,
    .o .ciphertextElectionContext],
  s "eg_ciphertext_election_context_from_json" "election.h" 182 "election.cpp" 342 [.p .char,
    .o .ciphertextElectionContext],
  s "eg_ciphertext_election_context_from_bson" "election.h" 185 "election.cpp" 357 [.p .u8,
    .val .u64, .o .ciphertextElectionContext],
  s "eg_ciphertext_election_context_to_json" "election.h" 188 "election.cpp" 373
    [.h .ciphertextElectionContext, .pp .char, .p .u64],
  s "eg_ciphertext_election_context_to_bson" "election.h" 191 "election.cpp" 392
    [.h .ciphertextElectionContext, .pp .u8, .p .u64],
  s "eg_elgamal_keypair_from_secret_new" "elgamal.h" 19 "elgamal.cpp" 20 [.h .elementModQ,
    .o .elgamalKeypair],
  s "eg_elgamal_keypair_free" "elgamal.h" 22 "elgamal.cpp" 39 [.h .elgamalKeypair],
  s "eg_elgamal_keypair_get_public_key" "elgamal.h" 24 "elgamal.cpp" 61 [.h .elgamalKeypair,
    .o .elementModP],
  s "eg_elgamal_keypair_get_secret_key" "elgamal.h" 27 "elgamal.cpp" 50 [.h .elgamalKeypair,
    .o .elementModQ],
  s "eg_elgamal_ciphertext_free" "elgamal.h" 45 "elgamal.cpp" 76 [.h .elgamalCiphertext],
  s "eg_elgamal_ciphertext_get_pad" "elgamal.h" 47 "elgamal.cpp" 87 [.h .elgamalCiphertext,
    .o .elementModP],
  s "eg_elgamal_ciphertext_get_data" "elgamal.h" 49 "elgamal.cpp" 95 [.h .elgamalCiphertext,
    .o .elementModP],
  s "eg_elgamal_ciphertext_crypto_hash" "elgamal.h" 52 "elgamal.cpp" 103 [.h .elgamalCiphertext,
    .o .elementModQ],
  s "eg_elgamal_ciphertext_decrypt_with_secret" "elgamal.h" 55 "elgamal.cpp" 116
    [.h .elgamalCiphertext, .h .elementModQ, .p .u64],
  s "eg_elgamal_encrypt" "elgamal.h" 70 "elgamal.cpp" 133 [.val .u64, .h .elementModQ,
    .h .elementModP, .o .elgamalCiphertext],
  s "eg_encryption_device_new" "encrypt.h" 43 "encrypt.cpp" 43 [.val .u64, .val .u64, .val .u64,
    .p .cChar, .o .encryptionDevice],
  s "eg_encryption_device_free" "encrypt.h" 49 "encrypt.cpp" 59 [.h .encryptionDevice],
  s "eg_encryption_device_get_hash" "encrypt.h" 57 "encrypt.cpp" 70 [.h .encryptionDevice,
    .o .elementModQ],
  s "eg_encryption_device_from_json" "encrypt.h" 66 "encrypt.cpp" 83 [.p .char,
    .o .encryptionDevice],
  s "eg_encryption_device_to_json" "encrypt.h" 76 "encrypt.cpp" 96 [.h .encryptionDevice, .pp .char,
    .p .u64],
  s "eg_encryption_mediator_new" "encrypt.h" 95 "encrypt.cpp" 115 [.h .internalManifest,
    .h .ciphertextElectionContext, .h .encryptionDevice, .o .encryptionMediator],
  s "eg_encryption_mediator_free" "encrypt.h" 99 "encrypt.cpp" 134 [.h .encryptionMediator],
  s "eg_encryption_mediator_compact_encrypt_ballot" "encrypt.h" 101 "encrypt.cpp" 169
    [.h .encryptionMediator, .h .plaintextBallot, .o .compactCiphertextBallot],
  s "eg_encryption_mediator_compact_encrypt_ballot_verify_proofs" "encrypt.h" 105 "encrypt.cpp" 191
    [.h .encryptionMediator, .h .plaintextBallot, .o .compactCiphertextBallot],
  s "eg_encryption_mediator_encrypt_ballot" "encrypt.h" 109 "encrypt.cpp" 146
    [.h .encryptionMediator, .h .plaintextBallot, .o .ciphertextBallot],
  s "eg_encryption_mediator_encrypt_ballot_verify_proofs" "encrypt.h" 113 "encrypt.cpp" 214
    [.h .encryptionMediator, .h .plaintextBallot, .o .ciphertextBallot],
  s "eg_encrypt_selection" "encrypt.h" 139 "encrypt.cpp" 240 [.h .plaintextBallotSelection,
    .h .selectionDescription, .h .elementModP, .h .elementModQ, .h .elementModQ, .val .bool,
    .val .bool, .o .ciphertextBallotSelection],
  ⟨"eg_encrypt_contest", "encrypt.h", 163, some [.h .plaintextBallotContest,
    .h .contestDescriptionWithPlaceholders, .h .elementModP, .h .elementModQ, .h .elementModQ,
    .val .bool, .o .ciphertextBallotContest], "encrypt.cpp", 277, some [.h .plaintextBallotContest,
    .h .internalManifest, .h .contestDescriptionWithPlaceholders, .h .elementModP, .h .elementModQ,
    .h .elementModQ, .val .bool, .o .ciphertextBallotContest]⟩,
  s "eg_encrypt_ballot" "encrypt.h" 186 "encrypt.cpp" 313 [.h .plaintextBallot,
    .h .internalManifest, .h .ciphertextElectionContext, .h .elementModQ, .val .bool,
    .o .ciphertextBallot],
  s "eg_encrypt_ballot_with_nonce" "encrypt.h" 212 "encrypt.cpp" 342 [.h .plaintextBallot,
    .h .internalManifest, .h .ciphertextElectionContext, .h .elementModQ, .h .elementModQ,
    .val .bool, .o .ciphertextBallot],
  s "eg_encrypt_compact_ballot" "encrypt.h" 238 "encrypt.cpp" 375 [.h .plaintextBallot,
    .h .internalManifest, .h .ciphertextElectionContext, .h .elementModQ, .val .bool,
    .o .compactCiphertextBallot],
  s "eg_encrypt_compact_ballot_with_nonce" "encrypt.h" 265 "encrypt.cpp" 404 [.h .plaintextBallot,
    .h .internalManifest, .h .ciphertextElectionContext, .h .elementModQ, .h .elementModQ,
    .val .bool, .o .compactCiphertextBallot],
  s "eg_precompute_init" "encrypt.h" 275 "encrypt.cpp" 438 [.val .int],
  s "eg_precompute_populate" "encrypt.h" 277 "encrypt.cpp" 450 [.h .elementModP],
  s "eg_precompute_stop" "encrypt.h" 279 "encrypt.cpp" 463 [],
  s "eg_precompute_status" "encrypt.h" 281 "encrypt.cpp" 475 [.p .int, .p .int],
  s "eg_element_mod_p_new" "group.h" 23 "group.cpp" 38 [.p .cU64, .o .elementModP]]

def sigs4 : List Sig := [
  s "eg_element_mod_p_new_unchecked" "group.h" 25 "group.cpp" 55 [.p .cU64, .o .elementModP],
  s "eg_element_mod_p_free" "group.h" 28 "group.cpp" 72 [.h .elementModP],
  s "eg_element_mod_p_get_data" "group.h" 30 "group.cpp" 83 [.h .elementModP, .pp .u64, .p .u64],
  s "eg_element_mod_p_to_hex" "group.h" 33 "group.cpp" 97 [.h .elementModP, .pp .char],
  s "eg_element_mod_q_new" "group.h" 45 "group.cpp" 114 [.p .cU64, .o .elementModQ],
  s "eg_element_mod_q_new_unchecked" "group.h" 47 "group.cpp" 131 [.p .cU64, .o .elementModQ],
  s "eg_element_mod_q_free" "group.h" 50 "group.cpp" 148 [.h .elementModQ],
  s "eg_element_mod_q_get_data" "group.h" 52 "group.cpp" 159 [.h .elementModQ, .pp .u64, .p .u64],
  s "eg_element_mod_q_to_hex" "group.h" 55 "group.cpp" 173 [.h .elementModQ, .pp .char],
  s "eg_element_mod_q_from_hex" "group.h" 58 "group.cpp" 186 [.p .char, .o .elementModQ],
  s "eg_element_mod_q_from_hex_unchecked" "group.h" 62 "group.cpp" 201 [.p .char, .o .elementModQ],
  s "eg_element_mod_p_constant_g" "group.h" 70 "group.cpp" 218 [.o .elementModP],
  s "eg_element_mod_p_constant_p" "group.h" 71 "group.cpp" 224 [.o .elementModP],
  s "eg_element_mod_p_constant_r" "group.h" 72 "group.cpp" 230 [.o .elementModP],
  s "eg_element_mod_p_constant_zero_mod_p" "group.h" 74 "group.cpp" 237 [.o .elementModP],
  s "eg_element_mod_p_constant_one_mod_p" "group.h" 76 "group.cpp" 243 [.o .elementModP],
  s "eg_element_mod_p_constant_two_mod_p" "group.h" 78 "group.cpp" 249 [.o .elementModP],
  s "eg_element_mod_q_constant_q" "group.h" 80 "group.cpp" 255 [.o .elementModQ],
  s "eg_element_mod_q_constant_zero_mod_q" "group.h" 82 "group.cpp" 262 [.o .elementModQ],
  s "eg_element_mod_q_constant_one_mod_q" "group.h" 84 "group.cpp" 268 [.o .elementModQ],
  s "eg_element_mod_q_constant_two_mod_q" "group.h" 86 "group.cpp" 274 [.o .elementModQ],
  s "eg_constant_to_json" "group.h" 87 "group.cpp" 317 [.pp .char, .p .u64],
  s "eg_element_mod_q_pow_mod_p" "group.h" 95 "group.cpp" 284 [.h .elementModP, .h .elementModQ,
    .o .elementModP],
  s "eg_element_mod_q_rand_q_new" "group.h" 99 "group.cpp" 301 [.o .elementModQ],
  s "eg_hash_elems_string" "hash.h" 12 "hash.cpp" 16 [.p .cChar, .o .elementModQ],
  s "eg_hash_elems_strings" "hash.h" 14 "hash.cpp" 28 [.pp .cChar, .val .u64, .o .elementModQ],
  s "eg_hash_elems_int" "hash.h" 16 "hash.cpp" 42 [.val .u64, .o .elementModQ],
  s "eg_annotated_string_new" "manifest.h" 108 "manifest.cpp" 47 [.p .cChar, .p .cChar,
    .o .annotatedString],
  s "eg_annotated_string_free" "manifest.h" 112 "manifest.cpp" 63 [.h .annotatedString],
  s "eg_annotated_string_get_annotation" "manifest.h" 117 "manifest.cpp" 74 [.h .annotatedString,
    .pp .cChar],
  s "eg_annotated_string_get_value" "manifest.h" 123 "manifest.cpp" 88 [.h .annotatedString,
    .pp .cChar],
  s "eg_annotated_string_crypto_hash" "manifest.h" 129 "manifest.cpp" 102 [.h .annotatedString,
    .o .elementModQ],
  s "eg_language_new" "manifest.h" 145 "manifest.cpp" 119 [.p .cChar, .p .cChar, .o .language],
  s "eg_language_free" "manifest.h" 148 "manifest.cpp" 135 [.h .language],
  s "eg_language_get_value" "manifest.h" 153 "manifest.cpp" 146 [.h .language, .pp .char],
  s "eg_language_get_language" "manifest.h" 158 "manifest.cpp" 159 [.h .language, .pp .char],
  s "eg_language_crypto_hash" "manifest.h" 164 "manifest.cpp" 172 [.h .language, .o .elementModQ],
  s "eg_internationalized_text_new" "manifest.h" 179 "manifest.cpp" 189 [.o .language, .val .u64,
    .o .internationalizedText],
  s "eg_internationalized_text_free" "manifest.h" 183 "manifest.cpp" 213 [.h .internationalizedText],
  s "eg_internationalized_text_get_text_size" "manifest.h" 188 "manifest.cpp" 224
    [.h .internationalizedText],
  s "eg_internationalized_text_get_text_at_index" "manifest.h" 197 "manifest.cpp" 230
    [.h .internationalizedText, .val .u64, .o .language],
  s "eg_intertnationalized_text_crypto_hash" "manifest.h" 204 "manifest.cpp" 247 [.h .language,
    .o .elementModQ],
  s "eg_contact_information_new" "manifest.h" 222 "manifest.cpp" 263 [.p .char,
    .o .contactInformation],
  s "eg_contact_information_new_with_collections" "manifest.h" 225 "manifest.cpp" 278 [.p .char,
    .pp .char, .val .u64, .o .annotatedString, .val .u64, .o .annotatedString, .val .u64,
    .o .contactInformation],
  s "eg_contact_information_free" "manifest.h" 231 "manifest.cpp" 318 [.h .contactInformation],
  s "eg_contact_information_get_address_line_size" "manifest.h" 236 "manifest.cpp" 329
    [.h .contactInformation],
  s "eg_contact_information_get_address_line_at_index" "manifest.h" 250 "manifest.cpp" 335
    [.h .contactInformation, .val .u64, .pp .char],
  s "eg_contact_information_get_email_line_size" "manifest.h" 256 "manifest.cpp" 351
    [.h .contactInformation],
  s "eg_contact_information_get_email_line_at_index" "manifest.h" 271 "manifest.cpp" 357
    [.h .contactInformation, .val .u64, .o .internationalizedText],
  s "eg_contact_information_get_phone_line_size" "manifest.h" 277 "manifest.cpp" 373
    [.h .contactInformation],
  s "eg_contact_information_get_phone_line_at_index" "manifest.h" 291 "manifest.cpp" 379
    [.h .contactInformation, .val .u64, .o .internationalizedText],
  s "eg_contact_information_get_name" "manifest.h" 294 "manifest.cpp" 395 [.h .contactInformation,
    .pp .cChar],
  s "eg_contact_information_crypto_hash" "manifest.h" 300 "manifest.cpp" 409
    [.h .contactInformation, .o .elementModQ],
  s "eg_geopolitical_unit_new" "manifest.h" 324 "manifest.cpp" 426 [.p .char, .p .char,
    .val .reportingUnitType, .o .geopoliticalUnit],
  s "eg_geopolitical_unit_new_with_contact_info" "manifest.h" 328 "manifest.cpp" 445 [.p .char,
    .p .char, .val .reportingUnitType, .h .contactInformation, .o .geopoliticalUnit],
  s "eg_geopolitical_unit_free" "manifest.h" 332 "manifest.cpp" 466 [.h .geopoliticalUnit],
  s "eg_geopolitical_unit_get_object_id" "manifest.h" 334 "manifest.cpp" 477 [.h .geopoliticalUnit,
    .pp .cChar],
  s "eg_geopolitical_unit_get_name" "manifest.h" 337 "manifest.cpp" 491 [.h .geopoliticalUnit,
    .pp .cChar],
  s "eg_geopolitical_unit_crypto_hash" "manifest.h" 345 "manifest.cpp" 510 [.h .geopoliticalUnit,
    .o .elementModQ],
  s "eg_ballot_style_new" "manifest.h" 365 "manifest.cpp" 527 [.p .char, .pp .char, .val .u64,
    .o .ballotStyle]]

def sigs5 : List Sig := [
  s "eg_ballot_style_new_with_parties" "manifest.h" 370 "manifest.cpp" 550 [.p .char, .pp .char,
    .val .u64, .pp .char, .val .u64, .p .char, .o .ballotStyle],
  s "eg_ballot_style_free" "manifest.h" 375 "manifest.cpp" 580 [.h .ballotStyle],
  s "eg_ballot_style_get_object_id" "manifest.h" 377 "manifest.cpp" 591 [.h .ballotStyle,
    .pp .cChar],
  s "eg_ballot_style_get_geopolitical_unit_ids_size" "manifest.h" 380 "manifest.cpp" 605
    [.h .ballotStyle],
  s "eg_ballot_style_get_geopolitical_unit_id_at_index" "manifest.h" 382 "manifest.cpp" 611
    [.h .ballotStyle, .val .u64, .pp .char],
  s "eg_ballot_style_get_party_ids_size" "manifest.h" 385 "manifest.cpp" 626 [.h .ballotStyle],
  s "eg_ballot_style_get_party_id_at_index" "manifest.h" 387 "manifest.cpp" 631 [.h .ballotStyle,
    .val .u64, .pp .char],
  s "eg_ballot_style_get_image_uri" "manifest.h" 391 "manifest.cpp" 647 [.h .ballotStyle,
    .pp .cChar],
  s "eg_ballot_style_crypto_hash" "manifest.h" 397 "manifest.cpp" 661 [.h .ballotStyle,
    .o .elementModQ],
  s "eg_party_new" "manifest.h" 415 "manifest.cpp" 678 [.p .char, .o .party],
  s "eg_party_new_with_extras" "manifest.h" 419 "manifest.cpp" 695 [.p .char,
    .h .internationalizedText, .p .char, .p .char, .p .char, .o .party],
  s "eg_party_free" "manifest.h" 425 "manifest.cpp" 720 [.h .party],
  s "eg_party_get_object_id" "manifest.h" 427 "manifest.cpp" 731 [.h .party, .pp .cChar],
  s "eg_party_get_abbreviation" "manifest.h" 430 "manifest.cpp" 744 [.h .party, .pp .cChar],
  s "eg_party_get_name" "manifest.h" 433 "manifest.cpp" 758 [.h .party, .o .internationalizedText],
  s "eg_party_get_color" "manifest.h" 436 "manifest.cpp" 771 [.h .party, .pp .cChar],
  s "eg_party_get_logo_uri" "manifest.h" 438 "manifest.cpp" 784 [.h .party, .pp .cChar],
  s "eg_party_crypto_hash" "manifest.h" 444 "manifest.cpp" 796 [.h .party, .o .elementModQ],
  s "eg_candidate_new" "manifest.h" 465 "manifest.cpp" 813 [.p .char, .val .bool, .o .candidate],
  s "eg_candidate_new_with_party" "manifest.h" 470 "manifest.cpp" 831 [.p .char, .p .char,
    .val .bool, .o .candidate],
  s "eg_candidate_new_with_extras" "manifest.h" 474 "manifest.cpp" 849 [.p .char,
    .h .internationalizedText, .p .char, .p .char, .val .bool, .o .candidate],
  s "eg_candidate_free" "manifest.h" 480 "manifest.cpp" 874 [.h .candidate],
  s "eg_candidate_get_object_id" "manifest.h" 482 "manifest.cpp" 885 [.h .candidate, .pp .cChar],
  s "eg_candidate_get_candidate_id" "manifest.h" 485 "manifest.cpp" 899 [.h .candidate, .pp .cChar],
  s "eg_candidate_get_name" "manifest.h" 488 "manifest.cpp" 913 [.h .candidate,
    .o .internationalizedText],
  s "eg_candidate_get_party_id" "manifest.h" 491 "manifest.cpp" 926 [.h .candidate, .pp .cChar],
  s "eg_candidate_get_image_uri" "manifest.h" 494 "manifest.cpp" 940 [.h .candidate, .pp .cChar],
  s "eg_candidate_get_is_write_in" "manifest.h" 497 "manifest.cpp" 954 [.h .candidate],
  s "eg_candidate_crypto_hash" "manifest.h" 502 "manifest.cpp" 964 [.h .candidate, .o .elementModQ],
  s "eg_selection_description_new" "manifest.h" 528 "manifest.cpp" 981 [.p .cChar, .p .cChar,
    .val .u64, .o .selectionDescription],
  s "eg_selection_description_free" "manifest.h" 531 "manifest.cpp" 999 [.h .selectionDescription],
  s "eg_selection_description_get_object_id" "manifest.h" 536 "manifest.cpp" 1010
    [.h .selectionDescription, .pp .cChar],
  s "eg_selection_description_get_candidate_id" "manifest.h" 542 "manifest.cpp" 1025
    [.h .selectionDescription, .pp .cChar],
  s "eg_selection_description_get_sequence_order" "manifest.h" 550 "manifest.cpp" 1039
    [.h .selectionDescription],
  s "eg_selection_description_crypto_hash" "manifest.h" 555 "manifest.cpp" 1049
    [.h .selectionDescription, .o .elementModQ],
  s "eg_contest_description_new" "manifest.h" 576 "manifest.cpp" 1067 [.p .cChar, .p .char,
    .val .u64, .val .voteVariationType, .val .u64, .p .char, .o .selectionDescription, .val .u64,
    .o .contestDescription],
  s "eg_contest_description_new_with_title" "manifest.h" 582 "manifest.cpp" 1099 [.p .cChar,
    .p .char, .val .u64, .val .voteVariationType, .val .u64, .val .u64, .p .char,
    .h .internationalizedText, .h .internationalizedText, .o .selectionDescription, .val .u64,
    .o .contestDescription],
  s "eg_contest_description_new_with_parties" "manifest.h" 589 "manifest.cpp" 1137 [.p .cChar,
    .p .char, .val .u64, .val .voteVariationType, .val .u64, .p .char, .o .selectionDescription,
    .val .u64, .pp .char, .val .u64, .o .contestDescription],
  ⟨"eg_contest_description_new_with_title_and_parties", "manifest.h", 596, some [.p .cChar,
    .p .char, .val .u64, .val .voteVariationType, .val .u64, .p .char, .h .internationalizedText,
    .h .internationalizedText, .o .selectionDescription, .val .u64, .pp .char, .val .u64,
    .o .contestDescription], "manifest.cpp", 1176, some [.p .cChar, .p .char, .val .u64,
    .val .voteVariationType, .val .u64, .val .u64, .p .char, .h .internationalizedText,
    .h .internationalizedText, .o .selectionDescription, .val .u64, .pp .char, .val .u64,
    .o .contestDescription]⟩,
  s "eg_contest_description_free" "manifest.h" 604 "manifest.cpp" 1222 [.h .contestDescription],
  s "eg_contest_description_get_object_id" "manifest.h" 610 "manifest.cpp" 1234
    [.h .contestDescription, .pp .cChar],
  s "eg_contest_description_get_electoral_district_id" "manifest.h" 616 "manifest.cpp" 1249
    [.h .contestDescription, .pp .cChar],
  s "eg_contest_description_get_sequence_order" "manifest.h" 624 "manifest.cpp" 1263
    [.h .contestDescription],
  s "eg_contest_description_get_vote_variation" "manifest.h" 630 "manifest.cpp" 1268
    [.h .contestDescription],
  s "eg_contest_description_get_number_elected" "manifest.h" 635 "manifest.cpp" 1273
    [.h .contestDescription],
  s "eg_contest_description_get_votes_allowed" "manifest.h" 640 "manifest.cpp" 1278
    [.h .contestDescription],
  s "eg_contest_description_get_name" "manifest.h" 646 "manifest.cpp" 1283 [.h .contestDescription,
    .pp .cChar],
  s "eg_contest_description_get_ballot_title" "manifest.h" 652 "manifest.cpp" 1298
    [.h .contestDescription, .o .internationalizedText],
  s "eg_contest_description_get_ballot_subtitle" "manifest.h" 658 "manifest.cpp" 1312
    [.h .contestDescription, .o .internationalizedText],
  s "eg_contest_description_get_selections_size" "manifest.h" 661 "manifest.cpp" 1325
    [.h .contestDescription],
  s "eg_contest_description_get_selection_at_index" "manifest.h" 664 "manifest.cpp" 1331
    [.h .contestDescription, .val .u64, .o .selectionDescription],
  s "eg_contest_description_crypto_hash" "manifest.h" 670 "manifest.cpp" 1347
    [.h .contestDescription, .o .elementModQ],
  s "eg_contest_description_with_placeholders_new" "manifest.h" 688 "manifest.cpp" 1364 [.p .cChar,
    .p .char, .val .u64, .val .voteVariationType, .val .u64, .p .char, .o .selectionDescription,
    .val .u64, .o .selectionDescription, .val .u64, .o .contestDescriptionWithPlaceholders],
  ⟨"eg_contest_description_with_placeholders_new_with_title", "manifest.h", 695, some [.p .cChar,
    .p .char, .val .u64, .val .voteVariationType, .val .u64, .p .char, .h .internationalizedText,
    .h .internationalizedText, .o .selectionDescription, .val .u64, .o .selectionDescription,
    .val .u64, .o .contestDescriptionWithPlaceholders], "manifest.cpp", 1406, some [.p .cChar,
    .p .char, .val .u64, .val .voteVariationType, .val .u64, .val .u64, .p .char,
    .h .internationalizedText, .h .internationalizedText, .o .selectionDescription, .val .u64,
    .o .selectionDescription, .val .u64, .o .contestDescriptionWithPlaceholders]⟩,
  s "eg_contest_description_with_placeholders_new_with_parties" "manifest.h" 703 "manifest.cpp" 1455
    [.p .cChar, .p .char, .val .u64, .val .voteVariationType, .val .u64, .p .char,
    .o .selectionDescription, .val .u64, .pp .char, .val .u64, .o .selectionDescription, .val .u64,
    .o .contestDescriptionWithPlaceholders],
  ⟨"eg_contest_description_with_placeholders_new_with_title_and_parties", "manifest.h", 712, some
    [.p .cChar, .p .char, .val .u64, .val .voteVariationType, .val .u64, .p .char,
    .h .internationalizedText, .h .internationalizedText, .o .selectionDescription, .val .u64,
    .pp .char, .val .u64, .o .selectionDescription, .val .u64,
    .o .contestDescriptionWithPlaceholders], "manifest.cpp", 1504, some [.p .cChar, .p .char,
    .val .u64, .val .voteVariationType, .val .u64, .val .u64, .p .char, .h .internationalizedText,
    .h .internationalizedText, .o .selectionDescription, .val .u64, .pp .char, .val .u64,
    .o .selectionDescription, .val .u64, .o .contestDescriptionWithPlaceholders]⟩,
  s "eg_contest_description_with_placeholders_free" "manifest.h" 722 "manifest.cpp" 1561
    [.h .contestDescriptionWithPlaceholders],
  s "eg_contest_description_with_placeholders_get_placeholders_size" "manifest.h" 724 "manifest.cpp"
    1573 [.h .contestDescriptionWithPlaceholders],
  s "eg_contest_description_with_placeholders_get_placeholder_at_index" "manifest.h" 727
    "manifest.cpp" 1579 [.h .contestDescriptionWithPlaceholders, .val .u64,
    .o .contestDescriptionWithPlaceholders],
  s "eg_contest_description_with_placeholders_is_placeholder" "manifest.h" 731 "manifest.cpp" 1596
    [.h .contestDescriptionWithPlaceholders, .h .selectionDescription]]

def sigs6 : List Sig := [
  s "eg_contest_description_with_placeholders_selection_for_id" "manifest.h" 734 "manifest.cpp" 1603
    [.h .contestDescriptionWithPlaceholders, .p .char, .o .selectionDescription],
  s "eg_election_manifest_new" "manifest.h" 758 "manifest.cpp" 1626 [.p .char, .val .electionType,
    .val .u64, .val .u64, .o .geopoliticalUnit, .val .u64, .o .party, .val .u64, .o .candidate,
    .val .u64, .o .contestDescription, .val .u64, .o .ballotStyle, .val .u64, .o .electionManifest],
  s "eg_election_manifest_new_with_contact" "manifest.h" 767 "manifest.cpp" 1693 [.p .char,
    .val .electionType, .val .u64, .val .u64, .o .geopoliticalUnit, .val .u64, .o .party, .val .u64,
    .o .candidate, .val .u64, .o .contestDescription, .val .u64, .o .ballotStyle, .val .u64,
    .h .internationalizedText, .h .contactInformation, .o .electionManifest],
  s "eg_election_manifest_free" "manifest.h" 777 "manifest.cpp" 1765 [.h .electionManifest],
  s "eg_election_manifest_get_election_scope_id" "manifest.h" 779 "manifest.cpp" 1776
    [.h .electionManifest, .pp .char],
  s "eg_election_manifest_get_type" "manifest.h" 782 "manifest.cpp" 1790 [.h .electionManifest],
  s "eg_election_manifest_get_start_date" "manifest.h" 784 "manifest.cpp" 1795
    [.h .electionManifest],
  s "eg_election_manifest_get_end_date" "manifest.h" 786 "manifest.cpp" 1807 [.h .electionManifest],
  s "eg_election_manifest_get_geopolitical_units_size" "manifest.h" 788 "manifest.cpp" 1819
    [.h .electionManifest],
  s "eg_election_manifest_get_geopolitical_unit_at_index" "manifest.h" 790 "manifest.cpp" 1824
    [.h .electionManifest, .val .u64, .o .geopoliticalUnit],
  s "eg_election_manifest_get_parties_size" "manifest.h" 793 "manifest.cpp" 1840
    [.h .electionManifest],
  s "eg_election_manifest_get_party_at_index" "manifest.h" 795 "manifest.cpp" 1845
    [.h .electionManifest, .val .u64, .o .party],
  s "eg_election_manifest_get_candidates_size" "manifest.h" 798 "manifest.cpp" 1862
    [.h .electionManifest],
  s "eg_election_manifest_get_candidate_at_index" "manifest.h" 800 "manifest.cpp" 1868
    [.h .electionManifest, .val .u64, .o .candidate],
  s "eg_election_manifest_get_contests_size" "manifest.h" 803 "manifest.cpp" 1884
    [.h .electionManifest],
  s "eg_election_manifest_get_contest_at_index" "manifest.h" 805 "manifest.cpp" 1890
    [.h .electionManifest, .val .u64, .o .contestDescription],
  s "eg_election_manifest_get_ballot_styles_size" "manifest.h" 808 "manifest.cpp" 1906
    [.h .electionManifest],
  s "eg_election_manifest_get_ballot_style_at_index" "manifest.h" 810 "manifest.cpp" 1912
    [.h .electionManifest, .val .u64, .o .ballotStyle],
  s "eg_election_manifest_get_name" "manifest.h" 813 "manifest.cpp" 1928 [.h .electionManifest,
    .o .internationalizedText],
  s "eg_election_manifest_get_contact_info" "manifest.h" 816 "manifest.cpp" 1944
    [.h .electionManifest, .o .contactInformation],
  s "eg_election_manifest_crypto_hash" "manifest.h" 827 "manifest.cpp" 1959 [.h .electionManifest,
    .o .elementModQ],
  s "eg_election_manifest_is_valid" "manifest.h" 830 "manifest.cpp" 1972 [.h .electionManifest],
  s "eg_election_manifest_from_json" "manifest.h" 833 "manifest.cpp" 1983 [.p .char,
    .o .electionManifest],
  s "eg_election_manifest_from_bson" "manifest.h" 835 "manifest.cpp" 1998 [.p .u8, .val .u64,
    .o .electionManifest],
  s "eg_election_manifest_from_msgpack" "manifest.h" 838 "manifest.cpp" 2013 [.p .u8, .val .u64,
    .o .electionManifest],
  s "eg_election_manifest_to_json" "manifest.h" 841 "manifest.cpp" 2028 [.h .electionManifest,
    .pp .char, .p .u64],
  s "eg_election_manifest_to_bson" "manifest.h" 845 "manifest.cpp" 2046 [.h .electionManifest,
    .pp .u8, .p .u64],
  s "eg_election_manifest_to_msgpack" "manifest.h" 849 "manifest.cpp" 2064 [.h .electionManifest,
    .pp .u8, .p .u64],
  s "eg_internal_manifest_new" "manifest.h" 873 "manifest.cpp" 2086 [.h .electionManifest,
    .o .internalManifest],
  s "eg_internal_manifest_free" "manifest.h" 876 "manifest.cpp" 2101 [.h .internalManifest],
  s "eg_internal_manifest_get_manifest_hash" "manifest.h" 884 "manifest.cpp" 2113
    [.h .internalManifest, .o .elementModQ],
  s "eg_internal_manifest_get_geopolitical_units_size" "manifest.h" 887 "manifest.cpp" 2121
    [.h .internalManifest],
  s "eg_internal_manifest_get_geopolitical_unit_at_index" "manifest.h" 889 "manifest.cpp" 2126
    [.h .internalManifest, .val .u64, .o .geopoliticalUnit],
  s "eg_internal_manifest_get_contests_size" "manifest.h" 892 "manifest.cpp" 2142
    [.h .internalManifest],
  s "eg_internal_manifest_get_contest_at_index" "manifest.h" 894 "manifest.cpp" 2147
    [.h .internalManifest, .val .u64, .o .contestDescriptionWithPlaceholders],
  s "eg_internal_manifest_get_ballot_styles_size" "manifest.h" 898 "manifest.cpp" 2164
    [.h .internalManifest],
  s "eg_internal_manifest_get_ballot_style_at_index" "manifest.h" 900 "manifest.cpp" 2170
    [.h .internalManifest, .val .u64, .o .ballotStyle],
  s "eg_internal_manifest_get_ballot_style" "manifest.h" 904 "manifest.cpp" 2187
    [.h .internalManifest, .p .char, .o .ballotStyle],
  s "eg_internal_manifest_from_json" "manifest.h" 908 "manifest.cpp" 2203 [.p .char,
    .o .internalManifest],
  s "eg_internal_manifest_from_bson" "manifest.h" 910 "manifest.cpp" 2218 [.p .u8, .val .u64,
    .o .internalManifest],
  s "eg_internal_manifest_from_msgpack" "manifest.h" 913 "manifest.cpp" 2233 [.p .u8, .val .u64,
    .o .internalManifest],
  s "eg_internal_manifest_to_json" "manifest.h" 916 "manifest.cpp" 2248 [.h .internalManifest,
    .pp .char, .p .u64],
  s "eg_internal_manifest_to_bson" "manifest.h" 920 "manifest.cpp" 2266 [.h .internalManifest,
    .pp .u8, .p .u64],
  s "eg_internal_manifest_to_msgpack" "manifest.h" 924 "manifest.cpp" 2284 [.h .internalManifest,
    .pp .u8, .p .u64],
  ⟨"eg_plaintext_ballot_selection_new_with_write_in", "", 0, none, "ballot.cpp", 108, some
    [.p .cChar, .val .u64, .val .bool, .p .cChar, .o .plaintextBallotSelection]⟩,
  ⟨"eg_plaintext_ballot_selection_get_write_in", "", 0, none, "ballot.cpp", 168, some
    [.h .plaintextBallotSelection, .pp .char]⟩]

def sigs : List Sig :=
  sigs1 ++ sigs2 ++ sigs3 ++ sigs4 ++ sigs5 ++ sigs6

end EG.CApi
