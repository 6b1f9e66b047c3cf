import Verif.Model.CApiSigs

/-!
# The C# bindings: imported functions

Source: `bindings/netstandard/ElectionGuard/ElectionGuard.Encryption/NativeInterface.cs`.

One entry per `[DllImport(DllName, EntryPoint = "…")]`, extracted from the source: class and method
in C#, line, name of the entry point, type of the result, types of the parameters.  A class derived
from `ElectionguardSafeHandle<XType>` and `XType*` stand for the handle type of that name in the C
headers.  `ref` and `out` parameters of plain types are both pointers.

`returned` is the type of the result of the C functions, from `src/electionguard/facades/*`; all
others return `eg_electionguard_status_t`.
-/

namespace EG.Cs

open EG.CApi

/-- Types of parameters in C#. -/
inductive Ty
  | bool | int | ulong
  | enum (b : Base)
  /-- `[MarshalAs(UnmanagedType.LPStr)] string` -/
  | str
  /-- array of these -/
  | strs
  /-- `IntPtr` -/
  | ptr
  /-- `IntPtr[]` -/
  | ptrs
  /-- `byte*` -/
  | bytes
  /-- `uint*` -/
  | uints
  /-- `ulong*` -/
  | ulongs
  /-- `ulong**` -/
  | ulongsPtr
  /-- a safe handle -/
  | handle (k : Kind)
  /-- `XType*` -/
  | raw (k : Kind)
  /-- `out` safe handle -/
  | outHandle (k : Kind)
  /-- `out IntPtr` -/
  | outPtr
  /-- `out uint*` -/
  | outUints
  | outUlong | outInt | refBool
  deriving DecidableEq, Repr

/-- Types of results. -/
inductive Ret
  | status | ulong | bool
  | enum (b : Base)
  deriving DecidableEq, Repr

structure Import where
  method : String
  line : Nat
  entry : String
  ret : Ret
  params : List Ty
  deriving DecidableEq, Repr

def imports1 : List Import := [
  ⟨"LinkedList.New", 375, "eg_linked_list_new", .status, [.outHandle .linkedList]⟩,
  ⟨"LinkedList.Free", 379, "eg_linked_list_free", .status, [.raw .linkedList]⟩,
  ⟨"LinkedList.Append", 383, "eg_linked_list_append", .status, [.handle .linkedList, .str, .str]⟩,
  ⟨"LinkedList.DeleteLast", 390, "eg_linked_list_delete_last", .status, [.handle .linkedList]⟩,
  ⟨"LinkedList.GetCount", 394, "eg_linked_list_get_count", .ulong, [.handle .linkedList]⟩,
  ⟨"LinkedList.GetElementAt", 399, "eg_linked_list_get_element_at", .status, [.handle .linkedList,
    .ulong, .outPtr, .outPtr]⟩,
  ⟨"LinkedList.GetValueAt", 407, "eg_linked_list_get_value_at", .status, [.handle .linkedList,
    .ulong, .outPtr]⟩,
  ⟨"ElementModP.New", 439, "eg_element_mod_p_new", .status, [.ulongs, .outHandle .elementModP]⟩,
  ⟨"ElementModP.NewUnchecked", 444, "eg_element_mod_p_new_unchecked", .status, [.ulongs,
    .outHandle .elementModP]⟩,
  ⟨"ElementModP.Free", 449, "eg_element_mod_p_free", .status, [.raw .elementModP]⟩,
  ⟨"ElementModP.GetData", 453, "eg_element_mod_p_get_data", .status, [.handle .elementModP,
    .ulongsPtr, .outUlong]⟩,
  ⟨"ElementModP.ToHex", 458, "eg_element_mod_p_to_hex", .status, [.handle .elementModP, .outPtr]⟩,
  ⟨"ElementModQ.New", 484, "eg_element_mod_q_new", .status, [.ulongs, .outHandle .elementModQ]⟩,
  ⟨"ElementModQ.NewUnchecked", 489, "eg_element_mod_q_new_unchecked", .status, [.ulongs,
    .outHandle .elementModQ]⟩,
  ⟨"ElementModQ.Free", 494, "eg_element_mod_q_free", .status, [.raw .elementModQ]⟩,
  ⟨"ElementModQ.GetData", 498, "eg_element_mod_q_get_data", .status, [.handle .elementModQ,
    .ulongsPtr, .outUlong]⟩,
  ⟨"ElementModQ.ToHex", 503, "eg_element_mod_q_to_hex", .status, [.handle .elementModQ, .outPtr]⟩,
  ⟨"ElementModQ.FromHex", 508, "eg_element_mod_q_from_hex", .status, [.str,
    .outHandle .elementModQ]⟩,
  ⟨"ElementModQ.FromHexUnchecked", 514, "eg_element_mod_q_from_hex_unchecked", .status, [.str,
    .outHandle .elementModQ]⟩,
  ⟨"ElementModQ.Random", 520, "eg_element_mod_q_rand_q_new", .status, [.outHandle .elementModQ]⟩,
  ⟨"Constants.G", 527, "eg_element_mod_p_constant_g", .status, [.outHandle .elementModP]⟩,
  ⟨"Constants.P", 531, "eg_element_mod_p_constant_p", .status, [.outHandle .elementModP]⟩,
  ⟨"Constants.R", 535, "eg_element_mod_p_constant_r", .status, [.outHandle .elementModP]⟩,
  ⟨"Constants.ZERO_MOD_P", 539, "eg_element_mod_p_constant_zero_mod_p", .status,
    [.outHandle .elementModP]⟩,
  ⟨"Constants.ONE_MOD_P", 543, "eg_element_mod_p_constant_one_mod_p", .status,
    [.outHandle .elementModP]⟩,
  ⟨"Constants.TWO_MOD_P", 547, "eg_element_mod_p_constant_two_mod_p", .status,
    [.outHandle .elementModP]⟩,
  ⟨"Constants.Q", 551, "eg_element_mod_q_constant_q", .status, [.outHandle .elementModQ]⟩,
  ⟨"Constants.ZERO_MOD_Q", 555, "eg_element_mod_q_constant_zero_mod_q", .status,
    [.outHandle .elementModQ]⟩,
  ⟨"Constants.ONE_MOD_Q", 559, "eg_element_mod_q_constant_one_mod_q", .status,
    [.outHandle .elementModQ]⟩,
  ⟨"Constants.TWO_MOD_Q", 563, "eg_element_mod_q_constant_two_mod_q", .status,
    [.outHandle .elementModQ]⟩,
  ⟨"Constants.ToJson", 567, "eg_constant_to_json", .status, [.outPtr, .outUlong]⟩,
  ⟨"ElGamalKeyPair.New", 597, "eg_elgamal_keypair_from_secret_new", .status, [.handle .elementModQ,
    .outHandle .elgamalKeypair]⟩,
  ⟨"ElGamalKeyPair.Free", 603, "eg_elgamal_keypair_free", .status, [.raw .elgamalKeypair]⟩,
  ⟨"ElGamalKeyPair.GetPublicKey", 607, "eg_elgamal_keypair_get_public_key", .status,
    [.handle .elgamalKeypair, .outHandle .elementModP]⟩,
  ⟨"ElGamalKeyPair.GetSecretKey", 613, "eg_elgamal_keypair_get_secret_key", .status,
    [.handle .elgamalKeypair, .outHandle .elementModQ]⟩,
  ⟨"ElGamalCiphertext.Free", 641, "eg_elgamal_ciphertext_free", .status, [.raw .elgamalCiphertext]⟩,
  ⟨"ElGamalCiphertext.GetPad", 645, "eg_elgamal_ciphertext_get_pad", .status,
    [.handle .elgamalCiphertext, .outHandle .elementModP]⟩,
  ⟨"ElGamalCiphertext.GetData", 651, "eg_elgamal_ciphertext_get_data", .status,
    [.handle .elgamalCiphertext, .outHandle .elementModP]⟩,
  ⟨"ElGamalCiphertext.GetCryptoHash", 657, "eg_elgamal_ciphertext_crypto_hash", .status,
    [.handle .elgamalCiphertext, .outHandle .elementModQ]⟩,
  ⟨"ElGamalCiphertext.DecryptWithSecret", 663, "eg_elgamal_ciphertext_decrypt_with_secret", .status,
    [.handle .elgamalCiphertext, .handle .elementModQ, .outUlong]⟩,
  ⟨"ElGamal.Encrypt", 674, "eg_elgamal_encrypt", .status, [.ulong, .handle .elementModQ,
    .handle .elementModP, .outHandle .elgamalCiphertext]⟩,
  ⟨"DisjunctiveChaumPedersenProof.Free", 707, "eg_disjunctive_chaum_pedersen_proof_free", .status,
    [.raw .disjunctiveChaumPedersenProof]⟩,
  ⟨"DisjunctiveChaumPedersenProof.GetZeroPad", 711,
    "eg_disjunctive_chaum_pedersen_proof_get_zero_pad", .status,
    [.handle .disjunctiveChaumPedersenProof, .outHandle .elementModP]⟩,
  ⟨"DisjunctiveChaumPedersenProof.GetZeroData", 717,
    "eg_disjunctive_chaum_pedersen_proof_get_zero_data", .status,
    [.handle .disjunctiveChaumPedersenProof, .outHandle .elementModP]⟩,
  ⟨"DisjunctiveChaumPedersenProof.GetOnePad", 723,
    "eg_disjunctive_chaum_pedersen_proof_get_one_pad", .status,
    [.handle .disjunctiveChaumPedersenProof, .outHandle .elementModP]⟩,
  ⟨"DisjunctiveChaumPedersenProof.GetOneData", 729,
    "eg_disjunctive_chaum_pedersen_proof_get_one_data", .status,
    [.handle .disjunctiveChaumPedersenProof, .outHandle .elementModP]⟩,
  ⟨"DisjunctiveChaumPedersenProof.GetZeroChallenge", 735,
    "eg_disjunctive_chaum_pedersen_proof_get_zero_challenge", .status,
    [.handle .disjunctiveChaumPedersenProof, .outHandle .elementModQ]⟩,
  ⟨"DisjunctiveChaumPedersenProof.GetOneChallenge", 741,
    "eg_disjunctive_chaum_pedersen_proof_get_one_challenge", .status,
    [.handle .disjunctiveChaumPedersenProof, .outHandle .elementModQ]⟩,
  ⟨"DisjunctiveChaumPedersenProof.GetChallenge", 747,
    "eg_disjunctive_chaum_pedersen_proof_get_challenge", .status,
    [.handle .disjunctiveChaumPedersenProof, .outHandle .elementModQ]⟩,
  ⟨"DisjunctiveChaumPedersenProof.GetZeroResponse", 753,
    "eg_disjunctive_chaum_pedersen_proof_get_zero_response", .status,
    [.handle .disjunctiveChaumPedersenProof, .outHandle .elementModQ]⟩,
  ⟨"DisjunctiveChaumPedersenProof.GetOneResponse", 759,
    "eg_disjunctive_chaum_pedersen_proof_get_one_response", .status,
    [.handle .disjunctiveChaumPedersenProof, .outHandle .elementModQ]⟩,
  ⟨"DisjunctiveChaumPedersenProof.Make", 765, "eg_disjunctive_chaum_pedersen_proof_make", .status,
    [.handle .elgamalCiphertext, .handle .elementModQ, .handle .elementModP, .handle .elementModQ,
    .ulong, .outHandle .disjunctiveChaumPedersenProof]⟩,
  ⟨"DisjunctiveChaumPedersenProof.Make", 775,
    "eg_disjunctive_chaum_pedersen_proof_make_deterministic", .status, [.handle .elgamalCiphertext,
    .handle .elementModQ, .handle .elementModP, .handle .elementModQ, .handle .elementModQ, .ulong,
    .outHandle .disjunctiveChaumPedersenProof]⟩,
  ⟨"DisjunctiveChaumPedersenProof.IsValid", 786, "eg_disjunctive_chaum_pedersen_proof_is_valid",
    .bool, [.handle .disjunctiveChaumPedersenProof, .handle .elgamalCiphertext,
    .handle .elementModP, .handle .elementModQ]⟩,
  ⟨"ConstantChaumPedersenProof.Free", 816, "eg_constant_chaum_pedersen_proof_free", .status,
    [.raw .constantChaumPedersenProof]⟩,
  ⟨"ConstantChaumPedersenProof.GetPad", 820, "eg_constant_chaum_pedersen_proof_get_pad", .status,
    [.handle .constantChaumPedersenProof, .outHandle .elementModP]⟩,
  ⟨"ConstantChaumPedersenProof.GetData", 826, "eg_constant_chaum_pedersen_proof_get_data", .status,
    [.handle .constantChaumPedersenProof, .outHandle .elementModP]⟩,
  ⟨"ConstantChaumPedersenProof.GetChallenge", 832, "eg_constant_chaum_pedersen_proof_get_challenge",
    .status, [.handle .constantChaumPedersenProof, .outHandle .elementModQ]⟩,
  ⟨"ConstantChaumPedersenProof.GetResponse", 838, "eg_constant_chaum_pedersen_proof_get_response",
    .status, [.handle .constantChaumPedersenProof, .outHandle .elementModQ]⟩,
  ⟨"ConstantChaumPedersenProof.Make", 844, "eg_constant_chaum_pedersen_proof_make", .status,
    [.handle .elgamalCiphertext, .handle .elementModQ, .handle .elementModP, .handle .elementModQ,
    .handle .elementModQ, .ulong, .outHandle .constantChaumPedersenProof]⟩]

def imports2 : List Import := [
  ⟨"ConstantChaumPedersenProof.IsValid", 855, "eg_constant_chaum_pedersen_proof_is_valid", .bool,
    [.handle .constantChaumPedersenProof, .handle .elgamalCiphertext, .handle .elementModP,
    .handle .elementModQ]⟩,
  ⟨"AnnotatedString.New", 890, "eg_annotated_string_new", .status, [.str, .str,
    .outHandle .annotatedString]⟩,
  ⟨"AnnotatedString.Free", 897, "eg_annotated_string_free", .status, [.raw .annotatedString]⟩,
  ⟨"AnnotatedString.GetAnnotation", 901, "eg_annotated_string_get_annotation", .status,
    [.handle .annotatedString, .outPtr]⟩,
  ⟨"AnnotatedString.GetValue", 907, "eg_annotated_string_get_value", .status,
    [.handle .annotatedString, .outPtr]⟩,
  ⟨"AnnotatedString.CryptoHash", 912, "eg_annotated_string_crypto_hash", .status,
    [.handle .annotatedString, .outHandle .elementModQ]⟩,
  ⟨"Language.New", 943, "eg_language_new", .status, [.str, .str, .outHandle .language]⟩,
  ⟨"Language.Free", 950, "eg_language_free", .status, [.raw .language]⟩,
  ⟨"Language.GetValue", 954, "eg_language_get_value", .status, [.handle .language, .outPtr]⟩,
  ⟨"Language.GetLanguage", 959, "eg_language_get_language", .status, [.handle .language, .outPtr]⟩,
  ⟨"Language.CryptoHash", 964, "eg_language_crypto_hash", .status, [.handle .language,
    .outHandle .elementModQ]⟩,
  ⟨"InternationalizedText.New", 997, "eg_internationalized_text_new", .status, [.ptrs, .ulong,
    .outHandle .internationalizedText]⟩,
  ⟨"InternationalizedText.Free", 1005, "eg_internationalized_text_free", .status,
    [.raw .internationalizedText]⟩,
  ⟨"InternationalizedText.GetTextSize", 1009, "eg_internationalized_text_get_text_size", .ulong,
    [.handle .internationalizedText]⟩,
  ⟨"InternationalizedText.GetTextAtIndex", 1014, "eg_internationalized_text_get_text_at_index",
    .status, [.handle .internationalizedText, .ulong, .outHandle .language]⟩,
  ⟨"InternationalizedText.CryptoHash", 1021, "eg_intertnationalized_text_crypto_hash", .status,
    [.handle .internationalizedText, .outHandle .elementModQ]⟩,
  ⟨"ContactInformation.New", 1052, "eg_contact_information_new", .status, [.str,
    .outHandle .contactInformation]⟩,
  ⟨"ContactInformation.Free", 1060, "eg_contact_information_free", .status,
    [.raw .contactInformation]⟩,
  ⟨"ContactInformation.GetAddressLineSize", 1064, "eg_contact_information_get_address_line_size",
    .ulong, [.handle .contactInformation]⟩,
  ⟨"ContactInformation.GetAddressLineAtIndex", 1069,
    "eg_contact_information_get_address_line_at_index", .status, [.handle .contactInformation,
    .ulong, .outPtr]⟩,
  ⟨"ContactInformation.GetEmailLineSize", 1076, "eg_contact_information_get_email_line_size",
    .ulong, [.handle .contactInformation]⟩,
  ⟨"ContactInformation.GetEmailLineAtIndex", 1081, "eg_contact_information_get_email_line_at_index",
    .status, [.handle .contactInformation, .ulong, .outHandle .internationalizedText]⟩,
  ⟨"ContactInformation.GetPhoneLineSize", 1088, "eg_contact_information_get_phone_line_size",
    .ulong, [.handle .contactInformation]⟩,
  ⟨"ContactInformation.GetPhoneLineAtIndex", 1093, "eg_contact_information_get_email_line_at_index",
    .status, [.handle .contactInformation, .ulong, .outHandle .internationalizedText]⟩,
  ⟨"ContactInformation.GetName", 1100, "eg_contact_information_get_name", .status,
    [.handle .contactInformation, .outPtr]⟩,
  ⟨"ContactInformation.CryptoHash", 1105, "eg_contact_information_crypto_hash", .status,
    [.handle .contactInformation, .outHandle .elementModQ]⟩,
  ⟨"GeopoliticalUnit.New", 1136, "eg_geopolitical_unit_new", .status, [.str, .str,
    .enum .reportingUnitType, .outHandle .geopoliticalUnit]⟩,
  ⟨"GeopoliticalUnit.New", 1144, "eg_geopolitical_unit_new_with_contact_info", .status, [.str, .str,
    .enum .reportingUnitType, .handle .contactInformation, .outHandle .geopoliticalUnit]⟩,
  ⟨"GeopoliticalUnit.Free", 1153, "eg_geopolitical_unit_free", .status, [.raw .geopoliticalUnit]⟩,
  ⟨"GeopoliticalUnit.GetObjectId", 1157, "eg_geopolitical_unit_get_object_id", .status,
    [.handle .geopoliticalUnit, .outPtr]⟩,
  ⟨"GeopoliticalUnit.GetName", 1162, "eg_geopolitical_unit_get_name", .status,
    [.handle .geopoliticalUnit, .outPtr]⟩,
  ⟨"GeopoliticalUnit.GetReportingUnitType", 1167, "get_geopolitical_unit_get_type",
    .enum .reportingUnitType, [.handle .geopoliticalUnit]⟩,
  ⟨"GeopoliticalUnit.CryptoHash", 1172, "eg_geopolitical_unit_crypto_hash", .status,
    [.handle .geopoliticalUnit, .outHandle .elementModQ]⟩,
  ⟨"BallotStyle.New", 1203, "eg_ballot_style_new", .status, [.str, .strs, .ulong,
    .outHandle .ballotStyle]⟩,
  ⟨"BallotStyle.Free", 1213, "eg_ballot_style_free", .status, [.raw .ballotStyle]⟩,
  ⟨"BallotStyle.GetObjectId", 1217, "eg_ballot_style_get_object_id", .status, [.handle .ballotStyle,
    .outPtr]⟩,
  ⟨"BallotStyle.GetGeopoliticalUnitSize", 1222, "eg_ballot_style_get_geopolitical_unit_ids_size",
    .ulong, [.handle .ballotStyle]⟩,
  ⟨"BallotStyle.GetGeopoliticalInitIdAtIndex", 1227,
    "eg_ballot_style_get_geopolitical_unit_id_at_index", .status, [.handle .ballotStyle, .ulong,
    .outPtr]⟩,
  ⟨"BallotStyle.GetPartyIdsSize", 1234, "eg_ballot_style_get_party_ids_size", .ulong,
    [.handle .ballotStyle]⟩,
  ⟨"BallotStyle.GetPartyIdAtIndex", 1239, "eg_ballot_style_get_party_id_at_index", .status,
    [.handle .ballotStyle, .ulong, .outPtr]⟩,
  ⟨"BallotStyle.GetImageUri", 1246, "eg_ballot_style_get_image_uri", .status, [.handle .ballotStyle,
    .outPtr]⟩,
  ⟨"BallotStyle.CryptoHash", 1251, "eg_ballot_style_crypto_hash", .status, [.handle .ballotStyle,
    .outHandle .elementModQ]⟩,
  ⟨"Party.New", 1282, "eg_party_new", .status, [.str, .outHandle .party]⟩,
  ⟨"Party.New", 1288, "eg_party_new_with_extras", .status, [.str, .handle .internationalizedText,
    .str, .str, .str, .outHandle .party]⟩,
  ⟨"Party.Free", 1298, "eg_party_free", .status, [.raw .party]⟩,
  ⟨"Party.GetObjectId", 1302, "eg_party_get_object_id", .status, [.handle .party, .outPtr]⟩,
  ⟨"Party.GetAbbreviation", 1307, "eg_party_get_abbreviation", .status, [.handle .party, .outPtr]⟩,
  ⟨"Party.GetName", 1312, "eg_party_get_name", .status, [.handle .party,
    .outHandle .internationalizedText]⟩,
  ⟨"Party.GetColor", 1317, "eg_party_get_color", .status, [.handle .party, .outPtr]⟩,
  ⟨"Party.GetLogoUri", 1322, "eg_party_get_logo_uri", .status, [.handle .party, .outPtr]⟩,
  ⟨"Party.CryptoHash", 1327, "eg_party_crypto_hash", .status, [.handle .party,
    .outHandle .elementModQ]⟩,
  ⟨"Candidate.New", 1358, "eg_candidate_new", .status, [.str, .bool, .outHandle .candidate]⟩,
  ⟨"Candidate.New", 1365, "eg_candidate_new_with_party", .status, [.str, .str, .bool,
    .outHandle .candidate]⟩,
  ⟨"Candidate.New", 1373, "eg_candidate_new_with_extras", .status, [.str,
    .handle .internationalizedText, .str, .str, .bool, .outHandle .candidate]⟩,
  ⟨"Candidate.Free", 1383, "eg_candidate_free", .status, [.raw .candidate]⟩,
  ⟨"Candidate.GetObjectId", 1387, "eg_candidate_get_object_id", .status, [.handle .candidate,
    .outPtr]⟩,
  ⟨"Candidate.GetCandidateId", 1392, "eg_candidate_get_candidate_id", .status, [.handle .candidate,
    .outPtr]⟩,
  ⟨"Candidate.GetName", 1397, "eg_candidate_get_name", .status, [.handle .candidate, .outPtr]⟩,
  ⟨"Candidate.GetPartyId", 1402, "eg_candidate_get_party_id", .status, [.handle .candidate,
    .outPtr]⟩,
  ⟨"Candidate.GetImageUri", 1407, "eg_candidate_get_image_uri", .status, [.handle .candidate,
    .outPtr]⟩]

def imports3 : List Import := [
  ⟨"Candidate.CryptoHash", 1412, "eg_candidate_crypto_hash", .status, [.handle .candidate,
    .outHandle .elementModQ]⟩,
  ⟨"SelectionDescription.New", 1443, "eg_selection_description_new", .status, [.str, .str, .ulong,
    .outHandle .selectionDescription]⟩,
  ⟨"SelectionDescription.Free", 1451, "eg_selection_description_free", .status,
    [.raw .selectionDescription]⟩,
  ⟨"SelectionDescription.GetObjectId", 1455, "eg_selection_description_get_object_id", .status,
    [.handle .selectionDescription, .outPtr]⟩,
  ⟨"SelectionDescription.GetCandidateId", 1460, "eg_selection_description_get_candidate_id",
    .status, [.handle .selectionDescription, .outPtr]⟩,
  ⟨"SelectionDescription.GetSequenceOrder", 1465, "eg_selection_description_get_sequence_order",
    .ulong, [.handle .selectionDescription]⟩,
  ⟨"SelectionDescription.CryptoHash", 1470, "eg_selection_description_crypto_hash", .status,
    [.handle .selectionDescription, .outHandle .elementModQ]⟩,
  ⟨"ContestDescription.New", 1501, "eg_contest_description_new", .status, [.str, .str, .ulong,
    .enum .voteVariationType, .ulong, .str, .ptrs, .ulong, .outHandle .contestDescription]⟩,
  ⟨"ContestDescription.New", 1515, "eg_contest_description_new_with_title", .status, [.str, .str,
    .ulong, .enum .voteVariationType, .ulong, .ulong, .str, .handle .internationalizedText,
    .handle .internationalizedText, .ptrs, .ulong, .outHandle .contestDescription]⟩,
  ⟨"ContestDescription.New", 1532, "eg_contest_description_new_with_parties", .status, [.str, .str,
    .ulong, .enum .voteVariationType, .ulong, .str, .ptrs, .ulong, .strs, .ulong,
    .outHandle .contestDescription]⟩,
  ⟨"ContestDescription.New", 1549, "eg_contest_description_new_with_title_and_parties", .status,
    [.str, .str, .ulong, .enum .voteVariationType, .ulong, .ulong, .str,
    .handle .internationalizedText, .handle .internationalizedText, .ptrs, .ulong, .strs, .ulong,
    .outHandle .contestDescription]⟩,
  ⟨"ContestDescription.Free", 1569, "eg_contest_description_free", .status,
    [.raw .contestDescription]⟩,
  ⟨"ContestDescription.GetObjectId", 1573, "eg_contest_description_get_object_id", .status,
    [.handle .contestDescription, .outPtr]⟩,
  ⟨"ContestDescription.GetElectoralDistrictId", 1578,
    "eg_contest_description_get_electoral_district_id", .status, [.handle .contestDescription,
    .outPtr]⟩,
  ⟨"ContestDescription.GetSequenceOrder", 1583, "eg_contest_description_get_sequence_order", .ulong,
    [.handle .contestDescription]⟩,
  ⟨"ContestDescription.GetVoteVariationType", 1588, "eg_contest_description_get_vote_variation",
    .enum .voteVariationType, [.handle .contestDescription]⟩,
  ⟨"ContestDescription.GetNumberElected", 1593, "eg_contest_description_get_number_elected", .ulong,
    [.handle .contestDescription]⟩,
  ⟨"ContestDescription.GetVotesAllowed", 1598, "eg_contest_description_get_votes_allowed", .ulong,
    [.handle .contestDescription]⟩,
  ⟨"ContestDescription.GetName", 1603, "eg_contest_description_get_name", .status,
    [.handle .contestDescription, .outPtr]⟩,
  ⟨"ContestDescription.GetBallotTitle", 1608, "eg_contest_description_get_ballot_title", .status,
    [.handle .contestDescription, .outHandle .internationalizedText]⟩,
  ⟨"ContestDescription.GetBallotSubTitle", 1614, "eg_contest_description_get_ballot_subtitle",
    .status, [.handle .contestDescription, .outHandle .internationalizedText]⟩,
  ⟨"ContestDescription.GetSelectionsSize", 1620, "eg_contest_description_get_selections_size",
    .ulong, [.handle .contestDescription]⟩,
  ⟨"ContestDescription.GetSelectionAtIndex", 1625, "eg_contest_description_get_selection_at_index",
    .status, [.handle .contestDescription, .ulong, .outHandle .selectionDescription]⟩,
  ⟨"ContestDescription.CryptoHash", 1632, "eg_contest_description_crypto_hash", .status,
    [.handle .contestDescription, .outHandle .elementModQ]⟩,
  ⟨"ContestDescriptionWithPlaceholders.New", 1663, "eg_contest_description_with_placeholders_new",
    .status, [.str, .str, .ulong, .enum .voteVariationType, .ulong, .str, .ptrs, .ulong, .ptrs,
    .ulong, .outHandle .contestDescriptionWithPlaceholders]⟩,
  ⟨"ContestDescriptionWithPlaceholders.New", 1680,
    "eg_contest_description_with_placeholders_new_with_title", .status, [.str, .str, .ulong,
    .enum .voteVariationType, .ulong, .ulong, .str, .handle .internationalizedText,
    .handle .internationalizedText, .ptrs, .ulong, .ptrs, .ulong,
    .outHandle .contestDescriptionWithPlaceholders]⟩,
  ⟨"ContestDescriptionWithPlaceholders.New", 1700,
    "eg_contest_description_with_placeholders_new_with_parties", .status, [.str, .str, .ulong,
    .enum .voteVariationType, .ulong, .str, .ptrs, .ulong, .strs, .ulong, .ptrs, .ulong,
    .outHandle .contestDescriptionWithPlaceholders]⟩,
  ⟨"ContestDescriptionWithPlaceholders.New", 1721,
    "eg_contest_description_with_placeholders_new_with_title_and_parties", .status, [.str, .str,
    .ulong, .enum .voteVariationType, .ulong, .ulong, .str, .handle .internationalizedText,
    .handle .internationalizedText, .ptrs, .ulong, .strs, .ulong, .ptrs, .ulong,
    .outHandle .contestDescriptionWithPlaceholders]⟩,
  ⟨"ContestDescriptionWithPlaceholders.Free", 1745, "eg_contest_description_with_placeholders_free",
    .status, [.raw .contestDescriptionWithPlaceholders]⟩,
  ⟨"ContestDescriptionWithPlaceholders.GetObjectId", 1755, "eg_contest_description_get_object_id",
    .status, [.handle .contestDescriptionWithPlaceholders, .outPtr]⟩,
  ⟨"ContestDescriptionWithPlaceholders.GetElectoralDistrictId", 1760,
    "eg_contest_description_get_electoral_district_id", .status,
    [.handle .contestDescriptionWithPlaceholders, .outPtr]⟩,
  ⟨"ContestDescriptionWithPlaceholders.GetSequenceOrder", 1765,
    "eg_contest_description_get_sequence_order", .ulong,
    [.handle .contestDescriptionWithPlaceholders]⟩,
  ⟨"ContestDescriptionWithPlaceholders.GetVoteVariationType", 1770,
    "eg_contest_description_get_vote_variation", .enum .voteVariationType,
    [.handle .contestDescriptionWithPlaceholders]⟩,
  ⟨"ContestDescriptionWithPlaceholders.GetNumberElected", 1775,
    "eg_contest_description_get_number_elected", .ulong,
    [.handle .contestDescriptionWithPlaceholders]⟩,
  ⟨"ContestDescriptionWithPlaceholders.GetVotesAllowed", 1780,
    "eg_contest_description_get_votes_allowed", .ulong,
    [.handle .contestDescriptionWithPlaceholders]⟩,
  ⟨"ContestDescriptionWithPlaceholders.GetName", 1785, "eg_contest_description_get_name", .status,
    [.handle .contestDescriptionWithPlaceholders, .outPtr]⟩,
  ⟨"ContestDescriptionWithPlaceholders.GetBallotTitle", 1790,
    "eg_contest_description_get_ballot_title", .status,
    [.handle .contestDescriptionWithPlaceholders, .outHandle .internationalizedText]⟩,
  ⟨"ContestDescriptionWithPlaceholders.GetBallotSubTitle", 1796,
    "eg_contest_description_get_ballot_subtitle", .status,
    [.handle .contestDescriptionWithPlaceholders, .outHandle .internationalizedText]⟩,
  ⟨"ContestDescriptionWithPlaceholders.GetSelectionsSize", 1802,
    "eg_contest_description_get_selections_size", .ulong,
    [.handle .contestDescriptionWithPlaceholders]⟩,
  ⟨"ContestDescriptionWithPlaceholders.GetSelectionAtIndex", 1807,
    "eg_contest_description_get_selection_at_index", .status,
    [.handle .contestDescriptionWithPlaceholders, .ulong, .outHandle .selectionDescription]⟩,
  ⟨"ContestDescriptionWithPlaceholders.CryptoHash", 1814, "eg_contest_description_crypto_hash",
    .status, [.handle .contestDescriptionWithPlaceholders, .outHandle .elementModQ]⟩,
  ⟨"ContestDescriptionWithPlaceholders.GetPlaceholdersSize", 1822,
    "eg_contest_description_with_placeholders_get_placeholders_size", .ulong,
    [.handle .contestDescriptionWithPlaceholders]⟩,
  ⟨"ContestDescriptionWithPlaceholders.GetPlaceholderAtIndex", 1828,
    "eg_contest_description_with_placeholders_get_placeholder_at_index", .status,
    [.handle .contestDescriptionWithPlaceholders, .ulong, .outHandle .selectionDescription]⟩,
  ⟨"ContestDescriptionWithPlaceholders.IsPlaceholder", 1836,
    "eg_contest_description_with_placeholders_is_placeholder", .bool,
    [.handle .contestDescriptionWithPlaceholders, .handle .selectionDescription]⟩,
  ⟨"ContestDescriptionWithPlaceholders.SelectionForId", 1843,
    "eg_contest_description_with_placeholders_selection_for_id", .status,
    [.handle .contestDescriptionWithPlaceholders, .str, .handle .selectionDescription]⟩,
  ⟨"Manifest.New", 1876, "eg_election_manifest_new", .status, [.str, .enum .electionType, .ulong,
    .ulong, .ptrs, .ulong, .ptrs, .ulong, .ptrs, .ulong, .ptrs, .ulong, .ptrs, .ulong,
    .outHandle .electionManifest]⟩,
  ⟨"Manifest.New", 1900, "eg_election_manifest_new_with_contact", .status, [.str,
    .enum .electionType, .ulong, .ulong, .ptrs, .ulong, .ptrs, .ulong, .ptrs, .ulong, .ptrs, .ulong,
    .ptrs, .ulong, .handle .internationalizedText, .handle .contactInformation,
    .outHandle .electionManifest]⟩,
  ⟨"Manifest.Free", 1926, "eg_election_manifest_free", .status, [.raw .electionManifest]⟩,
  ⟨"Manifest.GetElectionScopeId", 1930, "eg_election_manifest_get_election_scope_id", .status,
    [.handle .electionManifest, .outPtr]⟩,
  ⟨"Manifest.GetElectionType", 1935, "eg_election_manifest_get_type", .enum .electionType,
    [.handle .electionManifest]⟩,
  ⟨"Manifest.GetStartDate", 1940, "eg_election_manifest_get_start_date", .ulong,
    [.handle .electionManifest]⟩,
  ⟨"Manifest.GetEndDate", 1945, "eg_election_manifest_get_end_date", .ulong,
    [.handle .electionManifest]⟩,
  ⟨"Manifest.GetGeopoliticalUnitsSize", 1950, "eg_election_manifest_get_geopolitical_units_size",
    .ulong, [.handle .electionManifest]⟩,
  ⟨"Manifest.GetGeopoliticalUnitAtIndex", 1955,
    "eg_election_manifest_get_geopolitical_unit_at_index", .status, [.handle .electionManifest,
    .ulong, .outHandle .geopoliticalUnit]⟩,
  ⟨"Manifest.GetPartiesSize", 1962, "eg_election_manifest_get_parties_size", .ulong,
    [.handle .electionManifest]⟩,
  ⟨"Manifest.GetPartyAtIndex", 1967, "eg_election_manifest_get_party_at_index", .status,
    [.handle .electionManifest, .ulong, .outHandle .party]⟩,
  ⟨"Manifest.GetCandidatesSize", 1974, "eg_election_manifest_get_candidates_size", .ulong,
    [.handle .electionManifest]⟩,
  ⟨"Manifest.GetCandidateAtIndex", 1979, "eg_election_manifest_get_candidate_at_index", .status,
    [.handle .electionManifest, .ulong, .outHandle .candidate]⟩,
  ⟨"Manifest.GetContestsSize", 1986, "eg_election_manifest_get_contests_size", .ulong,
    [.handle .electionManifest]⟩,
  ⟨"Manifest.GetContestAtIndex", 1991, "eg_election_manifest_get_contest_at_index", .status,
    [.handle .electionManifest, .ulong, .outHandle .contestDescription]⟩]

def imports4 : List Import := [
  ⟨"Manifest.GetBallotStylesSize", 1998, "eg_election_manifest_get_ballot_styles_size", .ulong,
    [.handle .electionManifest]⟩,
  ⟨"Manifest.GetBallotStyleAtIndex", 2003, "eg_election_manifest_get_ballot_style_at_index",
    .status, [.handle .electionManifest, .ulong, .outHandle .ballotStyle]⟩,
  ⟨"Manifest.GetName", 2010, "eg_election_manifest_get_name", .status, [.handle .electionManifest,
    .outHandle .internationalizedText]⟩,
  ⟨"Manifest.GetContactInfo", 2016, "eg_election_manifest_get_contact_info", .status,
    [.handle .electionManifest, .outHandle .contactInformation]⟩,
  ⟨"Manifest.CryptoHash", 2022, "eg_election_manifest_crypto_hash", .status,
    [.handle .electionManifest, .outHandle .elementModQ]⟩,
  ⟨"Manifest.IsValid", 2028, "eg_election_manifest_is_valid", .bool, [.handle .electionManifest]⟩,
  ⟨"Manifest.FromJson", 2032, "eg_election_manifest_from_json", .status, [.str,
    .outHandle .electionManifest]⟩,
  ⟨"Manifest.FromBson", 2038, "eg_election_manifest_from_bson", .status, [.bytes, .ulong,
    .outHandle .electionManifest]⟩,
  ⟨"Manifest.FromMsgPack", 2043, "eg_election_manifest_from_msgpack", .status, [.bytes, .ulong,
    .outHandle .electionManifest]⟩,
  ⟨"Manifest.ToJson", 2048, "eg_election_manifest_to_json", .status, [.handle .electionManifest,
    .outPtr, .outUlong]⟩,
  ⟨"Manifest.ToBson", 2053, "eg_election_manifest_to_bson", .status, [.handle .electionManifest,
    .outPtr, .outUlong]⟩,
  ⟨"Manifest.ToMsgPack", 2058, "eg_election_manifest_to_msgpack", .status,
    [.handle .electionManifest, .outPtr, .outUlong]⟩,
  ⟨"InternalManifest.New", 2088, "eg_internal_manifest_new", .status, [.handle .electionManifest,
    .outHandle .internalManifest]⟩,
  ⟨"InternalManifest.Free", 2094, "eg_internal_manifest_free", .status, [.raw .internalManifest]⟩,
  ⟨"InternalManifest.GetManifestHash", 2099, "eg_internal_manifest_get_manifest_hash", .status,
    [.handle .internalManifest, .outHandle .elementModQ]⟩,
  ⟨"InternalManifest.GetGeopoliticalUnitsSize", 2105,
    "eg_internal_manifest_get_geopolitical_units_size", .ulong, [.handle .internalManifest]⟩,
  ⟨"InternalManifest.GetGeopoliticalUnitAtIndex", 2111,
    "eg_internal_manifest_get_geopolitical_unit_at_index", .status, [.handle .internalManifest,
    .ulong, .outHandle .geopoliticalUnit]⟩,
  ⟨"InternalManifest.GetContestsSize", 2119, "eg_internal_manifest_get_contests_size", .ulong,
    [.handle .internalManifest]⟩,
  ⟨"InternalManifest.GetContestAtIndex", 2124, "eg_internal_manifest_get_contest_at_index", .status,
    [.handle .internalManifest, .ulong, .outHandle .contestDescription]⟩,
  ⟨"InternalManifest.GetBallotStylesSize", 2131, "eg_internal_manifest_get_ballot_styles_size",
    .ulong, [.handle .internalManifest]⟩,
  ⟨"InternalManifest.GetBallotStyleAtIndex", 2136, "eg_internal_manifest_get_ballot_style_at_index",
    .status, [.handle .internalManifest, .ulong, .outHandle .ballotStyle]⟩,
  ⟨"InternalManifest.FromJson", 2143, "eg_internal_manifest_from_json", .status, [.str,
    .outHandle .internalManifest]⟩,
  ⟨"InternalManifest.FromBson", 2149, "eg_internal_manifest_from_bson", .status, [.bytes, .ulong,
    .outHandle .internalManifest]⟩,
  ⟨"InternalManifest.FromMsgPack", 2154, "eg_internal_manifest_from_msgpack", .status, [.bytes,
    .ulong, .outHandle .internalManifest]⟩,
  ⟨"InternalManifest.ToJson", 2159, "eg_internal_manifest_to_json", .status,
    [.handle .internalManifest, .outPtr, .outUlong]⟩,
  ⟨"InternalManifest.ToBson", 2164, "eg_internal_manifest_to_bson", .status,
    [.handle .internalManifest, .outPtr, .outUlong]⟩,
  ⟨"InternalManifest.ToMsgPack", 2169, "eg_internal_manifest_to_msgpack", .status,
    [.handle .internalManifest, .outPtr, .outUlong]⟩,
  ⟨"ContextConfiguration.GetAllowedOverVotes", 2198,
    "eg_ciphertext_election_context_config_get_allowed_overvotes", .status,
    [.handle .contextConfiguration, .refBool]⟩,
  ⟨"ContextConfiguration.GetMaxBallots", 2205,
    "eg_ciphertext_election_context_config_get_max_ballots", .status,
    [.handle .contextConfiguration, .outUlong]⟩,
  ⟨"ContextConfiguration.Free", 2213, "eg_ciphertext_election_context_config_free", .status,
    [.raw .contextConfiguration]⟩,
  ⟨"ContextConfiguration.Make", 2217, "eg_ciphertext_election_context_config_make", .status, [.bool,
    .ulong, .outHandle .contextConfiguration]⟩,
  ⟨"CiphertextElectionContext.Free", 2252, "eg_ciphertext_election_context_free", .status,
    [.raw .ciphertextElectionContext]⟩,
  ⟨"CiphertextElectionContext.GetConfiguration", 2256,
    "eg_ciphertext_election_context_get_configuration", .status,
    [.handle .ciphertextElectionContext, .outHandle .contextConfiguration]⟩,
  ⟨"CiphertextElectionContext.GetElGamalPublicKey", 2263,
    "eg_ciphertext_election_context_get_elgamal_public_key", .status,
    [.handle .ciphertextElectionContext, .outHandle .elementModP]⟩,
  ⟨"CiphertextElectionContext.GetCommitmentHash", 2270,
    "eg_ciphertext_election_context_get_commitment_hash", .status,
    [.handle .ciphertextElectionContext, .outHandle .elementModQ]⟩,
  ⟨"CiphertextElectionContext.GetManifestHash", 2277,
    "eg_ciphertext_election_context_get_manifest_hash", .status,
    [.handle .ciphertextElectionContext, .outHandle .elementModQ]⟩,
  ⟨"CiphertextElectionContext.GetCryptoBaseHash", 2284,
    "eg_ciphertext_election_context_get_crypto_base_hash", .status,
    [.handle .ciphertextElectionContext, .outHandle .elementModQ]⟩,
  ⟨"CiphertextElectionContext.GetCryptoExtendedBaseHash", 2291,
    "eg_ciphertext_election_context_get_crypto_extended_base_hash", .status,
    [.handle .ciphertextElectionContext, .outHandle .elementModQ]⟩,
  ⟨"CiphertextElectionContext.GetExtendedData", 2298,
    "eg_ciphertext_election_context_get_extended_data", .status,
    [.handle .ciphertextElectionContext, .outHandle .linkedList]⟩,
  ⟨"CiphertextElectionContext.Make", 2305, "eg_ciphertext_election_context_make", .status, [.ulong,
    .ulong, .handle .elementModP, .handle .elementModQ, .handle .elementModQ,
    .outHandle .ciphertextElectionContext]⟩,
  ⟨"CiphertextElectionContext.Make", 2315, "eg_ciphertext_election_context_make_with_configuration",
    .status, [.ulong, .ulong, .handle .elementModP, .handle .elementModQ, .handle .elementModQ,
    .handle .contextConfiguration, .outHandle .ciphertextElectionContext]⟩,
  ⟨"CiphertextElectionContext.Make", 2326, "eg_ciphertext_election_context_make_with_extended_data",
    .status, [.ulong, .ulong, .handle .elementModP, .handle .elementModQ, .handle .elementModQ,
    .handle .linkedList, .outHandle .ciphertextElectionContext]⟩,
  ⟨"CiphertextElectionContext.Make", 2337,
    "eg_ciphertext_election_context_make_with_configuration_and_extended_data", .status, [.ulong,
    .ulong, .handle .elementModP, .handle .elementModQ, .handle .elementModQ,
    .handle .contextConfiguration, .handle .linkedList, .outHandle .ciphertextElectionContext]⟩,
  ⟨"CiphertextElectionContext.Make", 2350, "eg_ciphertext_election_context_make_from_hex", .status,
    [.ulong, .ulong, .str, .str, .str, .outHandle .ciphertextElectionContext]⟩,
  ⟨"CiphertextElectionContext.Make", 2360,
    "eg_ciphertext_election_context_make_from_hex_with_extended_data", .status, [.ulong, .ulong,
    .str, .str, .str, .handle .linkedList, .outHandle .ciphertextElectionContext]⟩,
  ⟨"CiphertextElectionContext.FromJson", 2371, "eg_ciphertext_election_context_from_json", .status,
    [.str, .outHandle .ciphertextElectionContext]⟩,
  ⟨"CiphertextElectionContext.FromBson", 2377, "eg_ciphertext_election_context_from_bson", .status,
    [.uints, .ulong, .handle .ciphertextElectionContext]⟩,
  ⟨"CiphertextElectionContext.ToJson", 2382, "eg_ciphertext_election_context_to_json", .status,
    [.handle .ciphertextElectionContext, .outPtr, .outUlong]⟩,
  ⟨"CiphertextElectionContext.ToBson", 2387, "eg_ciphertext_election_context_to_bson", .status,
    [.handle .ciphertextElectionContext, .outUints, .outUlong]⟩,
  ⟨"ExtendedData.New", 2417, "eg_extended_data_new", .status, [.str, .ulong,
    .outHandle .extendedData]⟩,
  ⟨"ExtendedData.Free", 2424, "eg_extended_data_free", .status, [.raw .extendedData]⟩,
  ⟨"ExtendedData.GetValue", 2428, "eg_extended_data_get_value", .status, [.handle .extendedData,
    .outPtr]⟩,
  ⟨"ExtendedData.GetLength", 2433, "eg_extended_data_get_length", .ulong, [.handle .extendedData]⟩,
  ⟨"PlaintextBallotSelection.New", 2463, "eg_plaintext_ballot_selection_new", .status, [.str,
    .ulong, .bool, .outHandle .plaintextBallotSelection]⟩,
  ⟨"PlaintextBallotSelection.New", 2471, "eg_plaintext_ballot_selection_new_with_extended_data",
    .status, [.str, .ulong, .bool, .str, .ulong, .outHandle .plaintextBallotSelection]⟩,
  ⟨"PlaintextBallotSelection.Free", 2482, "eg_plaintext_ballot_selection_free", .status,
    [.raw .plaintextBallotSelection]⟩,
  ⟨"PlaintextBallotSelection.GetObjectId", 2486, "eg_plaintext_ballot_selection_get_object_id",
    .status, [.handle .plaintextBallotSelection, .outPtr]⟩,
  ⟨"PlaintextBallotSelection.GetVote", 2491, "eg_plaintext_ballot_selection_get_vote", .ulong,
    [.handle .plaintextBallotSelection]⟩,
  ⟨"PlaintextBallotSelection.GetIsPlaceholder", 2496,
    "eg_plaintext_ballot_selection_get_is_placeholder", .bool, [.handle .plaintextBallotSelection]⟩,
  ⟨"PlaintextBallotSelection.GetExtendedData", 2502,
    "eg_plaintext_ballot_selection_get_extended_data", .status, [.handle .plaintextBallotSelection,
    .outHandle .extendedData]⟩]

def imports5 : List Import := [
  ⟨"PlaintextBallotSelection.IsValid", 2508, "eg_plaintext_ballot_selection_is_valid", .bool,
    [.handle .plaintextBallotSelection, .str]⟩,
  ⟨"CiphertextBallotSelection.Free", 2535, "eg_ciphertext_ballot_selection_free", .status,
    [.raw .ciphertextBallotSelection]⟩,
  ⟨"CiphertextBallotSelection.GetObjectId", 2539, "eg_ciphertext_ballot_selection_get_object_id",
    .status, [.handle .ciphertextBallotSelection, .outPtr]⟩,
  ⟨"CiphertextBallotSelection.GetSequenceOrder", 2544,
    "eg_ciphertext_ballot_selection_get_sequence_order", .ulong,
    [.handle .ciphertextBallotSelection]⟩,
  ⟨"CiphertextBallotSelection.GetDescriptionHash", 2550,
    "eg_ciphertext_ballot_selection_get_description_hash", .status,
    [.handle .ciphertextBallotSelection, .outHandle .elementModQ]⟩,
  ⟨"CiphertextBallotSelection.GetIsPlaceholder", 2557,
    "eg_ciphertext_ballot_selection_get_is_placeholder", .bool,
    [.handle .ciphertextBallotSelection]⟩,
  ⟨"CiphertextBallotSelection.GetCiphertext", 2563, "eg_ciphertext_ballot_selection_get_ciphertext",
    .status, [.handle .ciphertextBallotSelection, .outHandle .elgamalCiphertext]⟩,
  ⟨"CiphertextBallotSelection.GetCryptoHash", 2570,
    "eg_ciphertext_ballot_selection_get_crypto_hash", .status, [.handle .ciphertextBallotSelection,
    .outHandle .elementModQ]⟩,
  ⟨"CiphertextBallotSelection.GetNonce", 2577, "eg_ciphertext_ballot_selection_get_nonce", .status,
    [.handle .ciphertextBallotSelection, .outHandle .elementModQ]⟩,
  ⟨"CiphertextBallotSelection.GetProof", 2584, "eg_ciphertext_ballot_selection_get_proof", .status,
    [.handle .ciphertextBallotSelection, .outHandle .disjunctiveChaumPedersenProof]⟩,
  ⟨"CiphertextBallotSelection.CryptoHashWith", 2591,
    "eg_ciphertext_ballot_selection_crypto_hash_with", .status, [.handle .ciphertextBallotSelection,
    .handle .elementModQ, .outHandle .elementModQ]⟩,
  ⟨"CiphertextBallotSelection.IsValidEncryption", 2599,
    "eg_ciphertext_ballot_selection_is_valid_encryption", .bool,
    [.handle .ciphertextBallotSelection, .handle .elementModQ, .handle .elementModP,
    .handle .elementModQ]⟩,
  ⟨"PlaintextBallotContest.New", 2631, "eg_plaintext_ballot_contest_new", .status, [.str, .ptrs,
    .ulong, .outHandle .plaintextBallotContest]⟩,
  ⟨"PlaintextBallotContest.Free", 2640, "eg_plaintext_ballot_contest_free", .status,
    [.raw .plaintextBallotContest]⟩,
  ⟨"PlaintextBallotContest.GetObjectId", 2644, "eg_plaintext_ballot_contest_get_object_id", .status,
    [.handle .plaintextBallotContest, .outPtr]⟩,
  ⟨"PlaintextBallotContest.GetSelectionsSize", 2649,
    "eg_plaintext_ballot_contest_get_selections_size", .ulong, [.handle .plaintextBallotContest]⟩,
  ⟨"PlaintextBallotContest.GetSelectionAtIndex", 2654,
    "eg_plaintext_ballot_contest_get_selection_at_index", .status, [.handle .plaintextBallotContest,
    .ulong, .outHandle .plaintextBallotSelection]⟩,
  ⟨"PlaintextBallotContest.IsValid", 2661, "eg_plaintext_ballot_contest_is_valid", .bool,
    [.handle .plaintextBallotContest, .str, .ulong, .ulong, .ulong]⟩,
  ⟨"CiphertextBallotContest.Free", 2692, "eg_ciphertext_ballot_contest_free", .status,
    [.raw .ciphertextBallotContest]⟩,
  ⟨"CiphertextBallotContest.GetObjectId", 2696, "eg_ciphertext_ballot_contest_get_object_id",
    .status, [.handle .ciphertextBallotContest, .outPtr]⟩,
  ⟨"CiphertextBallotContest.GetSequenceOrder", 2701,
    "eg_ciphertext_ballot_contest_get_sequence_order", .ulong, [.handle .ciphertextBallotContest]⟩,
  ⟨"CiphertextBallotContest.GetDescriptionHash", 2706,
    "eg_ciphertext_ballot_contest_get_description_hash", .status, [.handle .ciphertextBallotContest,
    .outHandle .elementModQ]⟩,
  ⟨"CiphertextBallotContest.GetSelectionsSize", 2713,
    "eg_ciphertext_ballot_contest_get_selections_size", .ulong, [.handle .ciphertextBallotContest]⟩,
  ⟨"CiphertextBallotContest.GetSelectionAtIndex", 2719,
    "eg_ciphertext_ballot_contest_get_selection_at_index", .status,
    [.handle .ciphertextBallotContest, .ulong, .outHandle .ciphertextBallotSelection]⟩,
  ⟨"CiphertextBallotContest.GetNonce", 2727, "eg_ciphertext_ballot_contest_get_nonce", .status,
    [.handle .ciphertextBallotContest, .outHandle .elementModQ]⟩,
  ⟨"CiphertextBallotContest.GetCiphertextAccumulation", 2733,
    "eg_ciphertext_ballot_contest_get_ciphertext_accumulation", .status,
    [.handle .ciphertextBallotContest, .outHandle .elgamalCiphertext]⟩,
  ⟨"CiphertextBallotContest.GetCryptoHash", 2740, "eg_ciphertext_ballot_contest_get_crypto_hash",
    .status, [.handle .ciphertextBallotContest, .outHandle .elementModQ]⟩,
  ⟨"CiphertextBallotContest.GetProof", 2747, "eg_ciphertext_ballot_contest_get_proof", .status,
    [.handle .ciphertextBallotContest, .outHandle .constantChaumPedersenProof]⟩,
  ⟨"CiphertextBallotContest.CryptoHashWith", 2754, "eg_ciphertext_ballot_contest_crypto_hash_with",
    .status, [.handle .ciphertextBallotContest, .handle .elementModQ, .outHandle .elementModQ]⟩,
  ⟨"CiphertextBallotContest.AggregateNonce", 2762, "eg_ciphertext_ballot_contest_aggregate_nonce",
    .status, [.handle .ciphertextBallotContest, .outHandle .elementModQ]⟩,
  ⟨"CiphertextBallotContest.ElGamalAccumulate", 2769,
    "eg_ciphertext_ballot_contest_elgamal_accumulate", .status, [.handle .ciphertextBallotContest,
    .outHandle .elgamalCiphertext]⟩,
  ⟨"CiphertextBallotContest.IsValidEncryption", 2776,
    "eg_ciphertext_ballot_selection_is_valid_encryption", .bool, [.handle .ciphertextBallotContest,
    .handle .elementModQ, .handle .elementModP, .handle .elementModQ]⟩,
  ⟨"PlaintextBallot.New", 2807, "eg_plaintext_ballot_new", .status, [.str, .str, .ptrs, .ulong,
    .outHandle .plaintextBallot]⟩,
  ⟨"PlaintextBallot.Free", 2818, "eg_plaintext_ballot_free", .status, [.raw .plaintextBallot]⟩,
  ⟨"PlaintextBallot.GetObjectId", 2822, "eg_plaintext_ballot_get_object_id", .status,
    [.handle .plaintextBallot, .outPtr]⟩,
  ⟨"PlaintextBallot.GetStyleId", 2827, "eg_plaintext_ballot_get_style_id", .status,
    [.handle .plaintextBallot, .outPtr]⟩,
  ⟨"PlaintextBallot.GetContestsSize", 2832, "eg_plaintext_ballot_get_contests_size", .ulong,
    [.handle .plaintextBallot]⟩,
  ⟨"PlaintextBallot.GetContestAtIndex", 2836, "eg_plaintext_ballot_get_contest_at_index", .status,
    [.handle .plaintextBallot, .ulong, .outHandle .plaintextBallotContest]⟩,
  ⟨"PlaintextBallot.FromJson", 2843, "eg_plaintext_ballot_from_json", .status, [.str,
    .outHandle .plaintextBallot]⟩,
  ⟨"PlaintextBallot.FromBson", 2849, "eg_plaintext_ballot_from_bson", .status, [.bytes, .ulong,
    .outHandle .plaintextBallot]⟩,
  ⟨"PlaintextBallot.FromMsgPack", 2854, "eg_plaintext_ballot_from_msgpack", .status, [.bytes,
    .ulong, .outHandle .plaintextBallot]⟩,
  ⟨"PlaintextBallot.ToJson", 2859, "eg_plaintext_ballot_to_json", .status,
    [.handle .plaintextBallot, .outPtr, .outUlong]⟩,
  ⟨"PlaintextBallot.ToBson", 2864, "eg_plaintext_ballot_to_bson", .status,
    [.handle .plaintextBallot, .outPtr, .outUlong]⟩,
  ⟨"PlaintextBallot.ToMsgPack", 2869, "eg_plaintext_ballot_to_msgpack", .status,
    [.handle .plaintextBallot, .outPtr, .outUlong]⟩,
  ⟨"CompactPlaintextBallot.Free", 2898, "eg_compact_plaintext_ballot_free", .status,
    [.raw .compactPlaintextBallot]⟩,
  ⟨"CompactPlaintextBallot.FromMsgPack", 2902, "eg_compact_plaintext_ballot_from_msgpack", .status,
    [.bytes, .ulong, .outHandle .compactPlaintextBallot]⟩,
  ⟨"CompactPlaintextBallot.ToMsgPack", 2907, "eg_compact_plaintext_ballot_to_msgpack", .status,
    [.handle .compactPlaintextBallot, .outPtr, .outUlong]⟩,
  ⟨"CompactPlaintextBallot.MsgPackFree", 2912, "eg_compact_plaintext_ballot_msgpack_free", .status,
    [.ptr]⟩,
  ⟨"CiphertextBallot.Free", 2938, "eg_ciphertext_ballot_free", .status, [.raw .ciphertextBallot]⟩,
  ⟨"CiphertextBallot.GetObjectId", 2942, "eg_ciphertext_ballot_get_object_id", .status,
    [.handle .ciphertextBallot, .outPtr]⟩,
  ⟨"CiphertextBallot.GetStyleId", 2947, "eg_ciphertext_ballot_get_style_id", .status,
    [.handle .ciphertextBallot, .outPtr]⟩,
  ⟨"CiphertextBallot.GetManifestHash", 2952, "eg_ciphertext_ballot_get_manifest_hash", .status,
    [.handle .ciphertextBallot, .outHandle .elementModQ]⟩,
  ⟨"CiphertextBallot.GetBallotCodeSeed", 2958, "eg_ciphertext_ballot_get_ballot_code_seed", .status,
    [.handle .ciphertextBallot, .outHandle .elementModQ]⟩,
  ⟨"CiphertextBallot.GetContestsSize", 2964, "eg_ciphertext_ballot_get_contests_size", .ulong,
    [.handle .ciphertextBallot]⟩,
  ⟨"CiphertextBallot.GetContestAtIndex", 2968, "eg_ciphertext_ballot_get_contest_at_index", .status,
    [.handle .ciphertextBallot, .ulong, .outHandle .ciphertextBallotContest]⟩,
  ⟨"CiphertextBallot.GetBallotCode", 2975, "eg_ciphertext_ballot_get_ballot_code", .status,
    [.handle .ciphertextBallot, .outHandle .elementModQ]⟩,
  ⟨"CiphertextBallot.GetTimestamp", 2981, "eg_ciphertext_ballot_get_timestamp", .status,
    [.handle .ciphertextBallot, .outUlong]⟩,
  ⟨"CiphertextBallot.GetNonce", 2987, "eg_ciphertext_ballot_get_nonce", .status,
    [.handle .ciphertextBallot, .outHandle .elementModQ]⟩,
  ⟨"CiphertextBallot.GetCryptoHash", 2993, "eg_ciphertext_ballot_get_crypto_hash", .status,
    [.handle .ciphertextBallot, .outHandle .elementModQ]⟩,
  ⟨"CiphertextBallot.CryptoHashWith", 2999, "eg_ciphertext_ballot_crypto_hash_with", .status,
    [.handle .ciphertextBallot, .handle .elementModQ, .outHandle .elementModQ]⟩]

def imports6 : List Import := [
  ⟨"CiphertextBallot.IsValidEncryption", 3006, "eg_ciphertext_ballot_is_valid_encryption", .bool,
    [.handle .ciphertextBallot, .handle .elementModQ, .handle .elementModP, .handle .elementModQ]⟩,
  ⟨"CiphertextBallot.FromJson", 3014, "eg_ciphertext_ballot_from_json", .status, [.str,
    .outHandle .ciphertextBallot]⟩,
  ⟨"CiphertextBallot.FromBson", 3020, "eg_ciphertext_ballot_from_bson", .status, [.bytes, .ulong,
    .outHandle .ciphertextBallot]⟩,
  ⟨"CiphertextBallot.FromMsgPack", 3025, "eg_ciphertext_ballot_from_msgpack", .status, [.bytes,
    .ulong, .outHandle .ciphertextBallot]⟩,
  ⟨"CiphertextBallot.ToJson", 3030, "eg_ciphertext_ballot_to_json", .status,
    [.handle .ciphertextBallot, .outPtr, .outUlong]⟩,
  ⟨"CiphertextBallot.ToJsonWithNonces", 3035, "eg_ciphertext_ballot_to_json_with_nonces", .status,
    [.handle .ciphertextBallot, .outPtr, .outUlong]⟩,
  ⟨"CiphertextBallot.ToBson", 3040, "eg_ciphertext_ballot_to_bson", .status,
    [.handle .ciphertextBallot, .outPtr, .outUlong]⟩,
  ⟨"CiphertextBallot.ToBsonWithNonces", 3045, "eg_ciphertext_ballot_to_bson_with_nonces", .status,
    [.handle .ciphertextBallot, .outPtr, .outUlong]⟩,
  ⟨"CiphertextBallot.ToMsgPack", 3050, "eg_ciphertext_ballot_to_msgpack", .status,
    [.handle .ciphertextBallot, .outPtr, .outUlong]⟩,
  ⟨"CiphertextBallot.ToMsgPackWithNonces", 3055, "eg_ciphertext_ballot_to_msgpack_with_nonces",
    .status, [.handle .ciphertextBallot, .outPtr, .outUlong]⟩,
  ⟨"CompactCiphertextBallot.Free", 3082, "eg_compact_ciphertext_ballot_free", .status,
    [.raw .compactCiphertextBallot]⟩,
  ⟨"CompactCiphertextBallot.GetObjectId", 3086, "eg_compact_ciphertext_ballot_get_object_id",
    .status, [.handle .compactCiphertextBallot, .outPtr]⟩,
  ⟨"CompactCiphertextBallot.FromMsgPack", 3091, "eg_compact_ciphertext_ballot_from_msgpack",
    .status, [.bytes, .ulong, .outHandle .compactCiphertextBallot]⟩,
  ⟨"CompactCiphertextBallot.ToMsgPack", 3096, "eg_compact_ciphertext_ballot_to_msgpack", .status,
    [.handle .compactCiphertextBallot, .outPtr, .outUlong]⟩,
  ⟨"CompactCiphertextBallot.MsgPackFree", 3101, "eg_compact_ciphertext_ballot_msgpack_free",
    .status, [.ptr]⟩,
  ⟨"SubmittedBallot.Free", 3132, "eg_submitted_ballot_free", .status, [.raw .submittedBallot]⟩,
  ⟨"SubmittedBallot.GetState", 3136, "eg_submitted_ballot_get_state", .enum .ballotBoxState,
    [.handle .submittedBallot]⟩,
  ⟨"SubmittedBallot.From", 3140, "eg_submitted_ballot_from", .status, [.handle .ciphertextBallot,
    .enum .ballotBoxState, .outHandle .submittedBallot]⟩,
  ⟨"SubmittedBallot.GetObjectId", 3152, "eg_ciphertext_ballot_get_object_id", .status,
    [.handle .submittedBallot, .outPtr]⟩,
  ⟨"SubmittedBallot.GetStyleId", 3157, "eg_ciphertext_ballot_get_style_id", .status,
    [.handle .submittedBallot, .outPtr]⟩,
  ⟨"SubmittedBallot.GetManifestHash", 3162, "eg_ciphertext_ballot_get_manifest_hash", .status,
    [.handle .submittedBallot, .outHandle .elementModQ]⟩,
  ⟨"SubmittedBallot.GetBallotCodeSeed", 3168, "eg_ciphertext_ballot_get_ballot_code_seed", .status,
    [.handle .submittedBallot, .outHandle .elementModQ]⟩,
  ⟨"SubmittedBallot.GetContestsSize", 3174, "eg_ciphertext_ballot_get_contests_size", .ulong,
    [.handle .submittedBallot]⟩,
  ⟨"SubmittedBallot.GetContestAtIndex", 3178, "eg_ciphertext_ballot_get_contest_at_index", .status,
    [.handle .submittedBallot, .ulong, .outHandle .ciphertextBallotContest]⟩,
  ⟨"SubmittedBallot.GetBallotCode", 3185, "eg_ciphertext_ballot_get_ballot_code", .status,
    [.handle .submittedBallot, .outHandle .elementModQ]⟩,
  ⟨"SubmittedBallot.GetTimestamp", 3191, "eg_ciphertext_ballot_get_timestamp", .status,
    [.handle .submittedBallot, .outUlong]⟩,
  ⟨"SubmittedBallot.GetCryptoHash", 3199, "eg_ciphertext_ballot_get_crypto_hash", .status,
    [.handle .submittedBallot, .outHandle .elementModQ]⟩,
  ⟨"SubmittedBallot.IsValidEncryption", 3207, "eg_ciphertext_ballot_is_valid_encryption", .bool,
    [.handle .submittedBallot, .handle .elementModQ, .handle .elementModP, .handle .elementModQ]⟩,
  ⟨"SubmittedBallot.FromJson", 3217, "eg_submitted_ballot_from_json", .status, [.str,
    .outHandle .submittedBallot]⟩,
  ⟨"SubmittedBallot.FromBson", 3223, "eg_submitted_ballot_from_bson", .status, [.bytes, .ulong,
    .outHandle .submittedBallot]⟩,
  ⟨"SubmittedBallot.FromMsgPack", 3228, "eg_submitted_ballot_from_msgpack", .status, [.bytes,
    .ulong, .outHandle .submittedBallot]⟩,
  ⟨"SubmittedBallot.ToJson", 3233, "eg_submitted_ballot_to_json", .status,
    [.handle .submittedBallot, .outPtr, .outUlong]⟩,
  ⟨"SubmittedBallot.ToBson", 3238, "eg_submitted_ballot_to_bson", .status,
    [.handle .submittedBallot, .outPtr, .outUlong]⟩,
  ⟨"SubmittedBallot.ToMsgPack", 3243, "eg_submitted_ballot_to_msgpack", .status,
    [.handle .submittedBallot, .outPtr, .outUlong]⟩,
  ⟨"EncryptionDevice.New", 3275, "eg_encryption_device_new", .status, [.ulong, .ulong, .ulong, .str,
    .outHandle .encryptionDevice]⟩,
  ⟨"EncryptionDevice.Free", 3284, "eg_encryption_device_free", .status, [.raw .encryptionDevice]⟩,
  ⟨"EncryptionDevice.GetHash", 3289, "eg_encryption_device_get_hash", .status,
    [.handle .encryptionDevice, .outHandle .elementModQ]⟩,
  ⟨"EncryptionDevice.FromJson", 3297, "eg_encryption_device_from_json", .status, [.str,
    .outHandle .encryptionDevice]⟩,
  ⟨"EncryptionDevice.ToJson", 3303, "eg_encryption_device_to_json", .status,
    [.handle .encryptionDevice, .outPtr, .outUlong]⟩,
  ⟨"EncryptionMediator.New", 3332, "eg_encryption_mediator_new", .status,
    [.handle .internalManifest, .handle .ciphertextElectionContext, .handle .encryptionDevice,
    .outHandle .encryptionMediator]⟩,
  ⟨"EncryptionMediator.Free", 3340, "eg_encryption_mediator_free", .status,
    [.raw .encryptionMediator]⟩,
  ⟨"EncryptionMediator.CompactEncrypt", 3344, "eg_encryption_mediator_compact_encrypt_ballot",
    .status, [.handle .encryptionMediator, .handle .plaintextBallot,
    .outHandle .compactCiphertextBallot]⟩,
  ⟨"EncryptionMediator.CompactEncryptAndVerify", 3351,
    "eg_encryption_mediator_compact_encrypt_ballot_verify_proofs", .status,
    [.handle .encryptionMediator, .handle .plaintextBallot, .outHandle .compactCiphertextBallot]⟩,
  ⟨"EncryptionMediator.Encrypt", 3359, "eg_encryption_mediator_encrypt_ballot", .status,
    [.handle .encryptionMediator, .handle .plaintextBallot, .outHandle .ciphertextBallot]⟩,
  ⟨"EncryptionMediator.EncryptAndVerify", 3366,
    "eg_encryption_mediator_encrypt_ballot_verify_proofs", .status, [.handle .encryptionMediator,
    .handle .plaintextBallot, .outHandle .ciphertextBallot]⟩,
  ⟨"Encrypt.Selection", 3378, "eg_encrypt_selection", .status, [.handle .plaintextBallotSelection,
    .handle .selectionDescription, .handle .elementModP, .handle .elementModQ, .handle .elementModQ,
    .bool, .outHandle .ciphertextBallotSelection]⟩,
  ⟨"Encrypt.Contest", 3389, "eg_encrypt_contest", .status, [.handle .plaintextBallotContest,
    .handle .contestDescription, .handle .elementModP, .handle .elementModQ, .handle .elementModQ,
    .bool, .outHandle .ciphertextBallotContest]⟩,
  ⟨"Encrypt.Ballot", 3400, "eg_encrypt_ballot", .status, [.handle .plaintextBallot,
    .handle .internalManifest, .handle .ciphertextElectionContext, .handle .elementModQ, .bool,
    .outHandle .ciphertextBallot]⟩,
  ⟨"Encrypt.Ballot", 3410, "eg_encrypt_ballot_with_nonce", .status, [.handle .plaintextBallot,
    .handle .internalManifest, .handle .ciphertextElectionContext, .handle .elementModQ,
    .handle .elementModQ, .bool, .outHandle .ciphertextBallot]⟩,
  ⟨"Encrypt.CompactBallot", 3421, "eg_encrypt_compact_ballot", .status, [.handle .plaintextBallot,
    .handle .internalManifest, .handle .ciphertextElectionContext, .handle .elementModQ, .bool,
    .outHandle .compactCiphertextBallot]⟩,
  ⟨"Encrypt.CompactBallot", 3431, "eg_encrypt_compact_ballot_with_nonce", .status,
    [.handle .plaintextBallot, .handle .internalManifest, .handle .ciphertextElectionContext,
    .handle .elementModQ, .handle .elementModQ, .bool, .outHandle .compactCiphertextBallot]⟩,
  ⟨"PrecomputeBuffers.Init", 3446, "eg_precompute_init", .status, [.int]⟩,
  ⟨"PrecomputeBuffers.Populate", 3450, "eg_precompute_populate", .status, [.handle .elementModP]⟩,
  ⟨"PrecomputeBuffers.Stop", 3454, "eg_precompute_stop", .status, []⟩,
  ⟨"PrecomputeBuffers.Status", 3458, "eg_precompute_status", .status, [.outInt, .outInt]⟩,
  ⟨"Memory.FreeIntPtr", 3469, "eg_free_int_ptr", .status, [.ptr]⟩,
  ⟨"Memory.DeleteIntPtr", 3473, "eg_delete_int_ptr", .status, [.ptr]⟩]

def imports : List Import :=
  imports1 ++ imports2 ++ imports3 ++ imports4 ++ imports5 ++ imports6

/-- C functions whose result is not a status. -/
def returned : List (String × Ret) := [
  ("eg_extended_data_get_length", .ulong),
  ("eg_plaintext_ballot_selection_get_vote", .ulong),
  ("eg_plaintext_ballot_selection_get_is_placeholder", .bool),
  ("eg_plaintext_ballot_selection_is_valid", .bool),
  ("eg_ciphertext_ballot_selection_get_sequence_order", .ulong),
  ("eg_ciphertext_ballot_selection_get_is_placeholder", .bool),
  ("eg_ciphertext_ballot_selection_is_valid_encryption", .bool),
  ("eg_plaintext_ballot_contest_get_selections_size", .ulong),
  ("eg_plaintext_ballot_contest_is_valid", .bool),
  ("eg_ciphertext_ballot_contest_get_sequence_order", .ulong),
  ("eg_ciphertext_ballot_contest_get_selections_size", .ulong),
  ("eg_ciphertext_ballot_contest_is_valid_encryption", .bool),
  ("eg_plaintext_ballot_get_contests_size", .ulong),
  ("eg_ciphertext_ballot_get_contests_size", .ulong),
  ("eg_ciphertext_ballot_get_timestamp", .ulong),
  ("eg_ciphertext_ballot_is_valid_encryption", .bool),
  ("eg_submitted_ballot_get_state", .enum .ballotBoxState),
  ("eg_disjunctive_chaum_pedersen_proof_is_valid", .bool),
  ("eg_constant_chaum_pedersen_proof_is_valid", .bool),
  ("eg_linked_list_get_count", .ulong),
  ("eg_internationalized_text_get_text_size", .ulong),
  ("eg_contact_information_get_address_line_size", .ulong),
  ("eg_contact_information_get_email_line_size", .ulong),
  ("eg_contact_information_get_phone_line_size", .ulong),
  ("eg_ballot_style_get_geopolitical_unit_ids_size", .ulong),
  ("eg_ballot_style_get_party_ids_size", .ulong),
  ("eg_candidate_get_is_write_in", .bool),
  ("eg_selection_description_get_sequence_order", .ulong),
  ("eg_contest_description_get_sequence_order", .ulong),
  ("eg_contest_description_get_vote_variation", .enum .voteVariationType),
  ("eg_contest_description_get_number_elected", .ulong),
  ("eg_contest_description_get_votes_allowed", .ulong),
  ("eg_contest_description_get_selections_size", .ulong),
  ("eg_contest_description_with_placeholders_get_placeholders_size", .ulong),
  ("eg_contest_description_with_placeholders_is_placeholder", .bool),
  ("eg_election_manifest_get_type", .enum .electionType),
  ("eg_election_manifest_get_start_date", .ulong),
  ("eg_election_manifest_get_end_date", .ulong),
  ("eg_election_manifest_get_geopolitical_units_size", .ulong),
  ("eg_election_manifest_get_parties_size", .ulong),
  ("eg_election_manifest_get_candidates_size", .ulong),
  ("eg_election_manifest_get_contests_size", .ulong),
  ("eg_election_manifest_get_ballot_styles_size", .ulong),
  ("eg_election_manifest_is_valid", .bool),
  ("eg_internal_manifest_get_geopolitical_units_size", .ulong),
  ("eg_internal_manifest_get_contests_size", .ulong),
  ("eg_internal_manifest_get_ballot_styles_size", .ulong)]

end EG.Cs
