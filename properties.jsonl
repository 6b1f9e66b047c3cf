{"id": "C01", "title": "Addition modulo q", "statement": "For any two exponents that a checked constructor accepts (value <= q), add_mod_q returns the unique residue in [0,q) congruent to their sum modulo q; folding a non-empty vector returns the residue of the total, and an empty vector is refused with invalid_argument.", "quantifier": "all pairs of 256-bit elements with value <= q, all vectors of them", "why_tests_cant": "the carry / all-ones branches fire on a negligible fraction of 2^512 pairs; the existing boundary tests encode expected values for out-of-range operands that are themselves wrong residues", "anchors": ["src/electionguard/group.cpp: add_mod_q", "src/electionguard/utils.hpp: isMax"]}
{"id": "C02", "title": "Subtraction modulo q", "statement": "For any two exponents with value <= q, sub_mod_q(a,b) is the residue in [0,q) of a-b modulo q, so sub_mod_q inverts add_mod_q. For operands above q (obtainable by unchecked construction) the code gives a wrong result when the subtraction borrows.", "quantifier": "all pairs of 256-bit elements", "why_tests_cant": "borrow branch depends on relation between both 256-bit operands", "anchors": ["src/electionguard/group.cpp: sub_mod_q"]}
{"id": "C03", "title": "Fused a+b*c modulo q", "statement": "a_plus_bc_mod_q(a,b,c) returns the residue in [0,q) of a+b*c for every three 256-bit values, including values above q.", "quantifier": "all triples of 256-bit values", "why_tests_cant": "2^768 inputs; the carry limb is only set for rare inputs", "anchors": ["src/electionguard/group.cpp: a_plus_bc_mod_q"]}
{"id": "C04", "title": "Multiplication modulo p", "statement": "mul_mod_p(a,b) returns the residue of a*b in [0,p) for every two 4096-bit values, and the vector overload returns the residue of the product of all operands whatever mixture of p- and q-elements is given.", "quantifier": "all pairs of 4096-bit values; all operand vectors", "why_tests_cant": "unbounded vectors, 2^8192 pairs", "anchors": ["src/electionguard/group.cpp: mul_mod_p"]}
{"id": "C05", "title": "Exponentiation is independent of the fixed-base path", "statement": "For every base below p and every exponent that fits 256 bits, pow_mod_p returns base^exponent mod p, and the result is the same whether the base is flagged fixed-base (lookup table) or not; exponent zero yields one.", "quantifier": "all bases below p, all 256-bit exponents, both settings of the fixed-base flag", "why_tests_cant": "tables have 32*256 entries for each base, agreement must hold for each of 2^256 exponents", "anchors": ["src/electionguard/group.cpp: pow_mod_p", "src/electionguard/lookup_table.hpp: FixedBaseTable::pow_mod_p, generateTable"]}
{"id": "C06", "title": "Addition and reduction modulo p", "statement": "For any two elements with value <= p, add_mod_p should return the residue of the sum in [0,p). (The code only does so while the sum is below 2^4096-1; from there on it reads beyond a 4-limb constant and adds the wrong offset.) mod_p should return the residue of an element; it always reads 128 limbs from an array of 64.", "quantifier": "all pairs of 4096-bit elements with value <= p", "why_tests_cant": "the failing half of the input space needs large random operands, unit tests use small ones", "anchors": ["src/electionguard/group.cpp: add_mod_p, mod_p"]}
{"id": "C07", "title": "Checked construction and bounds", "statement": "A checked element constructor (limb array that fits, non-empty bytes, hex digits of a non-zero number, uint64) returns an element exactly when the value does not exceed the modulus, and then stores exactly that value; otherwise it throws out_of_range. (Hex digits of zero and other texts: C08 and C55.) isInBounds holds exactly for 0 < value < modulus. Consequently the modulus itself is accepted on construction although it is not in bounds.", "quantifier": "all 256-bit / 4096-bit values", "why_tests_cant": "only boundary values separate <= from <", "anchors": ["src/electionguard/group.cpp: ElementModP::Impl, ElementModQ::Impl, isInBounds, fromUint64, bytes_to_p, bytes_to_q"]}
{"id": "C08", "title": "Hex and byte round trips of group elements", "statement": "Converting an element to bytes and back, or to hex and back, yields the same element for every non-zero element; distinct elements have distinct hex strings. (For zero the hex round trip throws.)", "quantifier": "all elements of Z_p and Z_q", "why_tests_cant": "leading-zero handling depends on the value's length in nibbles; only one value (zero) fails", "anchors": ["src/electionguard/group.cpp: toHex, fromHex, toBytes, bytes_to_p, bytes_to_q", "src/electionguard/convert.hpp: sanitize_hex_string, bytes_to_hex, hex_to_bytes"]}
{"id": "C09", "title": "Valid residues form a group", "statement": "isValidResidue(x) holds exactly when 0<x<p and x^q mod p = 1; the generator is a valid residue; valid residues are closed under mul_mod_p and pow_mod_p.", "quantifier": "all elements, all exponents", "why_tests_cant": "closure is an algebraic law over the whole subgroup", "anchors": ["src/electionguard/group.cpp: isValidResidue, G, mul_mod_p, pow_mod_p"]}
{"id": "C10", "title": "Random exponents are usable but not uniform", "statement": "Whatever bytes the random source returns, rand_q yields an element in [0,q). Every value of [0,q) should be reachable; the code masks bits 2,3,4,5 and 7 of the low limb, so no element with one of these bits set is ever produced.", "quantifier": "all outputs of the random source", "why_tests_cant": "a statement about the image of a function on 2^256 inputs", "anchors": ["src/electionguard/group.cpp: rand_q, rand_p", "src/electionguard/random.hpp: Random::getBytes"]}
{"id": "C11", "title": "ElGamal decryption inverts encryption", "statement": "For every key pair made from a secret by the API and every nonce in [1,q), decrypting an encryption of 0 returns 0 and of 1 returns 1; a zero nonce is refused with invalid_argument.", "quantifier": "all secrets accepted by key generation, all nonces, both plaintexts", "why_tests_cant": "2^512 secret/nonce pairs", "anchors": ["src/electionguard/elgamal.cpp: elgamalEncrypt, ElGamalCiphertext::decrypt, ElGamalKeyPair::fromSecret"]}
{"id": "C12", "title": "ElGamal is additively homomorphic", "statement": "elgamalAdd over any non-empty list of ciphertexts of m_i under nonces n_i is the ciphertext with pad g^(sum n_i) and data g^(sum m_i)*K^(sum n_i); decrypting it returns the sum when the sum is 0 or 1. The result does not depend on the order of the list; an empty list is refused.", "quantifier": "all lists of ciphertexts, all orders", "why_tests_cant": "unbounded list length", "anchors": ["src/electionguard/elgamal.cpp: elgamalAdd, decrypt"]}
{"id": "C13", "title": "Out-of-range plaintexts", "statement": "The header promises encryption of any integer in [0,q). The code encrypts every m >= 2 as if it were 0, so two different messages share a ciphertext.", "quantifier": "all messages >= 2", "why_tests_cant": "universal statement over messages", "anchors": ["src/electionguard/elgamal.cpp: elgamalEncrypt", "include/electionguard/elgamal.hpp: elgamalEncrypt documentation"]}
{"id": "C14", "title": "Precomputed encryption equals direct encryption", "statement": "elgamalEncrypt_with_precomputed on a pair (g^e, K^e) for exponent e yields exactly the ciphertext that elgamalEncrypt yields with nonce e, for each of the plaintexts 0 and 1 and every e <> 0.", "quantifier": "all exponents, keys, plaintexts 0/1", "why_tests_cant": "all exponents", "anchors": ["src/electionguard/elgamal.cpp: elgamalEncrypt_with_precomputed", "src/electionguard/precompute_buffers.cpp: Triple::generateTriple"]}
{"id": "C15", "title": "Hashed ElGamal round trip (padded)", "statement": "For every key pair, nonce, description hash and message of at most max_len bytes, decrypting (with padding removal and the same description hash) what hashedElgamalEncrypt produced returns exactly the message, and the ciphertext length depends only on max_len.", "quantifier": "all messages of all lengths up to the bound, keys, nonces, seeds, hash and MAC functions", "why_tests_cant": "all message contents, including ones starting or ending in zero bytes", "anchors": ["src/electionguard/elgamal.cpp: hashedElgamalEncrypt, HashedElGamalCiphertext::decrypt", "src/electionguard/hmac.cpp: HMAC::compute"]}
{"id": "C16", "title": "Hashed ElGamal truncation and rejection", "statement": "With truncation allowed, a message longer than max_len decrypts to its first max_len bytes; with truncation disallowed it is refused; without padding any message whose length is not a multiple of 32 is refused and others round-trip unchanged when non-empty and shorter than 2^32 bytes.", "quantifier": "all messages, lengths and flags", "why_tests_cant": "boundary at max_len and at block multiples for all lengths", "anchors": ["src/electionguard/elgamal.cpp: hashedElgamalEncrypt"]}
{"id": "C17", "title": "Hashed ElGamal decryption is safe on arbitrary input", "statement": "For every ciphertext (attacker chosen pad, data, mac) and key, decrypt either throws (wrong length, MAC mismatch, malformed padding) or returns a plaintext with the MAC recomputed over pad and data equal to the given one; it never indexes outside the buffers.", "quantifier": "all ciphertexts, keys, seeds and MAC functions", "why_tests_cant": "adversarial inputs that pass the MAC cannot be generated by random tests", "anchors": ["src/electionguard/elgamal.cpp: HashedElGamalCiphertext::decrypt"]}
{"id": "C18", "title": "Hashed ElGamal and the precompute buffer", "statement": "hashedElgamalEncrypt should encrypt to the public key and nonce passed in. When the precompute buffer holds a triple the code uses the triple instead and ignores both, so the result is a correct encryption for the key the buffer was populated with, and the argument key's owner recovers the message only if the keys agree.", "quantifier": "all buffer states, keys and messages", "why_tests_cant": "depends on hidden global state (queue contents) at call time", "anchors": ["src/electionguard/elgamal.cpp: hashedElgamalEncrypt", "src/electionguard/precompute_buffers.cpp: PrecomputeBufferContext::getTriple"]}
{"id": "C19", "title": "Disjunctive proof completeness", "statement": "Every proof produced for an honest encryption of 0 or 1 (by the seeded, the randomised or the precomputed prover) verifies, except for the negligible choices in which one of the two challenges or two responses is exactly zero, in which case the verifier rejects.", "quantifier": "all nonces, keys, seeds, random choices, both plaintexts, all hash functions", "why_tests_cant": "exponents range over 2^256 values; failure set is negligible but non-empty", "anchors": ["src/electionguard/chaum_pedersen.cpp: DisjunctiveChaumPedersenProof::make, make_with_precomputed, isValid"]}
{"id": "C20", "title": "Disjunctive proof special soundness", "statement": "If two proofs with the same ciphertext and the same commitments both satisfy the verifier's equations with different total challenges, then the ciphertext is an encryption of 0 or of 1 under the public key: there is a nonce r with pad=g^r and data=K^r or g*K^r.", "quantifier": "all ciphertexts, keys and pairs of accepted transcripts", "why_tests_cant": "quantifies over all adversarial transcripts", "anchors": ["src/electionguard/chaum_pedersen.cpp: DisjunctiveChaumPedersenProof::isValid"]}
{"id": "C21", "title": "Constant proof completeness", "statement": "For a contest total that is an honest encryption of the constant L under aggregate nonce R, ConstantChaumPedersenProof::make yields a proof that isValid accepts unless the challenge or response is exactly zero, provided the precompute buffer is empty or holds triples of that key; a proof for a wrong constant, or made with a buffered triple of another key, is rejected.", "quantifier": "all totals, nonces, keys, seeds, hash functions", "why_tests_cant": "2^256 exponents", "anchors": ["src/electionguard/chaum_pedersen.cpp: ConstantChaumPedersenProof::make, isValid"]}
{"id": "C22", "title": "Constant proof special soundness", "statement": "Two accepted constant proofs with equal commitments and different challenges force the ciphertext to encrypt exactly the stated constant L.", "quantifier": "all ciphertexts, constants and transcripts", "why_tests_cant": "adversarial transcripts", "anchors": ["src/electionguard/chaum_pedersen.cpp: ConstantChaumPedersenProof::isValid"]}
{"id": "C23", "title": "Verifier decides exactly the specification equations", "statement": "The disjunctive and the constant verifier return true exactly when all group elements are valid residues, all exponents are in (0,q), the challenge is the hash of the statement and commitments, challenges add up, and every specification equation holds; in particular changing any single component of a valid proof's challenge sum or hash inputs is rejected unless the hash collides.", "quantifier": "all proofs, ciphertexts, keys, hash functions", "why_tests_cant": "each conjunct could be dropped without honest tests noticing", "anchors": ["src/electionguard/chaum_pedersen.cpp: isValid"]}
{"id": "C24", "title": "Copies of proofs equal the original", "statement": "Cloning a disjunctive proof gives a proof with the same eleven components. (clone() passes the second pad twice, so the second data commitment is lost and a valid proof's clone fails verification; the copy constructor is right.)", "quantifier": "all proofs", "why_tests_cant": "needs two different fields to be equal to go unnoticed", "anchors": ["src/electionguard/chaum_pedersen.cpp: DisjunctiveChaumPedersenProof::clone, Impl::clone"]}
{"id": "C25", "title": "Hash results are exponents", "statement": "hash_elems always returns an element in [0,q), whatever is hashed, and depends only on the rendered strings of the arguments.", "quantifier": "all argument lists, all digest functions", "why_tests_cant": "digest values in [q,2^256) occur with probability 2^-248", "anchors": ["src/electionguard/hash.cpp: hash_elems, hash_close"]}
{"id": "C26", "title": "Hash input encoding", "statement": "Different argument lists of the same arity should give different SHA-256 inputs. This holds for lists of non-zero group elements, non-zero integers and non-empty delimiter-free strings of known type; it fails in general: null, 0, the empty string, the empty list and the string \"null\" are rendered alike, and a string containing '|' can imitate two arguments.", "quantifier": "all pairs of argument lists", "why_tests_cant": "injectivity over all pairs", "anchors": ["src/electionguard/hash.cpp: get_hash_string, push_hash_update, hash_inner_vector"]}
{"id": "C27", "title": "Nonce sequences", "statement": "For every seed and headers: get(i) depends only on the seed, headers and i, never on earlier calls; after get(i), successive next() calls return get(i+1), get(i+2), ...; get(start,count) returns exactly the count elements get(start)...get(start+count-1) (when start+count does not overflow).", "quantifier": "all seeds, headers, histories of calls, indices", "why_tests_cant": "all call histories", "anchors": ["src/electionguard/nonces.cpp: Nonces::get, next"]}
{"id": "C28", "title": "Precomputed values are handed out at most once, in order", "statement": "Over every history of populate, stop, get and empty operations, each generated triple/quadruple is handed out at most once, in generation order, and never after the queues (of fewer than 2^31 entries) were emptied.", "quantifier": "all operation histories and interleavings of the locked operations", "why_tests_cant": "histories are unbounded; a duplicate reuse of an encryption nonce breaks secrecy silently", "anchors": ["src/electionguard/precompute_buffers.cpp: PrecomputeBufferContext"]}
{"id": "C29", "title": "Precompute buffer size", "statement": "A populate run that is not stopped leaves at least max entries and, if it starts below the target, exactly max entries of the combined queue; if it starts at or above the target it still adds one; the triple queue gets two entries for every third combined entry; nothing is added once generation was stopped.", "quantifier": "all initial queue lengths, targets", "why_tests_cant": "all lengths", "anchors": ["src/electionguard/precompute_buffers.cpp: populate, init, stop_populate"]}
{"id": "C30", "title": "Precomputed values belong to the key in use", "statement": "Every value handed out should be (e, g^e, K^e) for the key of the latest initialisation. It holds for the key in force when the value was generated, but init with another key does not discard earlier values.", "quantifier": "all operation histories with several keys", "why_tests_cant": "requires a history with a key change", "anchors": ["src/electionguard/precompute_buffers.cpp: init, populate, getTwoTriplesAndAQuadruple"]}
{"id": "C31", "title": "Contest validity classification", "statement": "PlaintextBallotContest::isValid returns INVALID_OBJECT_ID exactly on id mismatch, else TOO_MANY_SELECTIONS exactly when there are more selections than expected, else OVERVOTE (or OVERVOTE_ERROR when overvotes are unsupported) exactly when too many selections are chosen or too many votes cast, else SUCCESS.", "quantifier": "all contests, limits and flags", "why_tests_cant": "decision table over unbounded lists and 64-bit sums", "anchors": ["src/electionguard/ballot.cpp: PlaintextBallotContest::isValid, PlaintextBallotSelection::isValid"]}
{"id": "C32", "title": "Encrypted contest totals", "statement": "For every contest accepted by encryptContest whose description lists numberElected placeholders and selections with distinct ids, with precompute buffers that are empty or filled for the same key, the encrypted plaintexts of real selections and placeholders add up to exactly numberElected, and each is 0 or 1.", "quantifier": "all ballots, descriptions, overvotes and undervotes", "why_tests_cant": "all vote patterns", "anchors": ["src/electionguard/encrypt.cpp: encryptContest", "src/electionguard/manifest.cpp: generatePlaceholderSelectionsFrom"]}
{"id": "C33", "title": "Overvotes count for nobody, honest votes are preserved", "statement": "With precompute buffers that are empty or filled for the same key: on overvote every real selection encrypts 0 and every placeholder 1; otherwise every real selection encrypts exactly the voter's vote (first entry with that id) or 0 when absent, in the order of the description.", "quantifier": "all contests", "why_tests_cant": "all vote patterns", "anchors": ["src/electionguard/encrypt.cpp: encryptContest, emplaceMissingValues"]}
{"id": "C34", "title": "Ballot normalisation", "statement": "emplaceMissingValues yields exactly one contest for every contest of the ballot style, in manifest order, each with exactly one selection per description; supplied votes are kept, missing ones are 0, unknown ones dropped; it is idempotent.", "quantifier": "all ballots and manifests", "why_tests_cant": "all combinations", "anchors": ["src/electionguard/encrypt.cpp: emplaceMissingValues, contestFrom, selectionFrom"]}
{"id": "C35", "title": "Encrypted selections and contests verify", "statement": "Every selection/contest returned by the encryption API with proofs passes isValidEncryption against the description hash, public key and extended hash (outside of the zero-challenge cases, and with precompute buffers that are empty or filled for the same key), and with verification requested an invalid one is never returned but an exception is thrown.", "quantifier": "all selections, nonces, keys", "why_tests_cant": "all nonces and keys", "anchors": ["src/electionguard/encrypt.cpp: encryptSelection, encryptContest", "src/electionguard/ballot.cpp: isValidEncryption"]}
{"id": "C36", "title": "Ballot validity detects tampering", "statement": "CiphertextBallot::isValidEncryption should be true only if every contest and selection is valid and every stored hash matches. It holds when the composed keys \"contest-selection\" are distinct; results are stored in a map keyed by the composed id, so a later valid entry can hide an earlier invalid one.", "quantifier": "all ballots incl. adversarial ids", "why_tests_cant": "needs colliding ids", "anchors": ["src/electionguard/ballot.cpp: CiphertextBallot::isValidEncryption"]}
{"id": "C37", "title": "Ballot codes form a hash chain", "statement": "For any sequence of ballots encrypted by one mediator, each ballot code is the hash of the previous ballot's code (the device hash for the first), the timestamp and the ballot hash; changing, removing or reordering any ballot changes all later codes unless the hash collides.", "quantifier": "all sequences of ballots", "why_tests_cant": "unbounded sequences", "anchors": ["src/electionguard/encrypt.cpp: EncryptionMediator::encrypt", "src/electionguard/ballot_code.cpp: getHashForDevice, getBallotCode"]}
{"id": "C38", "title": "Ballot hash and contest order", "statement": "The ballot hash computed at creation should equal the one recomputed from the ballot. Creation hashes contests in the given order, recomputation in sequence order; they agree exactly for contests given in sequence order (or if the hash collides).", "quantifier": "all contest orders", "why_tests_cant": "all permutations", "anchors": ["src/electionguard/ballot.cpp: CiphertextBallot::make, crypto_hash_with, getContests"]}
{"id": "C39", "title": "Compact ballot round trip", "statement": "Expanding the compressed plaintext ballot gives the same contests, selections, votes and write-ins as the normalised ballot; expanding a compact ciphertext ballot re-encrypts deterministically to the same ciphertext ballot and otherwise throws.", "quantifier": "all ballots, manifests, nonces", "why_tests_cant": "all ballots", "anchors": ["src/electionguard/ballot_compact.cpp: compressPlaintextBallot, expandCompactPlaintextBallot, expandCompactCiphertextBallot"]}
{"id": "C40", "title": "Mediator and context consistency", "statement": "An EncryptionMediator can be constructed exactly when the manifest hash of the internal manifest and of the context agree; the context's base hash binds p,q,g, guardian count, quorum and manifest hash, the extended hash also the commitment hash.", "quantifier": "all manifests and contexts", "why_tests_cant": "all pairs", "anchors": ["src/electionguard/encrypt.cpp: EncryptionMediator::EncryptionMediator", "src/electionguard/election.cpp: CiphertextElectionContext::make"]}
{"id": "C41", "title": "Manifest validity", "statement": "Manifest::isValid holds exactly when all identifier classes are non-empty-valued and distinct, styles refer to known geopolitical units, candidates to known parties, contests are individually valid, have distinct sequence numbers and refer to known districts.", "quantifier": "all manifests", "why_tests_cant": "all manifests", "anchors": ["src/electionguard/manifest.cpp: Manifest::isValid"]}
{"id": "C42", "title": "Contest description validity", "statement": "ContestDescription::isValid holds exactly when the numbers elected/allowed fit and selections have distinct non-empty ids, candidate ids and distinct sequence numbers.", "quantifier": "all contest descriptions", "why_tests_cant": "all descriptions", "anchors": ["src/electionguard/manifest.cpp: ContestDescription::isValid"]}
{"id": "C43", "title": "Placeholders", "statement": "Generated placeholders number exactly numberElected, have pairwise distinct ids and sequence numbers, none of which clashes with a real selection of the contest. (Fails when sequence numbers reach 2^32: they are truncated to 32 bits.)", "quantifier": "all contest descriptions", "why_tests_cant": "wrap-around needs sequence numbers >= 2^32", "anchors": ["src/electionguard/manifest.cpp: generateContestsWithPlaceholders, generatePlaceholderSelectionsFrom, generatePlaceholderSelectionFrom"]}
{"id": "C44", "title": "Contests of a ballot style", "statement": "getContestsFor returns exactly the contests whose district is one of the style's geopolitical units, sorted by sequence order, each once. (Fails: a style listing a unit twice yields contests twice.) A missing style is refused.", "quantifier": "all manifests and styles", "why_tests_cant": "all manifests", "anchors": ["src/electionguard/manifest.cpp: InternalManifest::getContestsFor, getBallotStyle"]}
{"id": "C45", "title": "Copies of contest descriptions keep their hash", "statement": "Cloning a contest description should preserve all fields and hence its hash. (clone drops the explicit votesAllowed and subtitle when there is no title, and always the primary parties.)", "quantifier": "all contest descriptions", "why_tests_cant": "needs votesAllowed different from the default", "anchors": ["src/electionguard/manifest.cpp: ContestDescription::clone, crypto_hash"]}
{"id": "C46", "title": "Manifest hash coverage", "statement": "Two manifests with the same hash should agree on everything voters see, unless SHA-256 collides. Candidates are not hashed at all, so replacing them does not change the manifest hash.", "quantifier": "all manifests", "why_tests_cant": "needs a pair of manifests differing only in candidates", "anchors": ["src/electionguard/manifest.cpp: Manifest::crypto_hash_with, Candidate::crypto_hash"]}
{"id": "C47", "title": "Serialized ciphertexts round trip", "statement": "Reading the text of an encrypted ballot, a submitted ballot or a hashed ElGamal ciphertext gives the same ballot or ciphertext, valid exactly if the original was. It holds for values that are not zero and for hashed ciphertexts whose data and MAC begin with a non-zero byte (exactly these, because bytes are written through a hex conversion that drops leading zero bytes); nonces that are not written are read as zero, and a ballot with zero nonces cannot be read when written with its nonces.", "quantifier": "all ballots and ciphertexts", "why_tests_cant": "probability 1/256 per field, and the mismatch is in length", "anchors": ["src/electionguard/serialize.hpp: CiphertextBallot::toJson, fromJson", "src/electionguard/convert.hpp: bytes_to_hex, sanitize_hex_string"]}
{"id": "C48", "title": "Write-ins survive compact serialization", "statement": "The serialised compact plaintext ballot should restore the original write-in strings. Strings are written through json dump and read back unescaped, so each comes back quoted.", "quantifier": "all write-in strings", "why_tests_cant": "all strings", "anchors": ["src/electionguard/serialize.hpp: CompactPlaintextBallot"]}
{"id": "C49", "title": "Enumeration strings", "statement": "Converting election types, reporting unit types, vote variations and ballot box states to strings and back is the identity on every named value, and unknown strings map to the unknown value (or are refused).", "quantifier": "all enumeration values and all strings", "why_tests_cant": "all strings", "anchors": ["src/electionguard/manifest.cpp: getElectionTypeString, getReportingUnitType, getVoteVariationType", "src/electionguard/ballot.cpp: getBallotBoxState"]}
{"id": "C50", "title": "Linked list container", "statement": "The C list behaves as a finite sequence: after any history of append and delete_last, count is its length, get_element_at/get_value_at return the i-th inserted surviving element, and out-of-range positions are reported.", "quantifier": "all operation histories", "why_tests_cant": "unbounded histories with pointer surgery", "anchors": ["src/electionguard/facades/collections.c: eg_linked_list_append, eg_linked_list_delete_last, eg_linked_list_get_element_at"]}
{"id": "C51", "title": "Asynchronous queue", "statement": "AsyncQueue is linearizable: under every schedule of any number of threads, the calls and returns of push, both pops and empty are those of a first-in-first-out list on which every call acts at one instant. Nothing is lost, duplicated or reordered, there are no data races, null or dangling dereferences and no deadlock.", "quantifier": "all interleavings", "why_tests_cant": "all schedules", "anchors": ["src/electionguard/async.hpp: AsyncQueue"]}
{"id": "C52", "title": "Semaphore exclusion", "statement": "AsyncSemaphore with initial count n admits at most n concurrent holders between lock and unlock under every schedule; wait() however gives no exclusion after it returns.", "quantifier": "all schedules", "why_tests_cant": "all schedules", "anchors": ["src/electionguard/async.hpp: AsyncSemaphore"]}
{"id": "C53", "title": "Election tally", "statement": "For any list of encrypted ballots, multiplying the ciphertexts of a selection over the ballots gives an encryption of the number of votes the ballots give to the selection, an overvoted contest giving none, and multiplying the contest totals gives an encryption of numberElected times the number of ballots with the contest. This holds for styles that list each district once; a manifest that passes validation may list a district twice, and votes then count twice.", "quantifier": "all lists of ballots", "why_tests_cant": "unbounded elections", "anchors": ["src/electionguard/elgamal.cpp: elgamalAdd", "src/electionguard/encrypt.cpp: encryptContest", "src/electionguard/ballot.cpp: elgamalAccumulate"]}
{"id": "C54", "title": "Group parameters", "statement": "The standard constants satisfy: q is prime, p-1 = q*r, g has order exactly q modulo p, g = 2^r mod p, the stored offsets are 2^256-q and 2^4096-p; likewise the test constants.", "quantifier": "the shipped constants", "why_tests_cant": "existing tests never check these relations; everything else relies on them", "anchors": ["include/electionguard/constants.h: Q_ARRAY_REVERSE, P_ARRAY_REVERSE, R_ARRAY_REVERSE, G_ARRAY_REVERSE"]}
{"id": "C55", "title": "Hex parsing accepts only hexadecimal digits", "statement": "fromHex should refuse a string containing a character that is not a hexadecimal digit. The code hands pairs of characters to strtol without checking what was consumed, so such strings are accepted (ElementModQ::fromHex of \"-1\" is 255); strings of hexadecimal digits are parsed to their value.", "quantifier": "all strings", "why_tests_cant": "tests only pass well-formed hex", "anchors": ["src/electionguard/group.cpp: ElementModP::fromHex, ElementModQ::fromHex", "src/electionguard/convert.hpp: hex_to_bytes"]}
{"id": "C56", "title": "Decryption of malformed ciphertexts", "statement": "Decrypting a ciphertext that is not an encryption of 0 or 1 should be refused. For pads in the subgroup the code answers 0 or 1 exactly if the data is pad^secret or g*pad^secret, and otherwise the failure value; but a pad that is not below p (P itself passes the checked constructor) is reported as a vote of 0 whatever the data.", "quantifier": "all pairs of 4096-bit values as ciphertext, all secrets", "why_tests_cant": "malformed operands are only reachable through unchecked construction or deserialisation", "anchors": ["src/electionguard/elgamal.cpp: ElGamalCiphertext::decrypt"]}
{"id": "C57", "title": "Hashed ElGamal key stream never repeats", "statement": "Within one ciphertext no two blocks, and no block and the MAC, should be keyed with the same HMAC input. This holds below 2^29 bytes; at 512 MiB the 32-bit bit length is zero, the block number is dropped from the HMAC input and every block and the MAC use the same key.", "quantifier": "all message lengths", "why_tests_cant": "needs messages of 512 MiB", "anchors": ["src/electionguard/elgamal.cpp: hashedElgamalEncrypt, HashedElGamalCiphertext::decrypt", "src/electionguard/hmac.cpp: HMAC::compute"]}
{"id": "C58", "title": "Hash of a hashed ciphertext binds it", "statement": "Two hashed ElGamal ciphertexts with the same crypto hash should be equal. It holds for ciphertexts whose data and MAC have fixed lengths (unless the hash function collides); leading zero bytes of data and MAC are not hashed, so ciphertexts of different lengths can share their hash for every hash function.", "quantifier": "all pairs of hashed ciphertexts, all hash functions", "why_tests_cant": "collisions by construction, independent of the hash", "anchors": ["src/electionguard/elgamal.cpp: HashedElGamalCiphertext::crypto_hash", "src/electionguard/hash.cpp: hash_elems"]}
{"id": "C59", "title": "Overvotes and write-ins can be recovered", "statement": "The holder of the election secret should be able to read, from an encrypted contest, the complete record of overvoted selections and write-in texts of that contest. It holds when the record has at most 510 bytes; a longer record is cut off at 510 bytes without notice.", "quantifier": "all contests, write-in texts, keys and nonces", "why_tests_cant": "tests use short write-ins", "anchors": ["src/electionguard/encrypt.cpp: encryptContest, getOvervoteAndWriteIns", "src/electionguard/elgamal.cpp: hashedElgamalEncrypt"]}
{"id": "C60", "title": "Submitting a ballot", "statement": "Turning an encrypted ballot into a submitted ballot keeps its identifiers, ciphertexts, proofs, hashes and code, takes the given state, and removes all nonces, as the header documents; assigning a submitted ballot makes the target equal to the source. It fails: all nonces are kept, so that whoever holds the submitted ballot can open its ciphertexts; a ballot that lacks a nonce cannot be submitted at all (undefined behaviour); assignment copies only the state.", "quantifier": "all ballots and states", "why_tests_cant": "tests look at the state of a submitted ballot only", "anchors": ["src/electionguard/ballot.cpp: SubmittedBallot::from, make, operator=", "include/electionguard/ballot.hpp: SubmittedBallot"]}
{"id": "C61", "title": "Plaintext ballots, devices and contexts round trip", "statement": "Reading the JSON text of a plaintext ballot, an encryption device or an election context gives an equal object; for contexts also the configuration and extended data. A context that is read is not checked: texts with wrong hashes are accepted.", "quantifier": "all ballots, devices, contexts with 64-bit numbers and non-zero elements", "why_tests_cant": "all strings, including characters that need escaping", "anchors": ["src/electionguard/serialize.hpp: PlaintextBallot, EncryptionDevice, CiphertextElectionContext"]}
{"id": "C62", "title": "Manifest texts", "statement": "Reading the JSON text of a manifest gives a manifest with the same contents and the same hash. It holds for manifests in the form reading produces; otherwise contents change: for example a contact without name is lost, an absent party name becomes an empty one, votesAllowed 0 becomes the default, primary parties are lost, a contest list out of sequence order is reordered.", "quantifier": "all manifests", "why_tests_cant": "all combinations of optional members", "anchors": ["src/electionguard/serialize.hpp: Manifest::fromObject, toObject", "src/electionguard/manifest.cpp: Manifest::toJson, fromJson"]}
{"id": "C63", "title": "Internal manifest texts", "statement": "Reading the JSON text of an internal manifest gives an internal manifest with the same contests, placeholders, styles and hash. It fails for every manifest with a contest that has a title: its text cannot be read.", "quantifier": "all internal manifests", "why_tests_cant": "tests use contests without title", "anchors": ["src/electionguard/serialize.hpp: InternalManifest::fromObject, toObject"]}
{"id": "C64", "title": "JSON texts", "statement": "Parsing the text printed for any JSON value gives the value back, so that different values have different texts.", "quantifier": "all JSON values with numbers below 2^64", "why_tests_cant": "unbounded nesting and all characters", "anchors": ["src/electionguard/serialize.hpp: json::dump, json::parse (nlohmann/json)"]}
{"id": "C65", "title": "Record of overvotes and write-ins", "statement": "The text encrypted with a contest is empty if there is neither an overvote nor a write-in; otherwise it is JSON and records, if the contest is overvoted, exactly the selections the voter marked, and for every marked write-in candidate exactly the text written. It holds for votes of 0 and 1; a selection with two or more votes is left out, with its write-in.", "quantifier": "all contests and manifests", "why_tests_cant": "all combinations of selections; tests never give a selection two votes", "anchors": ["src/electionguard/encrypt.cpp: getOvervoteAndWriteIns"]}
{"id": "C66", "title": "Looking up selections of a contest", "statement": "selectionFor returns the selection description with the given id, a placeholder only if no real selection has the id, and throws out_of_range exactly if there is none; IsPlaceholder says whether the selection is one of the placeholders. In a valid contest every real selection is found under its id and is not reported as a placeholder. It fails for a valid contest with a selection that is called like a generated placeholder.", "quantifier": "all contests with placeholders and all ids", "why_tests_cant": "all ids", "anchors": ["src/electionguard/manifest.cpp: ContestDescriptionWithPlaceholders::selectionFor, IsPlaceholder"]}
{"id": "C67", "title": "Multi-limb integer arithmetic", "statement": "On arrays of 64-bit limbs of any length, add and sub return the exact sum and difference with the carry or borrow, lt_mask and eq_mask decide order and equality, mul and sqr return the exact product (with and without Karatsuba recursion), and add_mod and sub_mod of reduced numbers the residue; no carry is lost.", "quantifier": "all arrays of all lengths", "why_tests_cant": "a lost carry shows on a negligible fraction of the inputs", "anchors": ["src/karamel/Hacl_Bignum.c: Hacl_Bignum_bn_add_mod_n_u64, Hacl_Bignum_Karatsuba_bn_karatsuba_mul_uint64", "src/karamel/Hacl_Bignum4096.c: Hacl_Bignum4096_add, sub, mul, sqr, lt_mask, eq_mask", "src/karamel/Hacl_Bignum256.c: Hacl_Bignum256_add, sub, mul, sqr"]}
{"id": "C68", "title": "Reduction, exponentiation and inversion on limbs", "statement": "mod, mod_exp_vartime and mod_exp_consttime return true exactly if the modulus is odd and greater than one, the exponent has at most the stated number of bits and the base is reduced; the result is then the residue or the power, and zero otherwise. The variable-time and the constant-time function give the same limbs for every size of the exponent. The inverse modulo a prime is an inverse.", "quantifier": "all moduli, bases, exponents and numbers of exponent bits", "why_tests_cant": "all moduli; the branches depend on the size of the exponent (200 bits), carries of the Montgomery reduction are rare", "anchors": ["src/karamel/Hacl_Bignum.c: Hacl_Bignum_Exponentiation_bn_mod_exp_vartime_u64, Hacl_Bignum_Montgomery_bn_mont_reduction_u64", "src/karamel/Hacl_Bignum4096.c: Hacl_Bignum4096_mod, mod_exp_vartime, mod_exp_consttime, mod_inv_prime_vartime"]}
{"id": "C69", "title": "Bytes of multi-limb integers", "statement": "new_bn_from_bytes_be reads the big-endian number denoted by any non-empty byte string, whatever its length modulo eight, and refuses the empty string; bn_to_bytes_be writes eight bytes per limb denoting the number; reading what was written gives the same limbs.", "quantifier": "all byte strings and arrays", "why_tests_cant": "all lengths", "anchors": ["src/karamel/Hacl_Bignum4096.c: Hacl_Bignum4096_new_bn_from_bytes_be, bn_to_bytes_be", "src/karamel/Hacl_Bignum256.c: Hacl_Bignum256_new_bn_from_bytes_be"]}
{"id": "C70", "title": "SHA-256", "statement": "The hash function returns SHA-256 (FIPS 180-4) of its input, for inputs of every length; the streaming interface returns SHA-256 of the concatenation of all pieces passed to update since the last init, however the message was cut into pieces, and taking a digest does not disturb the stream. No access is out of bounds.", "quantifier": "all messages and all ways to cut them", "why_tests_cant": "all lengths and cuts; the constants are defined by square and cube roots of primes in the standard", "anchors": ["src/karamel/Hacl_Hash_SHA2.c: Hacl_Hash_SHA2_hash_256", "src/karamel/Hacl_Streaming_SHA2.c: Hacl_Streaming_SHA2_create_in_256, init_256, update_256, finish_256"]}
{"id": "C71", "title": "HMAC-SHA-256", "statement": "get_hmac returns HMAC-SHA-256 (RFC 2104) of the message, preceded by the 4-byte start and followed by the 4-byte length if the length is positive, for keys of every length. It holds below 4 GiB; of longer messages only the first (size modulo 2^32) bytes are authenticated.", "quantifier": "all keys and messages", "why_tests_cant": "needs messages of 4 GiB; keys above 64 bytes are hashed first", "anchors": ["src/karamel/Hacl_HMAC.c: Hacl_HMAC_compute_sha2_256", "src/electionguard/hmac.cpp: HMAC::compute, get_hmac"]}
{"id": "C72", "title": "Hashing with the streaming interface", "statement": "hash_elems, executed with the streaming SHA-256, returns SHA-256 (reduced modulo q) of the delimiter-separated rendering of its arguments. It holds if each rendering is shorter than 4 GiB; a longer string is hashed like its prefix, so that two different strings have the same hash whatever the hash function is.", "quantifier": "all argument lists", "why_tests_cant": "needs strings of 4 GiB", "anchors": ["src/electionguard/hash.cpp: hash_elems, push_hash_update, hash_close", "src/karamel/Hacl_Streaming_SHA2.c: Hacl_Streaming_SHA2_update_256"]}
{"id": "C73", "title": "Random generator", "statement": "The deterministic random generator computes what NIST SP 800-90A prescribes for HMAC_DRBG with SHA-256, for all seeds, requests and additional inputs; exactly the first 1024 requests after seeding are granted. Random::getBytes returns exactly the requested number of bytes, those of the standard for the bytes the operating system supplied, and throws bad_alloc exactly if the operating system fails. rand_q returns an element below q. (rand_p reads beyond the end of the bytes in every execution.)", "quantifier": "all seeds, all sequences of requests", "why_tests_cant": "all sequences of requests; a wrong generator still looks random", "anchors": ["src/karamel/Hacl_HMAC_DRBG.c: Hacl_HMAC_DRBG_instantiate, reseed, generate", "src/electionguard/random.hpp: Random::getBytes", "src/electionguard/group.cpp: rand_q, rand_p"]}
{"id": "C74", "title": "Vote limit of accepted contests", "statement": "If the proofs of an encrypted contest are accepted and the challenges can be answered twice (the extraction argument of the proofs), its selections encrypt 0 or 1 each and sum to the limit stated in the contest's own proof. That limit should be the number of seats in the manifest: it is not compared, so a ballot that marks every selection of a one-seat contest is valid.", "quantifier": "all contests, all hash functions", "why_tests_cant": "needs a contest built against the library's own encryption functions", "anchors": ["src/electionguard/ballot.cpp: CiphertextBallotContest::isValidEncryption, CiphertextBallot::isValidEncryption", "src/electionguard/chaum_pedersen.cpp: ConstantChaumPedersenProof::isValid"]}
{"id": "C75", "title": "Proofs are bound to the public key", "statement": "An accepted proof should show, for every public key with which it is checked, that the ciphertext encrypts a permitted value. One proof is not accepted under two keys, but the key is not hashed into the challenge: for any hash function and any number t there are a key with known secret and an accepted disjunctive proof (and a constant proof for any constant) for a ciphertext that encrypts t.", "quantifier": "all hash functions, headers, votes t and constants", "why_tests_cant": "needs a key chosen after the proof", "anchors": ["src/electionguard/chaum_pedersen.cpp: DisjunctiveChaumPedersenProof::isValid, ConstantChaumPedersenProof::isValid"]}
{"id": "C76", "title": "Proofs show nothing but the claim", "statement": "Every accepted disjunctive proof for a ciphertext of 0 or 1 is made, from the vote the ciphertext contains, by exactly one triple of the random numbers the prover draws, whichever vote it contains; so the distribution of proofs does not depend on the vote. Likewise constant proofs and their one random number, precomputed or not.", "quantifier": "all keys, ciphertexts and accepted proofs", "why_tests_cant": "a statement about all random choices", "anchors": ["src/electionguard/chaum_pedersen.cpp: DisjunctiveChaumPedersenProof::make_zero, make_one, ConstantChaumPedersenProof::make"]}
{"id": "C77", "title": "Group arithmetic on limbs", "statement": "On the arrays of 4 and 64 limbs the library works on, add_mod_q, sub_mod_q, sub_from_q, a_plus_bc_mod_q, mul_mod_p and pow_mod_p return an array of the right length whose value is the modular result; pow_mod_p returns the same limbs through the fixed-base table and through the exponentiation, and never reads outside of the table. add_mod_p does so as long as the sum fits, and reads out of bounds otherwise.", "quantifier": "all arrays of the right length (operands up to q for sums and differences mod q), all valid parameter sets whose limbs are given", "why_tests_cant": "carries into the offsets need operands close to 2^256 or 2^4096", "anchors": ["src/electionguard/group.cpp: add_mod_q, sub_mod_q, sub_from_q, a_plus_bc_mod_q, add_mod_p, mul_mod_p, pow_mod_p, operator<, operator==", "src/electionguard/lookup_table.hpp: LookupTable::generateTable, pow_mod_p"]}
{"id": "C78", "title": "Thread pool", "statement": "Tasks submitted to the scheduler start in the order of submission, each at most once; when the pool has been destroyed no thread is left and every started task has ended; every submitted task has been run exactly once; destruction always comes to an end. It fails for tasks submitted while the pool is being destroyed, which are dropped and whose futures never become ready, and for a pool with no threads (hardware_concurrency may be zero), whose destruction never ends once a task was submitted.", "quantifier": "all numbers of threads, all interleavings of submissions, workers and destruction", "why_tests_cant": "all interleavings", "anchors": ["src/electionguard/async.hpp: ThreadPool::submit, worker, wait, ~ThreadPool, Scheduler"]}
{"id": "C79", "title": "Waiting for all tasks", "statement": "wait_all returns exactly one result for every task, in the order of the tasks; it returns if every task ends normally, and does not return results if a task throws. It fails: the results come in the order in which the tasks became ready, and one future without state (for example one whose result was taken before) makes it wait forever.", "quantifier": "all lists of tasks, all running times", "why_tests_cant": "the order depends on timing", "anchors": ["src/electionguard/async.hpp: wait_all, isReady"]}
{"id": "C80", "title": "Concurrent use of the lookup table cache", "statement": "Threads that raise fixed-base elements to powers at the same time never access the table cache in a conflicting way, and each uses the table of its own base. It holds if all tables in use were made before; otherwise two calls can change the map at the same time, whatever the count of the semaphore, as wait() gives the semaphore back before the map is looked at; and no call ever ends where hardware_concurrency is zero.", "quantifier": "all numbers of threads, all interleavings, all counts of the semaphore", "why_tests_cant": "all interleavings; needs the first use of two bases at the same time", "anchors": ["src/electionguard/lookup_table.hpp: LookupTableContext::pow_mod_p, getInstance", "src/electionguard/async.hpp: AsyncSemaphore::wait"]}
{"id": "C81", "title": "Dates", "statement": "Times are written in ISO 8601 in UTC with the date of the Gregorian calendar; reading the text gives the time back; a text with local time and offset denotes the local time minus the offset; texts in another format are refused. It fails: the fraction of a second is lost, texts in another format (for example a date without time, or the empty text) are silently read as the first of January 1970, text after the time is ignored, and a year the clock cannot represent is undefined behaviour.", "quantifier": "all times from 1970 the clock can represent, all offsets", "why_tests_cant": "all days, leap years included", "anchors": ["src/electionguard/convert.cpp: timePointToIsoString, timePointFromIsoString"]}
{"id": "C82", "title": "Memory of C clients", "statement": "A C client that passes live handles of the type in the signature, and frees exactly the handles the headers say it owns, each once, never causes undefined behaviour; every object it received stays valid until the client frees it or what it is part of; when the client has freed all it owns nothing is left behind; no exception reaches it. It holds under further rules the headers do not mention: objects passed to certain constructors are emptied and may only be freed, the nonce passed to the functions with nonce must not be freed, an encryption mediator must be freed before the manifest, context and device it was made from, and references may not be passed to functions that take their argument. Without them there are double frees, uses of emptied and of freed objects.", "quantifier": "all sequences of calls of the 344 functions, all results and failures of the library behind them", "why_tests_cant": "all sequences of calls; undefined behaviour need not show", "anchors": ["src/electionguard/facades/encrypt.cpp: eg_encrypt_ballot_with_nonce, eg_encryption_mediator_new", "src/electionguard/facades/manifest.cpp: eg_contact_information_new_with_collections", "src/electionguard/facades/ballot.cpp: eg_plaintext_ballot_new"]}
{"id": "C83", "title": "Types of C handles", "statement": "A handle received with some C type refers to an object of the class of that name, and each function uses its handles as objects of the class in its signature. It fails for eight functions: five cast their handle to another class, so that no call of them has defined behaviour, and four return a handle of the wrong type.", "quantifier": "all functions, all sequences of calls", "why_tests_cant": "opaque pointers are not checked by a compiler; a wrong cast may go unnoticed", "anchors": ["src/electionguard/facades/manifest.cpp: eg_contact_information_get_name, eg_contact_information_crypto_hash, eg_candidate_crypto_hash, eg_intertnationalized_text_crypto_hash, eg_contact_information_get_email_line_at_index", "src/electionguard/facades/ballot.cpp: eg_ciphertext_ballot_contest_get_proof"]}
{"id": "C84", "title": "Text and status across the C interface", "statement": "Text passed in by a C client is returned unchanged by getters; text returned to C is terminated within its allocation, of which the reported size is the length, and is complete unless it contains a zero byte. Every status has its name, and any other value the name of UNKNOWN; a failed call never reports success, and an invalid argument is reported as such. It fails: the name of any value above UNKNOWN is read outside of the table, and all but ten functions report an invalid argument as a failed allocation or as another error.", "quantifier": "all byte strings, all values, all functions", "why_tests_cant": "all lengths and contents", "anchors": ["src/electionguard/convert.hpp: dynamicCopy", "include/electionguard/status.h: eg_electionguard_get_status", "src/electionguard/facades/encrypt.cpp: eg_encrypt_ballot"]}
{"id": "C85", "title": "Functions in the headers exist", "statement": "Every function the C headers declare is defined with the parameter types declared, so that a C client can link against it. It fails for eleven functions: two have no definition, nine are defined with other parameters.", "quantifier": "all 344 declarations", "why_tests_cant": "a client that does not call a function links without it", "anchors": ["src/electionguard/facades/ballot.cpp: eg_ciphertext_ballot_get_timestamp, eg_ciphertext_ballot_contest_aggregate_nonce", "src/electionguard/facades/encrypt.cpp: eg_encrypt_contest", "include/electionguard/ballot.h: eg_plaintext_ballot_selection_new_with_extended_data"]}
{"id": "C86", "title": "Imports of the C# bindings match the library", "statement": "Every function that the C# bindings import exists in the library under that entry point, takes arguments of the types passed in that order and number, and returns a result of the type expected; what C# reads from a function that returns bool is what the function returned. (22 of 357 imports do not: 13 name no exported function, 9 pass other arguments; results of type bool are read from 32 bits of which the library sets 8.)", "quantifier": "all imports; all contents of the result register", "why_tests_cant": "each import would have to be called from C#, and a mismatch of types need not be visible in a run", "anchors": ["bindings/netstandard/ElectionGuard/ElectionGuard.Encryption/NativeInterface.cs: all DllImport", "include/electionguard/*.h: all functions"]}
{"id": "C87", "title": "The C# bindings release every object exactly once", "statement": "Whatever sequence of uses, disposals and finalizations of a handle, from any threads: the object of the library behind it is released when the handle is done with, once and not before; no release has undefined behaviour; a handle that was not disposed can be used; references into other objects and constants are never released. (Only the three kinds of ballots are released; everything else leaks, and that is what keeps references and constants from being released. Handles of contests dangle when the ballot is disposed.)", "quantifier": "all sequences of actions on handles, all programs that use the interface carefully", "why_tests_cant": "all interleavings of calls, disposal and the garbage collector", "anchors": ["bindings/netstandard/ElectionGuard/ElectionGuard.Encryption/ElectionguardSafeHandle.cs: ElectionguardSafeHandle", "bindings/netstandard/ElectionGuard/ElectionGuard.Encryption/NativeInterface.cs: Free of all classes"]}
{"id": "C88", "title": "Group constants in C#", "statement": "Each property of the class Constants of the C# bindings returns the number its name says. (ONE_MOD_P and TWO_MOD_P return zero.)", "quantifier": "all constants, all parameters of the group", "why_tests_cant": "part of the claim is a finite list; the values are those of the parameters", "anchors": ["bindings/netstandard/ElectionGuard/ElectionGuard.Encryption/Group.cs: Constants"]}
{"id": "C89", "title": "Background precomputation from C# stops, completes and reports", "statement": "Whatever the schedule of the user of a Precompute object, its workers and threads that take values: after StopPrecompute returns, no worker adds values to the buffers until the next start, and all workers come to an end; StartPrecomputeAsync returns; every worker raises one CompletedEvent, and it says Completed or UserStopped; values are made for the key of the last start. (A start on a full queue or a quadruple taken in time leaves the status at Running for ever; a second start before the first worker has ended revives it with the old key; making another object undoes a stop.)", "quantifier": "all histories: any interleaving of the user, any number of workers, threads that take values and other objects", "why_tests_cant": "each interleaving is a different run; the bad ones need a thread to be delayed at one instruction", "anchors": ["bindings/netstandard/ElectionGuard/ElectionGuard.Encryption/PrecomputeAPI.cs: StartPrecomputeAsync, StopPrecompute, GetStatus, WorkerMethod, SendCompleted", "src/electionguard/facades/encrypt.cpp: eg_precompute_*", "src/electionguard/precompute_buffers.cpp: populate, init, stop_populate"]}
{"id": "C90", "title": "128-bit integers and byte order are the same on every platform", "statement": "Each of the three implementations of 128-bit integers that a build may choose (a struct of two words, the type of the compiler, the vector type of MSVC) computes modulo 2^128: sums, differences, logic, shifts by less than 128 places, comparisons, masks, conversions and the full product of two words; and the loads and stores of 32, 64 and 128 bits give the big-endian or little-endian number of the bytes, whatever the byte order of the machine. (lognot of MSVC is always 0; little-endian loads and stores of 64 bits with the generic code on a big-endian machine only exchange the two halves. Nothing in the library reaches these.)", "quantifier": "all words and all bytes; three implementations, three kinds of machine", "why_tests_cant": "a build tests one implementation on one machine; carries between words are rare", "anchors": ["include/karamel/FStar_UInt128_Verified.h: FStar_UInt128_*", "include/karamel/fstar_uint128_gcc64.h: FStar_UInt128_*", "include/karamel/fstar_uint128_msvc.h: FStar_UInt128_*", "include/karamel/krml/lowstar_endianness.h: htobe64, load64_be, store128_be, ..."]}
{"id": "C91", "title": "Concurrent use of the precompute buffers", "statement": "Whatever threads call the functions of the precompute context at the same time: there are no data races; each call is as if it were atomic, so that what the threads get is what one after the other would get and no value is handed out twice; the lock is always released; and a call of populate brings the queue at most one entry beyond its size. (The condition of the loop of populate, stop_populate and the functions for the sizes access the context without the lock, so populating while another thread takes values, stops or initialises is a data race.)", "quantifier": "all interleavings of any number of threads, any calls, any state of the buffers", "why_tests_cant": "races depend on timing, and a test that meets one usually passes", "anchors": ["src/electionguard/precompute_buffers.cpp: init, populate, stop_populate, get_max_queue_size, get_current_queue_size, getTwoTriplesAndAQuadruple, getTriple, empty_queues"]}
{"id": "C92", "title": "Counting the ballots of the record", "statement": "Voters fill in ballots; each is encrypted, submitted as cast or spoiled and written as text. Whoever reads the texts finds each ballot with the state it was submitted with, and the product of the ciphertexts that the cast ballots hold for a selection is an encryption of the number of votes the voters of the cast ballots gave to it, the spoiled ballots adding nothing; likewise the product of the contest totals. The secret key decrypts this product to the count. Every ballot without a zero among its hashes, challenges, responses and the leading bytes of its write-ins can be written and read.", "quantifier": "all ballots, states, keys and environments, any number of ballots in any order", "why_tests_cant": "it joins encryption, submission, the text format and homomorphic addition for any set of ballots", "anchors": ["src/electionguard/encrypt.cpp: encryptBallot", "src/electionguard/ballot.cpp: SubmittedBallot::from", "src/electionguard/serialize.hpp: SubmittedBallot::fromObject, toObject", "src/electionguard/elgamal.cpp: elgamalAdd, decrypt"]}
{"id": "C93", "title": "Secrets and the accesses and branches", "statement": "An observer of the branches taken and of the indices of the array elements accessed learns nothing about secrets: the same is observed for any two exponents of pow_mod_p and g_pow_p, for any two nonces and votes of elgamalEncrypt, and for any two secret keys and ciphertexts of decrypt that yield the same vote. mod_exp_consttime shows nothing of base and exponent.", "quantifier": "all bases, exponents, keys, nonces and votes, both ways of exponentiation", "why_tests_cant": "the results are right whatever is shown; the property speaks of pairs of executions", "anchors": ["src/electionguard/group.cpp: pow_mod_p, g_pow_p", "src/electionguard/lookup_table.hpp: LookupTable::pow_mod_p", "src/electionguard/elgamal.cpp: elgamalEncrypt, ElGamalCiphertext::decrypt", "src/karamel/Hacl_Bignum4096.c: Hacl_Bignum4096_mod_exp_consttime, mod_exp_vartime, mod_inv_prime_vartime"]}
{"id": "C94", "title": "Which texts are read", "statement": "fromJson of every class reads exactly the JSON texts of RFC 8259 and refuses all others with an exception; what it reads depends only on the document that the text denotes, whatever the white space and escapes, and the last of several members with the same name counts. A number that the field cannot hold (negative, with a fraction, 2^64 or more) is refused.", "quantifier": "all texts, in particular ballots with any literal as a vote", "why_tests_cant": "infinitely many texts; the tests read texts that the library wrote, or files with small non-negative integers", "anchors": ["src/electionguard/serialize.hpp: fromJson, toObject"]}
{"id": "C95", "title": "MessagePack", "statement": "fromMsgPack of what toMsgPack wrote gives what fromJson of toJson gives, for every class; fromMsgPack accepts exactly the bytes that denote a document by the MessagePack specification, so that bytes that were cut or have something appended are refused.", "quantifier": "all objects of all classes, all byte sequences", "why_tests_cant": "every length class of every value type, and all malformed inputs; the tests write a few ballots", "anchors": ["src/electionguard/serialize.hpp: toMsgPack, fromMsgPack"]}
{"id": "C96", "title": "BSON", "statement": "toBson of every object that has a JSON text succeeds and writes a document as the BSON specification demands, fromBson of it gives what fromJson of toJson gives, and fromBson accepts exactly the bytes that are BSON documents.", "quantifier": "all objects of all classes, all byte sequences", "why_tests_cant": "failures only for numbers from 2^63 on, for zero characters in keys and for wrong sizes in the input; none occurs in a test", "anchors": ["src/electionguard/serialize.hpp: toBson, fromBson"]}
{"id": "C97", "title": "Windows computes the same", "statement": "The build for Windows, which does its 4096-bit arithmetic with other functions, on 32-bit limbs, gives the same results as the build for other systems: the same limbs and the same status for every operation, hence the same group elements, powers and tables.", "quantifier": "all operands, all odd moduli of up to 2^23 limbs", "why_tests_cant": "a test runs on one platform; no test compares two, and carries between halves of limbs are rare", "anchors": ["src/electionguard/facades/Hacl_Bignum4096.cpp: Bignum4096", "src/karamel/Hacl_Bignum4096_32.c: Hacl_Bignum4096_32_*", "src/karamel/Hacl_GenericField32.c: Hacl_GenericField32_*", "src/karamel/Hacl_Bignum.c: Hacl_Bignum_*_u32", "src/electionguard/group.cpp: add_mod_p, mul_mod_p, pow_mod_p", "src/electionguard/lookup_table.hpp: LookupTable"]}
{"id": "C98", "title": "Secrets are wiped from memory", "statement": "When a group element is destroyed, nothing of it is left in the memory it was in; when hashed ElGamal encryption and decryption have ended, neither the session key nor the message is left in memory they gave back; when random bytes have been drawn, neither they nor the seed they were made from is left there.", "quantifier": "all group elements, all keys, all messages, all policies for the growth of vectors", "why_tests_cant": "a test cannot look at memory after it was given back", "anchors": ["src/electionguard/group.cpp: ElementModP, ElementModQ", "src/electionguard/elgamal.cpp: hashedElgamalEncrypt, HashedElGamalCiphertext::decrypt", "src/electionguard/random.hpp: Random::getBytes", "src/electionguard/hmac.cpp: get_hmac", "src/karamel/Lib_Memzero0.c: Lib_Memzero0_memzero"]}
{"id": "C99", "title": "All ways of creating an election context agree", "statement": "The overloads of make, the functions of the C interface and the constructors of C# make the same context of the same arguments: everything given is stored, what is not given has its standard value, the hashes are those of the specification; the extended data comes out of a context as it went in; a quorum greater than the number of guardians is refused.", "quantifier": "all arguments, all configurations, all lists of entries, all behaviours of malloc", "why_tests_cant": "there are fourteen ways, and tests try two of them with one list", "anchors": ["src/electionguard/election.cpp: CiphertextElectionContext::make", "src/electionguard/facades/election.cpp: eg_ciphertext_election_context_make, eg_ciphertext_election_context_make_with_configuration, eg_ciphertext_election_context_make_with_extended_data, eg_ciphertext_election_context_make_with_configuration_and_extended_data, eg_ciphertext_election_context_make_from_hex, eg_ciphertext_election_context_make_from_hex_with_extended_data, eg_ciphertext_election_context_get_extended_data", "bindings/netstandard/ElectionGuard/ElectionGuard.Encryption/Collections.cs: LinkedList"]}
{"id": "C100", "title": "The limits of the configuration are kept", "statement": "With a context that does not allow overvotes, an overvoted ballot is refused; a mediator encrypts at most as many ballots as the context allows.", "quantifier": "all contexts, all ballots, all histories of a mediator", "why_tests_cant": "tests only look at the values stored in the configuration", "anchors": ["include/electionguard/election.hpp: ContextConfiguration", "src/electionguard/encrypt.cpp: encryptBallot, EncryptionMediator::encrypt"]}
{"id": "C101", "title": "The dates of a manifest come back as they were given", "statement": "The start and the end date given to the C function or to the constructor of C# that make a manifest are the ones that the functions and properties of the manifest return, and the ones in its texts; every date of C# can be given.", "quantifier": "all dates, all resolutions of the system clock that are a multiple of a millisecond", "why_tests_cant": "a test of a setter and a getter has to compare the values, and each side looks right alone", "anchors": ["src/electionguard/facades/manifest.cpp: eg_election_manifest_new, eg_election_manifest_new_with_contact, eg_election_manifest_get_start_date, eg_election_manifest_get_end_date", "bindings/netstandard/ElectionGuard/ElectionGuard.Encryption/Manifest.cs: Manifest, StartDate, EndDate"]}
{"id": "C102", "title": "Constructors of C# leave the objects given to them as they are", "statement": "A constructor of C# that takes an array of objects makes an object with their values, in their order; the objects given can be used afterwards, in another object too; an object can be given twice; giving an object that was got from another one does not change the other one.", "quantifier": "all arrays of objects, all values, all objects they were got from", "why_tests_cant": "tests give each object once and do not look at it again", "anchors": ["bindings/netstandard/ElectionGuard/ElectionGuard.Encryption/Manifest.cs: InternationalizedText, ContestDescription, ContestDescriptionWithPlaceholders, Manifest", "bindings/netstandard/ElectionGuard/ElectionGuard.Encryption/Ballot.cs: PlaintextBallotContest, PlaintextBallot", "src/electionguard/facades/manifest.cpp: eg_election_manifest_new", "src/electionguard/facades/ballot.cpp: eg_plaintext_ballot_contest_new"]}
{"id": "C103", "title": "Assigning and moving contests of the internal manifest", "statement": "After one contest with placeholders was assigned to another one, the other one has the same description, selections and placeholders. After a contest was moved, the new one has everything the old one had.", "quantifier": "all contests, with any titles, parties and placeholders; all targets, whatever they held before", "why_tests_cant": "no test assigns or moves contests with placeholders", "anchors": ["src/electionguard/manifest.cpp: ContestDescriptionWithPlaceholders::operator=, ContestDescriptionWithPlaceholders, ContestDescription::operator=, selectionFor"]}
{"id": "C104", "title": "The log of an encryption does not reveal the votes", "statement": "What the encryption of a ballot writes to the log does not tell anybody who reads it more about the votes than the encrypted ballot does: which lines are written does not depend on the votes, and the values in them are public.", "quantifier": "all ballots, manifests, contexts, nonces, times and states of the precompute buffer; all log levels", "why_tests_cant": "the tests do not read the log; a secrecy property compares the logs of all pairs of ballots", "anchors": ["src/electionguard/log.cpp: Log::info, Log::trace, Log::warn", "src/electionguard/encrypt.cpp: encryptBallot, encryptContest, encryptSelection", "src/electionguard/chaum_pedersen.cpp: DisjunctiveChaumPedersenProof::make_with_precomputed, make_zero_with_precomputed, make_one_with_precomputed", "src/electionguard/ballot.cpp: PlaintextBallotContest::isValid"]}
{"id": "C105", "title": "Big-number results may overwrite their arguments", "statement": "Addition, subtraction, modular addition and modular subtraction of big numbers give the same result and the same carry when the result array is one of the arguments (or both) as when it is a separate array; schoolbook multiplication and Montgomery reduction do so whenever the result is apart from the arguments, which may themselves coincide. No word outside of the result (and the local arrays) changes.", "quantifier": "all lengths, all positions of the arrays in memory, all contents and carries", "why_tests_cant": "the tests use in-place calls with a few values; wrong results would depend on where the arrays lie and on carries", "anchors": ["src/karamel/Hacl_Bignum.c: Hacl_Bignum_Addition_bn_add_eq_len_u64, Hacl_Bignum_Addition_bn_sub_eq_len_u64, bn_mul_u64, Hacl_Bignum_bn_add_mod_n_u64", "src/karamel/Hacl_Bignum4096.c: Hacl_Bignum4096_add, Hacl_Bignum4096_sub, Hacl_Bignum4096_add_mod, Hacl_Bignum4096_sub_mod, precompr2, reduction", "src/electionguard/group.cpp: add_mod_p, add_mod_q"]}
{"id": "C106", "title": "Exponentiation of big numbers is right in memory, also over its arguments", "statement": "Multiplication and squaring by Karatsuba's method, the Montgomery product, and modular exponentiation (in constant time or not) write the right result whatever their scratch arrays held before, and change no word outside of the result and the scratch arrays. The result of an exponentiation may overwrite the base or the exponent; the Montgomery product may overwrite its arguments. The result must be apart from the modulus.", "quantifier": "all lengths, all positions of the arrays in memory that meet the stated conditions, all contents, all exponents", "why_tests_cant": "scratch arrays are reused between levels of the recursion and between iterations; a stale word would show for particular lengths and values only", "anchors": ["src/karamel/Hacl_Bignum.c: Hacl_Bignum_Karatsuba_bn_karatsuba_mul_uint64, Hacl_Bignum_Karatsuba_bn_karatsuba_sqr_uint64", "src/karamel/Hacl_Bignum4096.c: amont_mul, amont_sqr, areduction, to, from, exp_vartime_precomp, exp_consttime_precomp", "src/electionguard/group.cpp: pow_mod_p"]}
{"id": "C107", "title": "Modular reduction and exponentiation are right in memory from the modulus alone", "statement": "Reduction of a double-length number and modular exponentiation (in constant time or not) report success exactly if the documented conditions on modulus, base and exponent hold; then the result is the remainder or the power, otherwise it is zero; no word outside of the result and the local arrays changes. The result of the reduction may overlap the number in any way, the result of the exponentiation may be the base or lie over the exponent. A context that is created from a modulus holds what the functions with a context need. The loops that are unrolled by four limbs, as in the 256-bit functions, give the same as limb by limb.", "quantifier": "all lengths up to 2^24 limbs, all positions of the arrays in memory that meet the stated conditions, all contents", "why_tests_cant": "a wrong word in an unrolled copy or a stale local array would show for particular values only; the argument must be intact when it is read a second time", "anchors": ["src/karamel/Hacl_Bignum256.c: add, sub, mul, sqr, add_mod, sub_mod, amont_mul, amont_sqr, areduction, reduction, bn_slow_precomp, mod, mod_exp_vartime, mod_exp_consttime, mont_ctx_init", "src/karamel/Hacl_Bignum4096.c: bn_slow_precomp, mod, mod_exp_vartime, mod_exp_consttime, mont_ctx_init", "src/karamel/Hacl_Bignum.c: bn_precomp_r2_mod_n", "src/electionguard/group.cpp: mul_mod_q, pow_mod_q"]}
{"id": "C108", "title": "Copies equal the original and leave it as it was", "statement": "Copying or assigning an element mod p, a key pair, a part of a manifest or a plaintext ballot gives an object with the same contents, and the original can be used as before; the hexadecimal text of an element is always that of its value, however often it was copied, assigned or asked for. Violated in three places: copying or assigning a key pair empties the original; the copy of a party without a name has an empty name, and so another hash; the text of an element that was changed through its pointer stays the old one.", "quantifier": "all sequences of operations on elements, all key pairs, all parts of manifests, all plaintext ballots", "why_tests_cant": "the defects need a source that is used after it was copied, or a missing name; a stale text needs a particular order of calls", "anchors": ["src/electionguard/group.cpp: ElementModP copy constructor, operator=, clone, toHex, setIsFixedBase", "src/electionguard/elgamal.cpp: ElGamalKeyPair copy constructor, operator=", "src/electionguard/manifest.cpp: copy constructors of AnnotatedString, Language, InternationalizedText, ContactInformation, GeopoliticalUnit, BallotStyle, Party, Candidate, SelectionDescription; copyGeopoliticalUnits, copyCandidates, copyBallotStyles", "src/electionguard/ballot.cpp: copy constructors and clone of PlaintextBallotSelection, PlaintextBallotContest, PlaintextBallot"]}
{"id": "C109", "title": "Manifests made and read through the C functions", "statement": "Every valid manifest can be made with the C functions, and the functions that read it give back all of it: each collection has the reported size, the elements at the indices below the size are its elements and any other index is refused, and two manifests for which everything read is equal have the same hash. Violated: a manifest with contact information but no name, a contest without title with a chosen number of votes, a party without a name, a candidate with an image but no name, or a text with a zero cannot be made; the contact information of a geopolitical unit, the name in contact information, the primary parties of a contest and the order in which contests and selections were given, which enters the hash, cannot be read. The numbers of enumerators are the same in C, C++ and C#, and a manifest can be hashed only for those that have a text.", "quantifier": "all calls of the constructors and getters of manifests and their parts, with any texts, null pointers included; all numbers of enumerators", "why_tests_cant": "tests make one manifest and read some of its fields; which manifests cannot be made or told apart is a statement about all of them", "anchors": ["src/electionguard/facades/manifest.cpp: all eg_..._new functions, all getters, eg_election_manifest_new, eg_election_manifest_new_with_contact", "src/electionguard/manifest.cpp: constructors of AnnotatedString, Language, ContactInformation, GeopoliticalUnit, BallotStyle, Party, Candidate, SelectionDescription, ContestDescription, Manifest; getElectionTypeString, getVoteVariationTypeString"]}
{"id": "C110", "title": "Ciphertexts hide the votes", "statement": "Whoever tells two lists of votes apart by the public key and the ciphertexts, each made by the library with a nonce of its own that is uniform among those accepted, solves the decisional Diffie-Hellman problem in the group: the advantage over the votes is at most the sum of the advantages of distinguishers that each call the adversary once, on ciphertexts made with the public key only. A nonce used for two votes shows whether they are equal.", "quantifier": "all adversaries, all lists of votes of equal length, summed over all key pairs and all nonces", "why_tests_cant": "secrecy is a statement about all adversaries and about sums over all 256-bit nonces", "anchors": ["src/electionguard/elgamal.cpp: elgamalEncrypt, ElGamalKeyPair::fromSecret", "src/electionguard/group.cpp: g_pow_p, pow_mod_p, mul_mod_p"]}
{"id": "C111", "title": "No nonce is used twice", "statement": "Take any number of ballots encrypted for one manifest while the precompute buffers are empty, no two of them with both the same id and the same nonce. Then no two ciphertexts among all of them (real selections, placeholders, extended data of contests) were made with the same nonce: their pads all differ, unless SHA-256 collides on two of the strings hashed. The nonce of each ciphertext depends only on its place, not on the votes. If a caller gives the same nonce twice for the same ballot id, every pad repeats and no error is reported.", "quantifier": "all ballots and votes, all manifests whose contests and selections have distinct sequence numbers, all lists of encryptions, all nonces given or drawn, all random values and clocks, every hash function without collision on the strings hashed", "why_tests_cant": "tests compare a few ballots; a coincidence of nonces between two places of two ballots out of millions would show in none of them and would reveal whether the two votes are equal", "anchors": ["src/electionguard/encrypt.cpp: encryptSelection, encryptContest, encryptBallot", "src/electionguard/nonces.cpp: Nonces, get", "src/electionguard/ballot.cpp: CiphertextBallot::nonceSeed", "src/electionguard/hash.cpp: hash_elems"]}
{"id": "C112", "title": "Proofs cannot be forged for a key fixed in advance", "statement": "Let a program of any kind call the hash function n times and then output a contest, a selection or a whole ballot of v proofs with an extended base hash of its choice. With SHA-256 replaced by a function chosen at random on the strings from which challenges are made, and a public key fixed before, the part of these functions with which the validity check accepts although a ciphertext encrypts something else than the proof says is at most 3(n+1)/2^256 for one selection, 3(n+1)(2^64+1)/2^256 for one contest limit, and 3(n+v)(2^64+1)/2^256 for a ballot. For one selection the bound is within a factor 3 of what can be reached without calls. The factor 2^64 is there because the limit is not among the hashed values: for one ciphertext and one pair of commitments, every wrong limit has a challenge with which it is proved.", "quantifier": "all programs (any computation between the calls, calls depending on earlier answers), all numbers of calls, all keys in the group, all ciphertexts, proofs, ballots and base hashes output, all hash functions on any finite set of strings that has the challenges in it", "why_tests_cant": "a test tries a few wrong proofs, which fail; it says nothing on proofs made for the purpose, and nothing on how many attempts would be needed", "anchors": ["src/electionguard/chaum_pedersen.cpp: DisjunctiveChaumPedersenProof::isValid, ConstantChaumPedersenProof::isValid", "src/electionguard/elgamal.cpp: ElGamalCiphertext", "src/electionguard/hash.cpp: hash_elems", "src/electionguard/ballot.cpp: CiphertextBallot::isValidEncryption"]}
{"id": "C113", "title": "Valid ballots count once, whoever made them", "statement": "Let a program of any kind call the hash function n times and then output any list of ballots for one manifest, with v proofs together. With SHA-256 replaced by a function chosen at random on the strings from which challenges are made, and a public key fixed before, the following holds if all ballots pass the validity check, but for a part 3(n+v)(2^64+1)/2^256 of the functions: for every contest and selection, elgamal_add of the ciphertexts is an encryption of a sum to which every ballot contributes 0 or 1, of no other number below q, and to all selections of a contest together each ballot contributes exactly the number in the proof of this contest.", "quantifier": "all programs, all numbers of calls, all keys in the group, all lists of ballots with distinct ids of contests and selections, all manifests", "why_tests_cant": "no test can list dishonest ballots; a negative vote or a vote of a thousand would show in no sum that a test computes from honest ones", "anchors": ["src/electionguard/elgamal.cpp: elgamalAdd", "src/electionguard/chaum_pedersen.cpp: DisjunctiveChaumPedersenProof::isValid, ConstantChaumPedersenProof::isValid", "src/electionguard/ballot.cpp: CiphertextBallot::isValidEncryption"]}
{"id": "C114", "title": "Ciphertexts are bound to their place", "statement": "A ciphertext with its proof that was made for one selection of one ballot is not accepted in another place: not under another ballot id, not for another selection.", "quantifier": "all valid ballots, all orders of the ciphertexts within the contests, all new ids, seeds and times, all hash functions", "why_tests_cant": "tests check that changed proofs are refused, not that unchanged ones are refused elsewhere", "anchors": ["src/electionguard/chaum_pedersen.cpp: DisjunctiveChaumPedersenProof::isValid, ConstantChaumPedersenProof::isValid", "src/electionguard/ballot.cpp: CiphertextBallotSelection::isValidEncryption, CiphertextBallotContest::isValidEncryption, CiphertextBallot::isValidEncryption"]}
{"id": "C115", "title": "The proofs do not betray the votes", "statement": "Whoever sees the public key, the ciphertexts of a contest, the proof of each selection, the proof of the contest and the whole hash function learns no more about which selections were voted for than from the ciphertexts: with SHA-256 replaced by a function chosen at random on the strings from which challenges are made, the advantage in telling two ways to cast the same number of votes apart is at most the sum of the advantages of two distinguishers per selection for the Diffie-Hellman problem, each of which runs the adversary once on proofs made without nonce or vote.", "quantifier": "all adversaries, all contests with any number of selections, all pairs of votes with the same sum, all base hashes, all groups with valid parameters", "why_tests_cant": "that proofs leak nothing is a statement about their distribution over all keys, nonces and random numbers and about all adversaries; a test sees single proofs", "anchors": ["src/electionguard/chaum_pedersen.cpp: DisjunctiveChaumPedersenProof::make, ConstantChaumPedersenProof::make", "src/electionguard/elgamal.cpp: elgamalEncrypt, elgamalAdd", "src/electionguard/hash.cpp: hash_elems"]}
{"id": "C116", "title": "No nonce is used twice, also with precomputed values", "statement": "In every history that mixes the encryption of ballots (successful, failing with an exception, or for other elections) with filling, emptying and reading the buffers of precomputed values: if all values ever put into the buffers are different and differ from those computed from the recorded ballots, and no two recorded ballots have both the same id and the same nonce, then no two ciphertexts of the record (of selections, placeholders and extended data) have the same pad, unless two strings have the same SHA-256. Whatever its outcome, the encryption of a ballot only takes entries from the front of the buffers.", "quantifier": "all histories of encryptions and buffer operations, all manifests with distinct sequence numbers, all ballots, nonces and contents of the buffers", "why_tests_cant": "a value handed out twice appears only in some interleavings of encryptions, failures and refills, and shows only if all ciphertexts of an election are compared with each other", "anchors": ["src/electionguard/encrypt.cpp: encryptBallot, encryptContest, encryptSelection", "src/electionguard/precompute_buffers.cpp: PrecomputeBufferContext::getTriple, getTwoTriplesAndAQuadruple, populate, stop_populate, empty_queues", "src/electionguard/nonces.cpp: Nonces::get"]}
{"id": "C117", "title": "Nonces computed from a ballot's nonce are as good as random ones", "statement": "Let the nonces of all ballots be drawn from a set S, and SHA-256 be replaced by a function chosen at random on the strings hashed for seeds and nonces. A program that is shown the nonces of all selections, placeholders and extended data of all ballots and the random numbers of the proofs of all contests, and may then call the hash function k times, cannot tell them from independent random digests: its chance to say yes differs by at most bk/|S| + 3m(k+m)/2^256, with b ballots and m seeds and nonces computed. With the standard parameters, nonces of ballots that are any exponents, 2^40 ballots, contests and items and 2^80 calls this is below 2^-128. The nonces meant are those with which encryptBallot makes the ciphertexts while the precompute buffers are empty.", "quantifier": "all layouts of ballots with different ids, contests and selections with different descriptions, all sets of nonces, all programs with any number of calls", "why_tests_cant": "it is a statement about all programs and about averages over all functions; a test sees single values that look random anyway", "anchors": ["src/electionguard/nonces.cpp: Nonces, Nonces::get, Nonces::next", "src/electionguard/encrypt.cpp: encryptBallot, encryptContest, encryptSelection", "src/electionguard/hash.cpp: hash_elems", "src/electionguard/ballot.cpp: CiphertextBallot::nonceSeed"]}
{"id": "C118", "title": "The votes of an election stay secret with nonces computed from the ballots' nonces", "statement": "Let the nonces of all ballots be drawn at random and everything else be computed as the library does. Whoever sees the public key, the ciphertexts of any of the selections of any ballots, the nonces of all other selections and extended data, the random numbers of the proofs of the contests, and may call the hash function k times, tells two ways to vote apart only with an advantage of at most that of two Diffie-Hellman distinguishers per vote, and twice the bounds for guessing the nonce of a ballot, for coincidences of hashes, and for digests that are no nonces. With the standard parameters, 2^40 ballots, contests and items and 2^80 calls this is the advantage of the distinguishers plus 2^-126.", "quantifier": "all layouts of ballots with different ids, contests and selections with different descriptions, all ways to divide their items into secret and known ones, all pairs of votes, all adversaries", "why_tests_cant": "secrecy is a statement about all adversaries and about averages over all keys, nonces and hash functions", "anchors": ["src/electionguard/encrypt.cpp: encryptBallot, encryptContest, encryptSelection", "src/electionguard/elgamal.cpp: elgamalEncrypt, ElGamalKeyPair::fromSecret", "src/electionguard/nonces.cpp: Nonces, Nonces::get, Nonces::next", "src/electionguard/hash.cpp: hash_elems", "src/electionguard/ballot.cpp: CiphertextBallot::nonceSeed"]}
{"id": "C119", "title": "The votes of an election stay secret although all proofs are published", "statement": "Let the nonces of all ballots and the random numbers of the proofs of all selections be drawn at random and everything else be computed as the library does. Whoever sees the public key, the ciphertexts of all votes of all ballots, the proofs of all selections and contests and the nonces of all other items, and may call the hash function k times, tells two ways to vote with the same number of votes in each contest apart only with an advantage of at most that of two Diffie-Hellman distinguishers per vote, and twice the bounds for guessing the nonce of a ballot, for coincidences of hashes, for digests that are no nonces, and for two equal ciphertexts. With the standard parameters, 2^40 ballots, contests and items and 2^79 calls this is the advantage of the distinguishers plus 2^-126. The ciphertexts and proofs of encryptBallot, with a ballot nonce given and empty precompute buffers, are made like this: the proof of every selection from three numbers of the random number generator that are used for nothing else, the proof of every contest from a seed computed from the ballot's nonce.", "quantifier": "all layouts of ballots with different ids, contests and selections with different descriptions, all pairs of votes of 0 or 1 with equal sums in each contest, all adversaries", "why_tests_cant": "secrecy is a statement about all adversaries and about averages over all keys, nonces, random numbers and hash functions", "anchors": ["src/electionguard/encrypt.cpp: encryptBallot, encryptContest, encryptSelection", "src/electionguard/chaum_pedersen.cpp: DisjunctiveChaumPedersenProof::make, ConstantChaumPedersenProof::make", "src/electionguard/elgamal.cpp: elgamalEncrypt, elgamalAdd, ElGamalKeyPair::fromSecret", "src/electionguard/nonces.cpp: Nonces, Nonces::get, Nonces::next", "src/electionguard/hash.cpp: hash_elems", "src/electionguard/ballot.cpp: CiphertextBallotSelection::make, CiphertextBallotContest::make, CiphertextBallotContest::aggregateNonce, CiphertextBallot::nonceSeed"]}
{"id": "C120", "title": "First messages logged by several threads", "statement": "Calls of the library from several threads should not disturb each other by logging. Once a message has been logged, no later call gets an exception from logging, whatever other threads do; if a message was logged before the threads start there are no data races either; a single thread has neither; and at most one thread ever makes the logger. But while the first message is being logged, other calls end with an exception of the logging library though their arguments are right; in the C interface the exception is caught, but the message about it throws again, out of the C function; this can happen to all threads but one; and the first messages of two threads can be a data race. If the program has a logger of the same name in the same table, every call that logs fails.", "quantifier": "all numbers of threads, all interleavings of their calls", "why_tests_cant": "a race in the first microseconds of a program shows up in a test only by chance; the theorems quantify over all interleavings", "anchors": ["src/electionguard/log.cpp: Log::trace, Log::error", "src/electionguard/encrypt.cpp: encryptBallot", "src/electionguard/facades/encrypt.cpp: eg_encrypt_ballot"]}
{"id": "C121", "title": "The votes stay secret, with values from the precompute buffers", "statement": "As C119, but any of the selections and contests of any ballots may have taken values from the precompute buffers, while the others are computed, as it happens when the buffers run empty: with all numbers drawn by the filling of the buffers uniform below q, whoever sees the public key, all ciphertexts and all proofs, and may call the hash function k times, tells two ways to vote with the same number of votes in each contest apart only with an advantage of at most that of two Diffie-Hellman distinguishers per vote, and the bounds of C119 with 2/q more for every vote, for the nonce 0, which is accepted from the buffers. With the standard parameters, 2^40 ballots, contests and items and 2^79 calls this is the advantage of the distinguishers plus 2^-126. The ballots of encryptBallot are made like this: the selections of a ballot take the entries of one buffer in their order, each for one ciphertext and its proof, and when there are no more, the nonce computed for their place and three numbers of the random number generator; a contest takes one entry of the other buffer for its extended data and one for its proof, or computes them. Each entry is made from numbers that are in no other entry.", "quantifier": "all groups with valid parameters, manifests, numbers of ballots and contests, votes, all subsets of places with precomputed values, all contents of the buffers, all adversaries", "why_tests_cant": "that a distribution tells nothing about the votes cannot be seen from any number of ciphertexts, and how far the buffers reach differs from run to run", "anchors": ["src/electionguard/precompute_buffers.cpp: PrecomputeBufferContext::populate, getTwoTriplesAndAQuadruple, getTriple", "src/electionguard/encrypt.cpp: encryptBallot, encryptContest, encryptSelection", "src/electionguard/elgamal.cpp: elgamalEncrypt_with_precomputed", "src/electionguard/chaum_pedersen.cpp: DisjunctiveChaumPedersenProof::make_with_precomputed, ConstantChaumPedersenProof::make"]}
{"id": "C122", "title": "Write-ins and overvotes stay secret", "statement": "Let any number of messages be encrypted with hashedElgamalEncrypt, each with a nonce of its own, uniform below q. Whoever sees the public key and the ciphertexts tells two lists of messages that fill the same numbers of blocks apart only with an advantage of at most that of two distinguishers of Diffie-Hellman triples and two of HMAC blocks, keyed with the hash of two group elements, for each message. For the records of overvotes and write-ins of contests this holds whatever they are and however long. With SHA-256 replaced by a function chosen at random on the strings from which session keys are made, the blocks are those of HMAC with a random key, and a program that calls the hash function k times gains at most 2 n (k + n) / q more with n records; with the standard parameters, 2^40 records and 2^80 calls less than 2^-130. The record of a contest is encrypted like this, with or without precomputed values. A nonce used twice gives away the xor of the two messages, an adversary without limits reads every message, and with the nonce 0, which is accepted unlike by elgamalEncrypt, everyone does.", "quantifier": "all lists of messages, seeds, groups with valid parameters, HMAC functions, adversaries and numbers of calls", "why_tests_cant": "secrecy is a statement about all adversaries and about averages over all keys, nonces and hash functions", "anchors": ["src/electionguard/elgamal.cpp: hashedElgamalEncrypt, elgamalEncrypt", "src/karamel/Hacl_HMAC.c: get_hmac", "src/electionguard/hash.cpp: hash_elems", "src/electionguard/encrypt.cpp: encryptContest"]}
{"id": "C123", "title": "Write-ins of an election stay secret with computed nonces", "statement": "Let any ballots be encrypted, with empty precompute buffers, with ballot nonces drawn at random from a set S; the nonces of the selections and of the records of overvotes and write-ins are then computed from them. Whoever sees the public key, the random numbers of the proofs of all contests, the nonces of all selections and of any other items, and the hashed ciphertexts of m records, and calls the hash function k times, tells two ways to fill in these records apart only with the advantage of two distinguishers of Diffie-Hellman triples and two of HMAC with a random key for each record, plus a bound for guessing: SHA-256 being a function chosen at random on the strings concerned. With the standard parameters, 2^40 ballots, contests and items and 2^79 calls this bound is below 2^-126. The hashed ciphertexts that encryptBallot makes are those of the theorem: the record that is encrypted is made from the contest of the same id of the normalised ballot, and its nonce is the one of its place.", "quantifier": "all elections with distinct ballot ids, sets of ballot nonces, divisions of the items, records, valid parameters, HMAC functions, adversaries and numbers of calls", "why_tests_cant": "secrecy is a statement about all adversaries and about averages over all keys, ballot nonces and hash functions", "anchors": ["src/electionguard/elgamal.cpp: hashedElgamalEncrypt", "src/karamel/Hacl_HMAC.c: get_hmac", "src/electionguard/hash.cpp: hash_elems", "src/electionguard/nonces.cpp: Nonces", "src/electionguard/encrypt.cpp: encryptContest, encryptBallot"]}
{"id": "C124", "title": "Votes and write-ins of an election stay secret together", "statement": "Let any ballots be encrypted, with empty precompute buffers, with ballot nonces drawn at random from a set S, and let everything be published: the ciphertexts of all votes, the proofs of all selections and contests, and the hashed ciphertexts of all records of overvotes and write-ins. Take two elections with the same ballots and contests and each contest filled up to the same limit, placeholders included, but different votes and different records, of any length. Whoever calls the hash function k times tells them apart only with the advantage of two distinguishers of Diffie-Hellman triples for each vote, and of two such distinguishers and two of HMAC with a random key for each record, plus a bound for guessing; SHA-256 being a function chosen at random on the strings concerned. With the standard parameters, 2^40 ballots, contests and items and 2^78 calls this bound is below 2^-125.", "quantifier": "all elections with distinct ballot ids, sets of ballot nonces, votes that fill each contest to its limit, records, valid parameters, HMAC functions, adversaries and numbers of calls", "why_tests_cant": "secrecy is a statement about all adversaries and about averages over all keys, ballot nonces, random numbers and hash functions; a test can at most show that two given ciphertexts differ", "anchors": ["src/electionguard/elgamal.cpp: elgamalEncrypt, hashedElgamalEncrypt", "src/electionguard/chaum_pedersen.cpp: DisjunctiveChaumPedersenProof::make, ConstantChaumPedersenProof::make", "src/karamel/Hacl_HMAC.c: get_hmac", "src/electionguard/hash.cpp: hash_elems", "src/electionguard/nonces.cpp: Nonces", "src/electionguard/encrypt.cpp: encryptSelection, encryptContest, encryptBallot"]}
{"id": "C125", "title": "Precomputed values are whole, moved once and copied apart", "statement": "After any sequence of constructions, copies, moves, assignments, readings and destructions of triples, quadruples and pairs of triples with a quadruple, all of them generated for a public key K by the library, each object either holds nothing (it was made by the constructor without arguments or has been moved from) or holds all its parts, and these are the powers of g and K that belong to the exponents in it. A move hands over the value and leaves nothing; to copy, assign from or take a part of an object that holds nothing is undefined, and every other operation is defined. An object assigned to itself, by copy or by move, is as before. A copy stays what the original was, whatever is done to the original afterwards. In a program that copies nothing no exponent is held by two objects, or twice by one, as long as the random numbers do not repeat.", "quantifier": "all sequences of operations on any number of objects, all public keys, exponents and valid parameters", "why_tests_cant": "sequences of operations are unbounded, and an exponent held twice shows only in ciphertexts that can be divided by each other; that reading a moved-from object is undefined need not be seen in a run", "anchors": ["src/electionguard/precompute_buffers.cpp: Triple, Quadruple, TwoTriplesAndAQuadruple: constructors, operator=, clone, generateTriple, generateQuadruple, getters"]}
{"id": "C126", "title": "Arrays of 64-bit numbers, bytes and texts stand for the same number", "statement": "An array of 64-bit numbers, most significant first, converted to bytes gives eight bytes for each entry and these are, most significant first, the bytes of the number the array stands for, on every machine. Bytes converted to an array give an array that stands for the number the bytes stand for, of the length asked for or of as many entries as the bytes need if these are more. An array is read back from its bytes with zeros in front, and bytes from their array. The text of an array of the length of an element is the text of the element and is read back as this element. The text of a single 64-bit number has sixteen characters and its bytes are those of the number. A 64-bit number is converted to a size exactly if it fits and otherwise the conversion throws. Reading a text into a given array gives the bytes reading it into a vector gives, and never writes beyond the array.", "quantifier": "all arrays, all bytes, all texts, all lengths asked for, all valid parameters, and every byte order of the machine", "why_tests_cant": "tests use the four constants of the library, on one machine, whose lengths are multiples of eight bytes", "anchors": ["src/electionguard/convert.hpp: hex_to_bytes, uint64_to_hex_string, uint64_to_size, bignum_to_bytes, copy_bytes_to_bignum_64, bignum_to_hex_string", "src/electionguard/group.cpp: ElementModP::fromHex, ElementModQ::fromHex, toHex"]}
{"id": "C127", "title": "Elements, key pairs and ciphertexts through C and C# are those of the library", "statement": "Constructing an element in C# from an array of numbers succeeds exactly if the array has enough numbers and the number they stand for is at most q (at most p), the data of the element are these numbers, and otherwise an exception is thrown. The hexadecimal text of an element is that of the library and is read back as the element. A vote encrypted with the public key of a key pair and a nonce other than zero is decrypted with the secret key of the pair, and pad and data of the ciphertext satisfy the equations of the encryption; secrets below 2 and the nonce zero are refused with an exception. Different failures give different exceptions, which tell the status of the call. Null references and disposed objects give an exception, and no method has undefined behaviour; every C function answers a null pointer with the status for an invalid argument.", "quantifier": "all arrays, texts, secrets, nonces, votes, all null and disposed arguments, all statuses and all valid parameters", "why_tests_cant": "tests of the bindings construct few elements, with arrays of the right length and objects that are not disposed, and do not look at the status of exceptions", "anchors": ["src/electionguard/facades/group.cpp: eg_element_mod_p_new, eg_element_mod_q_new, eg_element_mod_p_get_data, eg_element_mod_q_get_data, eg_element_mod_p_to_hex, eg_element_mod_q_to_hex, eg_element_mod_q_from_hex", "src/electionguard/facades/elgamal.cpp: eg_elgamal_keypair_from_secret_new, eg_elgamal_encrypt, eg_elgamal_ciphertext_decrypt_with_secret", "bindings/netstandard/ElectionGuard/ElectionGuard.Encryption/Group.cs: ElementModP, ElementModQ", "bindings/netstandard/ElectionGuard/ElectionGuard.Encryption/NativeInterface.cs: ThrowIfError"]}
{"id": "C128", "title": "Votes and write-ins stay secret together, with values from the precompute buffers", "statement": "As C124, but any of the selections, of the proofs of contests and of the records of overvotes and write-ins of any ballots may have taken values from the precompute buffers, while the others are computed, as it happens when the buffers run empty: with all numbers drawn by the filling of the buffers uniform below q, whoever sees the public key, all ciphertexts, all proofs and all hashed ciphertexts, and may call the hash function k times, tells two elections with the same number of votes in each contest apart only with the advantage of distinguishers of Diffie-Hellman triples and of HMAC with a random key as for C124, plus the bound for guessing of C124 with 4/q more for every vote. With the standard parameters, 2^40 ballots, contests and items and 2^78 calls this bound is below 2^-125. The hashed ciphertexts of encryptBallot are made like this, whatever the buffers hold: that of the a-th contest is made with entry 2a of the buffer of triples, and if there is none with the nonce computed for its place.", "quantifier": "all elections with distinct ballot ids, sets of ballot nonces, votes that fill each contest to its limit, records, all subsets of places with precomputed values, all contents of the buffers, valid parameters, HMAC functions, adversaries and numbers of calls", "why_tests_cant": "secrecy is a statement about all adversaries and about averages over all keys, nonces, random numbers and hash functions; how far the buffers reach differs from run to run", "anchors": ["src/electionguard/precompute_buffers.cpp: PrecomputeBufferContext::populate, getTwoTriplesAndAQuadruple, getTriple", "src/electionguard/elgamal.cpp: elgamalEncrypt_with_precomputed, hashedElgamalEncrypt", "src/electionguard/chaum_pedersen.cpp: DisjunctiveChaumPedersenProof::make_with_precomputed, ConstantChaumPedersenProof::make", "src/electionguard/hash.cpp: hash_elems", "src/electionguard/encrypt.cpp: encryptBallot, encryptContest, encryptSelection"]}
{"id": "C129", "title": "Hashing through the C interface", "statement": "eg_hash_elems_string, eg_hash_elems_strings and eg_hash_elems_int always succeed with an element of [0,q), and the behaviour is undefined exactly if the text, the array or one of the entries it reads is null or the array is shorter than said; of an array only the given number of entries is read, and with number zero the array may be null. The hash of a text is SHA-256 of its characters up to the first zero byte between two delimiters, modulo q (\"null\" for the empty text). The hash of an array is the hash of the hexadecimal text of what hash_elems gives in C++ for its entries as arguments; so for several texts it is not the hash C++ gives for them, unless SHA-256 inputs computed on the way collide. Different arguments have different hashes unless such inputs collide.", "quantifier": "all texts, arrays of texts of all lengths, lengths said, integers, digest functions and valid parameters", "why_tests_cant": "all lengths and contents of arrays, and all digest functions; a null pointer or a short array may go unnoticed in a test", "anchors": ["src/electionguard/facades/hash.cpp: eg_hash_elems_string, eg_hash_elems_strings, eg_hash_elems_int", "src/electionguard/hash.cpp: hash_elems, get_hash_string, hash_inner_vector"]}
{"id": "C130", "title": "Encryption through C and C#", "statement": "With objects for all handles, the C functions for encrypting ballots and compact ballots, with or without a nonce, and the methods of Encrypt and EncryptionMediator in C# give the ballot the library gives, and report its exceptions: invalid arguments and failed checks with statuses and exceptions of their own, without output; a null nonce is the same as none. A ballot obtained with the check of proofs is valid. A mediator is made exactly if the manifest hashes of manifest and context agree, and otherwise an invalid argument is reported; a ballot or compact ballot of an unknown style is refused as an invalid argument. C# throws for null references and disposed objects. The ballots a client gets from one mediator in any history of calls, also with calls that fail, form a chain of codes that starts with the hash eg_encryption_device_get_hash gives.", "quantifier": "all ballots, manifests, contexts, devices, nonces, null and disposed arguments, states of buffers, random numbers and clock, and all histories of calls of a mediator", "why_tests_cant": "histories of calls of any length with failures in between, and all combinations of null arguments and outcomes", "anchors": ["src/electionguard/facades/encrypt.cpp: eg_encryption_device_new, eg_encryption_device_get_hash, eg_encryption_mediator_new, eg_encryption_mediator_encrypt_ballot, eg_encryption_mediator_compact_encrypt_ballot, eg_encryption_mediator_encrypt_ballot_verify_proofs, eg_encrypt_ballot, eg_encrypt_ballot_with_nonce, eg_encrypt_compact_ballot, eg_encrypt_compact_ballot_with_nonce", "bindings/netstandard/ElectionGuard/ElectionGuard.Encryption/Encrypt.cs: EncryptionMediator, Encrypt.Ballot, Encrypt.CompactBallot", "src/electionguard/encrypt.cpp: EncryptionMediator, encryptBallot, encryptCompactBallot"]}
{"id": "C131", "title": "Proofs through C and C#", "statement": "With objects for all arguments, the functions of C and the constructors of C# that make disjunctive and constant Chaum-Pedersen proofs give a proof that IsValid accepts, for the same ciphertext, key and header, exactly if the ciphertext holds the number given (unless a challenge or response is zero). IsValid says of a disjunctive proof what anyone finds who reads its nine properties and checks the equations of the specification, and of a constant proof likewise. A plaintext above one is reported as an invalid argument. A null pointer is an invalid argument of the functions that make proofs and a negative answer of those that check; in C# it is an exception. A caller who passes the parameters as they are documented gets a proof that is accepted and does not reveal the nonce.", "quantifier": "all ciphertexts, keys, nonces, seeds, headers, numbers, random exponents, precomputed triples, proofs and combinations of null arguments", "why_tests_cant": "all numbers of 256 and 4096 bits, all combinations of null arguments, and what an observer can compute", "anchors": ["src/electionguard/facades/chaum_pedersen.cpp: eg_disjunctive_chaum_pedersen_proof_make, eg_disjunctive_chaum_pedersen_proof_make_deterministic, eg_disjunctive_chaum_pedersen_proof_is_valid, eg_constant_chaum_pedersen_proof_make, eg_constant_chaum_pedersen_proof_is_valid, eg_disjunctive_chaum_pedersen_proof_get_challenge, eg_constant_chaum_pedersen_proof_get_challenge", "bindings/netstandard/ElectionGuard/ElectionGuard.Encryption/ChaumPedersen.cs: DisjunctiveChaumPedersenProof, ConstantChaumPedersenProof", "src/electionguard/chaum_pedersen.cpp: DisjunctiveChaumPedersenProof::make, ConstantChaumPedersenProof::make", "include/electionguard/chaum_pedersen.hpp: ConstantChaumPedersenProof::make"]}
{"id": "C132", "title": "Auditing ballot codes through C", "statement": "A program in C that has the published records of a device (seed of the code, time, hash and code of each ballot) and recomputes the codes with eg_ballot_code_get_hash_for_device and eg_ballot_code_get_ballot_code always comes to an answer. It accepts exactly the records that form a chain from the hash of the device. The records of the ballots that a client of C or C# got from a mediator, in any history of calls also with calls that fail, are accepted. A record whose seed is not the code before it, or whose code does not fit, makes it reject, wherever it stands. Two accepted lists with the same last code are the same list of the same device, unless the hash function collides. A null seed or hash is reported as an invalid argument; the location must not be null.", "quantifier": "all devices, locations, lists of records of any length, and histories of calls of a mediator", "why_tests_cant": "lists of records and histories of any length, and every place at which a record may have been changed", "anchors": ["src/electionguard/facades/ballot_code.cpp: eg_ballot_code_get_hash_for_device, eg_ballot_code_get_ballot_code", "src/electionguard/facades/encrypt.cpp: eg_encryption_device_new, eg_encryption_mediator_new, eg_encryption_mediator_encrypt_ballot, eg_encryption_mediator_compact_encrypt_ballot", "src/electionguard/ballot_code.cpp: BallotCode::getHashForDevice, BallotCode::getBallotCode"]}
{"id": "C133", "title": "Election contexts between programs in C#", "statement": "A context made in C# of a public key, hashes, numbers of guardians and quorum and a configuration, written with ToJson and read by another program with the constructor that takes text, shows there the values given, the two hashes of the specification and the configuration; extended data arrives with the same entries. The receiving program can make a mediator exactly if its manifest has the hash given. Null references and disposed objects end with an exception, never with undefined behaviour. A text whose hashes do not belong to its other values is refused. (Fails: such a text is accepted, a context with a commitment hash of zero is written but cannot be read, every fault of a text is reported as lack of memory, and a null text is undefined behaviour.)", "quantifier": "all contexts, configurations, extended data and texts, all combinations of missing arguments", "why_tests_cant": "all elements and texts, including the characters that are escaped", "anchors": ["src/electionguard/facades/election.cpp: eg_ciphertext_election_context_make, eg_ciphertext_election_context_make_with_configuration, eg_ciphertext_election_context_get_elgamal_public_key, eg_ciphertext_election_context_get_configuration, eg_ciphertext_election_context_to_json, eg_ciphertext_election_context_from_json", "bindings/netstandard/ElectionGuard/ElectionGuard.Encryption/Election.cs: CiphertextElectionContext, ContextConfiguration"]}
{"id": "C134", "title": "Devices and ballots between programs in C#", "statement": "A device made in C#, written with ToJson and read by another program with the constructor that takes text, is the same device there, and so is a plaintext ballot; a program that got device, context and ballot as texts makes the same mediator and encrypts the ballot with the same result. An encrypted ballot written with or without nonces and read elsewhere keeps its id, style, code, code seed and timestamp, and IsValidEncryption says there what it says here; it says yes exactly for the ballots of the specification (with C36). The text made without nonces does not depend on any nonce of the ballot, its contests or its selections. Null references and disposed objects end with an exception, never with undefined behaviour. (Fails: encrypted ballots with elements that are zero are not read back, ToJson with nonces of a ballot whose nonce is missing follows a null pointer, every fault of a text is reported as lack of memory, and a null text is undefined behaviour.)", "quantifier": "all devices, plaintext ballots, encrypted ballots, contexts and texts, all combinations of missing arguments", "why_tests_cant": "independence of the text from the nonces is a statement about pairs of ballots", "anchors": ["src/electionguard/facades/encrypt.cpp: eg_encryption_device_from_json, eg_encryption_device_to_json", "src/electionguard/facades/ballot.cpp: eg_plaintext_ballot_from_json, eg_plaintext_ballot_to_json, eg_ciphertext_ballot_from_json, eg_ciphertext_ballot_to_json, eg_ciphertext_ballot_to_json_with_nonces, eg_ciphertext_ballot_is_valid_encryption", "bindings/netstandard/ElectionGuard/ElectionGuard.Encryption/Ballot.cs: PlaintextBallot, CiphertextBallot", "bindings/netstandard/ElectionGuard/ElectionGuard.Encryption/Encrypt.cs: EncryptionDevice"]}
{"id": "C135", "title": "Ballots submitted in C#", "statement": "An encrypted ballot submitted in C# with a state has this state, the id and the code of the ballot and its verdict of IsValidEncryption; written with ToJson and read by another program it still has them. A cast and a spoiled ballot never have the same text, and the text does not depend on any nonce. Timestamp gives the timestamp of the ballot. Null references and disposed objects end with an exception, never with undefined behaviour. (Fails: Timestamp in C#, of encrypted and of submitted ballots, calls a function that returns the time as if it returned a status, so it ends with an exception or gives zero; a ballot of which a nonce, a proof or the extended data is missing is undefined behaviour when it is submitted; every fault of a text is reported as lack of memory, and a null text is undefined behaviour.)", "quantifier": "all encrypted and submitted ballots, states, timestamps and texts", "why_tests_cant": "that Timestamp is right only for the time zero is a statement about all times; that texts of different states differ is one about all pairs of ballots", "anchors": ["src/electionguard/facades/ballot.cpp: eg_submitted_ballot_from, eg_submitted_ballot_get_state, eg_submitted_ballot_from_json, eg_submitted_ballot_to_json, eg_ciphertext_ballot_get_timestamp", "bindings/netstandard/ElectionGuard/ElectionGuard.Encryption/Ballot.cs: SubmittedBallot, CiphertextBallot.Timestamp", "bindings/netstandard/ElectionGuard/ElectionGuard.Encryption/NativeInterface.cs: SubmittedBallot.GetTimestamp, CiphertextBallot.GetTimestamp"]}
{"id": "C136", "title": "An encrypted ballot checked part by part in C#", "statement": "GetContestAt gives, for the indices below ContestsSize, exactly the contests of the ballot, ordered by sequence, and GetSelectionAt those of a contest; any other index ends with an exception. IsValidEncryption of a ballot says yes exactly if the manifest hash and the ballot hash agree and every contest and every selection obtained by index says yes for its own description hash, so a program that checks the parts comes to the verdict of the library. AggregateNonce is the sum of the nonces of the selections modulo q. Null references and disposed objects end with an exception, never with undefined behaviour. (Fails: ballots whose result names repeat; an index out of range is reported as lack of memory; AggregateNonce of a contest of which a nonce is missing follows a null pointer.)", "quantifier": "all encrypted ballots, contests, selections, indices and keys", "why_tests_cant": "an equivalence between the verdict on the whole and the verdicts on all parts, for ballots of any size", "anchors": ["src/electionguard/facades/ballot.cpp: eg_ciphertext_ballot_get_contests_size, eg_ciphertext_ballot_get_contest_at_index, eg_ciphertext_ballot_contest_get_selections_size, eg_ciphertext_ballot_contest_get_selection_at_index, eg_ciphertext_ballot_contest_is_valid_encryption, eg_ciphertext_ballot_selection_is_valid_encryption, eg_ciphertext_ballot_contest_aggregate_nonce, eg_ciphertext_ballot_crypto_hash_with", "bindings/netstandard/ElectionGuard/ElectionGuard.Encryption/Ballot.cs: CiphertextBallot, CiphertextBallotContest, CiphertextBallotSelection"]}
{"id": "C137", "title": "Encrypted ballots between programs in C# as bytes", "statement": "An encrypted ballot written by ToBson, or by ToMsgPack, and read by the constructor of CiphertextBallot with the same encoding has the id, the ballot code and, for every manifest hash, key and base hash, the verdict of IsValidEncryption of the ballot written; ToBson with nonces keeps the ballot nonce and without them writes bytes that are the same for all ballots that differ only in nonces. Null references, disposed objects and empty arrays end with an exception. (Fails: ToMsgPack that is asked for nonces gives the bytes without them, so the receiver finds the nonce zero; every exception for unreadable bytes is reported as lack of memory.)", "quantifier": "all encrypted ballots that can be read back, with or without nonces, all keys and hashes", "why_tests_cant": "a round trip for ballots of any size through two binary formats; the lost nonces show only when a ballot is decrypted with them later", "anchors": ["src/electionguard/facades/ballot.cpp: eg_ciphertext_ballot_from_bson, eg_ciphertext_ballot_from_msgpack, eg_ciphertext_ballot_to_bson, eg_ciphertext_ballot_to_bson_with_nonces, eg_ciphertext_ballot_to_msgpack, eg_ciphertext_ballot_to_msgpack_with_nonces", "bindings/netstandard/ElectionGuard/ElectionGuard.Encryption/Ballot.cs: CiphertextBallot.ToBson, CiphertextBallot.ToMsgPack"]}
