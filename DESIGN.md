# Formal model of electionguard-cpp: design

## Approach

The C++ code is modelled as small total computable Lean 4 functions, one per C++
function, each with a comment naming file and lines in /repo.  Results of C++
calls live in `Res α`: a value, a thrown exception (by class), or `ub` (the call
leaves defined behaviour: out-of-range read, null dereference, use of an
uninitialised value).  Calls with effects (random numbers, the precompute buffers,
the clock) are functions `M α = World → Res α × World`.  The concurrent classes are
transition systems whose steps are the accesses to shared memory.

Directories under `lean/Verif`:

* `Model/` the code;
* `Spec/` notions used in the statements which do not come from the code;
* `Lemmas/` auxiliary results;
* `Props/` the property theorems, named `Cnn_...` after the property.  Beside them
  are `example`s with concrete cases that meet the hypotheses.

A property that the code does not satisfy is handled in two parts: a theorem
`Cnn_..._violated` with a concrete witness (or for all inputs), and a theorem
`Cnn_..._partial` with the largest part that holds.

### Representation

* A limb array is the natural number it denotes (little endian 64-bit limbs);
  fixed width arithmetic is explicit `% 2^256`, `% 2^4096`.  The exception are
  Model/Limbs.lean, Model/LimbsExp.lean and Model/LimbsGroup.lean: there an array is a list of `UInt64`, and the
  carries of the HACL* loops are modelled; C67 to C69 and C77 show that these loops,
  and the functions of group.cpp built on them, compute the operations on numbers.
* Group parameters are a record (p, q, g, r, offsets) with the standard and the test
  constants as instances; theorems assume `Params.Valid` (p - 1 = q r, g^q = 1,
  q prime, ...), which is proved for both instances (C54).  Where 64-bit constants
  must be below q, `Params.Large` is assumed, which holds for the standard constants.
  Nothing assumes that p is prime: all results are about the group generated by g,
  or hold modulo p for any p.
* SHA-256 and HMAC-SHA256 are parameters: arbitrary functions with the right output
  length.  "Unless the hash collides" is expressed by exhibiting a collision of that
  very function in the conclusion.  C70 to C72 show that the functions called by the
  library are SHA-256 and HMAC-SHA256 of the standards (`stdCrypto`), so that everything
  proved for arbitrary functions holds for them.
* Bytes are `List UInt8`, texts are `List Char`.  In the conversion functions of
  convert.hpp a character stands for one byte; elsewhere texts are sequences of
  Unicode scalar values, stored as UTF-8 (comparison and order agree).
* `std::sort` is an arbitrary function that returns a sorted permutation (`StdSort`):
  the order of elements with equal keys is unspecified, and no theorem depends on it.
* Random numbers are read from a stream in the `World`, or are parameters.

## Properties

| id | property | modelled | proved by | status |
|----|----|----|----|----|
| C01 | Addition modulo q | add_mod_q, both overloads, branch by branch | case split on carry and comparison; induction over the vector | proved |
| C02 | Subtraction modulo q | sub_mod_q | case split on borrow | proved |
| C03 | Fused a+b*c modulo q | a_plus_bc_mod_q with its carry limb, mul_mod_q | congruences | proved |
| C04 | Multiplication modulo p | mul_mod_p, both overloads; Montgomery routines of HACL* | Montgomery reduction invariant; induction over the vector | proved |
| C05 | Exponentiation is independent of the fixed-base path | table generation and windowed evaluation of lookup_table.hpp, the cache, g_pow_p, both windowed exponentiations of HACL* | invariant over rows and entries, base-256 digits; invariant over every history of calls on the cache | proved |
| C06 | Addition and reduction modulo p | add_mod_p with the out-of-range read | witness; congruences for the part that holds | partial |
| C07 | Checked construction and bounds | constructors, bytes_to_*, fromUint64, isInBounds | arithmetic | proved |
| C08 | Hex and byte round trips of group elements | bytes_to_hex, sanitize_hex_string, hex_to_bytes, byte order of HACL* | induction over byte lists; witness | partial |
| C09 | Valid residues form a group | isValidResidue | order of g in ZMod p | proved |
| C10 | Random exponents are usable but not uniform | rand_q and its mask | bit arithmetic; witness | partial |
| C11 | ElGamal decryption inverts encryption | fromSecret, elgamalEncrypt, decrypt | units of ZMod p | proved |
| C12 | ElGamal is additively homomorphic | elgamalAdd | induction over the list | proved |
| C13 | Out-of-range plaintexts | elgamalEncrypt | witness for every plaintext above 1 | partial |
| C14 | Precomputed encryption equals direct encryption | elgamalEncrypt_with_precomputed | equality of both branches | proved |
| C15 | Hashed ElGamal round trip (padded) | hashedElgamalEncrypt, decrypt, padding | list lemmas, XOR is an involution | proved |
| C16 | Hashed ElGamal truncation and rejection | the same | case analysis on lengths | proved |
| C17 | Hashed ElGamal decryption is safe on arbitrary input | decrypt with every index explicit | every read is shown to be in range | proved |
| C18 | Hashed ElGamal and the precompute buffer | hashedElgamalEncrypt with the buffer as state | witness | partial |
| C19 | Disjunctive proof completeness | all provers (seeded, random, precomputed), CiphertextBallotSelection::make with seed | algebra in ZMod p and ZMod q | proved |
| C20 | Disjunctive proof special soundness | DisjunctiveChaumPedersenProof::isValid | special soundness: extraction from two transcripts | proved |
| C21 | Constant proof completeness | ConstantChaumPedersenProof::make, isValid | algebra | proved |
| C22 | Constant proof special soundness | ConstantChaumPedersenProof::isValid | special soundness | proved |
| C23 | Verifier decides exactly the specification equations | both verifiers | equivalence with a specification that lists the equations | proved |
| C24 | Copies of proofs equal the original | copy constructor, clone | witness | partial |
| C25 | Hash results are exponents | hash_elems | arithmetic | proved |
| C26 | Hash input encoding | rendering of every argument type | injectivity by induction over rendered strings; explicit ambiguities | partial |
| C27 | Nonce sequences | Nonces | induction over histories | proved |
| C28 | Precomputed values are handed out at most once, in order | buffer state machine | invariant over histories | proved |
| C29 | Precompute buffer size | populate loop | induction on the missing number of entries | proved |
| C30 | Precomputed values belong to the key in use | init, populate, getters | invariant; witness | partial |
| C31 | Contest validity classification | PlaintextBallotContest::isValid | case analysis; witnesses | partial |
| C32 | Encrypted contest totals | encryptContest | invariant of the placeholder loop | proved |
| C33 | Overvotes count for nobody, honest votes are preserved | encryptContest, encryptBallot | the same; decryption of every selection | proved |
| C34 | Ballot normalisation | emplaceMissingValues, contestFrom, selectionFrom | list lemmas | partial |
| C35 | Encrypted selections and contests verify | encryptSelection, encryptContest, encryptBallot | from C19, C21, C23 | proved |
| C36 | Ballot validity detects tampering | isValidEncryption of selections, contests, ballots | equivalence with a specification; witnesses | partial |
| C37 | Ballot codes form a hash chain | BallotCode, EncryptionMediator | induction over the history of one mediator; extraction of a hash collision | proved |
| C38 | Ballot hash and contest order | makeCryptoHash at creation and validation | extraction of a hash collision; witness | partial |
| C39 | Compact ballot round trip | ballot_compact.cpp | determinism of the seeded encryption | partial |
| C40 | Mediator and context consistency | CiphertextElectionContext::make, EncryptionMediator | extraction of a hash collision | proved |
| C41 | Manifest validity | Manifest::isValid | equivalence with a specification | proved |
| C42 | Contest description validity | ContestDescription::isValid | equivalence with a specification | proved |
| C43 | Placeholders | generation of placeholders | injectivity of decimal texts; witnesses | partial |
| C44 | Contests of a ballot style | getContestsFor, getBallotStyle | membership and counting; witness | partial |
| C45 | Copies of contest descriptions keep their hash | ContestDescription::clone | witnesses | partial |
| C46 | Manifest hash coverage | crypto_hash of all manifest classes | extraction of a hash collision; witnesses | partial |
| C47 | Serialized ciphertexts round trip | serializers of encrypted and submitted ballots | round trip of documents, then C64 | partial |
| C48 | Write-ins survive compact serialization | serializers of compact ballots | the same | partial |
| C49 | Enumeration strings | string tables | case analysis over the enumerations, all strings | partial |
| C50 | Linked list container | collections.c on an explicit heap with a failing allocator | representation invariant, refinement to a list | proved |
| C51 | Asynchronous queue | AsyncQueue, small steps, heap, two mutexes | inductive invariant, refinement to an atomic queue | proved |
| C52 | Semaphore exclusion | AsyncSemaphore, small steps, mutex, condition variable | inductive invariant | proved |
| C53 | Election tally | composition of encryptBallot and elgamalAdd | induction over the ballots | partial |
| C54 | Group parameters | constants.h, limb for limb | kernel computation with certified modular powers; Pratt certificate of q | proved |
| C55 | Hex parsing accepts only hexadecimal digits | sanitize_hex_string, hex_to_bytes with strtol | exact characterisation against Spec/Hex.lean, induction over pairs of characters; witness | partial |
| C56 | Decryption of malformed ciphertexts | decrypt | case analysis; witness | partial |
| C57 | Hashed ElGamal key stream never repeats | HMAC inputs of the key stream | injectivity; witness | partial |
| C58 | Hash of a hashed ciphertext binds it | crypto_hash of hashed ciphertexts | extraction of a hash collision; witness | partial |
| C59 | Overvotes and write-ins can be recovered | encryptContest, hashed ElGamal | from C15, C16 | partial |
| C60 | Submitting a ballot | SubmittedBallot, clones | case analysis; witnesses | partial |
| C61 | Plaintext ballots, devices and contexts round trip | serializers of devices, contexts, plaintext ballots | round trip of documents, then C64 | proved |
| C62 | Manifest texts | serializers of all manifest classes | exact result of reading; witnesses | partial |
| C63 | Internal manifest texts | serializers of internal manifests | the same | partial |
| C64 | JSON texts | dump and parse of nlohmann/json | induction over documents | proved |
| C65 | Record of overvotes and write-ins | getOvervoteAndWriteIns | exact contents of the document | partial |
| C66 | Looking up selections of a contest | selectionFor, IsPlaceholder | membership | partial |
| C67 | Multi-limb integer arithmetic | limb loops of Hacl_Bignum*.c | loop invariants; induction for Karatsuba | proved |
| C68 | Reduction, exponentiation and inversion on limbs | Montgomery arithmetic and exponentiation on limbs | refinement of the model on numbers (C04, C05) | proved |
| C69 | Bytes of multi-limb integers | byte conversion on limbs | loop invariants | proved |
| C70 | SHA-256 | Hacl_Hash_SHA2.c, Hacl_Streaming_SHA2.c for SHA-256 | refinement of a transcription of FIPS 180-4; invariant of the stream | proved |
| C71 | HMAC-SHA-256 | Hacl_HMAC.c, get_hmac with 32-bit sizes | the same for RFC 2104 | partial |
| C72 | Hashing with the streaming interface | hash_elems on the stream | the same; equality with the model used elsewhere | partial |
| C73 | Random generator | Hacl_HMAC_DRBG.c for SHA-256, Random::getBytes | the same for SP 800-90A; induction over requests | proved |
| C74 | Vote limit of accepted contests | contest and ballot validity, both proofs | special soundness of both proofs and addition of ciphertexts; explicit ballot | partial |
| C75 | Proofs are bound to the public key | isValid of both proofs | choice of the key after the challenge; uniqueness of roots of order q | partial |
| C76 | Proofs show nothing but the claim | make_zero, make_one, constant make | each accepted proof determines the random numbers; counting | proved |
| C77 | Group arithmetic on limbs | group.cpp and lookup_table.hpp on arrays of UInt64 | refinement of the model on numbers (C01-C06) with C67-C69 | proved |
| C78 | Thread pool | ThreadPool as a transition system | invariant over all interleavings; measure for progress | partial |
| C79 | Waiting for all tasks | wait_all with arbitrary times at which futures become ready | induction over rounds | partial |
| C80 | Concurrent use of the lookup table cache | LookupTableContext::pow_mod_p: single accesses of map and semaphore as steps | invariant over all interleavings; explicit interleaving | partial |
| C81 | Dates | convert.cpp; gmtime, put_time, date::parse for the formats in use | day numbers of years and months; digits read back; uniqueness of dates | partial |
| C82 | Memory of C clients | every function of the C interface as a table entry; ownership trees of objects | invariant over all sequences of calls; executions in the kernel for the violations | partial |
| C83 | Types of C handles | the same | evaluation of the whole table; the invariant of C82 | partial |
| C84 | Text and status across the C interface | dynamicCopy, status.h, catch clauses | direct | partial |
| C85 | Functions in the headers exist | table of declarations and definitions | evaluation of the whole table | partial |
| C86 | Imports of the C# bindings match the library | table of imports, table of declarations and definitions | evaluation of the whole tables, with the place of each function as a hint | partial |
| C87 | The C# bindings release every object exactly once | state machine of a safe handle; programs over the heap of C82 | invariant of the state machine; invariant of programs on top of that of C82 | partial |
| C88 | Group constants in C# | table of properties | evaluation | partial |
| C89 | Background precomputation from C# stops, completes and reports | interleaving of a user, workers and others, steps at accesses to shared state | invariants by induction on the history; a rank that every step of a worker decreases after a stop | partial |
| C90 | 128-bit integers and byte order are the same on every platform | three implementations of 128-bit words as functions on 64-bit words; bytes in memory and byte order | each operation against BitVec 128 and numbers of bytes; limbs of 32 bits for the product of the struct | partial |
| C91 | Concurrent use of the precompute buffers | interleaving of threads, one step for each access to a member | invariants by induction; the effect of what the holder of the lock has still to do makes the members those of a history of atomic operations | partial |
| C92 | Counting the ballots of the record | composition of encryptBallot, SubmittedBallot::from, the documents and texts, and elgamalAdd | inversion of what is read, whatever is read; induction over the ballots | partial |
| C93 | Secrets and the accesses and branches | the functions of C67, C68, C77 and C11 on limbs once more, each with the list of its branches and accesses | relational induction over the loops (equal lengths give equal lists); for the violations the list is shown to determine the digits of the exponent | partial |
| C94 | Which texts are read | parse of nlohmann/json with all numbers; get<uint64_t> | both directions between the parser and the grammar: induction over the depth, and over the derivation; correct rounding of strtod from a bound on the distance to integers | partial |
| C95 | MessagePack | binary_writer and binary_reader of nlohmann/json for MessagePack | both directions between the reader and the grammar, as for C94; the writer by induction over the document, with bounds on all lengths from the total | partial |
| C96 | BSON | binary_writer and binary_reader of nlohmann/json for BSON | as C95; a grammar with a flag for sizes and terminators, and monotonicity in the flag | partial |
| C97 | Windows computes the same | Hacl_Bignum4096_32.c, the u32 functions of Hacl_Bignum.c, Hacl_GenericField32.c, and both branches of Hacl_Bignum4096.cpp | the lemmas about 64-bit limbs again for 32-bit limbs; both sides denote the same number and have the same length, so the limbs are equal | partial |
| C98 | Secrets are wiped from memory | Lib_Memzero0_memzero, the destructors of group elements, get_hmac and hashed ElGamal with the blocks of memory they give back | bytes of numbers; induction over the blocks of a message | partial |
| C99 | All ways of creating an election context agree | the overloads of make, the C functions on the linked list of Model/Collections.lean with its heap, the indexer of C# | invariant of maps built entry by entry, induction over the list; invariants of C50 | partial |
| C100 | The limits of the configuration are kept | encryption and the mediator with a context that has a configuration | totality of encryption (C35) on an overvoted ballot; induction over the number of ballots | partial |
| C101 | The dates of a manifest come back as they were given | the conversions between dates, milliseconds and ticks of the clock, with the overflow of 64 bits | arithmetic, for every resolution of the clock; C81 for texts | partial |
| C102 | Constructors of C# leave the objects given to them as they are | the loop of the constructors on handles (Model/CsHandle.lean) and the moves in the C functions | induction over the array, with the memory of the library | partial |
| C103 | Assigning and moving contests of the internal manifest | the two pointers of the object, copy, move and assignment | case analysis on the pointers | partial |
| C104 | The log of an encryption does not reveal the votes | encryption of selections, contests and ballots with the lines of the log | the lines of a successful encryption, by induction over selections and contests; without the log the functions are those of C33-C35 | partial |
| C105 | Big-number results may overwrite their arguments | limb loops on one memory of words, in the order of the C code | induction on the number of limbs: writes never reach a limb that is still to be read; then equal to the functions on values of C67 and C68 | proved |
| C106 | Exponentiation of big numbers is right in memory, also over its arguments | the functions on one memory of words, local arrays at fixed offsets from a stack address | each function equals its value-level counterpart (C67, C68) and changes only its result and scratch arrays; induction on the recursion depth, the bits and the windows | proved |
| C107 | Modular reduction and exponentiation are right in memory from the modulus alone | the functions on one memory of words, with the loops unrolled by four as in the source | unrolled loops are folds over the same steps; the steps of each function keep what later steps read, and the value-level theorems (C67, C68) give the result | proved |
| C108 | Copies equal the original and leave it as it was | copy constructors and assignments on objects with null pointers and the stored text | simulation of plain values; folds that append copies are the identity; concrete runs for the violations | partial |
| C109 | Manifests made and read through the C functions | constructors and getters of facades/manifest.cpp on values with null pointers | each constructor inverted, closure under the constructors by parts; lists read by index; injectivity by parts; the binding of the manifest hash (C46) for the violations | partial |
| C110 | Ciphertexts hide the votes | elgamalEncrypt and fromSecret as they are; adversaries as functions, games as sums over all secrets and nonces | hybrids by induction on the list; multiplication by g permutes the powers of g | proved |
| C111 | No nonce is used twice | encryptBallot and what it calls as for C35; the derivation of a nonce restated as a list of hash inputs per place | induction over the loops with empty buffers; injectivity of the hash input encoding at each of the five steps; powers of g below q are distinct | proved |
| C112 | Proofs cannot be forged for a key fixed in advance | the verifiers as for C23, C24, C35; programs as trees of calls to the hash function | a proof of a wrong statement has at most one challenge (two for the limit, per constant) its commitments can be completed with; counting of the functions with such a value at one of the strings asked or output, by induction over the tree | proved |
| C113 | Valid ballots count once, whoever made them | elgamal_add and the validity check as for C12, C36; programs as for C112 | the counting of C112 for the challenges of all ballots; votes are read off the ciphertexts, which encrypt one number below q only | proved |
| C114 | Ciphertexts are bound to their place | the validity check as for C36; the copying program recomputes the hashes of ballot.cpp:382-389, 784-797, 1135-1149 | the specification of valid ballots (C36) is invariant under permutations of ciphertexts with their proofs within a contest | partial |
| C115 | The proofs do not betray the votes | make of both proofs, elgamalEncrypt, elgamalAdd and the sum of nonces as for C12, C18-C23; games as sums over keys, nonces, functions and random numbers | for each answer of the hash function the random numbers of prover and simulator correspond one to one; programming one answer permutes the pairs of function and answer; then C110 | proved |
| C116 | No nonce is used twice, also with precomputed values | encryption as for C35, buffers as for C28 | each call takes a prefix of both buffers, so the pads used and those still buffered are together part of the supply; the rest as for C111 | proved |
| C117 | Nonces computed from a ballot's nonce are as good as random ones | nonces as for C111, programs and random functions as for C112 | the answers of the hash function at places that depend on other answers are exchanged for fresh values; what this changes is bounded by how often two of the strings coincide or the program asks for one of them, counted over the value it is computed from | proved |
| C118 | The votes of an election stay secret with nonces computed from the ballots' nonces | keys and ciphertexts as for C110, nonces and random functions as for C117 | C117 for every key exchanges the nonces for random digests, these are exchanged for accepted nonces, and then the adversary with its hash function, random numbers of proofs and other nonces as coins is one of C110 | proved |
| C119 | The votes of an election stay secret although all proofs are published | keys and ciphertexts as for C110, proofs as for C115, nonces and random functions as for C117 | C117 exchanges the nonces and the numbers of the contests' proofs for random digests, these for accepted numbers; then all proofs are exchanged for simulated ones, whose answers of the hash function are exchanged with the chosen ones while no two ciphertexts coincide; and the adversary with the simulator is one of C110 | proved |
| C120 | First messages logged by several threads | the pointer to the logger, the table of loggers of spdlog, and where each thread is | invariants over all interleavings, of any number of threads; the violations are executions, for any number of threads | partial |
| C121 | The votes stay secret, with values from the precompute buffers | encryption with buffers of any contents, and what is published | C119 with the values from the buffers in place of those computed: zero nonces are left out, computed and drawn values are exchanged, the rest is the proof of C119; the use of the buffers by induction over the contests and selections | proved |
| C122 | Write-ins and overvotes stay secret | hashedElgamalEncrypt with all its arguments | a hybrid over the messages; a triple in place of the powers, then blocks in place of those derived, which are xored with the difference of the messages; with a random oracle the digest of the session key is drawn anew, which an adversary notices only if it asks for one of q strings | proved |
| C123 | Write-ins of an election stay secret with computed nonces | nonces and random functions as for C117, hashed ciphertexts as for C122 | C117 for every key, with a program that asks for the digests of the session keys and makes the ciphertexts itself, exchanges the nonces for random digests; these are exchanged for numbers below q; then the adversary on average over the other digests is one of C122 | proved |
| C124 | Votes and write-ins of an election stay secret together | what is published as for C119, records as for C123 | the votes are exchanged first, by an adversary of C119 that knows the nonces of the records and encrypts them, asking for the session keys; then the records, by an adversary of C123 that knows the nonces of the votes and the random numbers of the proofs, and proves them, asking for the challenges | proved |
| C125 | Precomputed values are whole, moved once and copied apart | the three classes as pointers to their parts, and programs as lists of operations on numbered objects | induction on the program: every object is void or whole, and without copies every exponent held has its own draw | proved |
| C126 | Arrays of 64-bit numbers, bytes and texts stand for the same number | the loops of the conversions, with what htobe64 does taken from the conversions of the machine | bytes split into the bytes of an array and fewer than eight; induction on the array | partial |
| C127 | Elements, key pairs and ciphertexts through C and C# are those of the library | the C functions with their null checks and catch clauses, and the methods of C# calling them, with null references, disposed objects and exceptions | case analysis over the calls; the facts about the group and ElGamal (C08, C11) | partial |
| C128 | Votes and write-ins stay secret together, with values from the precompute buffers | what is published as for C121, records with or without a triple | as for C124, from C121 and C123: the votes are exchanged first, on average over the nonces of the triples of records, then the records, on average over all that is drawn for the votes; for records with triples the drawn and the computed nonces are exchanged; the use of the buffer by induction over the contests | proved |
| C129 | Hashing through the C interface | the three C functions, with null pointers and the length of the array | case analysis; induction over the array; C25, C26 | partial |
| C130 | Encryption through C and C# | the C functions with their catch clauses and the methods of C# calling them, with null references and disposed objects | case analysis over arguments and outcomes; the chain by induction over the calls, from C37 | partial |
| C131 | Proofs through C and C# | the C functions with their checks and catch clauses and the classes of C# calling them; random exponents and the precomputed triple as parameters | case analysis over arguments, and C19, C21 and C23; the nonce by division in the field of exponents | partial |
| C132 | Auditing ballot codes through C | the two C functions; the auditor is a program of the specification that calls them | induction over the records; completeness from C130, binding from C37 | proved |
| C133 | Election contexts between programs in C# | the constructors and properties of C# and the C functions they call | the text of a document has no zero in it (induction over documents), then C61 and C130 | partial |
| C134 | Devices and ballots between programs in C# | the constructors and methods of C# and the C functions they call | C61, C47 and C133 for the documents; the sort of contests and selections commutes with dropping nonces | partial |
| C135 | Ballots submitted in C# | the constructors, properties and methods of C# and the C functions they call | C47, C60 and C134; cases of the status | partial |
| C136 | An encrypted ballot checked part by part in C# | the C functions and the methods of C# that reach into a ballot | the sort is a permutation; then the characterisation of the verdict behind C36 | partial |
| C137 | Encrypted ballots between programs in C# as bytes | the C functions and the methods of C# that write and read bytes | composition of the round trips of C95 and C96 with the verdict of C47 | partial |

## Where the code does not do what one relies on

Each item is proved (name of the theorem in brackets).

* `add_mod_p` reads beyond a four-limb constant when the sum reaches 2^4096 - 1, and is
  wrong then [C06_add_mod_p_violated].  `mod_p` reads beyond the element for every argument
  [C06_mod_p_violated].
* The hexadecimal text of zero cannot be parsed [C08_hex_zero].
* `rand_q` never sets bits 2, 3, 4, 5 and 7 [C10_rand_q_violated].
* Every plaintext above 1 is encrypted as 0 [C13_violated].
* `hashedElgamalEncrypt` ignores public key and nonce when a precomputed triple is
  available, so that it may encrypt for another key [C18_violated].
* `DisjunctiveChaumPedersenProof::clone` loses a component; the clone of a valid proof is
  rejected [C24_violated, C24_clone_rejected].
* Different arguments of `hash_elems` may be hashed alike [C26_ambiguous].
* Precomputed values of an old key survive `init` with another key [C30_violated]; proofs
  made with them are rejected [C21_foreign_triple_rejected].
* Two results of contest validation share one code [C31_codes_violated]; the vote total
  wraps at 2^64 [C31_wraparound_violated].
* A ballot of an unknown style is undefined behaviour [C34_unknown_style_violated].
* An invalid selection can be hidden by a valid one with the same composed id
  [C36_violated]; style, time and code are not covered [C36_not_covered_violated].
* Contests out of sequence order make a fresh ballot invalid
  [C38_out_of_order_violated].
* A compact ballot made with precomputed values cannot be expanded
  [C39_precomputed_violated].
* The election key is covered by no hash of the context [C40_key_not_covered].
* Sequence numbers of placeholders are truncated to 32 bits
  [C43_truncation_violated]; a selection may carry the id of a placeholder
  [C43_id_violated], which is then reported as a placeholder [C66_violated], and every
  ballot without a mark in the contest counts as a vote for it [C53_blank_violated].
* A style that lists a district twice gets its contests twice [C44_violated], and votes
  count twice [C53_double_listing].
* Cloning a contest description loses members [C45_violated,
  C45_title_without_subtitle], so its hash changes.
* Candidates are not hashed [C46_candidates_violated, C46_not_covered], and the hash of a
  candidate ignores the write-in flag [C46_write_in_violated]; hashing a named manifest
  without contact is undefined behaviour [C46_no_contact_violated].
* Hashed ciphertexts beginning with a zero byte do not survive serialization
  [C47_data_violated, C47_mac_violated]; nonces that are not written are read as zero
  [C47_nonce_violated].
* Write-ins come back quoted from compact ballots [C48_violated].
* Approval contests have no string; hashing or writing them is undefined
  [C49_violated, C49_approval_contest, C62_approval_violated].
* `AsyncSemaphore::wait` excludes nobody [C52_wait_no_exclusion].
* Texts that are not hexadecimal are accepted [C55_non_hex_accepted].
* An unreduced pad is decrypted as a vote of 0 [C56_violated].
* The key stream of hashed ElGamal repeats at 512 MiB [C57_violated].
* The hash of a hashed ciphertext ignores leading zero bytes
  [C58_leading_zeros_not_hashed].
* The record of overvotes and write-ins is cut off at 510 bytes [C59_violated], and
  leaves out selections with more than one vote [C65_violated].
* Submitted ballots keep all nonces [C60_nonces_violated]; ballots without nonces cannot
  be submitted [C60_make_violated]; assignment copies only the state
  [C60_assign_violated].
* The hashes in the text of a context are believed [C61_hashes_not_checked].
* Writing and reading a valid manifest changes its hash [C62_hash_violated] or loses
  contents [C62_violated]; internal manifests with titled contests cannot be read
  [C63_title_violated].
* `get_hmac` and `hash_elems` cut sizes to 32 bits: 4 GiB later nothing is authenticated
  [C71_long_violated], and different strings are hashed alike [C72_long_violated].
* `rand_p` reads 512 bytes of a vector of 256 in every execution [C73_rand_p_violated].
* The vote limit stated in the proof of a contest is not compared with the manifest, so an
  overvoted ballot passes as valid [C74_contest_violated, C74_violated].
* The public key is not hashed into the challenges, so proofs of false statements exist for
  keys chosen afterwards [C75_disjunctive_violated, C75_constant_violated].
* The thread pool drops tasks submitted during its destruction [C78_late_violated], and
  without threads its destruction does not end [C78_no_threads_violated].
* `wait_all` returns results in the order of completion [C79_order_violated] and spins
  forever on a future without state [C79_invalid_violated].
* The cache of lookup tables is not protected: the semaphore is released before the map is
  used [C80_race_violated].
* Texts that are not dates are read as 1970-01-01 [C81_refuse_violated,
  C81_date_only_violated, C81_trailing_violated]; fractions of seconds are lost
  [C81_fraction_violated]; far years overflow [C81_range_violated].
* C82-C85 (C interface). `eg_encrypt_ballot_with_nonce` and `eg_encrypt_compact_ballot_with_nonce` delete the nonce
  of the caller; constructors that take arrays move from the elements; a mediator refers to freed objects; five functions
  cast a handle to the wrong class and four return one of the wrong type; `eg_electionguard_get_status` lacks a `return`;
  eleven declared functions do not exist with the declared parameters. The tables `CApiTable` and `CApiSigs` were extracted
  from the source with a script, the classes of returned references added by reading the getters; they are part of what has to be trusted.
* C86-C88 (C# bindings). 22 of 357 imported functions do not exist or take other arguments [C86_missing_violated,
  C86_mismatched_violated]; `bool` results are read from bits that are not set [C86_bool_violated]; objects other than ballots are never
  released, since `Free` looks at `IsClosed`, which is already true when `SafeHandle` calls `ReleaseHandle`
  [C87_never_violated, C87_leak_violated]; references into ballots dangle [C87_dangling_violated]; `ONE_MOD_P` and
  `TWO_MOD_P` are zero [C88_one_two_violated].
* C89 (C# precomputation). `CompletedEvent` and `GetStatus` say `Running` although no worker is left [C89_full_violated,
  C89_silent_violated]; a second start revives the first worker, which goes on with its key [C89_restart_violated]; a second
  object undoes a stop [C89_other_violated].
* C90 (128-bit integers). `FStar_UInt128_lognot` of MSVC is `_mm_andnot_si128(a, a)`, which is 0 [C90_lognot_violated]; the
  generic `htole64` of a big-endian machine swaps only halves [C90_load64_le_violated]. The library calls neither there.
* C91 (concurrent precompute buffers). The loop condition of `populate`, `stop_populate` and the size functions access members
  without the lock: data races with taking values, populating and `init` [C91_populate_violated, C91_stop_violated,
  C91_status_violated].
* C92 (counting from the record): `decrypt` yields a count only up to 1 [C92_decrypt_partial].
* C93 (accesses and branches): violated by `pow_mod_p` and `g_pow_p`, for which any two exponents are told apart, with
  and without fixed-base tables, and by `elgamalEncrypt`, which shows nonce and vote [C93_pow_violated,
  C93_pow_long_violated, C93_encrypt_violated]; `decrypt` shows nothing but the vote [C93_decrypt].  (The facade's
  header has `useConstTime = false` where the comment in the definition says `true`; the model of `pow_mod_p` on
  limbs first followed the comment and now follows the header.)
* C94 (texts): violated for votes and all other numbers, since `get<uint64_t>` converts: a ballot with the vote -1 is
  read with 2^64 - 1 votes, one with 1.5 with one vote, and integers from 2^64 on are undefined behaviour
  [C94_vote_negative_violated, C94_vote_fraction_violated, C94_vote_large_violated]; and anything may follow behind a
  NUL character [C94_nul_violated].
* C96 (BSON): violated, since an object that has a JSON text may have no BSON: numbers from 2^63 on (ids of a device,
  votes, sequence orders, times) and zero characters in keys of the extended data make `toBson` throw
  [C96_device_violated, C96_plaintext_ballot_partial, C96_context_partial]; and `fromBson` accepts any size
  [C96_size_violated].
* C97 (Windows computes the same): violated for `Bignum4096::modExp` with a modulus as argument, when `bBits` ends in the
  lower half of a limb: exponents that have bits only above that half are refused elsewhere and accepted, cut off, on
  Windows [C97_mod_exp_violated].  The library itself does not call this function.
* C98 (secrets are wiped from memory): violated.  `~Impl` of `ElementModQ` and `ElementModP` call `Lib_Memzero0_memzero`
  with the number of limbs where it wants the number of bytes: 4 of 32 bytes and 64 of 512 bytes are wiped
  [C98_exponent_violated, C98_element_violated], so that a destroyed secret key can be found with 2^32 trials
  [C98_secret_key_violated].  Copies of the session key and of messages are not wiped at all
  [C98_session_key_violated, C98_message_violated], and the random generator wipes nothing, neither its seed nor its
  state nor its output [C98_random_violated, C98_rand_q_violated].
* C99 (all ways of creating a context agree): violated.  `eg_ciphertext_election_context_make_from_hex_with_extended_data`
  reads the list and then calls `make` without it, so that the extended data is lost [C99_hex_data_violated].
  `eg_ciphertext_election_context_get_extended_data` ignores the status of `eg_linked_list_append`
  [C99_get_violated].  Making a context of a list with a text that could not be copied is undefined
  [C99_missing_text_violated].  With a key twice, C# shows the first value and the context holds the last
  [C99_duplicate_violated].  No function checks that the quorum is at most the number of guardians
  [C99_quorum_violated].
* C100 (the limits of the configuration are kept): violated.  `allowOverVotes` and `maxNumberOfBallots` are stored and
  serialized, and otherwise never looked at [C100_overvotes_violated, C100_max_ballots_violated].
* C101 (the dates of a manifest come back as they were given): violated.  `eg_election_manifest_new` takes
  milliseconds, `eg_election_manifest_get_start_date` returns seconds [C101_c, C101_c_violated], which C# takes for
  milliseconds again, so that every date is shown as one in 1970 [C101_cs, C101_cs_violated].  The conversion of
  dates after 2262 and of the default value of `DateTime` overflows a signed integer [C101_range_violated].
* C102 (constructors of C# leave the objects given to them as they are): violated.  They dispose the objects before the
  C function moves the content out of them, so that they cannot be used again [C102_gone_violated] nor be given twice
  [C102_twice_violated].  A selection got from a contest and given to another contest leaves an empty element in the
  first one, and the next use of that, for example for its hash, is undefined [C102_stolen_violated].  That
  disposing first is not a use after free is due to the leak of C87.
* C103 (assigning contests with placeholders): violated.  `operator=` exchanges the pointer of the derived class only (a
  comment in the source says so), so that the target keeps its description and gets the placeholders of the other contest
  [C103_violated] and its own are not found any more [C103_lost_violated].  The move constructor copies the base class,
  with what copies lose (C45) [C103_move_violated].
* C104 (the log does not reveal votes): violated.  Lines with a value start with the name of the calling function
  (log.cpp:110-113), and the proofs with precomputed values are made and logged in `make_zero_with_precomputed` or
  `make_one_with_precomputed` (chaum_pedersen.cpp:380-381, 478-479): in a build with level trace all votes of a ballot can be
  read [C104_precomputed_violated].  With the default level, overvoted contests are named as such on the console
  (ballot.cpp:491-509), though the ciphertexts hide them [C104_overvote_violated].
* C108: copying or assigning an `ElGamalKeyPair` empties the original (elgamal.cpp:41-44 moves
  from `*other.pimpl`); the copy of a `Party` without a name has an empty name, and so another
  hash (manifest.cpp:732-740); `ElementModP::toHex` keeps the text of the value before a write
  through `get` or `ref` (group.cpp:226-239).
* C109: valid manifests with contact information but no name, with a contest without title and
  a chosen number of votes, with a party without a name, or with a candidate with an image but no
  name cannot be made through the C interface; manifests with different hashes (other contact of a
  geopolitical unit, other order of contests) give the same through all getters.
* Proofs do not depend on where they stand: a published ballot can be copied under another id and with its
  votes moved to other selections, and is valid [C114_violated, C114_moved_violated].
* The first messages of several threads: exceptions from logging, out of the C interface too, and a data race
  [C120_thrown_violated, C120_escapes_violated, C120_race_violated].
* With precomputed values a nonce may be 0, which is refused otherwise; the ciphertext then is the vote itself. The
  theorem on secrecy counts this among the guesses [C121_secrecy].
* `hashedElgamalEncrypt` accepts the nonce 0; what it makes then can be read with every secret key
  [C122_zero_nonce].
* A precomputed triple, quadruple or pair that was moved from, or was made by the constructor without arguments, holds null
  pointers that no method checks: to copy it, assign from it or read it is undefined [C125_moved, C125_defined]. The constructor
  from pointers accepts null for some parts [C125_pointers].
* `copy_bytes_to_bignum_64` fills the last entry from the bytes left over instead of the first: nine bytes 01 00 … 00 become
  2^120 rather than 2^64 [C126_array_violated]. `bignum_to_bytes` reverses each entry on big-endian machines [C126_big_endian].
  `hex_to_bytes` into an array takes no length and writes as many bytes as the text gives [C126_into_violated].
* Of the C functions for elements and ciphertexts only `*_get_data` of elements, `eg_elgamal_keypair_from_secret_new` and the getters of key
  pairs check for null pointers; the others follow them [C127_null_pointer]. `new ElementModQ(null)` for a text passes null to
  `std::string` [C127_null_text]. The status of an `ElectionGuardException` from an element is success, and a text out of range
  is reported as lack of memory [C127_status_violated, C127_text_zero].
* `eg_hash_elems_strings` gives the hash of a vector of strings as a single argument, that is a hash of the hexadecimal form of a hash. A caller
  in C cannot get the value that C++ code gets from `hash_elems({a, b})` with it [C129_array, C129_not_the_list]. Null pointers are not
  checked by the hash functions of C [C129_outcome].
* `eg_encryption_mediator_new` reports hashes that differ as lack of memory; C# compares them itself and throws `ArgumentException`
  [C130_mediator, C130_mediator_status_violated]. For a ballot of an unknown style `CompactEncrypt` and `Encrypt.CompactBallot` of C# run
  into the null pointer of C34, where `Encrypt` throws [C130_compact_style_violated].
* chaum_pedersen.hpp:237-239 and ChaumPedersen.cs:317-319 describe the two last elements of the constant proof the wrong way round: `seed`
  is said to be the value for the challenge, usually the extended base hash, and `hashHeader` what the random values come from. Whoever passes
  them like that, with empty buffers, publishes the nonce: it is computed from the extended base hash and the proof
  [C131_documentation_violated]. The constant such a proof is for cannot be read through C or C# [C131_constant_violated], and a plaintext
  above one is reported as lack of memory [C131_plaintext_violated].
* The codes of the ballots of a device can be recomputed and checked with the two functions of ballot_code.h alone [C132_complete,
  C132_binding, C132_broken]; a null location is undefined behaviour there, where null elements are reported [C132_null].
* C133 (contexts between programs in C#): a context with a commitment hash of zero can be made and written, but not read
  [C133_zero_violated]; the hashes in a text are not checked [C133_hashes_violated]; every fault of a text is reported as
  lack of memory and a null text is undefined behaviour [C133_read].
* C134 (devices and ballots between programs in C#): `ToJson` with nonces of an encrypted ballot whose nonce is missing
  follows a null pointer [C134_missing_nonce_violated]; every fault of a text is reported as lack of memory and a null
  text is undefined behaviour [C134_faults].
* C135 (ballots submitted in C#): `Timestamp` takes the time that the library returns for a status: it ends with an
  exception, or with zero if the time is a multiple of 2^32 [C135_timestamp_violated]; submitting a ballot without nonces
  follows a null pointer [C135_submit_partial].
* C136 (an encrypted ballot checked part by part in C#): an index out of range is reported as lack of memory
  [C136_contests, C136_selections]; `AggregateNonce` with a missing nonce follows a null pointer [C136_nonces].
* C137 (encrypted ballots as bytes in C#): `ToMsgPack(withNonces: true)` gives the bytes without nonces
  [C137_nonces_violated]; every fault of the bytes is reported as lack of memory [C137_faults].

## Trusted base

* Lean's kernel (4.33.0), and the definitions of Mathlib used in statements.
* Axioms: every theorem named in MANIFEST.json depends on a subset of `propext`,
  `Classical.choice` and `Quot.sound`.  AXIOMS.md lists the axioms of each.  There are no
  axioms, `sorry`, `native_decide` or `bv_decide` of our own.
* That the definitions in `Model/` describe the cited lines of C++.

### Modelled

Source files and the modules that model them:

| source | model |
|----|----|
| include/electionguard/constants.h | Constants |
| src/karamel (SHA-256, streaming, HMAC, DRBG), random.hpp | Sha, Drbg |
| src/karamel (bignum) | Hacl (on numbers), Limbs, LimbsExp (on limbs) |
| group.cpp, random.hpp (rand_q's mask) | Group |
| group.cpp, lookup_table.hpp (on limbs) | LimbsGroup |
| lookup_table.hpp | LookupTable |
| convert.hpp | Convert |
| hash.cpp, nonces.cpp | Hash |
| elgamal.cpp | ElGamal, HashedElGamal |
| hmac.cpp | HashedElGamal |
| chaum_pedersen.cpp | ChaumPedersen |
| precompute_buffers.cpp | Precompute |
| ballot.cpp, ballot_code.cpp | Ballot |
| encrypt.cpp, election.cpp, ballot_compact.cpp | Encrypt |
| manifest.cpp | Manifest, Enums |
| serialize.hpp | Json, Serialize |
| async.hpp | Queue, Semaphore, Pool |
| lookup_table.hpp (concurrent calls) | LutRace |
| convert.cpp (dates) | Date |
| facades/collections.c | Collections |
| facades/*.cpp (handles, ownership, types, exceptions) | CApi, CApiTable, CApiSigs |
| convert.hpp (dynamicCopy), status.h | CText |
| bindings/netstandard: NativeInterface.cs (imports, Free), ElectionguardSafeHandle.cs, Group.cs (Constants) | CsImports, CsHandle, CsConstants |
| bindings/netstandard: PrecomputeAPI.cs; facades/encrypt.cpp 438-486 | CsPrecompute |
| include/karamel: FStar_UInt128_Verified.h, fstar_uint128_gcc64.h, fstar_uint128_msvc.h, lowstar_endianness.h | UInt128 |
| precompute_buffers.cpp 188-302, by accesses of threads | PreRace |
| Hacl_Bignum4096.c, Hacl_Bignum.c, group.cpp, lookup_table.hpp, elgamal.cpp (branches and accesses) | Leak |
| nlohmann/json `binary_writer`, `binary_reader`; serialize.hpp `toMsgPack`, `fromMsgPack`, `toBson`, `fromBson` | Model/Binary.lean |
| Hacl_Bignum4096_32.c, Hacl_Bignum.c (u32), Hacl_GenericField32.c | Model/Limbs32.lean, Model/Limbs32Exp.lean, Model/Hacl32.lean |
| Hacl_Bignum4096.cpp, both platforms | Model/Windows.lean |
| Lib_Memzero0.c; group.cpp `~Impl`; hmac.cpp, elgamal.cpp with the memory they give back | Model/Wipe.lean |
| random.hpp, group.cpp `rand_q` with the memory they give back | Model/WipeRandom.lean |
| election.cpp `make`; facades/election.cpp; Collections.cs | Model/ContextMake.lean |
| encrypt.cpp with the configuration of the context | Model/EncryptConfig.lean |
| facades/manifest.cpp and Manifest.cs: dates | Model/ManifestDate.lean |
| Manifest.cs, Ballot.cs: constructors with arrays | Model/CsCollect.lean |
| manifest.cpp: copy, move and assignment of contests | Model/ContestObj.lean |
| log.cpp, and the log lines of encrypt.cpp, elgamal.cpp, chaum_pedersen.cpp, ballot.cpp, manifest.cpp | Model/EncryptLog.lean |
| karamel/Hacl_Bignum.c, Hacl_Bignum4096.c (arrays in memory, results over arguments) | Model/LimbsMem.lean |
| karamel/Hacl_Bignum.c, Hacl_Bignum4096.c (Karatsuba, Montgomery product, exponentiation in memory) | Model/KaratsubaMem.lean |
| karamel/Hacl_Bignum256.c, Hacl_Bignum4096.c (unrolled loops; reduction and exponentiation from the modulus, contexts, in memory) | Model/ModMem.lean |
| group.cpp, elgamal.cpp, manifest.cpp, ballot.cpp (copy constructors, assignments) | Model/Copies.lean |
| facades/manifest.cpp (constructors, getters) | Model/CManifest.lean |
| src/electionguard/log.cpp:88-106, 109-142 (who makes the logger) | Model/LogRace |
| precompute_buffers.cpp:22-186 (copies and moves) | PreObjects |
| convert.hpp:56-65, 82-168, 218-230 (arrays of 64-bit numbers) | Bignum |
| facades/group.cpp:38-213, facades/elgamal.cpp, Group.cs:11-242, ElGamal.cs, ElectionGuardException.cs, NativeInterface.cs:61-88 | CGroup |
| facades/hash.cpp:16-52 | CHash |
| facades/encrypt.cpp:43-57, 70-81, 115-132, 145-234, 313-432, Encrypt.cs:33-42, 109-168, 274-351 | CEncrypt |
| facades/chaum_pedersen.cpp:33-176, 194-265, ChaumPedersen.cs | CProof |
| facades/ballot_code.cpp:17-54 | CCode |
| facades/election.cpp:34-219, 341-355, 372-389; Election.cs | CContext |
| facades/encrypt.cpp:83-111; facades/ballot.cpp:724-737, 769-785, 985-1084; Ballot.cs, Encrypt.cs (texts) | CJson |
| facades/ballot.cpp:838-850, 917-941, 1174-1213, 1245-1261; Ballot.cs (submitted ballots) | CSubmit |
| facades/ballot.cpp:321-335, 493-514, 587-628, 894-915, 969-983; Ballot.cs (parts of ballots) | CWalk |
| facades/ballot.cpp:1018-1046, 1085-1157; Ballot.cs (bytes of encrypted ballots) | CBytes |

### Not modelled, or simplified

* Compiler, operating system and standard library are taken to do what their
  standards say.  Exhaustion of memory is modelled for the linked list only; vectors have
  fewer than 2^64 elements.
* HACL*: the 64-bit limb functions are modelled limb by limb for arrays of any length; the
  unrolled 4-limb code of Hacl_Bignum256.c is the same loop for that length (C107).  Sizes and
  indices (`uint32_t`) are natural numbers.  Arrays are values; Model/LimbsMem.lean,
  Model/KaratsubaMem.lean and Model/ModMem.lean have addition, subtraction, multiplication,
  squaring, Montgomery reduction, reduction and exponentiation in memory (local arrays at fixed
  offsets from one address), and C105 to C107 show that results may overwrite arguments and that
  stale scratch words do not matter.  The 32-bit functions (Windows) are modelled as values in the
  same way, for little-endian machines.
* SHA-256 and HMAC of HACL*: modelled for SHA-256 (not the other algorithms of those
  files); 32-bit and 64-bit words as in C; memory as byte lists with bounds checks.  In
  all other modules they are arbitrary functions, and the random generator is an arbitrary
  stream.  The source of randomness of the operating system and the clock are not modelled.
* Wiping of memory (Model/Wipe.lean): heap blocks of group elements, of hashed ElGamal and of
  the random generator only.
* nlohmann/json is a dependency that is not in /repo; Model/Json.lean models the part in
  use (objects as ordered maps, `dump` without indentation, `parse`, accesses).
  Floating-point numbers are rational numbers (negative zero is zero); `strtod` is taken to round
  correctly.  The text of a floating-point number is not modelled (only write-ins in the text of a
  compact ballot could make one).  For BSON and MessagePack see Model/Binary.lean: binary values,
  infinities and texts that are not UTF-8 are accepted by the readers, and the model does not tell
  what comes after that.
* Strings that are not valid UTF-8.
* Caches that do not influence results (hexadecimal text of group elements); the flag for
  fixed-base elements outside `pow_mod_p` (C05 shows that it does not matter).
* Thread pool: an operation on the queue is one step, `std::thread` does not fail, tasks end.
* Dates: the functions of the C library and of date.h (not in /repo) are modelled for the
  two formats; times before 1970 and signs before years are not modelled.
* The precompute buffers: accesses are sequentially consistent; Model/PreRace.lean has them one by one
  and C91 shows where they race.
* The queue model assumes sequential consistency; `C51_race_free` shows that
  there are no data races, so that nothing is lost.  Allocation does not fail there.
* `extendedData` of encrypted selections (the library stores only null); the log, except for the
  lines of a successful encryption (Model/EncryptLog.lean).
* The order in which arguments of a call are evaluated matters only for which exception is
  thrown when several arguments throw.
* Numbers outside of the enumerators of `BallotBoxState` count as undefined behaviour.
* The rest of the C# bindings: wrappers that pass values on, strings.
  `SafeHandle` and the marshalling of arguments belong to the .NET runtime, which is not in the repository: `CsHandle`
  follows its documented behaviour.  `Spec/Cs.lean` states what C# expects of a call.
* facades/*.cpp: plain values and strings that are passed through, output pointers, contents of arrays
  passed in; sinks, patterns and times of log.cpp.

### Known ambiguities

* In the text of an encryption device, an empty location and the location "null" are hashed
  alike (C37_location_null).

## Tests of the theorems

`seeded/LOG.jsonl` records edits of the model in a scratch copy, the theorems that
failed, and the theorems that were added or tightened where nothing failed.
