import Verif.Model.CApiTable

/-!
# The C# bindings: handles and their release

Source: `bindings/netstandard/ElectionGuard/ElectionGuard.Encryption`: `ElectionguardSafeHandle.cs`
(7-73), `DisposableBase.cs`, the classes derived from `ElectionguardSafeHandle` in
`NativeInterface.cs`, and the classes in `*.cs` that hold one of them in a field `Handle`.

Each object of the bindings holds a safe handle with the pointer it got from the library.  It is
disposed by the client (`Dispose`) or, when it is not reachable any more, by the garbage collector;
both lead to `Handle.Dispose()`, or to the finalizer of the safe handle, and so to `InternalRelease`
of its base class `System.Runtime.InteropServices.SafeHandle`.  The base class is not in the
repository; the part modelled here is `InternalRelease`, `DangerousAddRef` and `IsClosed` as they
are in the .NET runtime: one word with a reference count and the bits `Closed` and `Disposed`,
changed by one compare-and-swap, after which `ReleaseHandle` is called by the thread that took the
count to zero.  Passing a handle to a function of the library takes a reference for the duration of
the call.
-/

namespace EG.Cs

open EG.CApi

/-- What `Free` of a class looks at before it calls the `free` function of the library. -/
inductive Guard
  | isClosed | isFreed
  deriving DecidableEq, Repr

/-- NativeInterface.cs: `if (IsFreed) return true;` in `PlaintextBallotHandle` (2796),
`CiphertextBallotHandle` (2927), `SubmittedBallotHandle` (3121); `if (IsClosed) return true;` in the
31 other classes (364, 428, 473, …). -/
def guardOf (k : Kind) : Guard :=
  if k ∈ [Kind.plaintextBallot, .ciphertextBallot, .submittedBallot] then .isFreed else .isClosed

/-- A safe handle.  `ownsHandle` is not a field: the runtime makes handles for `out` parameters with
the default constructor, which passes `ownsHandle: true` (ElectionguardSafeHandle.cs 13-17), and
nothing in the bindings uses the other constructors. -/
structure Handle where
  kind : Kind
  /-- `none`: null, `IsInvalid` -/
  ptr : Option Nat
  refs : Nat := 1
  closed : Bool := false
  disposed : Bool := false
  /-- threads that have to run `ReleaseHandle` -/
  releasing : Nat := 0
  /-- `IsFreed`, ElectionguardSafeHandle.cs 51 -/
  isFreed : Bool := false
  deriving DecidableEq, Repr

/-- Actions on a handle. -/
inductive Act
  /-- a call of a function starts with the handle as argument: `DangerousAddRef` -/
  | enter
  /-- … and ends: `DangerousRelease` -/
  | leave
  /-- `Dispose` or the finalizer -/
  | dispose
  /-- a thread that has to runs `ReleaseHandle` -/
  | release
  deriving DecidableEq, Repr

/-- `SafeHandle.InternalRelease`, up to the call of `ReleaseHandle`.  With a count of zero it throws
`ObjectDisposedException`. -/
def Handle.internalRelease (w : Handle) (disposeOrFinalize : Bool) : Handle :=
  if disposeOrFinalize && w.disposed then w
  else if w.refs = 0 then w
  else
    let last := w.refs == 1
    { w with
      refs := w.refs - 1
      closed := w.closed || last
      disposed := w.disposed || disposeOrFinalize
      releasing := if last && !w.closed && w.ptr.isSome then w.releasing + 1 else w.releasing }

/-- `Free` of the class: true if the `free` function of the library is called. -/
def Handle.callsFree (w : Handle) : Bool :=
  match guardOf w.kind with
  | .isClosed => !w.closed
  | .isFreed => !w.isFreed

/-- One action; the second component is the pointer passed to the `free` function of the library, if
it is called.  `ReleaseHandle` (ElectionguardSafeHandle.cs 55-72) sets `IsFreed` and calls `Close`
when `Free` returns true, which it does here: the `free` functions of the library always report
success for a handle that is not null. -/
def Handle.act (w : Handle) : Act → Handle × Option Nat
  | .enter => if w.closed then (w, none) else ({ w with refs := w.refs + 1 }, none)
  | .leave => (w.internalRelease false, none)
  | .dispose => (w.internalRelease true, none)
  | .release =>
    if w.releasing = 0 then (w, none)
    else
      (({ w with releasing := w.releasing - 1, isFreed := true } : Handle).internalRelease true,
        if w.callsFree then w.ptr else none)

/-- Actions in sequence, with the pointers passed to the `free` function. -/
def Handle.acts : Handle → List Act → Handle × List Nat
  | w, [] => (w, [])
  | w, a :: as =>
    let x := w.act a
    let y := x.1.acts as
    (y.1, x.2.toList ++ y.2)

/-- The `free` function imported by the class for `k` (NativeInterface.cs, the imports named
`Free`). -/
def freeName : Kind → Option String
  | .annotatedString => some "eg_annotated_string_free"
  | .ballotStyle => some "eg_ballot_style_free"
  | .candidate => some "eg_candidate_free"
  | .ciphertextBallot => some "eg_ciphertext_ballot_free"
  | .ciphertextBallotContest => some "eg_ciphertext_ballot_contest_free"
  | .ciphertextBallotSelection => some "eg_ciphertext_ballot_selection_free"
  | .ciphertextElectionContext => some "eg_ciphertext_election_context_free"
  | .compactCiphertextBallot => some "eg_compact_ciphertext_ballot_free"
  | .compactPlaintextBallot => some "eg_compact_plaintext_ballot_free"
  | .constantChaumPedersenProof => some "eg_constant_chaum_pedersen_proof_free"
  | .contactInformation => some "eg_contact_information_free"
  | .contestDescription => some "eg_contest_description_free"
  | .contestDescriptionWithPlaceholders => some "eg_contest_description_with_placeholders_free"
  | .contextConfiguration => some "eg_ciphertext_election_context_config_free"
  | .disjunctiveChaumPedersenProof => some "eg_disjunctive_chaum_pedersen_proof_free"
  | .electionManifest => some "eg_election_manifest_free"
  | .elementModP => some "eg_element_mod_p_free"
  | .elementModQ => some "eg_element_mod_q_free"
  | .elgamalCiphertext => some "eg_elgamal_ciphertext_free"
  | .elgamalKeypair => some "eg_elgamal_keypair_free"
  | .encryptionDevice => some "eg_encryption_device_free"
  | .encryptionMediator => some "eg_encryption_mediator_free"
  | .extendedData => some "eg_extended_data_free"
  | .geopoliticalUnit => some "eg_geopolitical_unit_free"
  | .internalManifest => some "eg_internal_manifest_free"
  | .internationalizedText => some "eg_internationalized_text_free"
  | .language => some "eg_language_free"
  | .linkedList => some "eg_linked_list_free"
  | .party => some "eg_party_free"
  | .plaintextBallot => some "eg_plaintext_ballot_free"
  | .plaintextBallotContest => some "eg_plaintext_ballot_contest_free"
  | .plaintextBallotSelection => some "eg_plaintext_ballot_selection_free"
  | .selectionDescription => some "eg_selection_description_free"
  | .submittedBallot => some "eg_submitted_ballot_free"
  | .text => none
  | .bytes => none

end EG.Cs
