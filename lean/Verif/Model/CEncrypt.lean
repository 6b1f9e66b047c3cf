import Verif.Model.CGroup
import Verif.Model.Encrypt

/-!
# Encryption through C and C#

Source: `src/electionguard/facades/encrypt.cpp` (43-57, 70-81, 115-132, 145-234, 313-432);
`bindings/netstandard/ElectionGuard/ElectionGuard.Encryption/Encrypt.cs` (33-42, 109-168, 274-351).

As in `Model/CGroup`, a pointer of C is null or leads to a live object, a reference of C# is null or leads to an object
whose handle may be null.  That `eg_encrypt_ballot_with_nonce` frees the nonce of its caller is the subject of C82 and
C83; that `Encrypt.Selection` and `Encrypt.Contest` of C# declare other parameters than the C functions have, of C86:
the two are left out here.
-/

namespace EG.CEncrypt

open EG.CText (Status)
open EG.CGroup (Out caught deref cText Cs throwIfError call handle toHexQCs)

/-! ## C -/

/-- facades/encrypt.cpp:157-166 and the like: `invalid_argument`, `runtime_error` and the other exceptions are told
apart. -/
def told {α : Type} : Res α → Res (Out α)
  | .ok a => .ok (.success, some a)
  | .throw .invalidArgument => .ok (.invalidArgument, none)
  | .throw .runtimeError => .ok (.runtimeError, none)
  | .throw _ => .ok (.badAlloc, none)
  | .ub => .ub

/-- facades/encrypt.cpp:43-57 `eg_encryption_device_new`. -/
def deviceNew (device session launch : UInt64) (location : Option (List Char)) : Res (Out Device) :=
  caught .badAlloc (do
    let l ← deref location
    .ok ⟨device.toNat, session.toNat, launch.toNat, cText l⟩)

/-- facades/encrypt.cpp:70-81 `eg_encryption_device_get_hash`. -/
def deviceHash (G : Params) (C : Crypto) (h : Option Device) : Res (Out ℕ) :=
  caught .badAlloc (do
    let d ← deref h
    .ok (d.hash G C))

/-- facades/encrypt.cpp:115-132 `eg_encryption_mediator_new`. -/
def mediatorNew (m : Option IManifest) (ctx : Option Context) (d : Option Device) : Res (Out Mediator) :=
  caught .badAlloc (do
    let m ← deref m
    let ctx ← deref ctx
    let d ← deref d
    Mediator.make m ctx d)

/-- facades/encrypt.cpp:145-167 and 213-234 `eg_encryption_mediator_encrypt_ballot` and
`eg_encryption_mediator_encrypt_ballot_verify_proofs`: the result, the mediator afterwards and the world. -/
def mediatorEncrypt (G : Params) (C : Crypto) (S : StdSort) (verify : Bool) (h : Option Mediator) (b : Option PBallot)
    (w : World) : Res (Out CBallot) × Option Mediator × World :=
  match h, b with
  | some md, some b =>
    let r := md.encrypt G C S b verify w
    (told r.1, some r.2.1, r.2.2)
  | h, _ => (.ub, h, w)

/-- facades/encrypt.cpp:169-211 `eg_encryption_mediator_compact_encrypt_ballot` and
`eg_encryption_mediator_compact_encrypt_ballot_verify_proofs`. -/
def mediatorCompact (G : Params) (C : Crypto) (S : StdSort) (verify : Bool) (h : Option Mediator) (b : Option PBallot)
    (w : World) : Res (Out CompactCipher) × Option Mediator × World :=
  match h, b with
  | some md, some b =>
    let r := md.compactEncrypt G C S b verify w
    (told r.1, some r.2.1, r.2.2)
  | h, _ => (.ub, h, w)

/-- The handles of a call that must lead to objects. -/
structure Args where
  ballot : Option PBallot
  manifest : Option IManifest
  context : Option Context
  codeSeed : Option ℕ

/-- facades/encrypt.cpp:342-369 `eg_encrypt_ballot_with_nonce`; the nonce is moved into a `unique_ptr`, which may be
null. -/
def ballotWithNonce (G : Params) (C : Crypto) (S : StdSort) (a : Args) (nonce : Option ℕ) (verify : Bool) (w : World) :
    Res (Out CBallot) × World :=
  match a with
  | ⟨some b, some m, some ctx, some seed⟩ =>
    let r := encryptBallot G C S b m ctx seed nonce 0 verify w
    (told r.1, r.2)
  | _ => (.ub, w)

/-- facades/encrypt.cpp:313-340 `eg_encrypt_ballot`. -/
def ballot (G : Params) (C : Crypto) (S : StdSort) (a : Args) (verify : Bool) (w : World) : Res (Out CBallot) × World :=
  match a with
  | ⟨some b, some m, some ctx, some seed⟩ =>
    let r := encryptBallot G C S b m ctx seed none 0 verify w
    (told r.1, r.2)
  | _ => (.ub, w)

/-- facades/encrypt.cpp:404-432 `eg_encrypt_compact_ballot_with_nonce`. -/
def compactWithNonce (G : Params) (C : Crypto) (S : StdSort) (a : Args) (nonce : Option ℕ) (verify : Bool) (w : World) :
    Res (Out CompactCipher) × World :=
  match a with
  | ⟨some b, some m, some ctx, some seed⟩ =>
    let r := encryptCompactBallot G C S b m ctx seed nonce 0 verify w
    (told r.1, r.2)
  | _ => (.ub, w)

/-- facades/encrypt.cpp:375-402 `eg_encrypt_compact_ballot`. -/
def compact (G : Params) (C : Crypto) (S : StdSort) (a : Args) (verify : Bool) (w : World) :
    Res (Out CompactCipher) × World :=
  match a with
  | ⟨some b, some m, some ctx, some seed⟩ =>
    let r := encryptCompactBallot G C S b m ctx seed none 0 verify w
    (told r.1, r.2)
  | _ => (.ub, w)

/-! ## C# -/

/-- Encrypt.cs:33-42 `new EncryptionDevice`. -/
def newDevice (device session launch : UInt64) (location : Option (List Char)) : Cs Device :=
  call throwIfError (deviceNew device session launch location)

/-- Encrypt.cs:109-122 `new EncryptionMediator`: the hashes are compared before the library does. -/
def newMediator (m : Option (Option IManifest)) (c : Option (Option Context)) (d : Option (Option Device)) :
    Cs Mediator := do
  let m ← handle m
  let hm ← toHexQCs (some (some m.manifestHash))
  let c ← handle c
  let hc ← toHexQCs (some (some c.manifestHash))
  if hm ≠ hc then .throw .argument
  else do
    let d ← handle d
    call throwIfError (mediatorNew (some m) (some c) (some d))

/-- Encrypt.cs:127-145 `Encrypt` of a mediator, whose handle is null once it was disposed. -/
def csEncrypt (G : Params) (C : Crypto) (S : StdSort) (verify : Bool) (h : Option Mediator)
    (b : Option (Option PBallot)) (w : World) : Cs CBallot × Option Mediator × World :=
  match b with
  | none => (.throw .nullReference, h, w)
  | some b =>
    match h, b with
    | some md, some b =>
      let r := mediatorEncrypt G C S verify (some md) (some b) w
      (call throwIfError r.1, r.2.1, r.2.2)
    | h, _ => (.throw .argumentNull, h, w)

/-- Encrypt.cs:150-168 `CompactEncrypt` of a mediator. -/
def csCompact (G : Params) (C : Crypto) (S : StdSort) (verify : Bool) (h : Option Mediator)
    (b : Option (Option PBallot)) (w : World) : Cs CompactCipher × Option Mediator × World :=
  match b with
  | none => (.throw .nullReference, h, w)
  | some b =>
    match h, b with
    | some md, some b =>
      let r := mediatorCompact G C S verify (some md) (some b) w
      (call throwIfError r.1, r.2.1, r.2.2)
    | h, _ => (.throw .argumentNull, h, w)

/-- The arguments of Encrypt.cs:274-300 `Encrypt.Ballot`. -/
structure CsArgs where
  ballot : Option (Option PBallot)
  manifest : Option (Option IManifest)
  context : Option (Option Context)
  codeSeed : Option (Option ℕ)

/-- The handles of the arguments: first all references are followed, then all handles are passed. -/
def CsArgs.handles (a : CsArgs) (nonce : Option (Option ℕ)) : Cs (Args × Option ℕ) :=
  match a with
  | ⟨some b, some m, some c, some s⟩ => do
    let b ← handle (some b)
    let m ← handle (some m)
    let c ← handle (some c)
    let s ← handle (some s)
    match nonce with
    | none => .ok (⟨some b, some m, some c, some s⟩, none)
    | some n => do
      let n ← handle (some n)
      .ok (⟨some b, some m, some c, some s⟩, some n)
  | _ => .throw .nullReference

/-- Encrypt.cs:274-300 `Encrypt.Ballot`: one of two functions is called, depending on whether there is a nonce. -/
def csBallot (G : Params) (C : Crypto) (S : StdSort) (a : CsArgs) (nonce : Option (Option ℕ)) (verify : Bool)
    (w : World) : Cs CBallot × World :=
  match a.handles nonce with
  | .ok (x, none) =>
    let r := ballot G C S x verify w
    (call throwIfError r.1, r.2)
  | .ok (x, some n) =>
    let r := ballotWithNonce G C S x (some n) verify w
    (call throwIfError r.1, r.2)
  | .throw e => (.throw e, w)
  | .ub => (.ub, w)

/-- Encrypt.cs:324-351 `Encrypt.CompactBallot`. -/
def csCompactBallot (G : Params) (C : Crypto) (S : StdSort) (a : CsArgs) (nonce : Option (Option ℕ)) (verify : Bool)
    (w : World) : Cs CompactCipher × World :=
  match a.handles nonce with
  | .ok (x, none) =>
    let r := compact G C S x verify w
    (call throwIfError r.1, r.2)
  | .ok (x, some n) =>
    let r := compactWithNonce G C S x (some n) verify w
    (call throwIfError r.1, r.2)
  | .throw e => (.throw e, w)
  | .ub => (.ub, w)

end EG.CEncrypt
