import Verif.Lemmas.CGroup
import Verif.Props.Group
import Verif.Props.ElGamal
import Verif.Props.Params

/-!
# C127: elements, key pairs and ciphertexts through C and C#

Elements given as arrays or texts, key pairs and ciphertexts made and read through the C functions and the
classes of C#.  What goes wrong: some C functions reject a null pointer and others follow it; a null text makes
the constructor of C# undefined; the status of an `ElectionGuardException` says success, and a text out of
range is reported as lack of memory.
-/

namespace EG.CGroup

open EG.CText (Status)

variable (G : Params)

/-- C127: `new ElementModQ(data)`, with the first four numbers of the array least significant first, makes an
element exactly if the number they stand for is at most q; `Data` gives the four numbers back.  In every other
case, also for a null or a short array, the constructor throws. -/
theorem C127_array_q (d : Option (List UInt64)) :
    (∀ v, newQ G d = .ok v ↔ ∃ a, d = some a ∧ 4 ≤ a.length ∧ v = ofLimbs ((a.take 4).map UInt64.toNat) ∧
      v ≤ G.q) ∧
    (∀ v a, newQ G d = .ok v → d = some a → data 4 (some (some v)) = .ok (some (a.take 4))) ∧
    ((∃ v, newQ G d = .ok v) ∨ ∃ e, newQ G d = .throw (.wrapped .success e)) := by
  have key : ∀ a : List UInt64, newQ G (some a) =
      if a.length < 4 then .throw (.wrapped .success .indexOutOfRange)
      else if G.q < ofLimbs ((a.take 4).map UInt64.toNat) then .throw (.wrapped .success (.electionGuard .success))
      else .ok (ofLimbs ((a.take 4).map UInt64.toNat)) := by
    intro a
    by_cases h : a.length < 4
    · simp only [newQ, fill, if_pos h]; rfl
    · have ht : ¬(a.take 4).length < 4 := by simp; omega
      simp only [newQ, fill, if_neg h]
      show wrap (call failElectionGuard (qNew G false (some (a.take 4)))) = _
      simp only [qNew, deref, Res.bind_ok, copyIn, if_neg ht, List.take_take, min_self, mkQ_eq]
      by_cases hq : G.q < ofLimbs ((a.take 4).map UInt64.toNat)
      · rw [if_pos ⟨trivial, hq⟩, if_pos hq]; rfl
      · rw [if_neg (fun h => hq h.2), if_neg hq]; rfl
  cases d with
  | none =>
    refine ⟨fun v => ⟨fun h => ?_, ?_⟩, fun v a h => ?_, Or.inr ⟨.nullReference, rfl⟩⟩
    · cases h
    · rintro ⟨a, h, _⟩; cases h
    · cases h
  | some a =>
    have main : ∀ v, newQ G (some a) = .ok v ↔ 4 ≤ a.length ∧ v = ofLimbs ((a.take 4).map UInt64.toNat) ∧
        v ≤ G.q := by
      intro v
      rw [key]
      by_cases h : a.length < 4
      · rw [if_pos h]; constructor
        · intro h'; cases h'
        · rintro ⟨h', _⟩; omega
      · rw [if_neg h]
        by_cases hq : G.q < ofLimbs ((a.take 4).map UInt64.toNat)
        · rw [if_pos hq]; constructor
          · intro h'; cases h'
          · rintro ⟨_, h', h''⟩; omega
        · rw [if_neg hq]; constructor
          · intro h'; cases h'; exact ⟨by omega, rfl, by omega⟩
          · rintro ⟨_, h', _⟩; rw [h']
    refine ⟨fun v => ?_, fun v b h hb => ?_, ?_⟩
    · rw [main]
      constructor
      · rintro ⟨h1, h2, h3⟩; exact ⟨a, rfl, h1, h2, h3⟩
      · rintro ⟨b, hb, h⟩; cases hb; exact h
    · cases hb
      obtain ⟨h1, h2, h3⟩ := (main v).mp h
      have hl : (a.take 4).length = 4 := by simp; omega
      rw [data_some, h2]
      have := toLimbs_ofLimbs (a.take 4)
      rw [hl] at this
      rw [this]
    · rw [key]
      split
      · exact Or.inr ⟨_, rfl⟩
      · split
        · exact Or.inr ⟨_, rfl⟩
        · exact Or.inl ⟨_, rfl⟩

/-- C127: the same for `new ElementModP(data)` and 64 numbers. -/
theorem C127_array_p (d : Option (List UInt64)) :
    (∀ v, newP G d = .ok v ↔ ∃ a, d = some a ∧ 64 ≤ a.length ∧ v = ofLimbs ((a.take 64).map UInt64.toNat) ∧
      v ≤ G.p) ∧
    (∀ v a, newP G d = .ok v → d = some a → data 64 (some (some v)) = .ok (some (a.take 64))) ∧
    ((∃ v, newP G d = .ok v) ∨ ∃ e, newP G d = .throw (.wrapped .success e)) := by
  have key : ∀ a : List UInt64, newP G (some a) =
      if a.length < 64 then .throw (.wrapped .success .indexOutOfRange)
      else if G.p < ofLimbs ((a.take 64).map UInt64.toNat) then .throw (.wrapped .success (.electionGuard .success))
      else .ok (ofLimbs ((a.take 64).map UInt64.toNat)) := by
    intro a
    by_cases h : a.length < 64
    · simp only [newP, fill, if_pos h]; rfl
    · have ht : ¬(a.take 64).length < 64 := by simp; omega
      simp only [newP, fill, if_neg h]
      show wrap (call failElectionGuard (pNew G false (some (a.take 64)))) = _
      simp only [pNew, deref, Res.bind_ok, copyIn, if_neg ht, List.take_take, min_self, mkP_eq]
      by_cases hq : G.p < ofLimbs ((a.take 64).map UInt64.toNat)
      · rw [if_pos ⟨trivial, hq⟩, if_pos hq]; rfl
      · rw [if_neg (fun h => hq h.2), if_neg hq]; rfl
  cases d with
  | none =>
    refine ⟨fun v => ⟨fun h => ?_, ?_⟩, fun v a h => ?_, Or.inr ⟨.nullReference, rfl⟩⟩
    · cases h
    · rintro ⟨a, h, _⟩; cases h
    · cases h
  | some a =>
    have main : ∀ v, newP G (some a) = .ok v ↔ 64 ≤ a.length ∧ v = ofLimbs ((a.take 64).map UInt64.toNat) ∧
        v ≤ G.p := by
      intro v
      rw [key]
      by_cases h : a.length < 64
      · rw [if_pos h]; constructor
        · intro h'; cases h'
        · rintro ⟨h', _⟩; omega
      · rw [if_neg h]
        by_cases hq : G.p < ofLimbs ((a.take 64).map UInt64.toNat)
        · rw [if_pos hq]; constructor
          · intro h'; cases h'
          · rintro ⟨_, h', h''⟩; omega
        · rw [if_neg hq]; constructor
          · intro h'; cases h'; exact ⟨by omega, rfl, by omega⟩
          · rintro ⟨_, h', _⟩; rw [h']
    refine ⟨fun v => ?_, fun v b h hb => ?_, ?_⟩
    · rw [main]
      constructor
      · rintro ⟨h1, h2, h3⟩; exact ⟨a, rfl, h1, h2, h3⟩
      · rintro ⟨b, hb, h⟩; cases hb; exact h
    · cases hb
      obtain ⟨h1, h2, h3⟩ := (main v).mp h
      have hl : (a.take 64).length = 64 := by simp; omega
      rw [data_some, h2]
      have := toLimbs_ofLimbs (a.take 64)
      rw [hl] at this
      rw [this]
    · rw [key]
      split
      · exact Or.inr ⟨_, rfl⟩
      · split
        · exact Or.inr ⟨_, rfl⟩
        · exact Or.inl ⟨_, rfl⟩

example : newQ .std (some [5, 0, 0, 1, 9]) = .ok (5 + 2 ^ 192) ∧
    data 4 (some (some (5 + 2 ^ 192))) = .ok (some [5, 0, 0, 1]) ∧
    newQ .std (some [0, 0, 0]) = .throw (.wrapped .success .indexOutOfRange) := by decide +kernel

/-- C127: the text of an element of C# is that of the library, and an element is read back from its text
unless it is zero.  Missing: zero, see `C127_text_zero`. -/
theorem C127_text_partial (hG : G.Valid) (v : ℕ) :
    toHexQCs (some (some v)) = .ok (toHexQ v) ∧ toHexPCs (some (some v)) = .ok (toHexP v) ∧
    (v ≠ 0 → v ≤ G.q → newQHex G false (some (toHexQ v)) = .ok v) := by
  refine ⟨?_, ?_, fun h0 hv => ?_⟩
  · show call failElectionGuard (qToHex (some v)) = _
    simp only [qToHex, deref, Res.bind_ok, toHexQ, cText_hex]; rfl
  · show call failElectionGuard (pToHex (some v)) = _
    simp only [pToHex, deref, Res.bind_ok, toHexP, cText_hex]; rfl
  · have h := C08_hex_q_partial G hG v h0 hv
    rw [toHexQ] at h ⊢
    simp only [newQHex, qFromHex, deref, Res.bind_ok, cText_hex, h]; rfl

example : newQHex .std false (some (toHexQ 10)) = .ok 10 :=
  (C127_text_partial .std C54_std_valid 10).2.2 (by decide) (by decide +kernel)

/-- C127 is violated for zero: the text of the element zero is reported as lack of memory when it is read. -/
theorem C127_text_zero : ∃ s, toHexQCs (some (some 0)) = .ok s ∧
    newQHex G false (some s) = .throw .outOfMemory ∧ newQHex G true (some s) = .throw .outOfMemory := by
  have h := fun un => (C08_hex_zero G un).1
  refine ⟨toHexQ 0, ?_, ?_, ?_⟩
  · show call failElectionGuard (qToHex (some 0)) = _
    simp only [qToHex, deref, Res.bind_ok, toHexQ, cText_hex]; rfl
  all_goals
    have h := h
    simp only [toHexQ] at h ⊢
    simp only [newQHex, qFromHex, deref, Res.bind_ok, cText_hex, h]; rfl

/-- C127: with a secret from 2 on and a nonce other than zero, a vote encrypted through C# with the public key of
the key pair is decrypted with its secret key; every call succeeds. -/
theorem C127_decrypt (hG : G.Valid) (s n m : ℕ) (hs : s < 2 ^ 256) (hs2 : 2 ≤ s)
    (hn : n < 2 ^ 256) (hn0 : n ≠ 0) (hm : m < 2) :
    ∃ k K S c, fromSecret G (some (some s)) = .ok k ∧ publicKey (some (some k)) = .ok K ∧
      secretKey (some (some k)) = .ok S ∧ S = s ∧
      encryptCs G m (some (some n)) (some (some K)) = .ok c ∧
      decryptCs G (some (some c)) (some (some S)) = .ok m ∧
      pad (some (some c)) = .ok c.pad ∧ c.pad ≡ G.g ^ n [MOD G.p] ∧
      cData (some (some c)) = .ok c.data ∧ c.data ≡ G.g ^ m * K ^ n [MOD G.p] := by
  obtain ⟨k, c, hk, hc, hd⟩ := C11_decrypt_encrypt G hG s n m hs hs2 hn hn0 hm
  obtain ⟨k', hk', hks, hkp, hkg⟩ := keyFromSecret_ok G hG s hs hs2
  have hkk : k' = k := by rw [hk] at hk'; exact (Res.ok.inj hk').symm
  rw [hkk] at hks hkp
  obtain ⟨c', hc', -, -, e1, e2⟩ := C11_encrypt_equations G hG m n k.pub hm hn hn0 (lt_trans hkp hG.p_lt)
  have hcc : c' = c := by rw [hc] at hc'; exact (Res.ok.inj hc').symm
  rw [hcc] at e1 e2
  refine ⟨k, k.pub, k.secret, c, ?_, rfl, rfl, hks, ?_, ?_, rfl, e1, rfl, e2⟩
  · show call throwIfError (keypairNew G (some s)) = _
    rw [keypairNew, hk]; rfl
  · show call throwIfError (encrypt G m (some n) (some k.pub)) = _
    simp only [encrypt, deref, Res.bind_ok, hc]; rfl
  · show call throwIfError (decryptWith G (some c) (some k.secret)) = _
    simp only [decryptWith, deref, Res.bind_ok, hd]; rfl

example : ∃ k c, fromSecret .std (some (some 2)) = .ok k ∧
    encryptCs .std 1 (some (some 3)) (some (some k.pub)) = .ok c ∧
    decryptCs .std (some (some c)) (some (some 2)) = .ok 1 := by
  obtain ⟨k, K, S, c, h1, h2, -, h3, h4, h5, -⟩ := C127_decrypt .std C54_std_valid 2 3 1 (by decide) (by decide)
    (by decide) (by decide) (by decide)
  cases h2; rw [h3] at h5
  exact ⟨k, c, h1, h4, h5⟩

/-- C127: secrets 0 and 1 and the nonce 0 are refused with an exception. -/
theorem C127_refused (s m K : ℕ) (h : s < 2) :
    fromSecret G (some (some s)) = .throw .outOfMemory ∧
    encryptCs G m (some (some 0)) (some (some K)) = .throw .aggregate := by
  obtain ⟨h1, h2⟩ := C11_refused G s m K
  constructor
  · show call throwIfError (keypairNew G (some s)) = _
    rw [keypairNew, h1.mpr h]; rfl
  · show call throwIfError (encrypt G m (some 0) (some K)) = _
    simp only [encrypt, deref, Res.bind_ok, h2]; rfl

/-- C127: methods of C# with null references or disposed objects throw, and none of the methods is undefined,
whatever its arguments, but the constructor from a text.  Missing: that one, see `C127_null_text`. -/
theorem C127_defined_partial :
    (∀ d, newQ G d ≠ .ub ∧ newP G d ≠ .ub) ∧ (∀ n h, data n h ≠ .ub) ∧
    (∀ un s, newQHex G un (some s) ≠ .ub) ∧ (∀ h, toHexQCs h ≠ .ub ∧ toHexPCs h ≠ .ub) ∧
    (∀ s, fromSecret G s ≠ .ub) ∧ (∀ k, publicKey k ≠ .ub ∧ secretKey k ≠ .ub) ∧
    (∀ c, pad c ≠ .ub ∧ cData c ≠ .ub) ∧ (∀ c s, decryptCs G c s ≠ .ub) ∧
    ∀ m n k, encryptCs G m n k ≠ .ub := by
  refine ⟨fun d => ⟨?_, ?_⟩, fun n h => ?_, fun un s => ?_, fun h => ?_, fun s => ?_, fun k => ?_, fun c => ?_,
    fun c s => ?_, fun m n k => ?_⟩
  · rcases (C127_array_q G d).2.2 with ⟨v, h⟩ | ⟨e, h⟩ <;> rw [h] <;> intro h' <;> cases h'
  · rcases (C127_array_p G d).2.2 with ⟨v, h⟩ | ⟨e, h⟩ <;> rw [h] <;> intro h' <;> cases h'
  · rcases h with _ | _ | v
    · intro h; cases h
    · intro h; cases h
    · rw [data_some]; intro h; cases h
  · exact caught_ne_ub _ (by decide) _ (fromHexQ_ne_ub G _ _)
  · rcases h with _ | _ | v <;> constructor <;> intro h <;> cases h
  · rcases s with _ | _ | v
    · intro h; cases h
    · intro h; cases h
    · refine caught_ne_ub _ (by decide) _ ?_
      rw [keyFromSecret]; split <;> intro h <;> cases h
  · rcases k with _ | _ | v <;> constructor <;> intro h <;> cases h
  · rcases c with _ | _ | v <;> constructor <;> intro h <;> cases h
  · rcases c with _ | _ | c <;> rcases s with _ | _ | s <;> intro h <;> cases h
  · rcases n with _ | _ | n <;> rcases k with _ | _ | k <;> try (intro h; cases h)
    refine caught_ne_ub _ (by decide) _ ?_
    show elgamalEncrypt G m n k ≠ .ub
    rw [elgamalEncrypt]; split <;> intro h <;> cases h

/-- C127: what null references and disposed objects give. -/
theorem C127_disposed : data 4 (some none) = .ok none ∧ data 4 none = .throw .nullReference ∧
    (∀ h : Option (Option ℕ), (h = none → toHexQCs h = .throw .nullReference) ∧
      (h = some none → toHexQCs h = .throw .argumentNull)) ∧
    (∀ s, decryptCs G (some none) (some s) = .throw .argumentNull) ∧
    (∀ c, decryptCs G c none = .throw .nullReference) ∧
    (∀ m n, encryptCs G m n none = .throw .nullReference) := by
  refine ⟨rfl, rfl, fun h => ⟨fun e => by rw [e]; rfl, fun e => by rw [e]; rfl⟩, fun s => rfl, fun c => ?_,
    fun m n => ?_⟩
  · cases c <;> rfl
  · cases n <;> rfl

/-- C127 is violated: `new ElementModQ(null)` constructs a `std::string` from a null pointer. -/
theorem C127_null_text (un : Bool) : newQHex G un none = .ub := rfl

/-- C127 is violated for C: of the functions that take a handle these reject a null pointer, and those follow
it. -/
theorem C127_null_pointer :
    ((∀ n, getData n none = (.invalidArgument, none)) ∧ keypairNew G none = .ok (.invalidArgument, none) ∧
      getSecret none = (.invalidArgument, none) ∧ getPublic none = (.invalidArgument, none)) ∧
    (pToHex none = .ub ∧ qToHex none = .ub ∧ getPad none = .ub ∧ getCData none = .ub ∧
      (∀ s, decryptWith G none (some s) = .ub) ∧ (∀ c, decryptWith G c none = .ub) ∧
      (∀ m k, encrypt G m none k = .ub) ∧ ∀ m n, encrypt G m (some n) none = .ub) :=
  ⟨⟨fun _ => rfl, rfl, rfl, rfl⟩, rfl, rfl, rfl, rfl, fun _ => rfl, fun _ => rfl, fun _ _ => rfl,
    fun _ _ => rfl⟩

/-- C127: statuses give different exceptions, and only success gives none. -/
theorem C127_exceptions (s t : Status) :
    (throwIfError s = none ↔ s = .success) ∧ (throwIfError s = throwIfError t → s = t) ∧
    (failElectionGuard s = none ↔ s = .success) := by
  cases s <;> cases t <;> decide

/-- C127 is violated: the exceptions of elements tell the status success, and a text that is out of range is
reported as lack of memory rather than as an argument out of range. -/
theorem C127_status_violated :
    (∀ s e, failElectionGuard s = some e → e = .electionGuard .success) ∧
    (∀ d e, newQ G d = .throw e → ∃ i, e = .wrapped .success i) ∧
    (∀ hex un e, fromHexQ G un (cText hex) = .throw e → newQHex G un (some hex) = .throw .outOfMemory) := by
  refine ⟨fun s e h => ?_, fun d e h => ?_, fun hex un e h => ?_⟩
  · cases s <;> simp [failElectionGuard] at h <;> exact h.symm
  · rcases (C127_array_q G d).2.2 with ⟨v, h'⟩ | ⟨i, h'⟩
    · rw [h] at h'; cases h'
    · rw [h] at h'; cases h'; exact ⟨i, rfl⟩
  · simp only [newQHex, qFromHex, deref, Res.bind_ok, h]; rfl

example : newQHex .std false (some (List.replicate 65 'F')) = .throw .outOfMemory := by decide +kernel

end EG.CGroup
