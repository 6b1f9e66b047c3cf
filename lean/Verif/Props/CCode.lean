import Verif.Spec.CCode
import Verif.Props.CEncrypt

/-!
# C132: auditing ballot codes through C

Whoever has the records of the ballots of a device can check the chain of their codes with the two functions of the C
interface: the ballots of every history of a mediator pass, only chains pass, and the last code fixes all of the rest.
-/

namespace EG.CCode

open EG.CText (Status)
open EG.CGroup (Out caught deref cText)

variable (G : Params) (C : Crypto) (S : StdSort)

theorem walk_iff (start : ℕ) (l : List Link) :
    ∃ b, walk G C start l = .ok b ∧ (b = true ↔ Chained G C start l) := by
  induction l generalizing start with
  | nil => exact ⟨true, rfl, by simp [Chained]⟩
  | cons x l ih =>
    have e : walk G C start (x :: l) =
        if x.seed = start ∧ x.code = hashElems G C [.q start, .u64 x.timestamp, .q x.hash] then
          walk G C (hashElems G C [.q start, .u64 x.timestamp, .q x.hash]) l else .ok false := rfl
    rw [e]
    by_cases h : x.seed = start ∧ x.code = hashElems G C [.q start, .u64 x.timestamp, .q x.hash]
    · rw [if_pos h]
      obtain ⟨b, h1, h2⟩ := ih (hashElems G C [.q start, .u64 x.timestamp, .q x.hash])
      refine ⟨b, h1, h2.trans ?_⟩
      rw [← h.2]
      exact ⟨fun hc => ⟨h.1, h.2, hc⟩, fun hc => hc.2.2⟩
    · rw [if_neg h]
      refine ⟨false, rfl, ?_⟩
      simp only [Bool.false_eq_true, false_iff]
      exact fun hc => h ⟨hc.1, hc.2.1⟩

/-- C132: the audit always gives an answer, and it is yes exactly if the records form a chain that starts with the hash
of the device. -/
theorem C132_audit (u s l : ℕ) (loc : List Char) (records : List Link) :
    ∃ b, audit G C u s l (some loc) records = .ok b ∧
      (b = true ↔ Chained G C (hashElems G C [.u64 u, .u64 s, .u64 l, .str (cText loc)]) records) :=
  walk_iff G C _ records

/-- C132: the records of the ballots a client of C, or a program in C#, gets from a device and a mediator it made, in any
history of calls, pass. -/
theorem C132_complete (u s l : UInt64) (loc : List Char) (d : Device) (m : IManifest) (ctx : Context) (md : Mediator)
    (hd : CEncrypt.deviceNew u s l (some loc) = .ok (.success, some d))
    (hm : CEncrypt.mediatorNew (some m) (some ctx) (some d) = .ok (.success, some md)) (calls : List (Call × World)) :
    (∃ records, List.Forall₂ Output.Is (CEncrypt.runC G C S md calls) records ∧
      audit G C u.toNat s.toNat l.toNat (some loc) records = .ok true) ∧
    ∃ records, List.Forall₂ Output.Is (CEncrypt.runCs G C S md calls) records ∧
      audit G C u.toNat s.toNat l.toNat (some loc) records = .ok true := by
  obtain ⟨start, -, hs, ⟨r1, h1, c1⟩, r2, h2, c2⟩ := CEncrypt.C130_chain G C S u s l loc d m ctx md hd hm calls
  subst hs
  have key : ∀ r, Chained G C (hashElems G C [.u64 u.toNat, .u64 s.toNat, .u64 l.toNat, .str (cText loc)]) r →
      audit G C u.toNat s.toNat l.toNat (some loc) r = .ok true := by
    intro r hr
    obtain ⟨b, hb, hi⟩ := C132_audit G C u.toNat s.toNat l.toNat loc r
    rw [hb, hi.2 hr]
  exact ⟨⟨r1, h1, key _ c1⟩, r2, h2, key _ c2⟩

/-- C132: two audits that pass and end with the same code are of the same device and the same records, unless the hash
function collides on what was hashed for them.  The location must not be the text "null" (C37_location_null). -/
theorem C132_binding (hG : G.Valid) (u s l u' s' l' : ℕ) (loc loc' : List Char) (r r' : List Link)
    (hd : cText loc ≠ nullString) (hd' : cText loc' ≠ nullString)
    (hl : ∀ x ∈ r, x.hash < 2 ^ 256) (hl' : ∀ x ∈ r', x.hash < 2 ^ 256)
    (h : audit G C u s l (some loc) r = .ok true) (h' : audit G C u' s' l' (some loc') r' = .ok true)
    (hn : NoCollision G C (chainQueries G C ⟨u, s, l, cText loc⟩ r ++ chainQueries G C ⟨u', s', l', cText loc'⟩ r'))
    (hend : endCode ((⟨u, s, l, cText loc⟩ : Device).hash G C) r =
      endCode ((⟨u', s', l', cText loc'⟩ : Device).hash G C) r') :
    (u = u' ∧ s = s' ∧ l = l' ∧ cText loc = cText loc') ∧ r = r' := by
  have key : ∀ u s l loc r, audit G C u s l (some loc) r = .ok true →
      Chained G C ((⟨u, s, l, cText loc⟩ : Device).hash G C) r := by
    intro u s l loc r h
    obtain ⟨b, hb, hi⟩ := C132_audit G C u s l loc r
    rw [h, Res.ok.injEq] at hb
    exact hi.1 hb.symm
  have := C37_binding G C hG ⟨u, s, l, cText loc⟩ ⟨u', s', l', cText loc'⟩ r r' hd hd' hl hl' (key _ _ _ _ _ h)
    (key _ _ _ _ _ h') hn hend
  exact ⟨by simpa using this.1, this.2⟩

/-- C132: one changed record fails: if the seed of a record is not the code before, or its code not the hash, the audit
says no, however many records are before and after. -/
theorem C132_broken (u s l : ℕ) (loc : List Char) (before after : List Link) (x : Link)
    (h : x.seed ≠ endCode (hashElems G C [.u64 u, .u64 s, .u64 l, .str (cText loc)]) before ∨
      x.code ≠ hashElems G C [.q x.seed, .u64 x.timestamp, .q x.hash]) :
    audit G C u s l (some loc) (before ++ x :: after) = .ok false := by
  obtain ⟨b, hb, hi⟩ := C132_audit G C u s l loc (before ++ x :: after)
  rw [hb]
  cases b with
  | false => rfl
  | true =>
    exfalso
    have hc := hi.1 rfl
    generalize hashElems G C [.u64 u, .u64 s, .u64 l, .str (cText loc)] = start at hc h
    clear hb hi
    induction before generalizing start with
    | nil =>
      obtain ⟨h1, h2, -⟩ := hc
      rcases h with h | h
      · exact h h1
      · exact h (by rw [h1]; exact h2)
    | cons y l ih => exact ih y.code hc.2.2 h

/-- C132: null pointers: reported by the function for codes; a null location is undefined. -/
theorem C132_null (seed hash : Option ℕ) (t u s l : ℕ) :
    (seed = none ∨ hash = none ↔ ballotCode G C seed t hash = .ok (.invalidArgument, none)) ∧
    (∀ a b, seed = some a → hash = some b →
      ballotCode G C seed t hash = .ok (.success, some (hashElems G C [.q a, .u64 t, .q b]))) ∧
    deviceHash G C u s l none = .ub := by
  refine ⟨?_, ?_, rfl⟩
  · rcases seed with _ | a <;> rcases hash with _ | b <;> simp [ballotCode, caught]
  · rintro a b rfl rfl
    rfl

/-! The hypotheses can be met: a chain of two records passes; it does not with the records exchanged. -/

theorem example_passes : audit G C exampleDevice.deviceUuid exampleDevice.sessionUuid exampleDevice.launchCode
    (some exampleDevice.location) (exampleLinks G C) = .ok true := by
  obtain ⟨b, hb, hi⟩ := C132_audit G C exampleDevice.deviceUuid exampleDevice.sessionUuid exampleDevice.launchCode
    exampleDevice.location (exampleLinks G C)
  have hl : cText exampleDevice.location = exampleDevice.location := by decide +kernel
  rw [hb, hi.2 (by rw [hl]; exact exampleLinks_chained G C)]

example : audit .test demoCrypto exampleDevice.deviceUuid exampleDevice.sessionUuid exampleDevice.launchCode
      (some exampleDevice.location) (exampleLinks .test demoCrypto) = .ok true ∧
    audit .test demoCrypto exampleDevice.deviceUuid exampleDevice.sessionUuid exampleDevice.launchCode
      (some exampleDevice.location) (exampleLinks .test demoCrypto).reverse = .ok false ∧
    cText exampleDevice.location ≠ nullString ∧ (∀ x ∈ exampleLinks .test demoCrypto, x.hash < 2 ^ 256) ∧
    NoCollision .test demoCrypto (chainQueries .test demoCrypto exampleDevice (exampleLinks .test demoCrypto)) := by
  refine ⟨example_passes _ _, ?_, by decide +kernel, by decide +kernel, ?_⟩
  · exact C132_broken .test demoCrypto _ _ _ _ [] _ _ (Or.inl (by decide +kernel))
  · unfold NoCollision
    decide +kernel

end EG.CCode
