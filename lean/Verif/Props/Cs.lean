import Verif.Lemmas.Cs
import Verif.Model.CsConstants
import Verif.Props.CApi

/-!
# C86: functions imported by the C# bindings.  C87: release of objects by the C# bindings.
C88: constants of the C# bindings.
-/

namespace EG.Cs

open EG.CApi

/-! ## C86 -/

/-- The imports of functions that the library does not export. -/
def missing : List (Nat × String) :=
  [(1167, "GeopoliticalUnit.GetReportingUnitType"), (1549, "ContestDescription.New"),
   (1680, "ContestDescriptionWithPlaceholders.New"),
   (1721, "ContestDescriptionWithPlaceholders.New"), (2471, "PlaintextBallotSelection.New"),
   (2502, "PlaintextBallotSelection.GetExtendedData"), (2747, "CiphertextBallotContest.GetProof"),
   (2754, "CiphertextBallotContest.CryptoHashWith"),
   (2762, "CiphertextBallotContest.AggregateNonce"),
   (2769, "CiphertextBallotContest.ElGamalAccumulate"), (2981, "CiphertextBallot.GetTimestamp"),
   (3191, "SubmittedBallot.GetTimestamp"), (3389, "Encrypt.Contest")]

/-- The imports of functions that take other arguments. -/
def mismatched : List (Nat × String) :=
  [(1021, "InternationalizedText.CryptoHash"), (1397, "Candidate.GetName"),
   (1828, "ContestDescriptionWithPlaceholders.GetPlaceholderAtIndex"),
   (1843, "ContestDescriptionWithPlaceholders.SelectionForId"),
   (2124, "InternalManifest.GetContestAtIndex"), (2377, "CiphertextElectionContext.FromBson"),
   (2387, "CiphertextElectionContext.ToBson"), (2776, "CiphertextBallotContest.IsValidEncryption"),
   (3378, "Encrypt.Selection")]

theorem places_length : imports.length = places.length := by decide +kernel

theorem callable_all : ((imports.zip places).all fun x =>
    (missing ++ mismatched).contains (x.1.line, x.1.method) ||
    (match sigs[x.2]? with
      | some s => matching x.1 s
      | none => false)) = true := by
  decide +kernel

theorem callable_none : (imports.all fun i =>
    !(missing ++ mismatched).contains (i.line, i.method) || !callable i) = true := by
  decide +kernel

theorem exported_all : (imports.all fun i =>
    !(missing ++ mismatched).contains (i.line, i.method) ||
    exported i.entry == !missing.contains (i.line, i.method)) = true := by
  decide +kernel

/-- Every imported function can be called: the library has it, it takes the arguments passed and
returns what is expected.  The part that holds: the imports not in one of the two lists. -/
theorem C86_callable_partial {i : Import} (m : i ∈ imports)
    (h1 : (i.line, i.method) ∉ missing) (h2 : (i.line, i.method) ∉ mismatched) : Callable i := by
  refine callable_of (skip := fun i => (missing ++ mismatched).contains (i.line, i.method))
    callable_all places_length m ?_
  simp [h1, h2]

/-- None in the first list is exported: the method throws `EntryPointNotFoundException`. -/
theorem C86_missing_violated {i : Import} (m : i ∈ imports)
    (h : (i.line, i.method) ∈ missing) : ∀ ts, ¬ Exported i.entry ts := by
  intro ts x
  have e := List.all_eq_true.1 exported_all i m
  rw [(exported_iff _).2 ⟨ts, x⟩] at e
  simp [h] at e

/-- The functions in the second list are exported, and do not take the arguments passed. -/
theorem C86_mismatched_violated {i : Import} (m : i ∈ imports)
    (h : (i.line, i.method) ∈ mismatched) : (∃ ts, Exported i.entry ts) ∧ ¬ Callable i := by
  constructor
  · have e := List.all_eq_true.1 exported_all i m
    have : ∀ x ∈ mismatched, x ∉ missing := by decide
    rw [← exported_iff]
    simpa [h, this _ h] using e
  · intro c
    have e := List.all_eq_true.1 callable_none i m
    rw [(callable_iff i).2 c] at e
    simp [h] at e

/-- All entries of the two lists are imports. -/
theorem C86_lists : ∀ x ∈ missing ++ mismatched, ∃ i ∈ imports, (i.line, i.method) = x := by
  decide +kernel

/-- What C# reads from a function that returns `bool` need not be what the function returned: for
`true` it is, for `false` it depends on bits the function does not have to set.  (The result is
declared `bool` without `MarshalAs`; true of all twelve imports that return `bool`.) -/
theorem C86_bool_violated : (∀ r, CReturns true r → csBool r = true) ∧
    (∃ r, CReturns false r ∧ csBool r = false) ∧ ∃ r, CReturns false r ∧ csBool r = true := by
  refine ⟨?_, ⟨0, rfl, rfl⟩, ⟨256, rfl, rfl⟩⟩
  intro r h
  unfold csBool
  rw [bne_iff_ne]
  rintro rfl
  cases h

/-- The twelve. -/
theorem C86_bools : (imports.filter fun i => i.ret = .bool).map (·.line) =
    [786, 855, 1836, 2028, 2496, 2508, 2557, 2599, 2661, 2776, 3006, 3207] := by
  decide +kernel

example : ∃ i ∈ imports, i.entry = "eg_encrypt_ballot" ∧ Callable i := by
  obtain ⟨i, m, e⟩ : ∃ i ∈ imports, i.entry = "eg_encrypt_ballot" ∧
      (i.line, i.method) ∉ missing ∧ (i.line, i.method) ∉ mismatched := by decide +kernel
  exact ⟨i, m, e.1, C86_callable_partial m e.2.1 e.2.2⟩

/-! ## C87 -/

/-- A handle of the 31 classes that look at `IsClosed` never calls the `free` function of the
library, whatever is done with it and in whatever order. -/
theorem C87_never_violated {k : Kind}
    (hk : k ∉ [Kind.plaintextBallot, .ciphertextBallot, .submittedBallot]) (p : Option Nat)
    (as : List Act) : ((Handle.new k p).acts as).2 = [] := by
  have g : guardOf k = .isClosed := by unfold guardOf; rw [if_neg hk]
  exact (HInv.acts as (HInv.new k p)).2.2.2.1 g

/-- An object is released exactly once when its handle is done with, and at most once before.  The
part that holds: for the three kinds of ballots. -/
theorem C87_once_partial {k : Kind}
    (hk : k ∈ [Kind.plaintextBallot, .ciphertextBallot, .submittedBallot]) (p : Option Nat)
    (as : List Act) :
    (((Handle.new k p).acts as).2 = [] ∨ ((Handle.new k p).acts as).2 = p.toList) ∧
    (((Handle.new k p).acts as).1.finished → ((Handle.new k p).acts as).2 = p.toList) ∧
    (0 < ((Handle.new k p).acts as).1.refs → ((Handle.new k p).acts as).2 = []) := by
  have g : guardOf k = .isFreed := by unfold guardOf; rw [if_pos hk]
  obtain ⟨i, _, e, _, _, h⟩ := HInv.acts as (HInv.new k p)
  obtain ⟨h1, h2⟩ := h g rfl
  have e' : ((Handle.new k p).acts as).1.ptr = p := e
  refine ⟨?_, ?_, ?_⟩
  · cases hf : ((Handle.new k p).acts as).1.isFreed with
    | true => exact .inr (h1 hf)
    | false => exact .inl (h2 hf)
  · rintro ⟨z, r⟩
    cases p with
    | none =>
      cases hf : ((Handle.new k none).acts as).1.isFreed with
      | true => exact h1 hf
      | false => exact h2 hf
    | some a => exact h1 (i.done (i.closed.2 z) (by rw [e']; rfl) r)
  · intro z
    apply h2
    rw [Bool.eq_false_iff]
    intro f
    have := i.closed.1 (i.freed f)
    omega

/-- The calls in progress: those that started with an open handle and have not ended; `none` if a call ends that did not
start. -/
def inUse : Handle → ℕ → List Act → Option ℕ
  | _, u, [] => some u
  | w, u, .enter :: as => inUse (w.act .enter).1 (if w.closed then u else u + 1) as
  | w, u, .leave :: as => if u = 0 then none else inUse (w.act .leave).1 (u - 1) as
  | w, u, .dispose :: as => inUse (w.act .dispose).1 u as
  | w, u, .release :: as => inUse (w.act .release).1 u as

theorem counted {w : Handle} (i : HInv w) {u u' : ℕ} (h : w.refs = u + if w.disposed then 0 else 1) (as : List Act)
    (hu : inUse w u as = some u') (hc : 0 < w.refs) (hu' : 0 < u') :
    0 < (w.acts as).1.refs ∧ (w.acts as).2 = [] := by
  induction as generalizing w u with
  | nil => exact ⟨hc, rfl⟩
  | cons a as ih =>
    have hopen : w.closed = false := by
      rw [Bool.eq_false_iff]
      intro hcl
      have := i.closed.1 hcl
      omega
    have hrel : w.releasing = 0 := by
      by_contra hr
      have := (i.rel (by omega)).1
      rw [hopen] at this
      cases this
    have i' := (i.act a).1
    -- once no call and no owner is left, no call can start
    have dead : ∀ (as : List Act) (w : Handle), HInv w → w.refs = 0 → inUse w 0 as ≠ some u' := by
      intro as
      induction as with
      | nil =>
        intro w _ _ h
        simp only [inUse, Option.some.injEq] at h
        omega
      | cons a as ihd =>
        intro w i hz
        have hcl := i.closed.2 hz
        have i' := (i.act a).1
        cases a with
        | enter =>
          have e : (w.act .enter).1 = w := by simp [Handle.act, hcl]
          simp only [inUse, hcl, if_true, e]
          exact ihd w i hz
        | leave => simp [inUse]
        | dispose =>
          have e : (w.act .dispose).1 = w := by simp [Handle.act, Handle.internalRelease, hz]
          simp only [inUse, e]
          exact ihd w i hz
        | release =>
          have e : (w.act .release).1.refs = 0 := by
            simp only [Handle.act]
            split
            · exact hz
            · simp [Handle.internalRelease, hz]
          simp only [inUse]
          exact ihd _ i' e
    cases a with
    | enter =>
      have e : w.act .enter = ({ w with refs := w.refs + 1 }, none) := by simp [Handle.act, hopen]
      simp only [inUse, hopen, Bool.false_eq_true, if_false] at hu
      simp only [Handle.acts]
      rw [e] at hu i' ⊢
      exact ih (w := { w with refs := w.refs + 1 }) i' (u := u + 1) (by simp only; omega) hu (by simp)
    | leave =>
      simp only [inUse] at hu
      split at hu
      · cases hu
      rename_i hu0
      have e1 : (w.act .leave).1.refs = w.refs - 1 ∧ (w.act .leave).1.disposed = w.disposed := by
        simp [Handle.act, Handle.internalRelease, show w.refs ≠ 0 by omega]
      have e2 : (w.act .leave).2 = none := rfl
      have h' : (w.act .leave).1.refs = u - 1 + if (w.act .leave).1.disposed then 0 else 1 := by
        rw [e1.1, e1.2]
        omega
      by_cases hz : (w.act .leave).1.refs = 0
      · exact absurd hu (by
          have : u - 1 = 0 := by omega
          rw [this]
          exact dead as _ i' hz)
      · simp only [Handle.acts, e2]
        exact ih i' h' hu (by omega)
    | dispose =>
      simp only [inUse] at hu
      have e2 : (w.act .dispose).2 = none := rfl
      have h' : (w.act .dispose).1.refs = u + if (w.act .dispose).1.disposed then 0 else 1 := by
        simp only [Handle.act, Handle.internalRelease, Bool.true_and]
        cases hd : w.disposed with
        | true =>
          simp only [hd, if_true] at h ⊢
          exact h
        | false =>
          simp only [hd, Bool.false_eq_true, if_false] at h
          simp [show w.refs ≠ 0 by omega]
          omega
      by_cases hz : (w.act .dispose).1.refs = 0
      · exact absurd hu (by
          have : u = 0 := by omega
          rw [this]
          exact dead as _ i' hz)
      · simp only [Handle.acts, e2]
        exact ih i' h' hu (by omega)
    | release =>
      have e : w.act .release = (w, none) := by simp [Handle.act, hrel]
      simp only [inUse] at hu
      simp only [Handle.acts]
      rw [e] at hu ⊢
      exact ih i h hu hc

/-- While a call uses an object, the object is not released and the handle stays open, however often it is disposed
meanwhile, and whatever other calls start and end. -/
theorem C87_in_use (k : Kind) (p : Option Nat) (as : List Act) {u : ℕ} (h : inUse (Handle.new k p) 0 as = some u)
    (hu : 0 < u) : ((Handle.new k p).acts as).1.closed = false ∧ ((Handle.new k p).acts as).2 = [] := by
  obtain ⟨h1, h2⟩ := counted (HInv.new k p) (u := 0) rfl as h (by simp [Handle.new]) hu
  refine ⟨?_, h2⟩
  rw [Bool.eq_false_iff]
  intro hc
  have := (HInv.acts as (HInv.new k p)).1.closed.1 hc
  omega

/-- A call goes on while the handle is disposed twice. -/
example : inUse (Handle.new .ciphertextBallot (some 17)) 0 [.enter, .enter, .leave, .dispose, .dispose] = some 1 := by
  decide

/-- Disposed while in use by two calls, of which one ends after: the two kinds of guards. -/
example :
    (Handle.new .ciphertextBallot (some 17)).acts
      [.enter, .enter, .leave, .dispose, .dispose, .leave, .release, .dispose] =
      ({ kind := .ciphertextBallot, ptr := some 17, refs := 0, closed := true, disposed := true,
         isFreed := true }, [17]) ∧
    (Handle.new .elementModQ (some 17)).acts
      [.enter, .enter, .leave, .dispose, .dispose, .leave, .release, .dispose] =
      ({ kind := .elementModQ, ptr := some 17, refs := 0, closed := true, disposed := true,
         isFreed := true }, []) := by
  decide

/-- What a handle releases, in a program that uses the interface as careful clients do, can be
released: it never leads to undefined behaviour. -/
theorem C87_release {s : S} (r : Reachable s) {w w' : Handle} {a : Act} {p : Nat}
    (m : w ∈ s.handles) (e : w.act a = (w', some p)) : (freeCall w.kind p).exec s.heap ≠ .ub := by
  have i := PInv.reachable r
  obtain ⟨_, _, _, h, _⟩ := (i.hinv w m).act a
  obtain ⟨g, hp, hf, _⟩ := h p (by rw [e])
  exact (C82_safe_partial i.reach (i.careful m g hf hp)).1

theorem Step.keeps {s s' : S} {l : Option Call} (i : PInv s) (st : Step s l s') {a : Nat} {x : Cell}
    (ha : s.heap.cell a = some x) (hx : x.anc = [])
    (hk : x.kind ∉ [Kind.plaintextBallot, .ciphertextBallot, .submittedBallot])
    (hn : ∀ c, l = some c → ∀ p, (p, a) ∈ c.handles → p.use = .read) :
    s'.heap.cell a = some x := by
  have inv := reach_inv i.reach
  cases st with
  | @call c ok out h' hc hf e =>
    refine exec_keeps inv e ha ?_
    intro p b m hu
    constructor
    · rintro rfl
      exact hu (hn c rfl p m)
    · rw [hx]; simp
  | act hw e => exact ha
  | @free j b w w' p ok out h' hw e he =>
    have m := List.mem_of_getElem? hw
    obtain ⟨_, _, _, h, _⟩ := (i.hinv w m).act b
    obtain ⟨g, hp, hf, _⟩ := h p (by rw [e])
    refine exec_keeps inv he ha ?_
    rw [freeCall_handles g]
    intro q b' mq _
    rw [List.mem_singleton] at mq
    cases mq
    refine ⟨?_, by rw [hx]; simp⟩
    rintro rfl
    have hkx := C83_typed i.reach (i.typed w m _ hp) ha
    rw [hkx] at hk
    unfold guardOf at g
    rw [if_neg hk] at g
    cases g

/-- So such an object stays in memory for ever, unless it is taken over by a function it is passed
to, and even if all handles have been disposed. -/
theorem C87_leak_violated {s s' : S} (r : Reachable s) {a : Nat} {x : Cell}
    (ha : s.heap.cell a = some x) (hx : x.anc = [])
    (hk : x.kind ∉ [Kind.plaintextBallot, .ciphertextBallot, .submittedBallot])
    (st : Steps (fun c => ∀ p, (p, a) ∈ c.handles → p.use = .read) s s') :
    s'.heap.cell a = some x := by
  have i := PInv.reachable r
  induction st with
  | refl => exact ha
  | step st' st h ih => exact st.keeps (i.steps st') ih hx hk h

/-- Objects needed to encrypt, with handles 0 to 4; the ballot, with handle 5; a contest in it, with
handle 6. -/
def encrypted : List Ev :=
  (setup ++ [call "eg_encrypt_ballot" [[some 10], [some 12], [some 13], [some 14]],
    call "eg_ciphertext_ballot_get_contest_at_index" [[some 15]]]).map .call

/-- All seven handles disposed. -/
def allDisposed : List Ev :=
  encrypted ++ (List.range 7).flatMap fun i => [.act i .dispose, .act i .release]

/-- Everything is disposed, and of what was made only the two ballots, 10 and 15, are gone, with what
is in them. -/
example : ∃ s, Reachable s ∧ (s.handles.all fun w => w.refs = 0 ∧ w.releasing = 0) ∧
    [10, 11, 12, 13, 14, 15, 16].filter (fun a => (s.heap.cell a).isSome) = [11, 12, 13, 14] := by
  obtain ⟨s, r, e⟩ := runCs_reach (es := allDisposed) (P := fun s =>
    (s.handles.all fun w => w.refs = 0 ∧ w.releasing = 0) &&
    decide ([10, 11, 12, 13, 14, 15, 16].filter (fun a => (s.heap.cell a).isSome) =
      [11, 12, 13, 14])) (by decide +kernel)
  rw [Bool.and_eq_true, decide_eq_true_eq] at e
  exact ⟨s, r, e⟩

/-- A handle that was not disposed can be used.  Violated: the handle of a contest of an encrypted
ballot is used after the ballot was disposed, with undefined behaviour. -/
theorem C87_dangling_violated : ∃ (s : S) (w : Handle) (p : Nat) (c : Call),
    Reachable s ∧ w ∈ s.handles ∧ w.ptr = some p ∧
    w.disposed = false ∧ w.kind = .ciphertextBallotContest ∧
    c.fn.name = "eg_ciphertext_ballot_contest_get_object_id" ∧ c.args = [[some p]] ∧
    c.exec s.heap = .ub := by
  obtain ⟨s, r, e⟩ := runCs_reach (es := encrypted ++ [.act 5 .dispose, .act 5 .release])
    (P := fun s =>
      decide (Handle.new .ciphertextBallotContest (some 16) ∈ s.handles) &&
      ((call "eg_ciphertext_ballot_contest_get_object_id" [[some 16]]).exec s.heap).isUb)
    (by decide +kernel)
  rw [Bool.and_eq_true, decide_eq_true_eq] at e
  exact ⟨s, _, 16, _, r, e.1, rfl, rfl, rfl, by decide +kernel, rfl, isUb_eq e.2⟩

/-- Only objects that belong to the program are wrapped in handles that own them.  Violated: handles
made for references into other objects, and for constants, own them as well, and it is only for
`C87_never_violated` that they do not release them: the `free` function for the class of such a
handle has undefined behaviour. -/
theorem C87_borrowed_violated {s : S} (r : Reachable s) {c : Call} {ok : Bool} {a : Nat} {h' : Heap}
    (hc : Careful s.heap s.cl c) (hf : c.used .free = []) (e : c.exec s.heap = .ret ok (some a) h')
    {k : Kind} (hk : c.fn.outType = some k) (ho : c.fn.outOwned = false)
    (hn : (freeName k).isSome) :
    Step s (some c) ⟨h', s.cl.after c (some a), s.handles ++ [Handle.new k (some a)]⟩ ∧
    (freeCall k a).exec h' = .ub := by
  have st := Step.call hc hf e
  rw [show made c (some a) = [Handle.new k (some a)] by unfold made; rw [hk]] at st
  refine ⟨st, free_ub hn ?_⟩
  unfold Heap.isRoot
  cases ho' : c.fn.out with
  | none => unfold Fn.outType at hk; rw [ho'] at hk; cases hk
  | owned d k' => unfold Fn.outOwned at ho; rw [ho'] at ho; cases ho
  | ref d k' =>
    obtain ⟨x, ex, hx⟩ := ref_alive ho' e
    rw [ex]
    simp [hx]
  | const k' x =>
    have ea := const_addr ho' e
    have hl := List.all_eq_true.1 table_const _ hc.mem
    rw [ho'] at hl
    simp only [decide_eq_true_eq] at hl
    have i' := reach_inv (Reach.step (PInv.reachable r).reach hc e)
    obtain ⟨y, ey, sy⟩ := i'.const a (ea ▸ hl)
    rw [ey]
    simp [sy]

/-- A constant. -/
example : ∃ c h', Careful ({} : S).heap ({} : S).cl c ∧ c.used .free = [] ∧
    c.exec ({} : S).heap = .ret true (some 0) h' ∧ c.fn.outType = some .elementModP ∧
    c.fn.outOwned = false ∧ (freeName .elementModP).isSome :=
  ⟨call "eg_element_mod_p_constant_g" [], Heap.init, carefulOk_sound (by decide +kernel),
    by decide +kernel, rfl, by decide +kernel, by decide +kernel, rfl⟩

/-! ## C88 -/

/-- The constants are what their names say.  The part that holds: all but two. -/
theorem C88_constants_partial (g p r q : Nat) : ∀ x ∈ wanted g p r q,
    x.1 ≠ "ONE_MOD_P" → x.1 ≠ "TWO_MOD_P" → constant g p r q x.1 = some x.2 := by
  have e : ∀ n, constant g p r q n = ((constants.lookup n).bind entryOf).bind (cConstant g p r q) := by
    intro n
    unfold constant
    cases constants.lookup n with
    | none => rfl
    | some m => cases entryOf m <;> rfl
  intro x m h1 h2
  unfold wanted at m
  rw [e]
  simp only [List.mem_cons, List.not_mem_nil, or_false] at m
  rcases m with rfl | rfl | rfl | rfl | rfl | rfl | rfl | rfl | rfl | rfl
  · rw [show (constants.lookup "G").bind entryOf = some "eg_element_mod_p_constant_g" by
      decide +kernel]; rfl
  · rw [show (constants.lookup "P").bind entryOf = some "eg_element_mod_p_constant_p" by
      decide +kernel]; rfl
  · rw [show (constants.lookup "R").bind entryOf = some "eg_element_mod_p_constant_r" by
      decide +kernel]; rfl
  · rw [show (constants.lookup "ZERO_MOD_P").bind entryOf =
      some "eg_element_mod_p_constant_zero_mod_p" by decide +kernel]; rfl
  · exact absurd rfl h1
  · exact absurd rfl h2
  · rw [show (constants.lookup "Q").bind entryOf = some "eg_element_mod_q_constant_q" by
      decide +kernel]; rfl
  · rw [show (constants.lookup "ZERO_MOD_Q").bind entryOf =
      some "eg_element_mod_q_constant_zero_mod_q" by decide +kernel]; rfl
  · rw [show (constants.lookup "ONE_MOD_Q").bind entryOf =
      some "eg_element_mod_q_constant_one_mod_q" by decide +kernel]; rfl
  · rw [show (constants.lookup "TWO_MOD_Q").bind entryOf =
      some "eg_element_mod_q_constant_two_mod_q" by decide +kernel]; rfl

/-- The constants one and two of the larger group are zero. -/
theorem C88_one_two_violated (g p r q : Nat) :
    constant g p r q "ONE_MOD_P" = some 0 ∧ constant g p r q "TWO_MOD_P" = some 0 := by
  constructor
  · unfold constant
    rw [show constants.lookup "ONE_MOD_P" = some "Constants.ZERO_MOD_P" by decide +kernel]
    show ((entryOf "Constants.ZERO_MOD_P").bind fun x => cConstant g p r q x) = _
    rw [show entryOf "Constants.ZERO_MOD_P" = some "eg_element_mod_p_constant_zero_mod_p" by
      decide +kernel]; rfl
  · unfold constant
    rw [show constants.lookup "TWO_MOD_P" = some "Constants.ZERO_MOD_P" by decide +kernel]
    show ((entryOf "Constants.ZERO_MOD_P").bind fun x => cConstant g p r q x) = _
    rw [show entryOf "Constants.ZERO_MOD_P" = some "eg_element_mod_p_constant_zero_mod_p" by
      decide +kernel]; rfl

end EG.Cs
