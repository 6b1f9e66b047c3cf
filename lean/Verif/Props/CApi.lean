import Verif.Lemmas.CApiRun

/-!
# C82: memory of clients of the C interface.  C83: types in the C interface.
-/

namespace EG.CApi

variable {h h' : Heap} {cl : Client} {c : Call}

/-! ## C82 -/

/-- No sequence of calls that goes by the headers has undefined behaviour.  The part that holds: for
clients that go by the further rules of `Careful`; an exception leaves a function only if there is
no `try` in it and the library throws. -/
theorem C82_safe_partial (r : Reach Careful Client.after h cl) (hc : Careful h cl c) :
    c.exec h ≠ .ub ∧ (c.exec h = .escaped → c.fn.onExn = .escapes ∧ ∃ l, c.oc = .fail l) := by
  rcases step (reach_inv r) hc with ⟨ok, out, h', e, _⟩ | ⟨e, x⟩
  · rw [e]; exact ⟨by simp, by simp⟩
  · rw [e]; exact ⟨by simp, fun _ => x⟩

/-- Every object in memory is one of the ten constants, or belongs to the client, or is inside one
that belongs to the client; and everything the client takes to be its own is in memory. -/
theorem C82_owned (r : Reach Careful Client.after h cl) :
    (∀ a x, h.cell a = some x → a < 10 ∨ a ∈ cl.owned ∨ ∃ b ∈ cl.owned, b ∈ x.anc) ∧
    ∀ a ∈ cl.owned, ∃ x, h.cell a = some x ∧ x.anc = [] := by
  have i := reach_inv r
  constructor
  · intro a x e
    by_cases hs : x.static = true
    · exact .inl (i.stat a x e hs).2.2
    · right
      by_cases ha : x.anc = []
      · exact .inl ((i.owned a).2 ⟨x, e, ha, by simpa using hs⟩)
      · right
        have hl := List.getLast?_eq_some_getLast ha
        obtain ⟨y, ey⟩ := i.root a x e (x.anc.getLast ha) hl
        exact ⟨x.anc.getLast ha, (i.owned _).2 ⟨y, ey⟩, List.getLast_mem ha⟩
  · intro a o
    obtain ⟨x, e, ha, _⟩ := (i.owned a).1 o
    exact ⟨x, e, ha⟩

/-- A client that has freed all it owned has left nothing behind. -/
theorem C82_no_leak (r : Reach Careful Client.after h cl) (hn : cl.owned = []) :
    ∀ a, (h.cell a).isSome ↔ a < 10 := by
  intro a
  constructor
  · intro hs
    obtain ⟨x, e⟩ := Option.isSome_iff_exists.1 hs
    rcases (C82_owned r).1 a x e with p | p | ⟨b, p, _⟩
    · exact p
    · rw [hn] at p; cases p
    · rw [hn] at p; cases p
  · intro l
    obtain ⟨x, e, _⟩ := (reach_inv r).const a l
    rw [e]; rfl

/-- An object, and so a reference to it, outlives every call that neither frees nor takes it or
something it is inside of; unless it had been given away it can still be used. -/
theorem C82_persist (r : Reach Careful Client.after h cl) (hc : Careful h cl c) {ok out}
    (e : c.exec h = .ret ok out h') {a : Nat} {x : Cell} (ha : h.cell a = some x)
    (hn : ∀ p b, (p, b) ∈ c.handles → p.use ≠ .read → b ≠ a ∧ b ∉ x.anc) :
    h'.cell a = some x ∧ (a ∉ cl.given → h'.usable x.kind a = true) := by
  have i := reach_inv r
  have e1 := exec_keeps i e ha hn
  refine ⟨e1, fun ng => ?_⟩
  rcases step i hc with ⟨ok', out', h1, e', j⟩ | ⟨e', _⟩
  · rw [e] at e'; cases e'
    refine Inv.usable j e1 rfl ?_
    intro g
    rcases mem_after_given.1 g with g | g
    · exact ng g
    · obtain ⟨p, m, hu⟩ := mem_usedAs.1 g
      exact (hn p a m (by rw [hu]; simp)).1 rfl
  · rw [e] at e'; cases e'

/-! ### The rules of the headers do not suffice -/

/-- Objects needed to encrypt: ballot 10, manifest 11 and 12, context 13, seed 14. -/
def setup : List Call :=
  [call "eg_plaintext_ballot_from_json" [], call "eg_election_manifest_from_json" [],
    call "eg_internal_manifest_new" [[some 11]],
    call "eg_ciphertext_election_context_from_json" [],
    call "eg_element_mod_q_rand_q_new" []]

/-- The nonce passed to `eg_encrypt_ballot_with_nonce` is freed by its owner: double free, when the
ballot is freed as well. -/
theorem C82_nonce_violated : ∃ h cl c, Reach Documented Client.afterDoc h cl ∧
    Documented h cl c ∧ c.fn.name = "eg_element_mod_q_free" ∧ c.exec h = .ub := by
  obtain ⟨h, cl, r, d, u⟩ := breaks_doc (cs := setup ++ [call "eg_element_mod_q_rand_q_new" [],
      call "eg_encrypt_ballot_with_nonce"
        [[some 10], [some 12], [some 13], [some 14], [some 15]]])
    (c := call "eg_element_mod_q_free" [[some 15]]) (by decide +kernel)
  exact ⟨h, cl, _, r, d, by decide +kernel, u⟩

/-- A constant of the group passed as the nonce is deleted. -/
theorem C82_constant_violated : ∃ h cl c, Reach Documented Client.afterDoc h cl ∧
    Documented h cl c ∧ c.fn.name = "eg_encrypt_compact_ballot_with_nonce" ∧ c.exec h = .ub := by
  obtain ⟨h, cl, r, d, u⟩ := breaks_doc (cs := setup ++ [call "eg_element_mod_q_constant_one_mod_q" []])
    (c := call "eg_encrypt_compact_ballot_with_nonce"
      [[some 10], [some 12], [some 13], [some 14], [some 8]]) (by decide +kernel)
  exact ⟨h, cl, _, r, d, by decide +kernel, u⟩

/-- A string is used after it has been put into contact information. -/
theorem C82_moved_violated : ∃ h cl c, Reach Documented Client.afterDoc h cl ∧
    Documented h cl c ∧ c.fn.name = "eg_annotated_string_get_value" ∧ c.exec h = .ub := by
  obtain ⟨h, cl, r, d, u⟩ := breaks_doc (cs := [call "eg_annotated_string_new" [],
      call "eg_contact_information_new_with_collections" [[some 10], []]])
    (c := call "eg_annotated_string_get_value" [[some 10]]) (by decide +kernel)
  exact ⟨h, cl, _, r, d, by decide +kernel, u⟩

/-- A ballot is used after a reference to one of its contests has been passed to the constructor
of another ballot. -/
theorem C82_robbed_violated : ∃ h cl c, Reach Documented Client.afterDoc h cl ∧
    Documented h cl c ∧ c.fn.name = "eg_plaintext_ballot_to_json" ∧ c.exec h = .ub := by
  obtain ⟨h, cl, r, d, u⟩ := breaks_doc (cs := [call "eg_plaintext_ballot_from_json" [],
      call "eg_plaintext_ballot_get_contest_at_index" [[some 10]],
      call "eg_plaintext_ballot_new" [[some 11]]])
    (c := call "eg_plaintext_ballot_to_json" [[some 10]]) (by decide +kernel)
  exact ⟨h, cl, _, r, d, by decide +kernel, u⟩

/-- A mediator is used after the device it was made from has been freed. -/
theorem C82_device_violated : ∃ h cl c, Reach Documented Client.afterDoc h cl ∧
    Documented h cl c ∧ c.fn.name = "eg_encryption_mediator_encrypt_ballot" ∧
    c.exec h = .ub := by
  obtain ⟨h, cl, r, d, u⟩ := breaks_doc (cs := setup ++ [call "eg_encryption_device_new" [],
      call "eg_encryption_mediator_new" [[some 12], [some 13], [some 15]],
      call "eg_encryption_device_free" [[some 15]]])
    (c := call "eg_encryption_mediator_encrypt_ballot" [[some 16], [some 10]])
    (by decide +kernel)
  exact ⟨h, cl, _, r, d, by decide +kernel, u⟩

/-- A careful client: encrypts with a mediator and with a nonce, moves two strings, looks at a
contest, meets a failure, and frees everything. -/
def trace : List Call :=
  setup ++ [call "eg_encryption_device_new" [],
    call "eg_encryption_mediator_new" [[some 12], [some 13], [some 15]],
    call "eg_encryption_mediator_encrypt_ballot" [[some 16], [some 10]],
    call "eg_element_mod_q_rand_q_new" [],
    call "eg_encrypt_ballot_with_nonce" [[some 10], [some 12], [some 13], [some 14], [some 18]],
    call "eg_ciphertext_ballot_get_contest_at_index" [[some 19]],
    call "eg_annotated_string_new" [], call "eg_annotated_string_new" [],
    call "eg_contact_information_new_with_collections" [[some 21], [some 22]],
    call "eg_encryption_mediator_encrypt_ballot" [[some 16], [some 10]] (.fail [])]

example : ∃ h cl, Reach Careful Client.after h cl ∧
    cl.owned = [23, 22, 21, 19, 17, 16, 15, 14, 13, 12, 11, 10] ∧
    (List.range h.next).filter (fun a => (h.cell a).isSome) =
      List.range 26 :=
  endsWith_reach (cs := trace) (by decide +kernel)

example : ∃ h cl, Reach Careful Client.after h cl ∧ cl.owned = [] ∧
    (List.range h.next).filter (fun a => (h.cell a).isSome) = List.range 10 :=
  endsWith_reach (cs := trace ++ [call "eg_contact_information_free" [[some 23]],
      call "eg_annotated_string_free" [[some 21]], call "eg_annotated_string_free" [[some 22]],
      call "eg_ciphertext_ballot_free" [[some 17]], call "eg_ciphertext_ballot_free" [[some 19]],
      call "eg_encryption_mediator_free" [[some 16]], call "eg_encryption_device_free" [[some 15]],
      call "eg_element_mod_q_free" [[some 14]],
      call "eg_ciphertext_election_context_free" [[some 13]],
      call "eg_internal_manifest_free" [[some 12]], call "eg_election_manifest_free" [[some 11]],
      call "eg_plaintext_ballot_free" [[some 10]]]) (by decide +kernel)

/-! ## C83 -/

/-- Signature and body of every function agree on the types.  The part that holds: for all but eight
functions, which are the following. -/
theorem C83_types_partial : ∀ f ∈ table, f.wellTyped = false ↔ f.name ∈
    ["eg_ciphertext_ballot_contest_get_proof", "eg_intertnationalized_text_crypto_hash",
      "eg_contact_information_get_email_line_at_index",
      "eg_contact_information_get_phone_line_at_index", "eg_contact_information_get_name",
      "eg_contact_information_crypto_hash", "eg_candidate_crypto_hash",
      "eg_contest_description_with_placeholders_get_placeholder_at_index"] := by
  decide +kernel

/-- The class of the object behind a handle is the one in the type the handle was received as:
handles stay typed as long as the eight functions are not called. -/
theorem C83_typed (r : Reach Careful Client.after h cl) {a k x} (t : (a, k) ∈ cl.types)
    (e : h.cell a = some x) : x.kind = k :=
  ((reach_inv r).types a k t).2 x e

/-- A function that casts a handle to another class than the one in its signature never works:
every call by the rules of the headers, with handles that are not null, has undefined behaviour. -/
theorem C83_confused_violated (r : Reach Careful Client.after h cl) (hd : Documented h cl c) {p a}
    (m : (p, a) ∈ c.handles) (hp : p.decl ≠ p.cast)
    (hn : ∀ q, (q, none) ∉ pairs c.fn.params c.args) : c.exec h = .ub := by
  have i := reach_inv r
  have nd : defined h p a = false := by
    have nk : h.hasKind p.cast a = false := by
      unfold Heap.hasKind
      cases e : h.cell a with
      | none => rfl
      | some x =>
        have := (i.types a p.decl (hd.typed p a m)).2 x e
        simp [this, hp]
    have nu : h.usable p.cast a = false := by
      unfold Heap.hasKind at nk
      unfold Heap.usable
      cases e : h.cell a with
      | none => rfl
      | some x => rw [e] at nk; simp only at nk; simp [nk]
    unfold defined
    cases p.use <;> simp [nk, nu]
  unfold Call.exec exec
  rw [if_neg (by rw [hd.shape]; simp), if_neg, if_neg, if_pos]
  · rw [Bool.not_eq_true', ← Bool.not_eq_true, List.all_eq_true]
    intro all
    have := all _ m
    rw [nd] at this; cases this
  · rw [Bool.not_eq_true, List.any_eq_false]
    rintro ⟨q, x⟩ mq e
    simp only [Bool.and_eq_true, Option.isNone_iff_eq_none] at e
    exact hn q (e.2 ▸ mq)
  · rw [Bool.not_eq_true, List.any_eq_false]
    rintro ⟨q, x⟩ mq e
    simp only [Bool.and_eq_true, Option.isNone_iff_eq_none] at e
    exact hn q (e.2 ▸ mq)

/-- The mail address in contact information, received as `eg_internationalized_text_t`, is not
one. -/
theorem C83_email_violated : ∃ h cl c, Reach Documented Client.afterDoc h cl ∧
    Documented h cl c ∧ c.fn.name = "eg_internationalized_text_get_text_size" ∧
    c.exec h = .ub := by
  obtain ⟨h, cl, r, d, u⟩ := breaks_doc (cs := [call "eg_annotated_string_new" [],
      call "eg_contact_information_new_with_collections" [[some 10], []],
      call "eg_contact_information_get_email_line_at_index" [[some 11]] (.old 12)])
    (c := call "eg_internationalized_text_get_text_size" [[some 12]]) (by decide +kernel)
  exact ⟨h, cl, _, r, d, by decide +kernel, u⟩

/-- The hypotheses of `C83_confused_violated` can be met. -/
example : ∃ h cl, Reach Careful Client.after h cl ∧
    Documented h cl (call "eg_contact_information_get_name" [[some 10]]) ∧
    ∃ p, (p, 10) ∈ (call "eg_contact_information_get_name" [[some 10]]).handles ∧
      p.decl ≠ p.cast := by
  cases e : run carefulOk Client.after [call "eg_contact_information_new" []] Heap.init {} with
  | none => exact absurd e (by decide +kernel)
  | some x =>
    refine ⟨x.1, x.2, run_reach (fun _ _ _ => carefulOk_sound) _ .init e, ?_,
      rc .contactInformation .geopoliticalUnit, by decide +kernel, by decide⟩
    have : ((run carefulOk Client.after [call "eg_contact_information_new" []]
        Heap.init {}).map fun x =>
      docOk x.1 x.2 (call "eg_contact_information_get_name" [[some 10]])) = some true := by
        decide +kernel
    rw [e] at this
    exact docOk_sound (Option.some.inj this)

end EG.CApi
