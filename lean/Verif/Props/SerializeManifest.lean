import Verif.Spec.SerializeManifest
import Verif.Props.Serialize
import Verif.Props.ManifestHash
import Verif.Props.ChaumPedersen

/-!
# Reading manifests that were written

C62 and C63.
-/

namespace EG

theorem Json.atConst_get {j : Json} (h : j.IsObj) (k : Str) :
    j.atConst k = (j.get k).elim .ub .ok := by
  obtain ⟨m, rfl⟩ := h
  show (match mapGet m k with
    | some v => Res.ok v
    | none => .ub) = (mapGet m k).elim .ub .ok
  cases mapGet m k <;> rfl

/-! ## Parts -/

theorem Annotated.ofDoc_toDoc (a : Annotated) : Annotated.ofDoc a.toDoc = .ok a := by
  simp [Annotated.ofDoc, Annotated.toDoc, Json.strAtConst, Json.atConst_get (Json.isObj_object _),
    Json.get_object, Json.asStr, key_inj]

theorem Annotated.wf_toDoc (a : Annotated) : a.toDoc.WF := by
  refine Json.wf_object ?_
  intro e he
  simp only [List.mem_cons, List.not_mem_nil, or_false] at he
  rcases he with rfl | rfl <;> trivial

theorem Language.ofDoc_toDoc (l : Language) : Language.ofDoc l.toDoc = .ok l := by
  simp [Language.ofDoc, Language.toDoc, Json.strAtConst, Json.atConst_get (Json.isObj_object _),
    Json.get_object, Json.asStr, key_inj]

theorem Language.wf_toDoc (l : Language) : l.toDoc.WF := by
  refine Json.wf_object ?_
  intro e he
  simp only [List.mem_cons, List.not_mem_nil, or_false] at he
  rcases he with rfl | rfl <;> trivial

theorem IText.ofDoc_toDoc (t : IText) : IText.ofDoc (IText.toDoc t) = .ok t := by
  simp [IText.ofDoc, IText.toDoc, Json.optWith, Json.opt_eq, Json.get_object, Json.items,
    mapRes_map_ok (fun l _ => Language.ofDoc_toDoc l)]

theorem IText.wf_toDoc (t : IText) : (IText.toDoc t).WF := by
  refine Json.wf_object ?_
  intro e he
  simp only [List.mem_cons, List.not_mem_nil, or_false] at he
  subst he
  refine Json.wf_arr ?_
  intro x hx
  obtain ⟨l, -, rfl⟩ := List.mem_map.1 hx
  exact l.wf_toDoc

theorem IText.nonNull_toDoc (t : IText) : (IText.toDoc t).nonNull = some (IText.toDoc t) := rfl

theorem ite_ite_same {α : Type} (P Q : Prop) [Decidable P] [Decidable Q] (a b : α) :
    (if P then (if Q then a else b) else b) = if Q ∧ P then a else b := by
  by_cases hP : P <;> by_cases hQ : Q <;> simp [hP, hQ]

theorem Contact.toDoc_node (c : Contact) : c.toDoc.IsNode := by
  unfold Contact.toDoc
  exact Json.isNode_setIf (Json.isNode_setIf (Json.isNode_setIf (Json.isNode_setIf (.inl rfl) _ _ _)
    _ _ _) _ _ _) _ _ _

theorem Contact.toDoc_get (c : Contact) (k : Str) : c.toDoc.get k =
    if (!c.phone.isEmpty) = true ∧ key "phone" = k then some (.arr (c.phone.map Annotated.toDoc))
    else if (!c.email.isEmpty) = true ∧ key "email" = k then some (.arr (c.email.map Annotated.toDoc))
    else if (!c.addressLine.isEmpty) = true ∧ key "address_line" = k then
      some (.arr (c.addressLine.map .str))
    else if (!c.name.isEmpty) = true ∧ key "name" = k then some (.str c.name) else none := by
  unfold Contact.toDoc
  have h0 : Json.null.IsNode := .inl rfl
  rw [Json.get_setIf (Json.isNode_setIf (Json.isNode_setIf (Json.isNode_setIf h0 _ _ _) _ _ _) _ _ _),
    Json.get_setIf (Json.isNode_setIf (Json.isNode_setIf h0 _ _ _) _ _ _),
    Json.get_setIf (Json.isNode_setIf h0 _ _ _), Json.get_setIf h0, Json.get_null]
  simp only [ite_ite_same]

theorem Contact.ofDoc_toDoc (c : Contact) : Contact.ofDoc c.toDoc = .ok c := by
  have h1 : (c.toDoc.optWith (key "address_line") (fun v => mapRes Json.asStr v.items) []) =
      .ok c.addressLine := by
    unfold Json.optWith
    rw [Json.opt_eq, c.toDoc_get]
    cases h : c.addressLine with
    | nil => simp [key_inj]
    | cons a l =>
      rw [← h]
      simp [key_inj, h, Json.items]
      exact mapRes_asStr (a :: l)
  have h2 : (c.toDoc.optWith (key "email") (fun v => mapRes Annotated.ofDoc v.items) []) =
      .ok c.email := by
    unfold Json.optWith
    rw [Json.opt_eq, c.toDoc_get]
    cases h : c.email with
    | nil => simp [key_inj]
    | cons a l =>
      simp [key_inj, Json.items]
      exact mapRes_map_ok (l := a :: l) (fun l _ => Annotated.ofDoc_toDoc l)
  have h3 : (c.toDoc.optWith (key "phone") (fun v => mapRes Annotated.ofDoc v.items) []) =
      .ok c.phone := by
    unfold Json.optWith
    rw [Json.opt_eq, c.toDoc_get]
    cases h : c.phone with
    | nil => simp [key_inj]
    | cons a l =>
      simp [Json.items]
      exact mapRes_map_ok (l := a :: l) (fun l _ => Annotated.ofDoc_toDoc l)
  have h4 : (c.toDoc.optWith (key "name") Json.asStr []) = .ok c.name := by
    unfold Json.optWith
    rw [Json.opt_eq, c.toDoc_get]
    cases h : c.name with
    | nil => simp [key_inj]
    | cons a l => simp [key_inj, Json.asStr]
  unfold Contact.ofDoc
  rw [h1, h2, h3, h4]
  rfl

theorem Contact.wf_toDoc (c : Contact) : c.toDoc.WF := by
  have hwf : ∀ l : List Annotated, (Json.arr (l.map Annotated.toDoc)).WF := by
    intro l
    refine Json.wf_arr ?_
    intro x hx
    obtain ⟨a, -, rfl⟩ := List.mem_map.1 hx
    exact a.wf_toDoc
  unfold Contact.toDoc
  refine Json.wf_setIf (Json.wf_setIf (Json.wf_setIf (Json.wf_setIf ?_ _ _ ?_) _ _ ?_) _ _ (hwf _)) _ _
    (hwf _)
  · trivial
  · trivial
  · refine Json.wf_arr ?_
    intro x hx
    obtain ⟨a, -, rfl⟩ := List.mem_map.1 hx
    trivial

/-- The text of a contact is `null` exactly if there is no information. -/
theorem Contact.nonNull_toDoc (c : Contact) :
    c.toDoc.nonNull = if c = Contact.blank then none else some c.toDoc := by
  by_cases h : c = Contact.blank
  · rw [if_pos h, h]
    rfl
  · rw [if_neg h]
    rcases c.toDoc_node with h0 | ⟨m, hm⟩
    · refine absurd ?_ h
      have := c.ofDoc_toDoc
      rw [h0] at this
      have h1 : Contact.ofDoc .null = .ok Contact.blank := rfl
      rw [h1] at this
      exact (Res.ok.inj this).symm
    · rw [hm]
      rfl

theorem GpUnit.round_trip (u : GpUnit) :
    ∃ d, u.toDoc = .ok d ∧ d.WF ∧ GpUnit.ofDoc d = .ok u.read := by
  obtain ⟨t, ht, htt⟩ := C49_reporting_unit_type u.type
  have hb := Json.isObj_object [(key "object_id", .str u.objectId), (key "name", .str u.name),
    (key "type", .str t)]
  refine ⟨_, by unfold GpUnit.toDoc; rw [ht, Res.bind_ok], ?_, ?_⟩
  · refine Json.wf_setSome (Json.wf_object ?_) _ ?_
    · intro e he
      simp only [List.mem_cons, List.not_mem_nil, or_false] at he
      rcases he with rfl | rfl | rfl <;> trivial
    · intro x hx
      obtain ⟨c, -, rfl⟩ := Option.map_eq_some_iff.1 hx
      exact c.wf_toDoc
  · have hget := fun k => Json.get_setSome hb.node (key "contact_information") k
      (u.contact.map Contact.toDoc)
    have hobj := Json.isObj_setSome hb (key "contact_information") (u.contact.map Contact.toDoc)
    unfold GpUnit.ofDoc
    simp only [Json.strAtConst, Json.atConst_get hobj, Json.optWith, Json.opt_eq, hget]
    cases hc : u.contact with
    | none => simp [Json.get_object, key_inj, Json.asStr, htt, GpUnit.read, hc]
    | some c =>
      by_cases h0 : c = Contact.blank
      · have hn : Contact.blank.toDoc.nonNull = none := rfl
        simp [Json.get_object, key_inj, Json.asStr, htt, GpUnit.read, hc, h0, hn]
      · simp [Json.get_object, key_inj, Json.asStr, htt, GpUnit.read, hc, c.nonNull_toDoc, h0,
          c.ofDoc_toDoc]

theorem IText.ofDoc_str (s : Str) : IText.ofDoc (.str s) = .ok [] := rfl

theorem Json.opt_setIf_str {j : Json} (h : j.IsNode) (s : Str) (k : Str) :
    ((j.setIf (!s.isEmpty) k (.str s)).get k) = if s.isEmpty then j.get k else some (.str s) := by
  rw [Json.get_setIf h, if_pos rfl]
  cases s <;> rfl

theorem optStr {j : Json} {k s : Str} (_ : j.IsObj)
    (h : j.get k = if (!s.isEmpty) = true then some (.str s) else none) :
    j.optWith k Json.asStr [] = .ok s := by
  unfold Json.optWith
  rw [Json.opt_eq, h]
  cases s <;> rfl

theorem strAtConst_get {j : Json} {k s : Str} (hj : j.IsObj) (h : j.get k = some (.str s)) :
    j.strAtConst k = .ok s := by
  unfold Json.strAtConst
  rw [Json.atConst_get hj, h]
  rfl

theorem optName {j : Json} {k : Str} {name : Option IText} (_ : j.IsObj)
    (h : j.get k = name.map IText.toDoc) :
    j.opt k = name.map IText.toDoc := by
  rw [Json.opt_eq, h]
  cases name <;> rfl

theorem Party.round_trip (p : Party) : p.toDoc.WF ∧ Party.ofDoc p.toDoc = .ok p.read := by
  obtain ⟨id, name, ab, col, logo⟩ := p
  have h0 : Json.null.IsNode := .inl rfl
  have h1 := Json.isObj_set h0 (key "object_id") (.str id)
  have h2 := Json.isObj_setIf h1 (!ab.isEmpty) (key "abbreviation") (.str ab)
  have h3 := Json.isObj_setIf h2 (!col.isEmpty) (key "color") (.str col)
  have h4 := Json.isObj_setIf h3 (!logo.isEmpty) (key "logo_uri") (.str logo)
  have h5 := Json.isObj_setSome h4 (key "name") (name.map IText.toDoc)
  constructor
  · refine Json.wf_setSome (Json.wf_setIf (Json.wf_setIf (Json.wf_setIf (Json.wf_set (v := .str _) ?_ _
      ?_) _ _ ?_) _ _ ?_) _ _ ?_) _ ?_
    any_goals trivial
    intro x hx
    obtain ⟨t, -, rfl⟩ := Option.map_eq_some_iff.1 hx
    exact IText.wf_toDoc t
  · have e1 := strAtConst_get (k := key "object_id") (s := id) h5 (by
      rw [Json.get_setSome h4.node, Json.get_setIf h3.node, Json.get_setIf h2.node,
      Json.get_setIf h1.node, Json.get_set h0, Json.get_null]; simp [key_inj])
    have e2 := optStr (k := key "abbreviation") (s := ab) h5 (by
      rw [Json.get_setSome h4.node, Json.get_setIf h3.node, Json.get_setIf h2.node,
      Json.get_setIf h1.node, Json.get_set h0, Json.get_null]; simp [key_inj])
    have e3 := optStr (k := key "color") (s := col) h5 (by
      rw [Json.get_setSome h4.node, Json.get_setIf h3.node, Json.get_setIf h2.node,
      Json.get_setIf h1.node, Json.get_set h0, Json.get_null]; simp [key_inj])
    have e4 := optStr (k := key "logo_uri") (s := logo) h5 (by
      rw [Json.get_setSome h4.node, Json.get_setIf h3.node, Json.get_setIf h2.node,
      Json.get_setIf h1.node, Json.get_set h0, Json.get_null]; simp [key_inj])
    have e5 := optName (k := key "name") (name := name) h5 (by
      rw [Json.get_setSome h4.node, Json.get_setIf h3.node, Json.get_setIf h2.node,
      Json.get_setIf h1.node, Json.get_set h0, Json.get_null]; simp [key_inj])
    unfold Party.ofDoc Party.toDoc
    rw [e1, e2, e3, e4, e5]
    cases name <;> simp [Party.read, IText.ofDoc_toDoc, IText.ofDoc_str]

theorem Candidate.round_trip (c : Candidate) :
    c.toDoc.WF ∧ Candidate.ofDoc c.toDoc = .ok c.read := by
  obtain ⟨id, name, party, image, w⟩ := c
  have h0 : Json.null.IsNode := .inl rfl
  have h1 := Json.isObj_set h0 (key "object_id") (.str id)
  have h2 := Json.isObj_setIf h1 w (key "is_write_in") (.bool w)
  have h3 := Json.isObj_setSome h2 (key "name") (name.map IText.toDoc)
  have h4 := Json.isObj_setIf h3 (!party.isEmpty) (key "party_id") (.str party)
  have h5 := Json.isObj_setIf h4 (!image.isEmpty) (key "image_uri") (.str image)
  constructor
  · refine Json.wf_setIf (Json.wf_setIf (Json.wf_setSome (Json.wf_setIf (Json.wf_set (v := .str _) ?_ _
      ?_) _ _ ?_) _ ?_) _ _ ?_) _ _ ?_
    any_goals trivial
    intro x hx
    obtain ⟨t, -, rfl⟩ := Option.map_eq_some_iff.1 hx
    exact IText.wf_toDoc t
  · have e1 := strAtConst_get (k := key "object_id") (s := id) h5 (by
      rw [Json.get_setIf h4.node, Json.get_setIf h3.node, Json.get_setSome h2.node,
      Json.get_setIf h1.node, Json.get_set h0, Json.get_null]; simp [key_inj])
    have e2 := optStr (k := key "party_id") (s := party) h5 (by
      rw [Json.get_setIf h4.node, Json.get_setIf h3.node, Json.get_setSome h2.node,
      Json.get_setIf h1.node, Json.get_set h0, Json.get_null]; simp [key_inj])
    have e3 := optStr (k := key "image_uri") (s := image) h5 (by
      rw [Json.get_setIf h4.node, Json.get_setIf h3.node, Json.get_setSome h2.node,
      Json.get_setIf h1.node, Json.get_set h0, Json.get_null]; simp [key_inj])
    have e4 := optName (k := key "name") (name := name) h5 (by
      rw [Json.get_setIf h4.node, Json.get_setIf h3.node, Json.get_setSome h2.node,
      Json.get_setIf h1.node, Json.get_set h0, Json.get_null]; simp [key_inj])
    have e5 : ((((((Json.null.set (key "object_id") (.str id)).setIf w (key "is_write_in")
      (.bool w)).setSome (key "name") (name.map IText.toDoc)).setIf (!party.isEmpty)
      (key "party_id") (.str party)).setIf (!image.isEmpty) (key "image_uri")
      (.str image)).optWith (key "is_write_in") Json.asBool false) = .ok w := by
      unfold Json.optWith
      rw [Json.opt_eq, Json.get_setIf h4.node, Json.get_setIf h3.node, Json.get_setSome h2.node,
        Json.get_setIf h1.node, Json.get_set h0, Json.get_null]
      cases w <;> simp [key_inj, Json.asBool]
    unfold Candidate.ofDoc Candidate.toDoc
    rw [e1, e2, e3, e4, e5]
    cases name <;> simp [Candidate.read, IText.ofDoc_toDoc, IText.ofDoc_str]

theorem wf_strs (l : List Str) : ∀ x ∈ l.map Json.str, x.WF := by
  intro x hx
  obtain ⟨a, -, rfl⟩ := List.mem_map.1 hx
  trivial

theorem BallotStyle.round_trip (s : BallotStyle) :
    s.toDoc.WF ∧ BallotStyle.ofDoc s.toDoc = .ok s := by
  obtain ⟨id, units, parties, image⟩ := s
  have h1 := Json.isObj_object [(key "object_id", .str id),
      (key "geopolitical_unit_ids", .pushed (units.map .str))]
  have h2 := Json.isObj_setIf h1 (!parties.isEmpty) (key "party_ids") (.arr (parties.map .str))
  have h3 := Json.isObj_setIf h2 (!image.isEmpty) (key "image_uri") (.str image)
  constructor
  · refine Json.wf_setIf (Json.wf_setIf (Json.wf_object ?_) _ _ (Json.wf_arr (wf_strs _))) _ _ trivial
    intro e he
    simp only [List.mem_cons, List.not_mem_nil, or_false] at he
    rcases he with rfl | rfl
    · trivial
    · exact Json.wf_pushed (wf_strs _)
  · have hobj : (BallotStyle.toDoc ⟨id, units, parties, image⟩).IsObj := h3
    have hget : ∀ k, (BallotStyle.toDoc ⟨id, units, parties, image⟩).get k = _ :=
      fun k => Json.get_setIf h2.node (!image.isEmpty) (key "image_uri") k (.str image)
    unfold BallotStyle.ofDoc
    simp only [Json.strAtConst, Json.atConst_get hobj, Json.optWith,
      Json.opt_eq, hget, Json.get_setIf h1.node]
    cases parties with
    | nil =>
      cases image <;>
        simp [Json.get_object, key_inj, Json.asStr, Json.pushed_items, mapRes_asStr]
    | cons a l =>
      have := mapRes_asStr (a :: l)
      rw [List.map_cons] at this
      have hp := mapRes_asStr units
      rw [← Json.pushed_items (units.map Json.str)] at hp
      unfold Json.items at hp
      cases image <;>
        simp [Json.get_object, key_inj, Json.asStr, Json.items, this, hp]

theorem SelectionDesc.round_trip (s : SelectionDesc) (h : s.seq < 2 ^ 64) :
    s.toDoc.WF ∧ SelectionDesc.ofDoc s.toDoc = .ok s := by
  constructor
  · refine Json.wf_object ?_
    intro e he
    simp only [List.mem_cons, List.not_mem_nil, or_false] at he
    rcases he with rfl | rfl | rfl
    · trivial
    · trivial
    · exact h
  · simp [SelectionDesc.ofDoc, SelectionDesc.toDoc, Json.strAtConst, Json.natAtConst,
      Json.atConst_get (Json.isObj_object _), Json.get_object, Json.asStr, Json.asNat, key_inj]

/-! ## Contests -/

theorem ContestDesc.round_trip (S : StdSort) (c : ContestDesc) (hc : c.Fits) :
    ∃ d, c.toDoc S = .ok d ∧ d.WF ∧ ContestDesc.ofDoc d = .ok (c.read S) := by
  obtain ⟨t, ht, htt⟩ := C49_vote_variation_partial c.variation hc.variation
  have hsel : ∀ s ∈ S.sort SelectionDesc.seq c.selections, s.seq < 2 ^ 64 :=
    fun s hs => hc.selections s ((mem_sort S _ _ s).1 hs)
  have h1 := Json.isObj_object [(key "object_id", .str c.objectId),
      (key "electoral_district_id", .str c.districtId), (key "sequence_order", .num c.seq),
      (key "vote_variation", .str t), (key "number_elected", .num c.numberElected)]
  have h2 := Json.isObj_setIf h1 (decide (c.votesAllowed > 0)) (key "votes_allowed")
    (.num c.votesAllowed)
  have h3 := Json.isObj_set h2.node (key "name") (.str c.name)
  have h4 := Json.isObj_setSome h3 (key "ballot_title") (c.title.map IText.toDoc)
  have h5 := Json.isObj_setSome h4 (key "ballot_subtitle") (c.subtitle.map IText.toDoc)
  have h6 := Json.isObj_set h5.node (key "ballot_selections")
      (.pushed ((S.sort SelectionDesc.seq c.selections).map SelectionDesc.toDoc))
  refine ⟨_, by unfold ContestDesc.toDoc ContestDesc.getSelections; rw [ht, Res.bind_ok], ?_, ?_⟩
  · refine Json.wf_set (Json.wf_setSome (Json.wf_setSome (Json.wf_set (v := .str _) (Json.wf_setIf
      (Json.wf_object ?_) _ _ ?_) _ trivial) _ ?_) _ ?_) _ (Json.wf_pushed ?_)
    · intro e he
      simp only [List.mem_cons, List.not_mem_nil, or_false] at he
      rcases he with rfl | rfl | rfl | rfl | rfl
      · trivial
      · trivial
      · exact hc.seq
      · trivial
      · exact hc.elected
    · exact hc.allowed
    · intro x hx
      obtain ⟨t, -, rfl⟩ := Option.map_eq_some_iff.1 hx
      exact IText.wf_toDoc t
    · intro x hx
      obtain ⟨t, -, rfl⟩ := Option.map_eq_some_iff.1 hx
      exact IText.wf_toDoc t
    · intro x hx
      obtain ⟨s, hs, rfl⟩ := List.mem_map.1 hx
      exact (SelectionDesc.round_trip s (hsel s hs)).1
  · have hs := mapRes_map_ok (f := SelectionDesc.ofDoc) (g := SelectionDesc.toDoc)
      (fun s hs => (SelectionDesc.round_trip s (hsel s hs)).2)
    unfold ContestDesc.ofDoc
    simp only [Json.strAtConst, Json.natAtConst, Json.atConst_get h6, Json.optWith, Json.opt_eq,
      Json.get_set h5.node, Json.get_setSome h4.node, Json.get_setSome h3.node, Json.get_set h2.node,
      Json.get_setIf h1.node]
    have hp : c.votesAllowed ≠ 0 → 0 < c.votesAllowed := Nat.pos_of_ne_zero
    have hn : ∀ n, (Json.num n).nonNull = some (.num n) := fun _ => rfl
    cases htl : c.title <;> cases hsb : c.subtitle <;> by_cases hv : c.votesAllowed = 0 <;>
      simp [hp, hn, Json.get_object, key_inj, Json.asStr, Json.asNat, htt, IText.ofDoc_toDoc,
        IText.nonNull_toDoc, hv, Json.pushed_items, hs, ContestDesc.make10, ContestDesc.read,
        votesAllowedRead, defaultVotesAllowed, htl, hsb]

/-! ## The manifest -/

theorem Manifest.round_trip (S : StdSort) (m : Manifest) (hm : ∀ c ∈ m.contests, c.Fits) :
    ∃ d, m.toDoc S = .ok d ∧ d.WF ∧ Manifest.ofDoc d = .ok (m.read S) := by
  obtain ⟨t, ht, htt⟩ := C49_election_type m.type
  obtain ⟨units, hu⟩ := mapRes_total (g := GpUnit.toDoc) (l := m.gpUnits)
    (fun u _ => let ⟨d, hd, _⟩ := u.round_trip; ⟨d, hd⟩)
  have hfit : ∀ c ∈ S.sort ContestDesc.seq m.contests, c.Fits :=
    fun c hc => hm c ((mem_sort S _ _ c).1 hc)
  obtain ⟨contests, hcs⟩ := mapRes_total (g := ContestDesc.toDoc S)
    (l := S.sort ContestDesc.seq m.contests)
    (fun c hc => let ⟨d, hd, _⟩ := c.round_trip S (hfit c hc); ⟨d, hd⟩)
  have hur := mapRes_mapRes_ok (f := GpUnit.ofDoc) (n := GpUnit.read) hu (by
    intro u _ d hd
    obtain ⟨d', hd', -, h⟩ := u.round_trip
    rw [hd] at hd'
    cases hd'
    exact h)
  have hcr := mapRes_mapRes_ok (f := ContestDesc.ofDoc) (n := ContestDesc.read S) hcs (by
    intro c hc d hd
    obtain ⟨d', hd', -, h⟩ := c.round_trip S (hfit c hc)
    rw [hd] at hd'
    cases hd'
    exact h)
  have huw := mapRes_forall (P := Json.WF) hu (by
    intro u _ d hd
    obtain ⟨d', hd', h, -⟩ := u.round_trip
    rw [hd] at hd'
    cases hd'
    exact h)
  have hcw := mapRes_forall (P := Json.WF) hcs (by
    intro c hc d hd
    obtain ⟨d', hd', h, -⟩ := c.round_trip S (hfit c hc)
    rw [hd] at hd'
    cases hd'
    exact h)
  have hpr : mapRes Party.ofDoc (m.parties.map Party.toDoc) = .ok (m.parties.map Party.read) := by
    induction m.parties with
    | nil => rfl
    | cons p rest ih => simp [mapRes, ih, p.round_trip.2]
  have hcand : mapRes Candidate.ofDoc (m.candidates.map Candidate.toDoc) =
      .ok (m.candidates.map Candidate.read) := by
    induction m.candidates with
    | nil => rfl
    | cons c rest ih => simp [mapRes, ih, c.round_trip.2]
  have hst := mapRes_map_ok (f := BallotStyle.ofDoc) (g := BallotStyle.toDoc) (l := m.styles)
    (fun s _ => s.round_trip.2)
  have h1 := Json.isObj_object [(key "election_scope_id", .str m.scopeId), (key "type", .str t),
      (key "start_date", .str m.startDate), (key "end_date", .str m.endDate),
      (key "geopolitical_units", .arr units), (key "parties", .arr (m.parties.map Party.toDoc)),
      (key "candidates", .arr (m.candidates.map Candidate.toDoc)), (key "contests", .arr contests),
      (key "ballot_styles", .arr (m.styles.map BallotStyle.toDoc))]
  have h2 := Json.isObj_setSome h1 (key "name") (m.name.map IText.toDoc)
  have h3 := Json.isObj_setSome h2 (key "contact_information") (m.contact.map Contact.toDoc)
  have h4 := Json.isObj_set h3.node (key "spec_version") (.str (key "1.0"))
  refine ⟨_, by unfold Manifest.toDoc; rw [ht, hu, hcs, Res.bind_ok, Res.bind_ok, Res.bind_ok], ?_, ?_⟩
  · refine Json.wf_set (v := .str _) (Json.wf_setSome (Json.wf_setSome (Json.wf_object ?_) _ ?_) _ ?_)
      _ trivial
    · intro e he
      simp only [List.mem_cons, List.not_mem_nil, or_false] at he
      rcases he with rfl | rfl | rfl | rfl | rfl | rfl | rfl | rfl | rfl
      · trivial
      · trivial
      · trivial
      · trivial
      · exact Json.wf_arr huw
      · refine Json.wf_arr ?_
        intro x hx
        obtain ⟨p, -, rfl⟩ := List.mem_map.1 hx
        exact p.round_trip.1
      · refine Json.wf_arr ?_
        intro x hx
        obtain ⟨p, -, rfl⟩ := List.mem_map.1 hx
        exact p.round_trip.1
      · exact Json.wf_arr hcw
      · refine Json.wf_arr ?_
        intro x hx
        obtain ⟨p, -, rfl⟩ := List.mem_map.1 hx
        exact p.round_trip.1
    · intro x hx
      obtain ⟨t, -, rfl⟩ := Option.map_eq_some_iff.1 hx
      exact IText.wf_toDoc t
    · intro x hx
      obtain ⟨t, -, rfl⟩ := Option.map_eq_some_iff.1 hx
      exact t.wf_toDoc
  · have hblank : Contact.ofDoc .null = .ok Contact.blank := rfl
    unfold Manifest.ofDoc
    simp only [Json.strAt, Json.at_eq h4, Json.opt_eq, Json.get_set h3.node, Json.get_setSome h2.node,
      Json.get_setSome h1.node]
    cases hn : m.name <;> cases hct : m.contact <;>
      simp [Json.get_object, key_inj, Json.asStr, htt, IText.ofDoc_toDoc, IText.nonNull_toDoc,
        Json.items, hur, hcr, hpr, hcand, hst, Contact.ofDoc_toDoc, Manifest.read, hn, hct, hblank]

/-! ## C62 -/

theorem map_self {α : Type} {f : α → α} {l : List α} (h : ∀ x ∈ l, f x = x) : l.map f = l := by
  induction l with
  | nil => rfl
  | cons a l ih =>
    rw [List.map_cons, h a (by simp), ih (fun x hx => h x (by simp [hx]))]

theorem GpUnit.read_self (u : GpUnit) (h : u.contact ≠ some Contact.blank) : u.read = u := by
  obtain ⟨a, b, t, c⟩ := u
  cases c with
  | none => rfl
  | some c =>
    have : c ≠ Contact.blank := fun e => h (congrArg some e)
    simp [GpUnit.read, this]

theorem Party.read_self (p : Party) (h : p.name ≠ none) : p.read = p := by
  obtain ⟨a, n, b, c, d⟩ := p
  cases n with
  | none => exact absurd rfl h
  | some t => rfl

theorem Candidate.read_self (p : Candidate) (h : p.name ≠ none) : p.read = p := by
  obtain ⟨a, n, b, c, d⟩ := p
  cases n with
  | none => exact absurd rfl h
  | some t => rfl

theorem sort_selections (S : StdSort) (l : List SelectionDesc)
    (h : l.Pairwise (fun a b => a.seq ≤ b.seq)) (hn : (l.map (·.seq)).Nodup) :
    S.sort SelectionDesc.seq l = l :=
  sort_of_sorted S _ _ h (key_inj_of_nodup _ _ hn)

theorem ContestDesc.read_self (S : StdSort) (c : ContestDesc) (h : c.Canonical) : c.read S = c := by
  obtain ⟨a, b, d, v, n, va, nm, t, s, sel, pp⟩ := c
  obtain ⟨h1, h2, h3, h4⟩ := h
  dsimp only at h1 h2 h3 h4
  have hv : votesAllowedRead v n va = va := by
    unfold votesAllowedRead
    split
    · rename_i h0
      subst h0
      rcases h3 rfl with h | h
      · rw [if_neg h]
      · rw [h, ite_self]
    · rfl
  simp only [ContestDesc.read, sort_selections S sel h1 h2, hv, h4]

theorem Manifest.read_self (S : StdSort) (m : Manifest) (h : m.Canonical) : m.read S = m := by
  have hs := sort_of_sorted S ContestDesc.seq m.contests h.sorted (key_inj_of_nodup _ _ h.distinct)
  have h1 := map_self (fun u hu => GpUnit.read_self u (h.units u hu))
  have h2 := map_self (fun u hu => Party.read_self u (h.parties u hu))
  have h3 := map_self (fun u hu => Candidate.read_self u (h.candidates u hu))
  have h4 := map_self (fun u hu => ContestDesc.read_self S u (h.contests u hu))
  have h5 := h.contact
  unfold Manifest.read
  rw [hs, h1, h2, h3, h4]
  obtain ⟨_, _, _, _, _, _, _, _, _, n, c⟩ := m
  cases n <;> cases c <;> simp at h5 <;> rfl

/-- C62, what reading gives: the text of every manifest whose contests have vote variations with a
name can be read, and `Manifest.read` says what the result is. -/
theorem C62_read_partial (S : StdSort) (m : Manifest) (hm : ∀ c ∈ m.contests, c.Fits) :
    ∃ d, m.toDoc S = .ok d ∧ readText Manifest.ofDoc d.dump = .ok (m.read S) := by
  obtain ⟨d, hd, hw, hr⟩ := m.round_trip S hm
  exact ⟨d, hd, by rw [readText_dump _ _ hw, hr]⟩

/-- C62, the part that holds: a manifest in the form reading produces comes back unchanged. -/
theorem C62_round_trip_partial (S : StdSort) (m : Manifest) (hm : ∀ c ∈ m.contests, c.Fits)
    (hc : m.Canonical) : ∃ d, m.toDoc S = .ok d ∧ readText Manifest.ofDoc d.dump = .ok m := by
  obtain ⟨d, hd, hr⟩ := C62_read_partial S m hm
  rw [m.read_self S hc] at hr
  exact ⟨d, hd, hr⟩

/-- C62, the part about hashes that holds: the manifest read has the hash of the manifest written, if
there is no empty contact, every party has a name, the contests and their selections are in order and
the votes allowed are given. -/
theorem C62_hash_partial (G : Params) (C : Crypto) (S : StdSort) (m : Manifest) (hm : m.HashStable) :
    (m.read S).hash G C = m.hash G C := by
  have hs := sort_of_sorted S ContestDesc.seq m.contests hm.sorted (key_inj_of_nodup _ _ hm.distinct)
  have h1 := map_self (fun u hu => GpUnit.read_self u (hm.units u hu))
  have h2 := map_self (fun u hu => Party.read_self u (hm.parties u hu))
  have h3 : m.contests.map (ContestDesc.read S) =
      m.contests.map (fun c => { c with primaryPartyIds := [] }) := by
    refine List.map_congr_left ?_
    intro c hc
    have := ContestDesc.read_self S _ (hm.contests c hc)
    exact this
  have h4 := C46_not_covered G C m (m.candidates.map Candidate.read) (fun _ => [])
  unfold Manifest.read
  rw [hs, h1, h2, h3, ← h4]
  have h5 := hm.contact
  obtain ⟨_, _, _, _, _, _, _, _, _, n, c⟩ := m
  cases n with
  | none => rfl
  | some n =>
    cases c with
    | none => simp at h5
    | some c => rfl

/-- A manifest in the form reading produces. -/
def canonicalManifest : Manifest :=
  { exampleManifest with
    gpUnits := [⟨"d".toList, "D".toList, .county, some ⟨["street".toList], [], [], []⟩⟩,
      ⟨"e".toList, "E".toList, .city, none⟩]
    parties := [⟨"p".toList, some [⟨"Party".toList, "en".toList⟩], [], [], []⟩]
    candidates := [⟨"a".toList, some [], "p".toList, [], true⟩, ⟨"b".toList, some [], [], [], false⟩]
    contests := [{ exampleContest with objectId := "c2".toList, districtId := "e".toList, seq := 0 },
      exampleContest]
    name := some [⟨"Election".toList, "en".toList⟩]
    contact := some ⟨[], [⟨"a".toList, "b".toList⟩], [], "n".toList⟩ }

theorem exampleContest_canonical (o d : Str) (n : ℕ) :
    ({ exampleContest with objectId := o, districtId := d, seq := n } : ContestDesc).Canonical :=
  ⟨by simp [exampleContest, ContestDesc.make7], by simp [exampleContest, ContestDesc.make7],
    by simp [exampleContest, ContestDesc.make7, defaultVotesAllowed],
    by simp [exampleContest, ContestDesc.make7]⟩

theorem exampleContest_fits (o d : Str) (n : ℕ) (h : n < 2 ^ 64) :
    ({ exampleContest with objectId := o, districtId := d, seq := n } : ContestDesc).Fits :=
  ⟨h, by show exampleContest.numberElected < 2 ^ 64; decide,
    by show exampleContest.votesAllowed < 2 ^ 64; decide,
    by show exampleContest.variation ≠ .approval; decide, by simp [exampleContest, ContestDesc.make7]⟩

/-- The hypotheses of `C62_round_trip_partial` can be met by valid manifests. -/
example : canonicalManifest.isValid = true ∧ (∀ c ∈ canonicalManifest.contests, c.Fits) ∧
    canonicalManifest.Canonical := by
  refine ⟨by decide +kernel, ?_, ?_⟩
  · intro c hc
    simp only [canonicalManifest, List.mem_cons, List.not_mem_nil, or_false] at hc
    rcases hc with rfl | rfl
    · exact exampleContest_fits _ _ 0 (by decide)
    · exact exampleContest_fits _ _ 1 (by decide)
  · refine ⟨by decide, by decide, by decide, by decide, by decide, ?_, rfl⟩
    intro c hc
    simp only [canonicalManifest, List.mem_cons, List.not_mem_nil, or_false] at hc
    rcases hc with rfl | rfl
    · exact exampleContest_canonical _ _ 0
    · exact exampleContest_canonical _ _ 1

/-- The example manifest with its contests in order. -/
def orderedManifest : Manifest :=
  { exampleManifest with
    contests := [{ exampleContest with objectId := "c2".toList, districtId := "e".toList, seq := 0 },
      exampleContest] }

theorem example_fits : ∀ c ∈ exampleManifest.contests, c.Fits := by
  intro c hc
  simp only [exampleManifest, List.mem_cons, List.not_mem_nil, or_false] at hc
  rcases hc with rfl | rfl
  · exact exampleContest_fits _ _ 1 (by decide)
  · exact exampleContest_fits _ _ 0 (by decide)

theorem sort_example (S : StdSort) :
    S.sort ContestDesc.seq exampleManifest.contests = orderedManifest.contests := by
  refine (sorted_unique ContestDesc.seq _ _ ?_ ?_ (S.sorted _ _) ?_).symm
  · exact (List.Perm.swap _ _ _).trans (S.perm _ exampleManifest.contests).symm
  · decide +kernel
  · decide +kernel

theorem read_example_contests (S : StdSort) :
    (exampleManifest.read S).contests = orderedManifest.contests := by
  show (S.sort ContestDesc.seq exampleManifest.contests).map (ContestDesc.read S) = _
  rw [sort_example]
  refine map_self ?_
  intro c hc
  simp only [orderedManifest, List.mem_cons, List.not_mem_nil, or_false] at hc
  rcases hc with rfl | rfl
  · exact ContestDesc.read_self S _ (exampleContest_canonical _ _ 0)
  · exact ContestDesc.read_self S _ (exampleContest_canonical _ _ 1)

/-- C62 is violated: the text of a valid manifest whose contests are not listed in their order gives a
manifest with another hash — unless the hash function collides on strings hashed for the two.  So
the hash that ballots and context refer to is not the hash of the manifest that was published. -/
theorem C62_hash_violated (S : StdSort) :
    exampleManifest.isValid = true ∧
    ∃ d m', exampleManifest.toDoc S = .ok d ∧ readText Manifest.ofDoc d.dump = .ok m' ∧
      ∀ G C, G.Valid →
        NoCollision G C (exampleManifest.queries G C ++ m'.queries G C) →
        exampleManifest.hash G C ≠ m'.hash G C := by
  refine ⟨by decide +kernel, ?_⟩
  obtain ⟨d, hd, hr⟩ := C62_read_partial S exampleManifest example_fits
  refine ⟨d, _, hd, hr, ?_⟩
  intro G C hG hn he
  have h1 : ∃ h, exampleManifest.hash G C = .ok h := ⟨_, rfl⟩
  obtain ⟨h, hh⟩ := h1
  have hp : exampleManifest.Plain := by
    simp only [Manifest.Plain, Str.Plain, GpUnit.Plain, Party.Plain, ContestDesc.Plain,
      BallotStyle.Plain, SelectionDesc.Plain, IText.Plain, Contact.Plain, Language.Plain,
      Annotated.Plain]
    simp [exampleManifest, exampleContest, ContestDesc.make7, nullString]
  have hp' : (exampleManifest.read S).Plain := by
    obtain ⟨p1, p2, p3, p4, p5, p6, p7, p8, p9⟩ := hp
    refine ⟨p1, p2, p3, p4, ?_, ?_, p7, p8, by rintro c ⟨⟩⟩
    · show ∀ p ∈ exampleManifest.parties.map Party.read, p.Plain
      simp only [exampleManifest, List.map_cons, List.map_nil, List.mem_cons, List.not_mem_nil,
        or_false, forall_eq, Party.Plain, Party.read, Str.Plain, IText.Plain, nullString]
      simp
    · intro c hc
      rw [read_example_contests] at hc
      exact p6 c (by
        simp only [orderedManifest, exampleManifest, List.mem_cons, List.not_mem_nil, or_false] at hc ⊢
        exact hc.symm)
  have := C46_hash_binding_partial G C hG exampleManifest _ h hh (he ▸ hh) hp hp' hn
  have h2 := congrArg Manifest.contests this
  unfold Manifest.covered at h2
  dsimp only at h2
  rw [read_example_contests] at h2
  exact absurd h2 (by decide +kernel)

/-- C62 is violated: what `Manifest.read` changes does change for valid manifests.  A contact without
name is lost; the primary parties of contests are lost; votes allowed of 0, which `isValid` accepts,
become the number elected; parties without name get an empty one. -/
theorem C62_violated (S : StdSort) :
    (∃ m : Manifest, m.isValid = true ∧ (∀ c ∈ m.contests, c.Fits) ∧ m.contact ≠ none ∧
      (m.read S).contact = none) ∧
    (∃ m : Manifest, m.isValid = true ∧ (∀ c ∈ m.contests, c.Fits) ∧
      (∃ c ∈ m.contests, c.primaryPartyIds ≠ []) ∧
      ∀ c ∈ (m.read S).contests, c.primaryPartyIds = []) ∧
    (∃ m : Manifest, m.isValid = true ∧ (∀ c ∈ m.contests, c.Fits) ∧
      (∀ c ∈ m.contests, c.votesAllowed = 0) ∧ ∀ c ∈ (m.read S).contests, c.votesAllowed = 1) ∧
    ∃ m : Manifest, m.isValid = true ∧ (∀ c ∈ m.contests, c.Fits) ∧
      (∀ p ∈ m.parties, p.name = none) ∧ m.parties ≠ [] ∧
      ∀ p ∈ (m.read S).parties, p.name = some [] := by
  refine ⟨⟨{ exampleManifest with contact := some ⟨["street".toList], [], [], []⟩ }, by decide +kernel,
      example_fits, by decide, rfl⟩,
    ⟨{ exampleManifest with contests := [{ exampleContest with primaryPartyIds := ["p".toList] }] },
      by decide +kernel, ?_, ⟨_, List.mem_singleton_self _, by decide⟩, ?_⟩,
    ⟨{ exampleManifest with contests := [{ exampleContest with votesAllowed := 0 }] },
      by decide +kernel, ?_, ?_, ?_⟩, exampleManifest, by decide +kernel, example_fits, by decide,
      by decide, ?_⟩
  · intro c hc
    simp only [List.mem_cons, List.not_mem_nil, or_false] at hc
    subst hc
    exact ⟨by decide, by decide, by decide, by decide, by simp [exampleContest, ContestDesc.make7]⟩
  · intro c hc
    obtain ⟨c', -, rfl⟩ := List.mem_map.1 hc
    rfl
  · intro c hc
    simp only [List.mem_cons, List.not_mem_nil, or_false] at hc
    subst hc
    exact ⟨by decide, by decide, by decide, by decide, by simp [exampleContest, ContestDesc.make7]⟩
  · intro c hc
    simp only [List.mem_cons, List.not_mem_nil, or_false] at hc
    subst hc
    rfl
  · intro c hc
    obtain ⟨c', hc', rfl⟩ := List.mem_map.1 hc
    have := (mem_sort S _ _ c').1 hc'
    simp only [List.mem_cons, List.not_mem_nil, or_false] at this
    subst this
    rfl
  · show ∀ p ∈ exampleManifest.parties.map Party.read, p.name = some []
    decide

theorem mapRes_ub {α β : Type} {f : α → Res β} {l : List α} (hl : ∀ x ∈ l, ∀ e, f x ≠ .throw e)
    (h : ∃ x ∈ l, f x = .ub) : mapRes f l = .ub := by
  induction l with
  | nil => simp at h
  | cons a l ih =>
    rw [mapRes]
    cases ha : f a with
    | ub => rfl
    | throw e => exact absurd ha (hl a (by simp) e)
    | ok b =>
      rw [Res.bind_ok, ih (fun x hx => hl x (by simp [hx]))]
      · rfl
      · obtain ⟨x, hx, hx'⟩ := h
        rcases List.mem_cons.1 hx with rfl | hx
        · rw [ha] at hx'
          cases hx'
        · exact ⟨x, hx, hx'⟩

/-- C62 is violated: writing a manifest that has a contest by approval is undefined behaviour, since
the table of names lacks `approval`. -/
theorem C62_approval_violated (S : StdSort) (m : Manifest)
    (h : ∃ c ∈ m.contests, c.variation = .approval) : m.toDoc S = .ub := by
  obtain ⟨t, ht, -⟩ := C49_election_type m.type
  obtain ⟨units, hu⟩ := mapRes_total (g := GpUnit.toDoc) (l := m.gpUnits)
    (fun u _ => let ⟨d, hd, _⟩ := u.round_trip; ⟨d, hd⟩)
  have hn : ∀ (c : ContestDesc) e, c.toDoc S ≠ .throw e := by
    intro c e
    unfold ContestDesc.toDoc
    cases c.variation <;> exact fun h => nomatch h
  have hx : mapRes (ContestDesc.toDoc S) (S.sort ContestDesc.seq m.contests) = .ub := by
    refine mapRes_ub (fun c _ => hn c) ?_
    obtain ⟨c, hc, hv⟩ := h
    refine ⟨c, (mem_sort S _ _ c).2 hc, ?_⟩
    unfold ContestDesc.toDoc
    rw [hv]
    rfl
  unfold Manifest.toDoc
  rw [ht, hu, hx]
  rfl

/-! ## C63 -/

theorem wf_selections (l : List SelectionDesc) (h : ∀ s ∈ l, s.seq < 2 ^ 64) :
    (Json.pushed (l.map SelectionDesc.toDoc)).WF := by
  refine Json.wf_pushed ?_
  intro x hx
  obtain ⟨s, hs, rfl⟩ := List.mem_map.1 hx
  exact (SelectionDesc.round_trip s (h s hs)).1

/-- Reading a title of an internal manifest fails. -/
theorem IText.ofDoc_doubled (t : IText) :
    IText.ofDoc (.object [(key "text", IText.toDoc t)]) = .throw .json := by
  simp only [IText.ofDoc, Json.optWith, Json.opt_eq, Json.get_object]
  simp [IText.nonNull_toDoc]
  rfl

/-- A contest without title is read, one with a title is not. -/
theorem ContestDescP.round_trip (S : StdSort) (c : ContestDescP) (hc : c.Fits) :
    ∃ d, c.toDoc S = .ok d ∧ d.WF ∧ ContestDescP.ofDoc d =
      if c.desc.title.isSome = true then .throw .json else .ok (c.read S) := by
  obtain ⟨t, ht, htt⟩ := C49_vote_variation_partial c.desc.variation hc.desc.variation
  have hsel : ∀ s ∈ S.sort SelectionDesc.seq c.desc.selections, s.seq < 2 ^ 64 :=
    fun s hs => hc.desc.selections s ((mem_sort S _ _ s).1 hs)
  have hpl : ∀ s ∈ S.sort SelectionDesc.seq c.placeholders, s.seq < 2 ^ 64 :=
    fun s hs => hc.placeholders s ((mem_sort S _ _ s).1 hs)
  have h1 := Json.isObj_object [(key "object_id", .str c.desc.objectId),
      (key "electoral_district_id", .str c.desc.districtId),
      (key "sequence_order", .num c.desc.seq), (key "vote_variation", .str t),
      (key "number_elected", .num c.desc.numberElected),
      (key "votes_allowed", .num c.desc.votesAllowed), (key "name", .str c.desc.name),
      (key "ballot_selections", .pushed ((S.sort SelectionDesc.seq c.desc.selections).map
        SelectionDesc.toDoc)),
      (key "ballot_placeholders", .pushed ((S.sort SelectionDesc.seq c.placeholders).map
        SelectionDesc.toDoc))]
  have h2 := Json.isObj_setSome h1 (key "ballot_title")
    (c.desc.title.map (fun t => .object [(key "text", IText.toDoc t)]))
  have h3 := Json.isObj_setSome h2 (key "ballot_subtitle")
    (c.desc.subtitle.map (fun t => .object [(key "text", IText.toDoc t)]))
  have hw : ∀ (o : Option IText) x,
      o.map (fun t => Json.object [(key "text", IText.toDoc t)]) = some x → x.WF := by
    intro o x hx
    obtain ⟨t, -, rfl⟩ := Option.map_eq_some_iff.1 hx
    refine Json.wf_object ?_
    intro e he
    simp only [List.mem_cons, List.not_mem_nil, or_false] at he
    subst he
    exact IText.wf_toDoc t
  refine ⟨_, by unfold ContestDescP.toDoc ContestDesc.getSelections ContestDescP.getPlaceholders;
                rw [ht, Res.bind_ok], ?_, ?_⟩
  · refine Json.wf_setSome (Json.wf_setSome (Json.wf_object ?_) _ (hw _)) _ (hw _)
    intro e he
    simp only [List.mem_cons, List.not_mem_nil, or_false] at he
    rcases he with rfl | rfl | rfl | rfl | rfl | rfl | rfl | rfl | rfl
    · trivial
    · trivial
    · exact hc.desc.seq
    · trivial
    · exact hc.desc.elected
    · exact hc.desc.allowed
    · trivial
    · exact wf_selections _ hsel
    · exact wf_selections _ hpl
  · have hs := mapRes_map_ok (f := SelectionDesc.ofDoc) (g := SelectionDesc.toDoc)
      (fun s hs => (SelectionDesc.round_trip s (hsel s hs)).2)
    have hp := mapRes_map_ok (f := SelectionDesc.ofDoc) (g := SelectionDesc.toDoc)
      (fun s hs => (SelectionDesc.round_trip s (hpl s hs)).2)
    have hnn : ∀ l, (Json.object l).nonNull = some (Json.object l) := fun _ => rfl
    unfold ContestDescP.ofDoc
    simp only [Json.strAt, Json.natAt, Json.at_eq h3, Json.opt_eq, Json.get_setSome h2.node,
      Json.get_setSome h1.node]
    cases htl : c.desc.title with
    | none =>
      simp [Json.get_object, key_inj, Json.asStr, Json.asNat, htt, Json.pushed_items, hs, hp,
        ContestDesc.make7, ContestDescP.read, defaultVotesAllowed, htl]
    | some x =>
      simp [Json.get_object, key_inj, Json.asStr, Json.asNat, Json.pushed_items, hs, hp, hnn,
        IText.ofDoc_doubled]

theorem mapRes_throw {α β : Type} {f : α → Res β} {l : List α} {e : Exn}
    (hl : ∀ x ∈ l, f x = .throw e ∨ ∃ y, f x = .ok y) (h : ∃ x ∈ l, f x = .throw e) :
    mapRes f l = .throw e := by
  induction l with
  | nil => simp at h
  | cons a l ih =>
    rw [mapRes]
    rcases hl a (by simp) with ha | ⟨y, ha⟩
    · rw [ha]
      rfl
    · rw [ha, Res.bind_ok, ih (fun x hx => hl x (by simp [hx]))]
      · rfl
      · obtain ⟨x, hx, hx'⟩ := h
        rcases List.mem_cons.1 hx with rfl | hx
        · rw [ha] at hx'
          cases hx'
        · exact ⟨x, hx, hx'⟩

theorem mapRes_exists {α β : Type} {g : α → Res β} {l : List α} {ds : List β}
    (hd : mapRes g l = .ok ds) {x : α} (hx : x ∈ l) : ∃ d ∈ ds, g x = .ok d := by
  induction l generalizing ds with
  | nil => simp at hx
  | cons a l ih =>
    rw [mapRes] at hd
    obtain ⟨y, hy, hd⟩ := (Res.bind_eq_ok _ _ _).1 hd
    obtain ⟨ys, hys, hd⟩ := (Res.bind_eq_ok _ _ _).1 hd
    cases hd
    rcases List.mem_cons.1 hx with rfl | hx
    · exact ⟨y, by simp, hy⟩
    · obtain ⟨d, hd, he⟩ := ih hys hx
      exact ⟨d, by simp [hd], he⟩

/-- The document of an internal manifest, and what reading it gives. -/
theorem IManifest.round_trip {G : Params} (hG : G.Valid) (S : StdSort) (m : IManifest)
    (hm : ∀ c ∈ m.contests, c.Fits) (h0 : m.manifestHash ≠ 0) (hq : m.manifestHash ≤ G.q) :
    ∃ d, m.toDoc S = .ok d ∧ d.WF ∧ IManifest.ofDoc G d =
      if ∃ c ∈ m.contests, c.desc.title.isSome = true then .throw .json else .ok (m.read S) := by
  obtain ⟨units, hu⟩ := mapRes_total (g := GpUnit.toDoc) (l := m.gpUnits)
    (fun u _ => let ⟨d, hd, _⟩ := u.round_trip; ⟨d, hd⟩)
  have hfit : ∀ c ∈ S.sort (fun c => c.desc.seq) m.contests, ContestDescP.Fits c :=
    fun c hc => hm c ((mem_sort S _ _ c).1 hc)
  obtain ⟨contests, hcs⟩ := mapRes_total (g := ContestDescP.toDoc S)
    (l := S.sort (fun c => c.desc.seq) m.contests)
    (fun c hc => let ⟨d, hd, _⟩ := c.round_trip S (hfit c hc); ⟨d, hd⟩)
  have hur := mapRes_mapRes_ok (f := GpUnit.ofDoc) (n := GpUnit.read) hu (by
    intro u _ d hd
    obtain ⟨d', hd', -, h⟩ := u.round_trip
    rw [hd] at hd'
    cases hd'
    exact h)
  have huw := mapRes_forall (P := Json.WF) hu (by
    intro u _ d hd
    obtain ⟨d', hd', h, -⟩ := u.round_trip
    rw [hd] at hd'
    cases hd'
    exact h)
  have hcw := mapRes_forall (P := Json.WF) hcs (by
    intro c hc d hd
    obtain ⟨d', hd', h, -⟩ := c.round_trip S (hfit c hc)
    rw [hd] at hd'
    cases hd'
    exact h)
  have hcand : mapRes Candidate.ofDoc (m.candidates.map Candidate.toDoc) =
      .ok (m.candidates.map Candidate.read) := by
    induction m.candidates with
    | nil => rfl
    | cons c rest ih => simp [mapRes, ih, c.round_trip.2]
  have hst := mapRes_map_ok (f := BallotStyle.ofDoc) (g := BallotStyle.toDoc) (l := m.styles)
    (fun s _ => s.round_trip.2)
  have hhex : fromHexQ G false (toHexQ m.manifestHash) = .ok m.manifestHash :=
    C08_hex_q_partial G hG m.manifestHash h0 hq
  have hia : ∀ l, (Json.arr l).items = l := fun _ => rfl
  refine ⟨_, by unfold IManifest.toDoc IManifest.getContests; rw [hu, hcs, Res.bind_ok, Res.bind_ok],
    ?_, ?_⟩
  · refine Json.wf_object ?_
    intro e he
    simp only [List.mem_cons, List.not_mem_nil, or_false] at he
    rcases he with rfl | rfl | rfl | rfl | rfl
    · trivial
    · exact Json.wf_arr huw
    · refine Json.wf_arr ?_
      intro x hx
      obtain ⟨p, -, rfl⟩ := List.mem_map.1 hx
      exact p.round_trip.1
    · exact Json.wf_pushed hcw
    · refine Json.wf_arr ?_
      intro x hx
      obtain ⟨p, -, rfl⟩ := List.mem_map.1 hx
      exact p.round_trip.1
  · unfold IManifest.ofDoc
    simp only [Json.strAt, Json.at_eq (Json.isObj_object _), Json.get_object]
    by_cases ht : ∃ c ∈ m.contests, c.desc.title.isSome = true
    · rw [if_pos ht]
      have hcr : mapRes ContestDescP.ofDoc contests = .throw .json := by
        refine mapRes_throw ?_ ?_
        · refine mapRes_forall (P := fun d => ContestDescP.ofDoc d = .throw .json ∨
            ∃ y, ContestDescP.ofDoc d = .ok y) hcs ?_
          intro c hc d hd
          obtain ⟨d', hd', -, h⟩ := c.round_trip S (hfit c hc)
          rw [hd] at hd'
          cases hd'
          rw [h]
          split
          · exact .inl rfl
          · exact .inr ⟨_, rfl⟩
        · obtain ⟨c, hc, hct⟩ := ht
          have hc' := (mem_sort S (fun c => c.desc.seq) m.contests c).2 hc
          obtain ⟨d, hd, he⟩ := mapRes_exists hcs hc'
          obtain ⟨d', hd', -, h⟩ := c.round_trip S (hfit c hc')
          rw [he] at hd'
          cases hd'
          rw [if_pos hct] at h
          exact ⟨d, hd, h⟩
      simp [key_inj, hia, hur, hcr, hcand, Json.pushed_items]
    · rw [if_neg ht]
      have hcr := mapRes_mapRes_ok (f := ContestDescP.ofDoc) (n := ContestDescP.read S) hcs (by
        intro c hc d hd
        obtain ⟨d', hd', -, h⟩ := c.round_trip S (hfit c hc)
        rw [hd] at hd'
        cases hd'
        rw [if_neg (fun h => ht ⟨c, (mem_sort S _ _ c).1 hc, h⟩)] at h
        exact h)
      simp [key_inj, Json.asStr, hia, hur, hcr, hcand, hst, Json.pushed_items, hhex,
        IManifest.read]

theorem ContestDescP.read_self (S : StdSort) (c : ContestDescP) (h : c.Canonical) :
    c.read S = c := by
  obtain ⟨⟨a, b, d, v, n, va, nm, t, s, sel, pp⟩, pl⟩ := c
  obtain ⟨h1, h2, h3, h4, h5, h6, h7⟩ := h
  dsimp only at h1 h2 h3 h4 h5 h6 h7
  simp only [ContestDescP.read, sort_selections S sel h2 h3, sort_selections S pl h4 h5, ← h6, h7,
    h1.2]

theorem IManifest.read_self (S : StdSort) (m : IManifest) (h : m.Canonical) : m.read S = m := by
  have hs := sort_of_sorted S (fun c : ContestDescP => c.desc.seq) m.contests h.sorted
    (key_inj_of_nodup _ _ h.distinct)
  have h1 := map_self (fun u hu => GpUnit.read_self u (h.units u hu))
  have h3 := map_self (fun u hu => Candidate.read_self u (h.candidates u hu))
  have h4 := map_self (fun u hu => ContestDescP.read_self S u (h.contests u hu))
  unfold IManifest.read
  rw [hs, h1, h3, h4]

/-- C63, what reading gives: if no contest has a title, the text of an internal manifest can be read,
and `IManifest.read` says what the result is. -/
theorem C63_read_partial {G : Params} (hG : G.Valid) (S : StdSort) (m : IManifest)
    (hm : ∀ c ∈ m.contests, c.Fits) (h0 : m.manifestHash ≠ 0) (hq : m.manifestHash ≤ G.q)
    (ht : ∀ c ∈ m.contests, c.desc.title = none) :
    ∃ d, m.toDoc S = .ok d ∧ readText (IManifest.ofDoc G) d.dump = .ok (m.read S) := by
  obtain ⟨d, hd, hw, hr⟩ := m.round_trip hG S hm h0 hq
  rw [if_neg (by
    rintro ⟨c, hc, h⟩
    rw [ht c hc] at h
    cases h)] at hr
  exact ⟨d, hd, by rw [readText_dump _ _ hw, hr]⟩

/-- C63 is violated: the text of an internal manifest with a contest that has a title cannot be
read. -/
theorem C63_title_violated {G : Params} (hG : G.Valid) (S : StdSort) (m : IManifest)
    (hm : ∀ c ∈ m.contests, c.Fits) (h0 : m.manifestHash ≠ 0) (hq : m.manifestHash ≤ G.q)
    (ht : ∃ c ∈ m.contests, c.desc.title ≠ none) :
    ∃ d, m.toDoc S = .ok d ∧ readText (IManifest.ofDoc G) d.dump = .throw .json := by
  obtain ⟨d, hd, hw, hr⟩ := m.round_trip hG S hm h0 hq
  rw [if_pos (by
    obtain ⟨c, hc, h⟩ := ht
    exact ⟨c, hc, Option.isSome_iff_ne_none.2 h⟩)] at hr
  exact ⟨d, hd, by rw [readText_dump _ _ hw, hr]⟩

/-- C63, the part that holds: an internal manifest made from a valid manifest comes back unchanged, if
no contest has a title, the selections of the contests are in order, units have no empty contact and
candidates have names. -/
theorem C63_round_trip_partial {G : Params} (hG : G.Valid) (C : Crypto) (S : StdSort) (m : Manifest)
    (i : IManifest) (hmi : IManifest.ofManifest G C S m = .ok i) (hv : m.isValid = true)
    (hm : ∀ c ∈ m.contests, c.Fits ∧ c.numberElected < 2 ^ 63 ∧ c.title = none ∧
      c.selections.Pairwise (fun a b => a.seq ≤ b.seq))
    (hu : ∀ u ∈ m.gpUnits, u.contact ≠ some Contact.blank) (hc : ∀ c ∈ m.candidates, c.name ≠ none)
    (h0 : Nonzero G.q i.manifestHash) :
    ∃ d, i.toDoc S = .ok d ∧ readText (IManifest.ofDoc G) d.dump = .ok i := by
  have hwf := (C41_manifest_valid m).1 hv
  unfold IManifest.ofManifest at hmi
  obtain ⟨cs, hcs, hmi'⟩ := (Res.bind_eq_ok _ _ _).1 hmi
  obtain ⟨h, hh, hi⟩ := (Res.bind_eq_ok _ _ _).1 hmi'
  clear hmi hmi'
  have hcs' : cs = (S.sort ContestDesc.seq m.contests).map (fun c =>
      { desc := .make7 c.objectId c.districtId c.seq c.variation c.numberElected c.name c.selections
        placeholders := placeholdersFor S c }) := by
    unfold contestsWithPlaceholders at hcs
    have hl : ∀ c ∈ S.sort ContestDesc.seq m.contests, c.title = none :=
      fun c hc => (hm c ((mem_sort S _ _ c).1 hc)).2.2.1
    clear hi hh
    revert hl hcs
    generalize S.sort ContestDesc.seq m.contests = l
    intro hcs hl
    induction l generalizing cs with
    | nil =>
      cases hcs
      rfl
    | cons a l ih =>
      rw [mapRes] at hcs
      obtain ⟨y, hy, hcs⟩ := (Res.bind_eq_ok _ _ _).1 hcs
      obtain ⟨ys, hys, hcs⟩ := (Res.bind_eq_ok _ _ _).1 hcs
      obtain ⟨d, hd, hy⟩ := (Res.bind_eq_ok _ _ _).1 hy
      cases hcs
      cases hy
      rw [List.map_cons, ← ih ys hys (fun c hc => hl c (by simp [hc]))]
      unfold ContestDesc.clone at hd
      rw [hl a (by simp)] at hd
      cases hd
      rfl
  subst hcs'
  cases hi
  have hpl : ∀ c ∈ m.contests, (placeholdersFor S c).Pairwise (fun a b => a.seq < b.seq) ∧
      ∀ s ∈ placeholdersFor S c, s.seq < 2 ^ 64 := by
    intro c hc
    have hn := (hm c hc).2.1
    have hs : (maxSeq32 (c.getSelections S) + 1) % 2 ^ 32 < 2 ^ 32 := Nat.mod_lt _ (by decide)
    unfold placeholdersFor
    generalize (maxSeq32 (c.getSelections S) + 1) % 2 ^ 32 = st at hs
    constructor
    · rw [List.pairwise_map]
      refine (List.pairwise_lt_range (n := c.numberElected)).imp_of_mem ?_
      intro a b ha hb hab
      rw [List.mem_range] at ha hb
      show (st + a) % 2 ^ 64 < (st + b) % 2 ^ 64
      rw [Nat.mod_eq_of_lt (by omega), Nat.mod_eq_of_lt (by omega)]
      omega
    · intro s hs
      obtain ⟨a, ha, rfl⟩ := List.mem_map.1 hs
      exact Nat.mod_lt _ (by decide)
  have hcan : IManifest.Canonical ⟨m.gpUnits, m.candidates, (S.sort ContestDesc.seq m.contests).map
      (fun c => { desc := .make7 c.objectId c.districtId c.seq c.variation c.numberElected c.name
                    c.selections
                  placeholders := placeholdersFor S c }), m.styles, h⟩ := by
    refine ⟨hu, hc, ?_, ?_, ?_⟩
    · rw [List.pairwise_map]
      exact S.sorted _ _
    · rw [List.map_map]
      exact ((S.perm ContestDesc.seq m.contests).map ContestDesc.seq).nodup_iff.2 hwf.contestSeqs
    · intro c hc
      obtain ⟨c, hc', rfl⟩ := List.mem_map.1 hc
      have hc := (mem_sort S _ _ c).1 hc'
      obtain ⟨h1, h2⟩ := hpl c hc
      refine ⟨⟨rfl, rfl⟩, (hm c hc).2.2.2, (hwf.contestsWellFormed c hc).seqs, h1.imp (fun h => h.le),
        ?_, rfl, rfl⟩
      rw [List.nodup_iff_pairwise_ne, List.pairwise_map]
      exact h1.imp (fun h => h.ne)
  have hfit : ∀ c ∈ (S.sort ContestDesc.seq m.contests).map (fun c =>
      ({ desc := .make7 c.objectId c.districtId c.seq c.variation c.numberElected c.name c.selections
         placeholders := placeholdersFor S c } : ContestDescP)), c.Fits := by
    intro c hc
    obtain ⟨c, hc', rfl⟩ := List.mem_map.1 hc
    have hc := (mem_sort S _ _ c).1 hc'
    have hf := (hm c hc).1
    refine ⟨⟨hf.seq, hf.elected, ?_, hf.variation, hf.selections⟩, (hpl c hc).2⟩
    show defaultVotesAllowed c.variation c.numberElected < 2 ^ 64
    unfold defaultVotesAllowed
    split
    · exact hf.elected
    · decide
  obtain ⟨d, hd, hr⟩ := C63_read_partial hG S _ hfit h0.1 h0.2 (by
    intro c hc
    obtain ⟨c, hc, rfl⟩ := List.mem_map.1 hc
    rfl)
  rw [IManifest.read_self S _ hcan] at hr
  exact ⟨d, hd, hr⟩

/-- The hypotheses of `C63_round_trip_partial` can be met: a valid manifest with two contests. -/
example : canonicalManifest.isValid = true ∧ (∀ c ∈ canonicalManifest.contests, c.Fits ∧
      c.numberElected < 2 ^ 63 ∧ c.title = none ∧
      c.selections.Pairwise (fun a b => a.seq ≤ b.seq)) ∧
    (∀ u ∈ canonicalManifest.gpUnits, u.contact ≠ some Contact.blank) ∧
    (∀ c ∈ canonicalManifest.candidates, c.name ≠ none) ∧
    ∃ i, IManifest.ofManifest .std (constCrypto 5) StdSort.insertion canonicalManifest = .ok i ∧
      Nonzero Params.std.q i.manifestHash := by
  refine ⟨by decide +kernel, ?_, by decide, by decide, ?_⟩
  · intro c hc
    simp only [canonicalManifest, List.mem_cons, List.not_mem_nil, or_false] at hc
    rcases hc with rfl | rfl
    · exact ⟨exampleContest_fits _ _ 0 (by decide), by decide, rfl, (exampleContest_canonical _ _ 0).1⟩
    · exact ⟨exampleContest_fits _ _ 1 (by decide), by decide, rfl, (exampleContest_canonical _ _ 1).1⟩
  · have h1 : ∃ cs, contestsWithPlaceholders .insertion canonicalManifest = .ok cs := ⟨_, rfl⟩
    have h2 : ∃ h, canonicalManifest.hash .std (constCrypto 5) = .ok h := ⟨_, rfl⟩
    obtain ⟨cs, h1⟩ := h1
    obtain ⟨h, h2⟩ := h2
    refine ⟨_, by unfold IManifest.ofManifest; rw [h1, h2, Res.bind_ok, Res.bind_ok], ?_⟩
    show Nonzero Params.std.q h
    have h3 : h = 5 := by
      rw [manifest_hash _ _ _ _ h2, hashElems_const]
      decide +kernel
    rw [h3]
    exact ⟨by decide, by decide +kernel⟩

/-- The hypotheses of `C63_title_violated` can be met. -/
example : ∃ m : IManifest, (∀ c ∈ m.contests, c.Fits) ∧ Nonzero Params.std.q m.manifestHash ∧
    ∃ c ∈ m.contests, c.desc.title ≠ none := by
  refine ⟨⟨[], [], [⟨{ exampleContest with title := some [] }, []⟩], [], 1⟩, ?_, ⟨by decide, by decide⟩,
    _, List.mem_singleton_self _, by decide⟩
  intro c hc
  simp only [List.mem_cons, List.not_mem_nil, or_false] at hc
  subst hc
  exact ⟨⟨by decide, by decide, by decide, by decide, by simp [exampleContest, ContestDesc.make7]⟩,
    by simp⟩

end EG
