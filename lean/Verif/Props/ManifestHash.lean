import Verif.Props.Manifest
import Verif.Spec.Manifest

/-!
# C46: what the manifest hash binds
-/

namespace EG

variable (G : Params) (C : Crypto)

theorem itext_hash (t : IText) :
    IText.hash G C t = hashElems G C [.vec (t.map (fun l => .q (l.hash G C)))] := by
  rw [IText.hash, hashElem, hashElems]
  simp only [List.isEmpty_cons, Bool.false_eq_true, if_false, List.map_cons, List.map_nil]

section binding

variable {G C} (hG : G.Valid) {Q : List Str} (hQ : NoCollision G C Q)
include hG hQ

theorem hash_bind (xs ys : List HElem) (hx : ∀ s ∈ hashQueries G C xs, s ∈ Q)
    (hy : ∀ s ∈ hashQueries G C ys, s ∈ Q) (px : ∀ x ∈ xs, x.Plain) (py : ∀ y ∈ ys, y.Plain)
    (ht : List.Forall₂ HElem.SameType xs ys) (h : hashElems G C xs = hashElems G C ys) : xs = ys := by
  refine C26_hash_binding_partial G C hG xs ys px py ht ?_ h
  intro s hs t ht' e
  refine hQ s ?_ t ?_ e
  · rcases List.mem_append.1 hs with h | h
    · exact hx s h
    · exact hy s h
  · rcases List.mem_append.1 ht' with h | h
    · exact hx t h
    · exact hy t h

omit hQ in
theorem hash_plain (xs : List HElem) : HElem.Plain (.q (hashElems G C xs)) := hashElems_lt256 hG xs

omit hG hQ in
theorem map_inj_on {α β γ : Type} (f : α → β) (g : α → γ) (l m : List α)
    (hi : ∀ a ∈ l, ∀ b ∈ m, f a = f b → g a = g b) (h : l.map f = m.map f) : l.map g = m.map g := by
  induction l generalizing m with
  | nil =>
    cases m with
    | nil => rfl
    | cons b m => simp at h
  | cons a l ih =>
    cases m with
    | nil => simp at h
    | cons b m =>
      simp only [List.map_cons, List.cons.injEq] at h ⊢
      exact ⟨hi a (by simp) b (by simp) h.1,
        ih m (fun x hx y hy => hi x (by simp [hx]) y (by simp [hy])) h.2⟩

omit hG hQ in
theorem map_inj_on' {α β : Type} (f : α → β) (l m : List α)
    (hi : ∀ a ∈ l, ∀ b ∈ m, f a = f b → a = b) (h : l.map f = m.map f) : l = m := by
  simpa using map_inj_on f id l m hi h

omit hG hQ in
theorem vecq_sameType {α β : Type} (f : α → ℕ) (g : β → ℕ) (l : List α) (m : List β) :
    HElem.SameType (.vec (l.map (fun x => .q (f x)))) (.vec (m.map (fun x => .q (g x)))) := by
  intro a ha b hb
  rw [List.mem_map] at ha hb
  obtain ⟨_, _, rfl⟩ := ha
  obtain ⟨_, _, rfl⟩ := hb
  trivial

omit hG hQ in
theorem vecs_sameType (l m : List Str) : HElem.SameType (.vec (l.map .str)) (.vec (m.map .str)) := by
  intro a ha b hb
  rw [List.mem_map] at ha hb
  obtain ⟨_, _, rfl⟩ := ha
  obtain ⟨_, _, rfl⟩ := hb
  trivial

omit hG hQ in
theorem vecq_plain {α : Type} (f : α → ℕ) (l : List α) (h : ∀ x, f x < 2 ^ 256) :
    HElem.Plain (.vec (l.map (fun x => .q (f x)))) := by
  intro a ha
  rw [List.mem_map] at ha
  obtain ⟨x, _, rfl⟩ := ha
  exact h x

omit hG hQ in
theorem vecs_plain (l : List Str) (h : ∀ s ∈ l, Str.Plain s) : HElem.Plain (.vec (l.map .str)) := by
  intro a ha
  rw [List.mem_map] at ha
  obtain ⟨x, hx, rfl⟩ := ha
  exact h x hx

omit hG hQ in
theorem vecq_inj {α β : Type} (f : α → ℕ) (g : α → β) (l m : List α)
    (hi : ∀ a ∈ l, ∀ b ∈ m, f a = f b → g a = g b)
    (h : HElem.vec (l.map (fun x => .q (f x))) = .vec (m.map (fun x => .q (f x)))) :
    l.map g = m.map g := by
  refine map_inj_on (fun x => HAtom.q (f x)) g l m (fun a ha b hb e => hi a ha b hb ?_) (by simpa using h)
  simpa using e

omit hG hQ in
theorem vecs_inj (l m : List Str) (h : HElem.vec (l.map .str) = .vec (m.map .str)) : l = m := by
  refine map_inj_on' HAtom.str l m (fun a _ b _ e => by simpa using e) (by simpa using h)

omit hG hQ in
theorem optHash_sameType (a b : Option ℕ) : HElem.SameType (optHash a) (optHash b) := by
  cases a <;> cases b <;> trivial

omit hG hQ in
theorem optHash_plain (a : Option ℕ) (h : ∀ x ∈ a, x < 2 ^ 256) : HElem.Plain (optHash a) := by
  cases a with
  | none => trivial
  | some x => exact h x rfl

omit hG hQ in
theorem optHash_inj (a b : Option ℕ) (h : optHash a = optHash b) : a = b := by
  cases a <;> cases b <;> simp_all [optHash]

omit hG hQ in
theorem optMap_inj {α : Type} (f : α → ℕ) (a b : Option α)
    (hi : ∀ x ∈ a, ∀ y ∈ b, f x = f y → x = y) (h : a.map f = b.map f) : a = b := by
  cases a <;> cases b <;> simp_all

theorem annotated_bind (a b : Annotated) (pa : a.Plain) (pb : b.Plain)
    (qa : ∀ s ∈ a.queries G C, s ∈ Q) (qb : ∀ s ∈ b.queries G C, s ∈ Q)
    (h : a.hash G C = b.hash G C) : a = b := by
  have := hash_bind hG hQ _ _ qa qb
    (by simp only [List.mem_cons, List.not_mem_nil, or_false, forall_eq_or_imp, forall_eq]; exact pa)
    (by simp only [List.mem_cons, List.not_mem_nil, or_false, forall_eq_or_imp, forall_eq]; exact pb)
    (by simp [HElem.SameType, HAtom.SameType]) h
  cases a; cases b; simp_all

theorem language_bind (a b : Language) (pa : a.Plain) (pb : b.Plain)
    (qa : ∀ s ∈ a.queries G C, s ∈ Q) (qb : ∀ s ∈ b.queries G C, s ∈ Q)
    (h : a.hash G C = b.hash G C) : a = b := by
  have := hash_bind hG hQ _ _ qa qb
    (by simp only [List.mem_cons, List.not_mem_nil, or_false, forall_eq_or_imp, forall_eq]; exact pa)
    (by simp only [List.mem_cons, List.not_mem_nil, or_false, forall_eq_or_imp, forall_eq]; exact pb)
    (by simp [HElem.SameType, HAtom.SameType]) h
  cases a; cases b; simp_all

theorem itext_bind (a b : IText) (pa : IText.Plain a) (pb : IText.Plain b)
    (qa : ∀ s ∈ IText.queries G C a, s ∈ Q) (qb : ∀ s ∈ IText.queries G C b, s ∈ Q)
    (h : IText.hash G C a = IText.hash G C b) : a = b := by
  have := hash_bind hG hQ [.vec (a.map (fun l => .q (l.hash G C)))]
    [.vec (b.map (fun l => .q (l.hash G C)))]
    (fun s hs => qa s (List.mem_append_right _ hs)) (fun s hs => qb s (List.mem_append_right _ hs))
    (by rw [List.forall_mem_singleton]
        exact vecq_plain (Language.hash G C) _ (fun x => hashElems_lt256 hG _))
    (by rw [List.forall_mem_singleton]
        exact vecq_plain (Language.hash G C) _ (fun x => hashElems_lt256 hG _))
    (.cons (vecq_sameType (Language.hash G C) (Language.hash G C) _ _) .nil) (by rwa [itext_hash, itext_hash] at h)
  have h2 := vecq_inj (Language.hash G C) id a b (fun x hx y hy e => language_bind hG hQ x y (pa x hx) (pb y hy)
    (fun s hs => qa s (List.mem_append_left _ (List.mem_flatMap.2 ⟨x, hx, hs⟩)))
    (fun s hs => qb s (List.mem_append_left _ (List.mem_flatMap.2 ⟨y, hy, hs⟩))) e) (List.cons.inj this).1
  simpa using h2

theorem contact_bind (a b : Contact) (pa : a.Plain) (pb : b.Plain)
    (qa : ∀ s ∈ a.queries G C, s ∈ Q) (qb : ∀ s ∈ b.queries G C, s ∈ Q)
    (h : a.hash G C = b.hash G C) : a = b := by
  have := hash_bind hG hQ _ _
    (fun s hs => qa s (List.mem_append_right _ hs)) (fun s hs => qb s (List.mem_append_right _ hs))
    (by
      simp only [List.mem_cons, List.not_mem_nil, or_false, forall_eq_or_imp, forall_eq]
      exact ⟨pa.1, vecs_plain _ pa.2.1, vecq_plain _ _ (fun x => hashElems_lt256 hG _),
        vecq_plain _ _ (fun x => hashElems_lt256 hG _)⟩)
    (by
      simp only [List.mem_cons, List.not_mem_nil, or_false, forall_eq_or_imp, forall_eq]
      exact ⟨pb.1, vecs_plain _ pb.2.1, vecq_plain _ _ (fun x => hashElems_lt256 hG _),
        vecq_plain _ _ (fun x => hashElems_lt256 hG _)⟩)
    (.cons trivial (.cons (vecs_sameType _ _) (.cons (vecq_sameType _ _ _ _)
      (.cons (vecq_sameType _ _ _ _) .nil)))) h
  simp only [List.cons.injEq, and_true] at this
  obtain ⟨h1, h2, h3, h4⟩ := this
  have sub : ∀ (l m : List Annotated), (∀ x ∈ l, x ∈ a.email ++ a.phone) →
      (∀ x ∈ m, x ∈ b.email ++ b.phone) →
      HElem.vec (l.map (fun x => .q (x.hash G C))) = .vec (m.map (fun x => .q (x.hash G C))) → l = m := by
    intro l m hl hm e
    have h2 := vecq_inj _ id _ _ (fun x hx y hy e => annotated_bind hG hQ x y (pa.2.2 x (hl x hx))
      (pb.2.2 y (hm y hy))
      (fun s hs => qa s (List.mem_append_left _ (List.mem_flatMap.2 ⟨x, hl x hx, hs⟩)))
      (fun s hs => qb s (List.mem_append_left _ (List.mem_flatMap.2 ⟨y, hm y hy, hs⟩))) e) e
    simpa using h2
  have h2 := vecs_inj _ _ h2
  have h3 := sub _ _ (by simp_all) (by simp_all) h3
  have h4 := sub _ _ (by simp_all) (by simp_all) h4
  cases a; cases b; simp_all

theorem party_bind (a b : Party) (pa : a.Plain) (pb : b.Plain)
    (qa : ∀ s ∈ a.queries G C, s ∈ Q) (qb : ∀ s ∈ b.queries G C, s ∈ Q)
    (h : a.hash G C = b.hash G C) : a = b := by
  have pl : ∀ (o : Option IText), HElem.Plain (optHash (o.map (IText.hash G C))) := by
    intro o
    refine optHash_plain _ ?_
    cases o with
    | none => simp
    | some t => 
      intro x hx
      rw [Option.map_some, Option.mem_def, Option.some.injEq] at hx
      rw [← hx, itext_hash]
      exact hashElems_lt256 hG _
  have := hash_bind hG hQ _ _
    (fun s hs => qa s (List.mem_append_right _ hs)) (fun s hs => qb s (List.mem_append_right _ hs))
    (by
      simp only [List.mem_cons, List.not_mem_nil, or_false, forall_eq_or_imp, forall_eq]
      exact ⟨pa.1, pl _, pa.2.2.1, pa.2.2.2.1, pa.2.2.2.2⟩)
    (by
      simp only [List.mem_cons, List.not_mem_nil, or_false, forall_eq_or_imp, forall_eq]
      exact ⟨pb.1, pl _, pb.2.2.1, pb.2.2.2.1, pb.2.2.2.2⟩)
    (.cons trivial (.cons (optHash_sameType _ _) (.cons trivial (.cons trivial (.cons trivial .nil))))) h
  simp only [List.cons.injEq, and_true] at this
  obtain ⟨h1, h2, h3, h4, h5⟩ := this
  have h2 := optMap_inj _ _ _ (fun x hx y hy e => itext_bind hG hQ x y (pa.2.1 x hx) (pb.2.1 y hy)
    (fun s hs => qa s (List.mem_append_left _ (by rw [Option.mem_def.1 hx]; exact hs)))
    (fun s hs => qb s (List.mem_append_left _ (by rw [Option.mem_def.1 hy]; exact hs))) e)
    (optHash_inj _ _ h2)
  cases a; cases b; simp_all

theorem candidate_bind (a b : Candidate) (pa : a.Plain) (pb : b.Plain)
    (qa : ∀ s ∈ a.queries G C, s ∈ Q) (qb : ∀ s ∈ b.queries G C, s ∈ Q)
    (h : a.hash G C = b.hash G C) : a = { b with isWriteIn := a.isWriteIn } := by
  have pl : ∀ (o : Option IText), HElem.Plain (optHash (o.map (IText.hash G C))) := by
    intro o
    refine optHash_plain _ ?_
    cases o with
    | none => simp
    | some t => 
      intro x hx
      rw [Option.map_some, Option.mem_def, Option.some.injEq] at hx
      rw [← hx, itext_hash]
      exact hashElems_lt256 hG _
  have := hash_bind hG hQ _ _
    (fun s hs => qa s (List.mem_append_right _ hs)) (fun s hs => qb s (List.mem_append_right _ hs))
    (by
      simp only [List.mem_cons, List.not_mem_nil, or_false, forall_eq_or_imp, forall_eq]
      exact ⟨pa.1, pl _, pa.2.2.1, pa.2.2.2⟩)
    (by
      simp only [List.mem_cons, List.not_mem_nil, or_false, forall_eq_or_imp, forall_eq]
      exact ⟨pb.1, pl _, pb.2.2.1, pb.2.2.2⟩)
    (.cons trivial (.cons (optHash_sameType _ _) (.cons trivial (.cons trivial .nil)))) h
  simp only [List.cons.injEq, and_true] at this
  obtain ⟨h1, h2, h3, h4⟩ := this
  have h2 := optMap_inj _ _ _ (fun x hx y hy e => itext_bind hG hQ x y (pa.2.1 x hx) (pb.2.1 y hy)
    (fun s hs => qa s (List.mem_append_left _ (by rw [Option.mem_def.1 hx]; exact hs)))
    (fun s hs => qb s (List.mem_append_left _ (by rw [Option.mem_def.1 hy]; exact hs))) e)
    (optHash_inj _ _ h2)
  cases a; cases b; simp_all

theorem style_bind (a b : BallotStyle) (pa : a.Plain) (pb : b.Plain)
    (qa : ∀ s ∈ a.queries G C, s ∈ Q) (qb : ∀ s ∈ b.queries G C, s ∈ Q)
    (h : a.hash G C = b.hash G C) : a = b := by
  have := hash_bind hG hQ _ _ qa qb
    (by
      simp only [List.mem_cons, List.not_mem_nil, or_false, forall_eq_or_imp, forall_eq]
      exact ⟨pa.1, vecs_plain _ pa.2.1, vecs_plain _ pa.2.2.1, pa.2.2.2⟩)
    (by
      simp only [List.mem_cons, List.not_mem_nil, or_false, forall_eq_or_imp, forall_eq]
      exact ⟨pb.1, vecs_plain _ pb.2.1, vecs_plain _ pb.2.2.1, pb.2.2.2⟩)
    (.cons trivial (.cons (vecs_sameType _ _) (.cons (vecs_sameType _ _) (.cons trivial .nil)))) h
  simp only [List.cons.injEq, and_true] at this
  obtain ⟨h1, h2, h3, h4⟩ := this
  have h2 := vecs_inj _ _ h2
  have h3 := vecs_inj _ _ h3
  cases a; cases b; simp_all

theorem selectionDesc_bind (a b : SelectionDesc) (pa : a.Plain) (pb : b.Plain)
    (qa : ∀ s ∈ a.queries G C, s ∈ Q) (qb : ∀ s ∈ b.queries G C, s ∈ Q)
    (h : a.hash G C = b.hash G C) : a = b := by
  have := hash_bind hG hQ _ _ qa qb
    (by
      simp only [List.mem_cons, List.not_mem_nil, or_false, forall_eq_or_imp, forall_eq]
      exact ⟨pa.1, trivial, pa.2⟩)
    (by
      simp only [List.mem_cons, List.not_mem_nil, or_false, forall_eq_or_imp, forall_eq]
      exact ⟨pb.1, trivial, pb.2⟩)
    (by simp [HElem.SameType, HAtom.SameType]) h
  cases a; cases b; simp_all

omit hG hQ in
theorem enum_texts :
    (∀ v : ReportingUnitType, Str.Plain (textOr v.string) ∧
      ∀ w : ReportingUnitType, textOr v.string = textOr w.string → v = w) ∧
    (∀ v : ElectionType, Str.Plain (textOr v.string) ∧
      ∀ w : ElectionType, textOr v.string = textOr w.string → v = w) ∧
    (∀ v : VoteVariationType, Str.Plain (textOr v.string) ∧
      ∀ w : VoteVariationType, textOr v.string = textOr w.string → v = w) := by
  refine ⟨fun v => ⟨?_, fun w h => ?_⟩, fun v => ⟨?_, fun w h => ?_⟩, fun v => ⟨?_, fun w h => ?_⟩⟩
  · unfold Str.Plain
    cases v <;> decide +kernel
  · obtain ⟨s, h1, h2⟩ := C49_reporting_unit_type v
    obtain ⟨t, h3, h4⟩ := C49_reporting_unit_type w
    rw [h1, h3] at h
    have h : s = t := h
    rw [h, h4] at h2
    exact (Res.ok.inj h2).symm
  · unfold Str.Plain
    cases v <;> decide +kernel
  · obtain ⟨s, h1, h2⟩ := C49_election_type v
    obtain ⟨t, h3, h4⟩ := C49_election_type w
    rw [h1, h3] at h
    have h : s = t := h
    rw [h, h4] at h2
    exact (Res.ok.inj h2).symm
  · unfold Str.Plain
    cases v <;> decide +kernel
  · have none : ∀ u : VoteVariationType, textOr u.string = [] → u = .approval := by
      intro u
      cases u <;> decide +kernel
    by_cases hv : v = .approval
    · subst hv
      exact (none w (by rw [← h, C49_violated.1]; rfl)).symm
    · by_cases hw : w = .approval
      · subst hw
        exact none v (by rw [h, C49_violated.1]; rfl)
      · obtain ⟨s, h1, h2⟩ := C49_vote_variation_partial v hv
        obtain ⟨t, h3, h4⟩ := C49_vote_variation_partial w hw
        rw [h1, h3] at h
        have h : s = t := h
        rw [h, h4] at h2
        exact (Res.ok.inj h2).symm

theorem gpUnit_bind (a b : GpUnit) (pa : a.Plain) (pb : b.Plain)
    (qa : ∀ s ∈ a.queries G C, s ∈ Q) (qb : ∀ s ∈ b.queries G C, s ∈ Q)
    (h : hashElems G C [.str a.objectId, .str a.name, .str (textOr a.type.string),
        optHash (a.contact.map (·.hash G C))] =
      hashElems G C [.str b.objectId, .str b.name, .str (textOr b.type.string),
        optHash (b.contact.map (·.hash G C))]) : a = b := by
  have pl : ∀ (o : Option Contact), HElem.Plain (optHash (o.map (Contact.hash G C))) := by
    intro o
    refine optHash_plain _ ?_
    cases o with
    | none => simp
    | some t => rintro x ⟨⟩; exact hashElems_lt256 hG _
  have := hash_bind hG hQ _ _
    (fun s hs => qa s (List.mem_append_right _ hs)) (fun s hs => qb s (List.mem_append_right _ hs))
    (by
      simp only [List.mem_cons, List.not_mem_nil, or_false, forall_eq_or_imp, forall_eq]
      exact ⟨pa.1, pa.2.1, (enum_texts.1 _).1, pl _⟩)
    (by
      simp only [List.mem_cons, List.not_mem_nil, or_false, forall_eq_or_imp, forall_eq]
      exact ⟨pb.1, pb.2.1, (enum_texts.1 _).1, pl _⟩)
    (.cons trivial (.cons trivial (.cons trivial (.cons (optHash_sameType _ _) .nil)))) h
  simp only [List.cons.injEq, HElem.atom.injEq, HAtom.str.injEq, and_true] at this
  obtain ⟨h1, h2, h3, h4⟩ := this
  have h3 := (enum_texts.1 _).2 _ h3
  have h4 := optMap_inj _ _ _ (fun x hx y hy e => contact_bind hG hQ x y (pa.2.2 x hx) (pb.2.2 y hy)
    (fun s hs => qa s (List.mem_append_left _ (by rw [Option.mem_def.1 hx]; exact hs)))
    (fun s hs => qb s (List.mem_append_left _ (by rw [Option.mem_def.1 hy]; exact hs))) e)
    (optHash_inj _ _ h4)
  cases a; cases b; simp_all

omit hQ in
theorem optItext_plain (o : Option IText) : HElem.Plain (optHash (o.map (IText.hash G C))) := by
  refine optHash_plain _ ?_
  cases o with
  | none => simp
  | some t => 
      intro x hx
      rw [Option.map_some, Option.mem_def, Option.some.injEq] at hx
      rw [← hx, itext_hash]
      exact hashElems_lt256 hG _

theorem contest_bind (a b : ContestDesc) (pa : a.Plain) (pb : b.Plain)
    (qa : ∀ s ∈ a.queries G C, s ∈ Q) (qb : ∀ s ∈ b.queries G C, s ∈ Q)
    (h : hashElems G C (a.elems G C) = hashElems G C (b.elems G C)) : a.covered = b.covered := by
  have e0 : ∀ c : ContestDesc, c.title.elim none (fun _ => c.subtitle.map (IText.hash G C)) =
      (c.title.elim none (fun _ => c.subtitle)).map (IText.hash G C) := by
    intro c; cases c.title <;> rfl
  have pl : ∀ c : ContestDesc, c.Plain → ∀ x ∈ c.elems G C, x.Plain := by
    intro c pc
    simp only [ContestDesc.elems, e0, List.mem_cons, List.not_mem_nil, or_false, forall_eq_or_imp,
      forall_eq]
    exact ⟨pc.1, trivial, pc.2.1, (enum_texts.2.2 _).1, optItext_plain hG _, optItext_plain hG _,
      pc.2.2.1, trivial, trivial, vecq_plain _ _ (fun x => hashElems_lt256 hG _)⟩
  have := hash_bind hG hQ _ _
    (fun s hs => qa s (List.mem_append_right _ hs)) (fun s hs => qb s (List.mem_append_right _ hs))
    (pl a pa) (pl b pb)
    (.cons trivial (.cons trivial (.cons trivial (.cons trivial (.cons (optHash_sameType _ _)
      (.cons (optHash_sameType _ _) (.cons trivial (.cons trivial (.cons trivial
      (.cons (vecq_sameType _ _ _ _) .nil)))))))))) h
  simp only [ContestDesc.elems, e0, List.cons.injEq, HElem.atom.injEq, HAtom.str.injEq,
    HAtom.u64.injEq, and_true] at this
  obtain ⟨h1, h2, h3, h4, h5, h6, h7, h8, h9, h10⟩ := this
  have h4 := (enum_texts.2.2 _).2 _ h4
  have qt : ∀ c : ContestDesc, ∀ t ∈ c.title, ∀ s ∈ IText.queries G C t, s ∈ c.queries G C := by
    intro c t ht s hs
    rw [Option.mem_def] at ht
    simp only [ContestDesc.queries, ht, Option.elim, List.mem_append]
    exact Or.inl (Or.inl (Or.inr hs))
  have qs : ∀ c : ContestDesc, ∀ t ∈ c.subtitle, ∀ s ∈ IText.queries G C t, s ∈ c.queries G C := by
    intro c t ht s hs
    rw [Option.mem_def] at ht
    simp only [ContestDesc.queries, ht, Option.elim, List.mem_append]
    exact Or.inl (Or.inr hs)
  have sb : ∀ c : ContestDesc, ∀ t ∈ c.title.elim none (fun _ => c.subtitle), t ∈ c.subtitle := by
    intro c t ht
    cases hc : c.title with
    | none => simp [hc] at ht
    | some _ => simpa [hc] using ht
  have h5 := optMap_inj _ _ _ (fun x hx y hy e => itext_bind hG hQ x y (pa.2.2.2.1 x hx)
    (pb.2.2.2.1 y hy) (fun s hs => qa s (qt a x hx s hs)) (fun s hs => qb s (qt b y hy s hs)) e)
    (optHash_inj _ _ h5)
  have h6 := optMap_inj _ _ _ (fun x hx y hy e => itext_bind hG hQ x y
    (pa.2.2.2.2.1 x (sb a x hx)) (pb.2.2.2.2.1 y (sb b y hy))
    (fun s hs => qa s (qs a x (sb a x hx) s hs)) (fun s hs => qb s (qs b y (sb b y hy) s hs)) e)
    (optHash_inj _ _ h6)
  have ql : ∀ c : ContestDesc, ∀ t ∈ c.selections, ∀ s ∈ t.queries G C, s ∈ c.queries G C := by
    intro c t ht s hs
    simp only [ContestDesc.queries, List.mem_append]
    exact Or.inl (Or.inl (Or.inl (List.mem_flatMap.2 ⟨t, ht, hs⟩)))
  have h10 := vecq_inj _ id _ _ (fun x hx y hy e => selectionDesc_bind hG hQ x y
    (pa.2.2.2.2.2 x hx) (pb.2.2.2.2.2 y hy) (fun s hs => qa s (ql a x hx s hs))
    (fun s hs => qb s (ql b y hy s hs)) e) h10
  simp only [List.map_id] at h10
  simp only [ContestDesc.covered, ContestDesc.mk.injEq]
  exact ⟨h1, h3, h2, h4, h8, h9, h7, h5, h6, h10, trivial⟩

theorem manifest_bind (a b : Manifest) (pa : a.Plain) (pb : b.Plain)
    (qa : ∀ s ∈ a.queries G C, s ∈ Q) (qb : ∀ s ∈ b.queries G C, s ∈ Q)
    (h : hashElems G C (a.elems G C) = hashElems G C (b.elems G C)) : a.covered = b.covered := by
  have e0 : ∀ m : Manifest, m.name.elim none (fun _ => m.contact.map (Contact.hash G C)) =
      (m.name.elim none (fun _ => m.contact)).map (Contact.hash G C) := by
    intro c; cases c.name <;> rfl
  have plc : ∀ (o : Option Contact), HElem.Plain (optHash (o.map (Contact.hash G C))) := by
    intro o
    refine optHash_plain _ ?_
    cases o with
    | none => simp
    | some t => rintro x ⟨⟩; exact hashElems_lt256 hG _
  have pl : ∀ m : Manifest, m.Plain → ∀ x ∈ m.elems G C, x.Plain := by
    intro m pm
    simp only [Manifest.elems, e0, List.mem_cons, List.not_mem_nil, or_false, forall_eq_or_imp,
      forall_eq]
    exact ⟨pm.1, (enum_texts.2.1 _).1, pm.2.1, pm.2.2.1, optItext_plain hG _, plc _,
      vecq_plain _ _ (fun x => hashElems_lt256 hG _),
      vecq_plain _ _ (fun x => hashElems_lt256 hG _),
      vecq_plain _ _ (fun x => hashElems_lt256 hG _),
      vecq_plain _ _ (fun x => hashElems_lt256 hG _)⟩
  have := hash_bind hG hQ _ _
    (fun s hs => qa s (List.mem_append_right _ hs)) (fun s hs => qb s (List.mem_append_right _ hs))
    (pl a pa) (pl b pb)
    (.cons trivial (.cons trivial (.cons trivial (.cons trivial (.cons (optHash_sameType _ _)
      (.cons (optHash_sameType _ _) (.cons (vecq_sameType _ _ _ _) (.cons (vecq_sameType _ _ _ _)
      (.cons (vecq_sameType _ _ _ _) (.cons (vecq_sameType _ _ _ _) .nil)))))))))) h
  simp only [Manifest.elems, e0, List.cons.injEq, HElem.atom.injEq, HAtom.str.injEq, and_true] at this
  obtain ⟨h1, h2, h3, h4, h5, h6, h7, h8, h9, h10⟩ := this
  have h2 := (enum_texts.2.1 _).2 _ h2
  have sb : ∀ m : Manifest, ∀ t ∈ m.name.elim none (fun _ => m.contact), t ∈ m.contact := by
    intro c t ht
    cases hc : c.name with
    | none => simp [hc] at ht
    | some _ => simpa [hc] using ht
  have qn : ∀ m : Manifest, ∀ t ∈ m.name, ∀ s ∈ IText.queries G C t, s ∈ m.queries G C := by
    intro m t ht s hs
    rw [Option.mem_def] at ht
    simp only [Manifest.queries, ht, Option.elim, List.mem_append]
    tauto
  have qc : ∀ m : Manifest, ∀ t ∈ m.contact, ∀ s ∈ t.queries G C, s ∈ m.queries G C := by
    intro m t ht s hs
    rw [Option.mem_def] at ht
    simp only [Manifest.queries, ht, Option.elim, List.mem_append]
    tauto
  have qu : ∀ m : Manifest, ∀ t ∈ m.gpUnits, ∀ s ∈ t.queries G C, s ∈ m.queries G C := by
    intro m t ht s hs
    have := List.mem_flatMap.2 ⟨t, ht, hs⟩
    simp only [Manifest.queries, List.mem_append]
    tauto
  have qp : ∀ m : Manifest, ∀ t ∈ m.parties, ∀ s ∈ t.queries G C, s ∈ m.queries G C := by
    intro m t ht s hs
    have := List.mem_flatMap.2 ⟨t, ht, hs⟩
    simp only [Manifest.queries, List.mem_append]
    tauto
  have qk : ∀ m : Manifest, ∀ t ∈ m.contests, ∀ s ∈ t.queries G C, s ∈ m.queries G C := by
    intro m t ht s hs
    have := List.mem_flatMap.2 ⟨t, ht, hs⟩
    simp only [Manifest.queries, List.mem_append]
    tauto
  have qy : ∀ m : Manifest, ∀ t ∈ m.styles, ∀ s ∈ t.queries G C, s ∈ m.queries G C := by
    intro m t ht s hs
    have := List.mem_flatMap.2 ⟨t, ht, hs⟩
    simp only [Manifest.queries, List.mem_append]
    tauto
  obtain ⟨-, -, -, pua, ppa, pka, psa, pna, pca⟩ := pa
  obtain ⟨-, -, -, pub, ppb, pkb, psb, pnb, pcb⟩ := pb
  have h5 := optMap_inj _ _ _ (fun x hx y hy e => itext_bind hG hQ x y (pna x hx) (pnb y hy)
    (fun s hs => qa s (qn a x hx s hs)) (fun s hs => qb s (qn b y hy s hs)) e) (optHash_inj _ _ h5)
  have h6 := optMap_inj _ _ _ (fun x hx y hy e => contact_bind hG hQ x y
    (pca x (sb a x hx)) (pcb y (sb b y hy))
    (fun s hs => qa s (qc a x (sb a x hx) s hs)) (fun s hs => qb s (qc b y (sb b y hy) s hs)) e)
    (optHash_inj _ _ h6)
  have h7 := vecq_inj _ id _ _ (fun x hx y hy e => gpUnit_bind hG hQ x y (pua x hx) (pub y hy)
    (fun s hs => qa s (qu a x hx s hs)) (fun s hs => qb s (qu b y hy s hs)) e) h7
  have h8 := vecq_inj _ id _ _ (fun x hx y hy e => party_bind hG hQ x y (ppa x hx) (ppb y hy)
    (fun s hs => qa s (qp a x hx s hs)) (fun s hs => qb s (qp b y hy s hs)) e) h8
  have h9 := vecq_inj _ ContestDesc.covered _ _ (fun x hx y hy e => contest_bind hG hQ x y (pka x hx)
    (pkb y hy) (fun s hs => qa s (qk a x hx s hs)) (fun s hs => qb s (qk b y hy s hs)) e) h9
  have h10 := vecq_inj _ id _ _ (fun x hx y hy e => style_bind hG hQ x y (psa x hx) (psb y hy)
    (fun s hs => qa s (qy a x hx s hs)) (fun s hs => qb s (qy b y hy s hs)) e) h10
  simp only [List.map_id] at h7 h8 h10
  simp only [Manifest.covered, Manifest.mk.injEq]
  exact ⟨h1, h2, h3, h4, h7, h8, trivial, h9, h10, h5, h6⟩

end binding

/-! ### The code computes these hashes -/

theorem gpUnit_hash (u : GpUnit) : u.hash G C = .ok (hashElems G C [.str u.objectId, .str u.name,
    .str (textOr u.type.string), optHash (u.contact.map (·.hash G C))]) := by
  obtain ⟨s, h, -⟩ := C49_reporting_unit_type u.type
  rw [GpUnit.hash, h]
  rfl

theorem contest_hash (c : ContestDesc) (h : ℕ) (hc : c.hash G C = .ok h) :
    h = hashElems G C (c.elems G C) := by
  rw [ContestDesc.hash] at hc
  simp only [Res.bind_eq_ok] at hc
  obtain ⟨v, hv, hc⟩ := hc
  rw [ContestDesc.elems, hv]
  cases ht : c.title with
  | none => simpa [ht, optHash, textOr, eq_comm] using hc
  | some t =>
    cases hs : c.subtitle with
    | none => simp [ht, hs] at hc
    | some s => simpa [ht, hs, optHash, textOr, eq_comm] using hc

theorem mapRes_map {α : Type} (f : α → Res ℕ) (g : α → ℕ) (l : List α) (r : List ℕ)
    (hf : ∀ a ∈ l, ∀ h, f a = .ok h → h = g a) (h : mapRes f l = .ok r) : r = l.map g := by
  rw [mapRes_eq_ok] at h
  induction h with
  | nil => rfl
  | cons hab _ ih =>
    rw [List.map_cons, ih (fun a ha => hf a (by simp [ha])), hf _ (by simp) _ hab]

theorem manifest_hash (m : Manifest) (h : ℕ) (hm : m.hash G C = .ok h) :
    h = hashElems G C (m.elems G C) := by
  rw [Manifest.hash] at hm
  simp only [Res.bind_eq_ok] at hm
  obtain ⟨t, ht, us, hus, cs, hcs, hm⟩ := hm
  have h1 := mapRes_map _ (fun u : GpUnit => hashElems G C [.str u.objectId, .str u.name,
      .str (textOr u.type.string), optHash (u.contact.map (·.hash G C))]) _ _
    (fun u _ h e => by rw [gpUnit_hash] at e; simpa [eq_comm] using e) hus
  have h2 := mapRes_map _ (fun c : ContestDesc => hashElems G C (c.elems G C)) _ _
    (fun c _ h e => contest_hash G C c h e) hcs
  rw [Manifest.elems, ht]
  subst h1 h2
  simp only [List.map_map, Function.comp_def] at hm
  cases hn : m.name with
  | none => simpa [hn, optHash, textOr, eq_comm] using hm
  | some t =>
    cases hk : m.contact with
    | none => simp [hn, hk] at hm
    | some s => simpa [hn, hk, optHash, textOr, eq_comm] using hm

/-! ### C46 -/

/-- C46, the part that holds: two manifests with the same hash agree on everything but the candidates,
the primary parties of contests, subtitles without title and contact information without name — as
long as their texts avoid the delimiter and the text "null", and unless the hash function collides on
strings that are hashed for the two manifests. -/
theorem C46_hash_binding_partial (hG : G.Valid) (m m' : Manifest) (h : ℕ)
    (hm : m.hash G C = .ok h) (hm' : m'.hash G C = .ok h) (pm : m.Plain) (pm' : m'.Plain)
    (hc : NoCollision G C (m.queries G C ++ m'.queries G C)) : m.covered = m'.covered := by
  have h1 := manifest_hash G C m h hm
  have h2 := manifest_hash G C m' h hm'
  exact manifest_bind hG hc m m' pm pm' (fun s hs => List.mem_append_left _ hs)
    (fun s hs => List.mem_append_right _ hs) (h1 ▸ h2)

/-- C46: the same for one contest and its description hash, which is what selections and contests of
encrypted ballots carry. -/
theorem C46_contest_hash_binding_partial (hG : G.Valid) (c c' : ContestDesc) (h : ℕ)
    (hm : c.hash G C = .ok h) (hm' : c'.hash G C = .ok h) (pm : c.Plain) (pm' : c'.Plain)
    (hc : NoCollision G C (c.queries G C ++ c'.queries G C)) : c.covered = c'.covered := by
  have h1 := contest_hash G C c h hm
  have h2 := contest_hash G C c' h hm'
  exact contest_bind hG hc c c' pm pm' (fun s hs => List.mem_append_left _ hs)
    (fun s hs => List.mem_append_right _ hs) (h1 ▸ h2)

/-- C46 for the hash of a candidate by itself: it binds everything but the flag that marks a write-in. -/
theorem C46_candidate_hash_binding_partial (hG : G.Valid) (c c' : Candidate) (h : c.hash G C = c'.hash G C)
    (pc : c.Plain) (pc' : c'.Plain) (hc : NoCollision G C (c.queries G C ++ c'.queries G C)) :
    c = { c' with isWriteIn := c.isWriteIn } :=
  candidate_bind hG hc c c' pc pc' (fun s hs => List.mem_append_left _ hs)
    (fun s hs => List.mem_append_right _ hs) h

/-- C46 is violated by candidates: a write-in candidate has the hash of the candidate that is none. -/
theorem C46_write_in_violated (c : Candidate) :
    ({ c with isWriteIn := true } : Candidate).hash G C = ({ c with isWriteIn := false } : Candidate).hash G C :=
  rfl

/-- A manifest with a name but without contact information has no hash: a null pointer is dereferenced. -/
theorem C46_no_contact_violated (m : Manifest) (n : IText) (hn : m.name = some n) (hc : m.contact = none)
    (ht : ∃ t, m.type.string = .ok t) (hu : ∃ l, mapRes (GpUnit.hash G C) m.gpUnits = .ok l)
    (hk : ∃ l, mapRes (ContestDesc.hash G C) m.contests = .ok l) : m.hash G C = .ub := by
  obtain ⟨t, ht⟩ := ht
  obtain ⟨u, hu⟩ := hu
  obtain ⟨k, hk⟩ := hk
  rw [Manifest.hash, ht, Res.bind_ok, hu, Res.bind_ok, hk, Res.bind_ok, hn, hc]

/-- Such a manifest may be valid. -/
example : ({ exampleManifest with name := some [⟨"Election".toList, "en".toList⟩], contact := none } :
    Manifest).isValid = true ∧
    ({ exampleManifest with name := some [⟨"Election".toList, "en".toList⟩], contact := none } :
      Manifest).hash .std demoCrypto = .ub := by
  refine ⟨by decide +kernel, C46_no_contact_violated _ _ _ _ rfl rfl ⟨_, rfl⟩ ⟨_, rfl⟩ ⟨_, rfl⟩⟩

example : Candidate.Plain ⟨"a".toList, some [⟨"Ann".toList, "en".toList⟩], "p".toList, [], true⟩ ∧
    NoCollision .std demoCrypto (Candidate.queries .std demoCrypto
        ⟨"a".toList, some [⟨"Ann".toList, "en".toList⟩], "p".toList, [], true⟩ ++
      Candidate.queries .std demoCrypto ⟨"b".toList, none, "p".toList, [], true⟩) := by
  constructor
  · simp [Candidate.Plain, Str.Plain, IText.Plain, Language.Plain, nullString]
  · unfold NoCollision
    decide +kernel

/-- C46 is violated: nothing about the candidates enters the hash; two valid manifests that present
different candidates to the voter have the same hash, for every hash function. -/
theorem C46_candidates_violated :
    ∃ m m' : Manifest, m.isValid = true ∧ m'.isValid = true ∧ m.candidates ≠ m'.candidates ∧
      ∀ G C, ∃ h, m.hash G C = .ok h ∧ m'.hash G C = .ok h := by
  refine ⟨exampleManifest, { exampleManifest with candidates :=
      [⟨"a".toList, some [⟨"Mallory".toList, "en".toList⟩], [], [], false⟩] },
    by decide +kernel, by decide +kernel, by decide +kernel, fun G C => ⟨_, rfl, rfl⟩⟩

/-- C46: in general, replacing the candidates never changes the hash, nor does changing the primary
parties of the contests. -/
theorem C46_not_covered (m : Manifest) (cs : List Candidate) (pp : ContestDesc → List Str) :
    ({ m with candidates := cs, contests := m.contests.map (fun c => { c with primaryPartyIds := pp c }) }
      : Manifest).hash G C = m.hash G C := by
  have h1 : mapRes (ContestDesc.hash G C)
      (m.contests.map (fun c => { c with primaryPartyIds := pp c })) =
      mapRes (ContestDesc.hash G C) m.contests := by
    generalize m.contests = l
    induction l with
    | nil => rfl
    | cons c l ih =>
      rw [List.map_cons, mapRes, mapRes, ih]
      rfl
  simp only [Manifest.hash, h1]

/-- The example manifest satisfies the hypotheses of the binding theorem (for `demoCrypto`). -/
example : exampleManifest.Plain ∧
    NoCollision .std demoCrypto (exampleManifest.queries .std demoCrypto ++
      ({ exampleManifest with scopeId := "scope2".toList } : Manifest).queries .std demoCrypto) := by
  constructor
  · simp only [Manifest.Plain, Str.Plain, GpUnit.Plain, Party.Plain, ContestDesc.Plain,
      BallotStyle.Plain, SelectionDesc.Plain, IText.Plain, Contact.Plain, Language.Plain,
      Annotated.Plain]
    simp [exampleManifest, exampleContest, ContestDesc.make7, nullString]
  · unfold NoCollision
    decide +kernel

end EG
