import Verif.Lemmas.CApi

/-!
# Lemmas on the C interface: one call
-/

namespace EG.CApi

/-- `Fn.ok` in readable form. -/
structure Fn.Ok (f : Fn) : Prop where
  gives : ∀ p ∈ f.params, p.use ≠ .read → p.use ≠ .free →
    (∀ q ∈ f.params, q.null ≠ .reject ∧ q.use ≠ .free) ∧ f.outOwned = true ∧ f.keeps = false
  notMediator : ∀ p ∈ f.params, p.use ≠ .read → p.use ≠ .free → p.cast ≠ .encryptionMediator
  frees : (∀ p ∈ f.params, p.use ≠ .free) ∨
    (f.onExn = .noexcept ∧ f.out = .none ∧ ∃ p, f.params = [p] ∧ p.use = .free ∧ p.many = false)
  keeps : f.keeps = true → (∀ p ∈ f.params, p.use = .read) ∧
    ∃ d, f.out = .owned d .encryptionMediator
  const : ∀ k a, f.out = .const k a → f.keeps = false ∧ k = constKind a ∧ a < 10 ∧
    ∀ p ∈ f.params, p.use = .read
  ref : ∀ d k, f.out = .ref d k → f.keeps = false ∧ (∀ p ∈ f.params, p.use = .read) ∧
    ∃ p ps, f.params = p :: ps ∧ p.many = false ∧ p.null ≠ .allow ∧ p.cast ≠ .elementModP ∧
      p.cast ≠ .elementModQ

theorem Fn.ok_iff {f : Fn} (h : f.ok = true) : f.Ok := by
  unfold Fn.ok at h
  simp only [Bool.and_eq_true, Bool.or_eq_true, Bool.not_eq_true', List.all_eq_true, bne_iff_ne,
    beq_iff_eq, ne_eq, List.any_eq_false, not_and, Bool.not_eq_true] at h
  obtain ⟨⟨⟨h1, h2⟩, h3⟩, h4⟩ := h
  constructor
  · intro p hp hr hf
    rcases h1 with h1 | ⟨⟨a, b⟩, c⟩
    · have := h1 p hp
      simp [hr, hf] at this
    · exact ⟨a, b, c⟩
  · intro p hp hr hf
    rcases h2 p hp with (e | e) | e
    · exact absurd e hr
    · exact absurd e hf
    · exact e
  · rcases h3 with h3 | ⟨⟨⟨a, b⟩, c⟩, d⟩
    · exact .inl h3
    · right
      refine ⟨a, c, ?_⟩
      obtain ⟨p, hp⟩ := List.length_eq_one_iff.1 b
      exact ⟨p, hp, d p (by rw [hp]; exact List.mem_cons_self)⟩
  · intro hk
    cases ho : f.out with
    | none => rw [ho] at h4; simp [hk] at h4
    | owned d k =>
      rw [ho] at h4
      simp only [hk, Bool.not_true, Bool.or_eq_true, Bool.false_eq_true, false_or,
        Bool.and_eq_true, List.all_eq_true, beq_iff_eq] at h4
      exact ⟨h4.1, d, by rw [h4.2]⟩
    | ref d k => rw [ho] at h4; simp [hk] at h4
    | const k a => rw [ho] at h4; simp [hk] at h4
  · intro k a ho
    rw [ho] at h4
    simp only [Bool.and_eq_true, Bool.not_eq_true', List.all_eq_true, beq_iff_eq,
      decide_eq_true_eq] at h4
    exact ⟨h4.1.1.1, h4.1.1.2, h4.1.2, h4.2⟩
  · intro d k ho
    rw [ho] at h4
    simp only [Bool.and_eq_true, Bool.not_eq_true', List.all_eq_true, beq_iff_eq] at h4
    refine ⟨h4.1.1, h4.1.2, ?_⟩
    cases hp : f.params with
    | nil => rw [hp] at h4; simp at h4
    | cons p ps =>
      rw [hp] at h4
      have h5 := h4.2
      simp only [Bool.and_eq_true, Bool.not_eq_true', bne_iff_ne, ne_eq] at h5
      exact ⟨p, ps, rfl, h5.1.1.1, h5.1.1.2, h5.1.2, h5.2⟩

variable {h : Heap} {cl : Client} {c : Call}

theorem used_nil {u : Use} (hn : ∀ p ∈ c.fn.params, p.use ≠ u) : c.used u = [] := usedAs_nil hn

/-- The library throws and the function catches. -/
theorem step_fail (i : InvC h cl) (hc : Careful h cl c) (l : List Nat)
    (hf : c.used .free = []) : InvC (afterFail c.fn c.args l h) (cl.after c none) := by
  have i1 := Inv.gives (c.used .move) i fun a m =>
    ⟨(gives_of i hc m (by simp)).1, (gives_of i hc m (by simp)).2.1⟩
  have i2 := Inv.guts ((c.used .move).filter l.contains) i1 (by
    intro a m
    have m := List.mem_of_mem_filter m
    exact ⟨(gives_of i hc m (by simp)).1, .inr m, (gives_of i hc m (by simp)).2.1⟩)
  have nd : (c.used .own ++ c.used .sink).Nodup := by
    have := hc.once
    rw [List.append_assoc] at this
    exact (List.nodup_append.1 this).2.1
  have i3 := Inv.deletes (c.used .own ++ c.used .sink) i2 nd (by
    intro a m
    rcases List.mem_append.1 m with m | m
    · exact ⟨(gives_of i hc m (by simp)).1, (gives_of i hc m (by simp)).2.1⟩
    · exact ⟨(gives_of i hc m (by simp)).1, (gives_of i hc m (by simp)).2.1⟩)
  refine i3.congr ?_ ?_ ?_ ?_
  · intro a
    rw [mem_after_owned, hf]
    simp
  · intro a; rw [mem_after_given]
  · intro a k t
    exact (mem_after_types.1 t).elim id (fun e => by simp at e)
  · intro m a
    rw [mem_after_uses]
    simp

/-- A new object is made. -/
theorem step_make (i : InvC h cl) (hc : Careful h cl c) (hf : c.used .free = []) {d k : Kind}
    (ho : c.fn.out = .owned d k) :
    InvC (afterMake c.fn c.args k h) (cl.after c (some h.next)) := by
  have ok := Fn.ok_iff (ok_of hc)
  have hdk : d = k := by
    have w := hc.wellTyped
    unfold Fn.wellTyped at w
    rw [ho, Bool.and_eq_true] at w
    simpa using w.2
  have nG : h.next ∉ cl.given := fun g => Nat.lt_irrefl _ (i.given _ g)
  have nUsed : ∀ u, u ≠ .read → h.next ∉ c.used u := fun u hu m =>
    Nat.lt_irrefl _ (gives_of i hc m hu).2.2
  -- the references kept
  have i1 := i.make k (if c.fn.keeps then c.used .read else []) (by
      intro a m
      split at m
      · next hk =>
        obtain ⟨p, m, hu⟩ := mem_usedAs.1 m
        exact ⟨hc.kept hk p a m, hc.notGiven p a m (by rw [hu]; simp)⟩
      · simp at m) (by
      intro hk
      split at hk
      · next hk' =>
        obtain ⟨_, d', e⟩ := ok.keeps hk'
        rw [ho] at e; cases e; rfl
      · exact absurd rfl hk)
  -- what is given away
  have give : ∀ u, u ≠ .read → u ≠ .free → ∀ a ∈ c.used u,
      (a ∈ cl.owned ∨ a = h.next) ∧ a ∉ cl.given ∧
      (∀ m, ((m, a) ∈ cl.uses ∨ (m = h.next ∧
        a ∈ (if c.fn.keeps then c.used .read else []))) → ¬ (m ∈ cl.owned ∨ m = h.next)) ∧
      ∀ x, (h.insert { kind := k, keeps := if c.fn.keeps then c.used .read else [] }).cell a =
        some x → x.kind ≠ .encryptionMediator := by
    intro u h1 h2 a m
    obtain ⟨oa, ua, la⟩ := gives_of i hc m h1
    obtain ⟨p, mp, hu⟩ := mem_usedAs.1 m
    have pm := mem_pairs_param (mem_handles.1 mp)
    have pr : p.use ≠ .read := by rw [hu]; exact h1
    have pf : p.use ≠ .free := by rw [hu]; exact h2
    refine ⟨.inl oa, hc.notGiven p a mp pf, ?_, ?_⟩
    · have hk := (ok.gives p pm pr pf).2.2
      rw [hk]
      rintro m (um | ⟨_, e⟩)
      · rintro (o | rfl)
        · exact ua m um o
        · exact Nat.lt_irrefl _ (i.ult _ _ um)
      · simp at e
    · intro x e
      rcases insert_some.1 e with ⟨rfl, _⟩ | ⟨_, e⟩
      · exact absurd la (Nat.lt_irrefl _)
      · obtain ⟨y, ey, ky⟩ := kind_of i hc mp
        rw [e] at ey; cases ey
        rw [ky]; exact ok.notMediator p pm pr pf
  have nd := hc.once
  rw [List.append_assoc] at nd
  have nd1 := (List.nodup_append.1 nd).1
  have nd23 := (List.nodup_append.1 nd).2.1
  have dis1 := (List.nodup_append.1 nd).2.2
  have nd2 := (List.nodup_append.1 nd23).1
  have nd3 := (List.nodup_append.1 nd23).2.1
  have dis2 := (List.nodup_append.1 nd23).2.2
  have i2 := Inv.grafts (n := h.next) (c.used .move) i1 nd1 (.inr rfl) nG
    (nUsed _ (by simp)) (give .move (by simp) (by simp))
  have i3 := Inv.adopts (n := h.next) (c.used .own) i2 nd2 (.inr rfl)
    (by rintro (g | m); exacts [nG g, nUsed _ (by simp) m]) (nUsed _ (by simp)) (by
      intro a m
      obtain ⟨p, q, r, s⟩ := give .own (by simp) (by simp) a m
      refine ⟨p, ?_, r, ?_⟩
      · rintro (g | m')
        · exact q g
        · exact dis1 a m' a (List.mem_append_left _ m) rfl
      · intro x e
        have la := (gives_of i hc m (by simp)).2.2
        obtain ⟨y, ey, ky⟩ := grafts_kind (c.used .move) (Nat.lt_succ_of_lt la) e
        rw [← ky]; exact s y ey)
  have i4 := Inv.deletes (c.used .sink) i3 nd3 (by
    intro a m
    obtain ⟨p, q, r, s⟩ := give .sink (by simp) (by simp) a m
    refine ⟨⟨p, fun m' => dis2 a m' a m rfl⟩, fun n u o => r n u o.1⟩)
  refine i4.congr ?_ ?_ ?_ ?_
  · intro a
    rw [mem_after_owned, hf]
    have hw : c.fn.outOwned = true := by unfold Fn.outOwned; rw [ho]
    simp only [hw, Option.some.injEq, and_true, List.not_mem_nil, not_false_eq_true,
      @eq_comm _ h.next a]
    tauto
  · intro a; rw [mem_after_given]
  · intro a l t
    rcases mem_after_types.1 t with t | ⟨e, hl⟩
    · exact .inl t
    · right
      refine ⟨(Option.some.inj e).symm, ?_⟩
      unfold Fn.outType at hl
      rw [ho] at hl
      rw [← hdk]; exact (Option.some.inj hl).symm
  · intro m a
    rw [mem_after_uses]
    simp only [Option.some.injEq, @eq_comm _ h.next m]
    by_cases hk : c.fn.keeps = true
    · simp [hk]
    · simp [hk]

theorem shaped_head {p : Param} {ps : List Param} {as : Args} (hp : p.many = false)
    (hs : shaped (p :: ps) as = true) : ∃ x r, as = [x] :: r := by
  cases as with
  | nil => simp [shaped] at hs
  | cons a r =>
    simp only [shaped, hp, Bool.false_or, Bool.and_eq_true, beq_iff_eq] at hs
    obtain ⟨x, rfl⟩ := List.length_eq_one_iff.1 hs.1
    exact ⟨x, r, rfl⟩

theorem shaped_one {p : Param} {as : Args} (hp : p.many = false)
    (hs : shaped [p] as = true) : ∃ x, as = [[x]] := by
  obtain ⟨x, r, rfl⟩ := shaped_head hp hs
  cases r with
  | nil => exact ⟨x, rfl⟩
  | cons y ys => simp [shaped] at hs

/-- The library returns. -/
theorem step_returns (i : InvC h cl) (hc : Careful h cl c)
    (nr : ∀ p, (p, none) ∈ pairs c.fn.params c.args → p.null ≠ .reject) :
    ∃ out h', returns c.fn c.args c.oc h = .ret true out h' ∧ InvC h' (cl.after c out) := by
  have ok := Fn.ok_iff (ok_of hc)
  rcases ok.frees with hnf | ⟨_, ho, p, hps, hpu, hpm⟩
  · have hf : c.used .free = [] := used_nil hnf
    have hf' : usedAs .free c.fn.params c.args = [] := hf
    have readOnly : (∀ p ∈ c.fn.params, p.use = .read) →
        c.used .own = [] ∧ c.used .sink = [] ∧ c.used .move = [] := fun hr =>
      ⟨used_nil fun p m => by rw [hr p m]; simp, used_nil fun p m => by rw [hr p m]; simp,
        used_nil fun p m => by rw [hr p m]; simp⟩
    cases ho : c.fn.out with
    | none =>
      refine ⟨none, h, by simp [returns, ho, hf'], ?_⟩
      have hr : ∀ p ∈ c.fn.params, p.use = .read := by
        intro p hp
        by_contra hr
        have := (ok.gives p hp hr (hnf p hp)).2.1
        simp [Fn.outOwned, ho] at this
      obtain ⟨a, b, d⟩ := readOnly hr
      exact i.same hf a b d none (by simp)
    | owned d k =>
      exact ⟨some h.next, _, by simp [returns, ho, hf'], step_make i hc hf ho⟩
    | const k a =>
      refine ⟨some a, h, by simp [returns, ho, hf'], ?_⟩
      obtain ⟨hk, rfl, la, hr⟩ := ok.const k a ho
      obtain ⟨o, s, m⟩ := readOnly hr
      refine i.same hf o s m (some a) ?_
      intro b k' e
      cases e
      refine ⟨by simp [Fn.outOwned, ho], hk, ?_⟩
      intro ht
      simp only [Fn.outType, ho, Option.some.injEq] at ht
      obtain ⟨x, ex, _, kx, _⟩ := i.const a la
      exact ⟨x, ex, by rw [kx, ht]⟩
    | ref d k =>
      obtain ⟨hk, hr, p, ps, hps, hpm, hpn, hp1, hp2⟩ := ok.ref d k ho
      obtain ⟨o, s, m⟩ := readOnly hr
      have hdk : d = k := by
        have w := hc.wellTyped
        unfold Fn.wellTyped at w
        rw [ho, Bool.and_eq_true] at w
        simpa using w.2
      -- the first handle
      have sh := hc.shape
      rw [hps] at sh
      obtain ⟨x, r, has⟩ := shaped_head hpm sh
      have mx : (p, x) ∈ pairs c.fn.params c.args := by
        rw [hps, has]; simp [pairs]
      cases x with
      | none =>
        exfalso
        have h1 := nr p mx
        have h2 := hc.nonnull p mx
        cases hn : p.null
        · exact h2 hn
        · exact h1 hn
        · exact hpn hn
      | some base =>
        have mb : (p, base) ∈ c.handles := mem_handles.2 mx
        have hh : ∃ t, handles c.fn.params c.args = (p, base) :: t := by
          rw [hps, has]
          exact ⟨handles ps r, by simp [handles, pairs]⟩
        obtain ⟨t, ht⟩ := hh
        obtain ⟨cb, eb, kb⟩ := kind_of i hc mb
        have hu : p.use = .read := hr p (by rw [hps]; exact List.mem_cons_self)
        have hollow : cb.hollow = false := by
          cases e : cb.hollow with
          | false => rfl
          | true =>
            exact absurd (i.hollow base cb eb e).2.1 (hc.notGiven p base mb (by rw [hu]; simp))
        have stat : cb.static = false := by
          cases e : cb.static with
          | false => rfl
          | true =>
            exfalso
            rcases (i.stat base cb eb e).2.1 with q | q
            · exact hp1 (kb ▸ q)
            · exact hp2 (kb ▸ q)
        have fresh : InvC (h.insert { kind := k, anc := base :: cb.anc })
            (cl.after c (some h.next)) := by
          refine (i.child k eb hollow stat).congr ?_ ?_ ?_ ?_
          · intro a
            rw [mem_after_owned, hf, o, s]
            simp [Fn.outOwned, ho]
          · intro a; rw [mem_after_given, m]; simp
          · intro a l tl
            rcases mem_after_types.1 tl with tl | ⟨e, hl⟩
            · exact .inl tl
            · refine .inr ⟨(Option.some.inj e).symm, ?_⟩
              simp only [Fn.outType, ho, Option.some.injEq] at hl
              rw [← hdk, hl]
          · intro a b; rw [mem_after_uses, hk]; simp
        have gen : returns c.fn c.args c.oc h =
            match c.oc with
            | .null => .ret true none h
            | .old b =>
              match h.cell b with
              | some y =>
                if y.kind = k ∧ y.anc = base :: cb.anc then .ret true (some b) h
                else .ret true (some h.next) (h.insert { kind := k, anc := base :: cb.anc })
              | none => .ret true (some h.next) (h.insert { kind := k, anc := base :: cb.anc })
            | _ => .ret true (some h.next) (h.insert { kind := k, anc := base :: cb.anc }) := by
          unfold returns
          simp only [ho, hf', List.foldl_nil, ht, eb]
          cases c.oc with
          | old b => cases h.cell b <;> rfl
          | _ => rfl
        rw [gen]
        cases hoc : c.oc with
        | fail l => exact ⟨_, _, rfl, fresh⟩
        | fresh => exact ⟨_, _, rfl, fresh⟩
        | null => exact ⟨_, _, rfl, i.same hf o s m none (by simp)⟩
        | old b =>
          cases hb : h.cell b with
          | none => exact ⟨_, _, by simp only [hb], fresh⟩
          | some y =>
            by_cases hy : y.kind = k ∧ y.anc = base :: cb.anc
            · refine ⟨_, _, by simp only [hb]; rw [if_pos hy], ?_⟩
              refine i.same hf o s m (some b) ?_
              rintro b' k' e
              cases e
              refine ⟨by simp [Fn.outOwned, ho], hk, ?_⟩
              intro ht'
              simp only [Fn.outType, ho, Option.some.injEq] at ht'
              exact ⟨y, hb, by rw [hy.1, ← hdk, ht']⟩
            · exact ⟨_, _, by simp only [hb]; rw [if_neg hy], fresh⟩
  · -- a `free` function
    have sh := hc.shape
    rw [hps] at sh
    obtain ⟨x, has⟩ := shaped_one hpm sh
    have other : ∀ u, u ≠ .free → c.used u = [] := by
      intro u hu
      refine used_nil fun q hq => ?_
      rw [hps, List.mem_singleton] at hq
      rw [hq, hpu]; exact fun e => hu e.symm
    have hkeeps : c.fn.keeps = false := by
      cases hk : c.fn.keeps with
      | false => rfl
      | true =>
        obtain ⟨d, e⟩ := (ok.keeps hk).2
        rw [ho] at e; cases e
    refine ⟨none, (c.used .free).foldl Heap.delete h, by simp [returns, ho, Call.used], ?_⟩
    have nd : (c.used .free).Nodup := by
      unfold Call.used usedAs handles
      rw [hps, has]
      cases x <;> simp [pairs, hpu]
    have i1 := Inv.deletes (c.used .free) i nd fun a m =>
      ⟨(gives_of i hc m (by simp)).1, (gives_of i hc m (by simp)).2.1⟩
    refine i1.congr ?_ ?_ ?_ ?_
    · intro a
      rw [mem_after_owned, other .own (by simp), other .sink (by simp)]
      simp
    · intro a; rw [mem_after_given, other .move (by simp)]; simp
    · intro a k t
      exact (mem_after_types.1 t).elim id (fun e => by simp at e)
    · intro m a; rw [mem_after_uses]; simp

/-- One careful call. -/
theorem step (i : InvC h cl) (hc : Careful h cl c) :
    (∃ ok out h', c.exec h = .ret ok out h' ∧ InvC h' (cl.after c out)) ∨
    (c.exec h = .escaped ∧ c.fn.onExn = .escapes ∧ ∃ l, c.oc = .fail l) := by
  have ok := Fn.ok_iff (ok_of hc)
  unfold Call.exec exec
  rw [if_neg (by rw [hc.shape]; simp)]
  by_cases hn : ((pairs c.fn.params c.args).any fun x => x.1.null == .reject && x.2.isNone) = true
  · rw [if_pos hn]
    left
    refine ⟨false, none, h, rfl, ?_⟩
    rw [List.any_eq_true] at hn
    obtain ⟨⟨p, x⟩, mp, hp⟩ := hn
    simp only [Bool.and_eq_true, beq_iff_eq, Option.isNone_iff_eq_none] at hp
    obtain ⟨hp, rfl⟩ := hp
    have pm := mem_pairs_param mp
    have none' : ∀ q ∈ c.fn.params, q.use = .read ∨ q.use = .free := by
      intro q hq
      by_contra hr
      rw [not_or] at hr
      exact ((ok.gives q hq hr.1 hr.2).1 p pm).1 hp
    have e1 : ∀ u, u ≠ .read → u ≠ .free → c.used u = [] := by
      intro u h1 h2
      refine used_nil fun q hq => ?_
      rcases none' q hq with e | e <;> rw [e]
      · exact h1.symm
      · exact h2.symm
    have e2 : c.used .free = [] := by
      rcases ok.frees with hnf | ⟨_, _, q, hq, _, hm⟩
      · exact used_nil hnf
      · have sh := hc.shape
        rw [hq] at sh
        obtain ⟨x, has⟩ := shaped_one hm sh
        rw [hq, has] at mp
        have : x = none := by
          simp only [pairs, List.map_cons, List.map_nil, List.append_nil, List.mem_singleton,
            Prod.mk.injEq] at mp
          exact mp.2.symm
        subst this
        unfold Call.used usedAs handles
        rw [hq, has]
        simp [pairs]
    exact i.same e2 (e1 _ (by simp) (by simp)) (e1 _ (by simp) (by simp))
      (e1 _ (by simp) (by simp)) none (by simp)
  · rw [if_neg hn]
    rw [Bool.not_eq_true, List.any_eq_false] at hn
    have nr : ∀ p, (p, none) ∈ pairs c.fn.params c.args → p.null ≠ .reject := by
      intro p m e
      exact hn _ m (by simp [e])
    rw [if_neg (by
      rw [Bool.not_eq_true, List.any_eq_false]
      rintro ⟨p, x⟩ m e
      simp only [Bool.and_eq_true, beq_iff_eq, Option.isNone_iff_eq_none] at e
      obtain ⟨e, rfl⟩ := e
      exact hc.nonnull p m e)]
    rw [if_neg (by
      rw [Bool.not_eq_true', Bool.not_eq_false, List.all_eq_true]
      rintro ⟨p, a⟩ m
      exact defined_of i hc m)]
    have good := step_returns i hc nr
    have cont : ∃ ok out h', returns c.fn c.args c.oc h = .ret ok out h' ∧
        InvC h' (cl.after c out) := by
      obtain ⟨out, h', e, j⟩ := good
      exact ⟨true, out, h', e, j⟩
    cases hoc : c.oc with
    | null => left; rw [hoc] at cont; exact cont
    | fresh => left; rw [hoc] at cont; exact cont
    | old b => left; rw [hoc] at cont; exact cont
    | fail l =>
      have caught : c.fn.onExn ≠ .noexcept →
          InvC (afterFail c.fn c.args l h) (cl.after c none) := by
        intro hne
        refine step_fail i hc l ?_
        rcases ok.frees with hnf | ⟨e, _⟩
        · exact used_nil hnf
        · exact absurd e hne
      cases hx : c.fn.onExn with
      | noexcept => left; rw [hoc] at cont; exact cont
      | escapes => right; exact ⟨rfl, rfl, l, rfl⟩
      | badAlloc => left; exact ⟨_, _, _, rfl, caught (by rw [hx]; simp)⟩
      | runtimeError => left; exact ⟨_, _, _, rfl, caught (by rw [hx]; simp)⟩
      | byClass => left; exact ⟨_, _, _, rfl, caught (by rw [hx]; simp)⟩
      | value => left; exact ⟨_, _, _, rfl, caught (by rw [hx]; simp)⟩

theorem reach_inv {h : Heap} {cl : Client} (r : Reach Careful Client.after h cl) : InvC h cl := by
  induction r with
  | init => exact InvC.init
  | step _ hc e ih =>
    rcases step ih hc with ⟨ok, out, h', e', j⟩ | ⟨e', _⟩
    · rw [e] at e'; cases e'; exact j
    · rw [e] at e'; cases e'

/-! ## What a call leaves alone -/

theorem deletes_keep {a : Nat} {x : Cell} : ∀ (l : List Nat) {h : Heap}, h.cell a = some x →
    (∀ b ∈ l, b ≠ a ∧ b ∉ x.anc) → (l.foldl Heap.delete h).cell a = some x
  | [], _, e, _ => e
  | b :: l, h, e, hl => deletes_keep l
    (delete_some.2 ⟨e, (hl b List.mem_cons_self).1.symm, (hl b List.mem_cons_self).2⟩)
    fun c m => hl c (List.mem_cons_of_mem _ m)

theorem guts_keep {a : Nat} {x : Cell} : ∀ (l : List Nat) {h : Heap}, h.cell a = some x →
    (∀ b ∈ l, b ≠ a ∧ b ∉ x.anc) → (l.foldl Heap.gut h).cell a = some x
  | [], _, e, _ => e
  | b :: l, h, e, hl => guts_keep l
    (by
      obtain ⟨h1, h2⟩ := hl b List.mem_cons_self
      have : h.within a b = false := by
        simp [Heap.within, e, h1.symm, h2]
      simp [Heap.gut, h1.symm, this, e])
    fun c m => hl c (List.mem_cons_of_mem _ m)

theorem grafts_keep {a n : Nat} {x : Cell} : ∀ (l : List Nat) {h : Heap}, h.cell a = some x →
    a < h.next → (∀ b ∈ l, b ≠ a ∧ b ∉ x.anc) →
    (l.foldl (fun h b => h.graft b n) h).cell a = some x
  | [], _, e, _, _ => e
  | b :: l, h, e, lt, hl => grafts_keep l
    (by
      obtain ⟨h1, h2⟩ := hl b List.mem_cons_self
      simp [Heap.graft, Nat.ne_of_lt lt, h1.symm, e, h2])
    (Nat.lt_succ_of_lt lt)
    fun c m => hl c (List.mem_cons_of_mem _ m)

theorem adopts_keep {a n : Nat} {x : Cell} : ∀ (l : List Nat) {h : Heap}, h.cell a = some x →
    (∀ b ∈ l, b ≠ a ∧ b ∉ x.anc) → (l.foldl (fun h b => h.adopt b n) h).cell a = some x
  | [], _, e, _ => e
  | b :: l, h, e, hl => adopts_keep l
    (adopt_some.2 ⟨x, e, .inr ⟨⟨(hl b List.mem_cons_self).1.symm,
      (hl b List.mem_cons_self).2⟩, rfl⟩⟩)
    fun c m => hl c (List.mem_cons_of_mem _ m)

theorem exec_keeps (i : InvC h cl) {ok out h'} (e : c.exec h = .ret ok out h') {a : Nat}
    {x : Cell} (ha : h.cell a = some x)
    (hn : ∀ p b, (p, b) ∈ c.handles → p.use ≠ .read → b ≠ a ∧ b ∉ x.anc) :
    h'.cell a = some x := by
  have hu : ∀ u, u ≠ .read → ∀ b ∈ usedAs u c.fn.params c.args, b ≠ a ∧ b ∉ x.anc := by
    intro u h1 b m
    obtain ⟨p, m, hp⟩ := mem_usedAs.1 m
    exact hn p b m (by rw [hp]; exact h1)
  have lt := i.lt a x ha
  have hd := deletes_keep _ ha (hu .free (by simp))
  have ltd : ∀ (l : List Nat) (h : Heap), (l.foldl Heap.delete h).next = h.next := by
    intro l
    induction l with
    | nil => intro h; rfl
    | cons b l ih => intro h; exact ih _
  have ins : ∀ y : Cell, (((usedAs .free c.fn.params c.args).foldl Heap.delete h).insert y).cell a
      = some x := by
    intro y
    refine insert_some.2 (.inr ⟨?_, hd⟩)
    rw [ltd]; exact Nat.ne_of_lt lt
  have ret : ∀ {ok out h'}, returns c.fn c.args c.oc h = .ret ok out h' → h'.cell a = some x := by
    intro ok out h' e
    unfold returns at e
    simp only at e
    split at e
    · cases e; exact hd
    · cases e
      unfold afterMake
      refine deletes_keep _ (adopts_keep _ (grafts_keep _ (ins _) ?_ (hu _ (by simp)))
        (hu _ (by simp))) (hu _ (by simp))
      show a < ((usedAs .free c.fn.params c.args).foldl Heap.delete h).next + 1
      rw [ltd]; exact Nat.lt_succ_of_lt lt
    · cases e; exact hd
    · split at e
      · cases e
      · split at e
        · cases e
        · split at e
          · cases e; exact hd
          · split at e
            · split at e
              · cases e; exact hd
              · cases e; exact ins _
            · cases e; exact ins _
          · cases e; exact ins _
  have fail : ∀ l, (afterFail c.fn c.args l h).cell a = some x := by
    intro l
    unfold afterFail
    refine deletes_keep _ (guts_keep _ ha ?_) ?_
    · exact fun b m => hu .move (by simp) b (List.mem_of_mem_filter m)
    · intro b m
      rcases List.mem_append.1 m with m | m
      · exact hu .own (by simp) b m
      · exact hu .sink (by simp) b m
  unfold Call.exec exec at e
  split at e
  · cases e
  · split at e
    · cases e; exact ha
    · split at e
      · cases e
      · split at e
        · cases e
        · split at e
          · split at e
            · next hx _ => exact ret e
            · cases e
            · cases e; exact fail _
          · exact ret e

end EG.CApi
