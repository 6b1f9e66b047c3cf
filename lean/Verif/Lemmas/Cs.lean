import Verif.Spec.Cs

/-!
# Lemmas on the C# bindings
-/

namespace EG.Cs

open EG.CApi

/-! ## Imports -/

/-- The function can be called through the import. -/
def matching (i : Import) (s : Sig) : Bool :=
  s.name == i.entry && s.declared == s.defn &&
    (match s.defn with
      | some ts => decide (List.Forall₂ (fun t t' => passes t t' = true) i.params ts)
      | none => false) &&
    decide (i.ret = resultOf i.entry)

/-- `Callable`, decided. -/
def callable (i : Import) : Bool := sigs.any (matching i)

theorem callable_iff (i : Import) : callable i = true ↔ Callable i := by
  unfold callable Callable Exported matching
  rw [List.any_eq_true]
  constructor
  · rintro ⟨s, m, e⟩
    simp only [Bool.and_eq_true, beq_iff_eq, decide_eq_true_eq] at e
    obtain ⟨⟨⟨e1, e2⟩, e3⟩, e4⟩ := e
    cases hd : s.defn with
    | none => rw [hd] at e3; cases e3
    | some ts =>
      rw [hd] at e3
      exact ⟨ts, ⟨s, m, e1, by rw [e2, hd], hd⟩, by simpa using e3, e4⟩
  · rintro ⟨ts, ⟨s, m, e1, e2, e3⟩, f, e4⟩
    refine ⟨s, m, ?_⟩
    simp only [Bool.and_eq_true, beq_iff_eq, decide_eq_true_eq, e1, e2, e3, true_and]
    exact ⟨f, e4⟩

/-- `Exported` for some types, decided. -/
def exported (n : String) : Bool :=
  sigs.any fun s => s.name == n && s.declared == s.defn && s.defn.isSome

/-- For each import the place of its function in the list of functions of the library. -/
def places : List Nat :=
  [119, 120, 121, 122, 123, 124, 125, 179, 180, 181, 182, 183, 184, 185, 186, 187, 188, 189, 190,
   203, 191, 192, 193, 194, 195, 196, 197, 198, 199, 200, 201, 148, 149, 150, 151, 152, 153,
   154, 155, 156, 157, 99, 100, 101, 102, 103, 104, 105, 106, 107, 108, 109, 110, 111, 112, 113,
   114, 115, 116, 117, 118, 207, 208, 209, 210, 211, 212, 213, 214, 215, 216, 217, 218, 219,
   220, 221, 222, 224, 225, 226, 227, 228, 229, 228, 231, 232, 233, 234, 235, 236, 237, 999,
   238, 239, 241, 242, 243, 244, 245, 246, 247, 248, 249, 250, 251, 252, 253, 254, 255, 256,
   257, 258, 259, 260, 261, 262, 263, 264, 265, 266, 268, 269, 270, 271, 272, 273, 274, 275,
   276, 277, 999, 279, 280, 281, 282, 283, 284, 285, 286, 287, 288, 289, 290, 291, 292, 999,
   294, 999, 296, 280, 281, 282, 283, 284, 285, 286, 287, 288, 289, 290, 291, 297, 298, 299,
   300, 301, 302, 303, 304, 305, 306, 307, 308, 309, 310, 311, 312, 313, 314, 315, 316, 317,
   318, 319, 320, 321, 322, 323, 324, 325, 326, 327, 328, 329, 330, 331, 332, 333, 334, 335,
   336, 338, 339, 340, 341, 342, 343, 126, 127, 128, 129, 130, 132, 131, 133, 134, 135, 136,
   137, 138, 139, 140, 141, 142, 143, 144, 145, 146, 147, 0, 1, 2, 3, 4, 999, 6, 7, 8, 9, 999,
   11, 12, 13, 14, 15, 16, 17, 18, 19, 20, 21, 22, 23, 24, 25, 26, 27, 28, 29, 30, 31, 32, 33,
   34, 35, 36, 37, 999, 999, 999, 999, 22, 43, 44, 45, 46, 47, 48, 49, 50, 51, 52, 53, 54, 88,
   89, 90, 91, 55, 56, 57, 58, 59, 60, 61, 62, 999, 64, 65, 66, 67, 68, 69, 70, 71, 72, 73, 74,
   75, 76, 92, 93, 94, 95, 96, 77, 78, 79, 56, 57, 58, 59, 60, 61, 62, 999, 65, 67, 80, 81, 82,
   83, 84, 85, 158, 159, 160, 161, 162, 163, 164, 165, 166, 167, 168, 169, 999, 171, 172, 173,
   174, 175, 176, 177, 178, 97, 98]

/-- Checks with `places`. -/
theorem callable_of {skip : Import → Bool}
    (h : ((imports.zip places).all fun x => skip x.1 || (match sigs[x.2]? with
      | some s => matching x.1 s
      | none => false)) = true) (hl : imports.length = places.length) {i : Import}
    (m : i ∈ imports) (hs : skip i = false) : Callable i := by
  obtain ⟨n, hn, e⟩ := List.getElem_of_mem m
  have hm : (i, places[n]'(hl ▸ hn)) ∈ imports.zip places := by
    rw [List.mem_iff_getElem]
    exact ⟨n, by rw [List.length_zip]; omega, by rw [List.getElem_zip, e]⟩
  have := List.all_eq_true.1 h _ hm
  simp only [hs, Bool.false_or] at this
  split at this
  · rename_i s hs
    rw [← callable_iff]
    unfold callable
    rw [List.any_eq_true]
    exact ⟨s, List.mem_of_getElem? hs, this⟩
  · cases this

theorem exported_iff (n : String) : exported n = true ↔ ∃ ts, Exported n ts := by
  unfold exported Exported
  rw [List.any_eq_true]
  constructor
  · rintro ⟨s, m, e⟩
    simp only [Bool.and_eq_true, beq_iff_eq, Option.isSome_iff_exists] at e
    obtain ⟨⟨e1, e2⟩, ts, e3⟩ := e
    exact ⟨ts, s, m, e1, by rw [e2, e3], e3⟩
  · rintro ⟨ts, s, m, e1, e2, e3⟩
    exact ⟨s, m, by simp [e1, e2, e3]⟩

/-! ## Handles -/

/-- Invariant of a handle. -/
structure HInv (w : Handle) : Prop where
  closed : w.closed = true ↔ w.refs = 0
  one : w.releasing ≤ 1
  rel : 0 < w.releasing → w.closed = true ∧ w.ptr.isSome ∧ w.isFreed = false
  freed : w.isFreed = true → w.closed = true
  done : w.closed = true → w.ptr.isSome → w.releasing = 0 → w.isFreed = true

theorem HInv.new (k : Kind) (p : Option Nat) : HInv (Handle.new k p) := by
  constructor <;> simp [Handle.new]

theorem internalRelease_same (w : Handle) (d : Bool) :
    (w.internalRelease d).kind = w.kind ∧ (w.internalRelease d).ptr = w.ptr ∧
      (w.internalRelease d).isFreed = w.isFreed := by
  unfold Handle.internalRelease
  split
  · exact ⟨rfl, rfl, rfl⟩
  · split
    · exact ⟨rfl, rfl, rfl⟩
    · exact ⟨rfl, rfl, rfl⟩

theorem HInv.internalRelease {w : Handle} (i : HInv w) (d : Bool) : HInv (w.internalRelease d) := by
  unfold Handle.internalRelease
  split
  · exact i
  split
  · exact i
  rename_i _ hr
  have hc : w.closed = false := by
    rw [Bool.eq_false_iff]; exact fun c => hr (i.closed.1 c)
  have hz : w.releasing = 0 := by
    by_contra n
    have := (i.rel (Nat.pos_of_ne_zero n)).1
    rw [hc] at this; cases this
  have hf : w.isFreed = false := by
    rw [Bool.eq_false_iff]; intro f
    have := i.freed f
    rw [hc] at this; cases this
  by_cases h1 : w.refs = 1
  · cases hp : w.ptr with
    | none => constructor <;> simp [hc, hz, hf, h1]
    | some p => constructor <;> simp [hc, hz, hf, h1]
  · have : w.refs - 1 ≠ 0 := by omega
    constructor <;> simp [hc, hz, hf, h1, this]

/-- One action. -/
theorem HInv.act {w : Handle} (i : HInv w) (a : Act) :
    HInv (w.act a).1 ∧ (w.act a).1.kind = w.kind ∧ (w.act a).1.ptr = w.ptr ∧
      (∀ p, (w.act a).2 = some p → guardOf w.kind = .isFreed ∧ w.ptr = some p ∧
        w.isFreed = false ∧ (w.act a).1.isFreed = true) ∧
      ((w.act a).2 = none → guardOf w.kind = .isFreed → (w.act a).1.isFreed = w.isFreed) := by
  cases a with
  | enter =>
    rw [show w.act .enter = if w.closed then (w, none) else ({ w with refs := w.refs + 1 }, none)
      from rfl]
    split
    · exact ⟨i, rfl, rfl, by simp, fun _ _ => rfl⟩
    · rename_i hc
      refine ⟨?_, rfl, rfl, by simp, fun _ _ => rfl⟩
      have hz : w.releasing = 0 := by
        by_contra n
        exact hc (i.rel (Nat.pos_of_ne_zero n)).1
      have hf : w.isFreed = false := by
        rw [Bool.eq_false_iff]; exact fun f => hc (i.freed f)
      constructor <;> simp [hc, hz, hf]
  | leave =>
    obtain ⟨h1, h2, h3⟩ := internalRelease_same w false
    exact ⟨i.internalRelease false, h1, h2, by simp [Handle.act], fun _ _ => h3⟩
  | dispose =>
    obtain ⟨h1, h2, h3⟩ := internalRelease_same w true
    exact ⟨i.internalRelease true, h1, h2, by simp [Handle.act], fun _ _ => h3⟩
  | release =>
    rw [show w.act .release = if w.releasing = 0 then (w, none) else
      (({ w with releasing := w.releasing - 1, isFreed := true } : Handle).internalRelease true,
        if w.callsFree then w.ptr else none) from rfl]
    split
    · exact ⟨i, rfl, rfl, by simp, fun _ _ => rfl⟩
    · rename_i hr
      obtain ⟨hc, hp, hf⟩ := i.rel (Nat.pos_of_ne_zero hr)
      have h1 : w.releasing = 1 := by have := i.one; omega
      obtain ⟨e1, e2, e3⟩ := internalRelease_same
        { w with releasing := w.releasing - 1, isFreed := true } true
      refine ⟨HInv.internalRelease ?_ true, e1, e2, ?_, ?_⟩
      · have h0 := i.closed.1 hc
        constructor <;> simp [hc, h1, h0]
      · intro p e
        dsimp only at e
        split at e
        · rename_i cf
          refine ⟨?_, e, hf, e3⟩
          unfold Handle.callsFree at cf
          cases g : guardOf w.kind with
          | isFreed => rfl
          | isClosed => rw [g] at cf; simp [hc] at cf
        · cases e
      · intro e g
        dsimp only at e
        have cf : w.callsFree = true := by
          unfold Handle.callsFree; rw [g]; simp [hf]
        rw [if_pos cf] at e
        rw [e] at hp; cases hp

/-- A sequence of actions. -/
theorem HInv.acts : ∀ (as : List Act) {w : Handle}, HInv w →
    HInv (w.acts as).1 ∧ (w.acts as).1.kind = w.kind ∧ (w.acts as).1.ptr = w.ptr ∧
      (guardOf w.kind = .isClosed → (w.acts as).2 = []) ∧
      (guardOf w.kind = .isFreed → w.isFreed = true → (w.acts as).2 = [] ∧
        (w.acts as).1.isFreed = true) ∧
      (guardOf w.kind = .isFreed → w.isFreed = false →
        ((w.acts as).1.isFreed = true → (w.acts as).2 = w.ptr.toList) ∧
        ((w.acts as).1.isFreed = false → (w.acts as).2 = []))
  | [], w, i => ⟨i, rfl, rfl, fun _ => rfl, fun _ h => ⟨rfl, h⟩, fun _ h =>
      ⟨fun h' => (by rw [show (w.acts []).1 = w from rfl, h] at h'; cases h'), fun _ => rfl⟩⟩
  | a :: as, w, i => by
    obtain ⟨i1, k1, p1, f1, n1⟩ := i.act a
    obtain ⟨i2, k2, p2, c2, t2, o2⟩ := HInv.acts as i1
    rw [k1] at c2 t2 o2
    simp only [Handle.acts]
    refine ⟨i2, k2.trans k1, p2.trans p1, ?_, ?_, ?_⟩
    · intro g
      rw [c2 g]
      cases e : (w.act a).2 with
      | none => rfl
      | some p => rw [(f1 p e).1] at g; cases g
    · intro g t
      cases e : (w.act a).2 with
      | none =>
        have := n1 e g
        rw [t] at this
        obtain ⟨x, y⟩ := t2 g this
        exact ⟨by rw [x]; rfl, y⟩
      | some p => rw [(f1 p e).2.2.1] at t; cases t
    · intro g t
      cases e : (w.act a).2 with
      | none =>
        have := n1 e g
        rw [t] at this
        obtain ⟨x, y⟩ := o2 g this
        rw [p1] at x
        exact ⟨x, y⟩
      | some p =>
        obtain ⟨_, hp, _, h⟩ := f1 p e
        obtain ⟨x, y⟩ := t2 g h
        rw [x, hp]
        exact ⟨fun _ => rfl, fun n => by rw [y] at n; cases n⟩

/-! ## Programs -/

/-- The functions that return one of the three kinds of ballots give it to the caller, take none
away, and no function keeps a reference to one. -/
def ballotsOk (f : Fn) : Bool :=
  (match f.outType with
    | some k => guardOf k == .isClosed || f.outOwned
    | none => true) &&
  f.params.all fun p =>
    guardOf p.decl == .isClosed || (p.use == .read && !f.keeps) || p.use == .free

set_option maxRecDepth 8000 in
theorem table_ballots : table.all ballotsOk = true := by decide +kernel

/-- The functions that release ballots. -/
theorem freeCall_eq {k : Kind} (g : guardOf k = .isFreed) (p : Nat) :
    (freeCall k p).fn ∈ table ∧ (freeCall k p).fn.params = [fr k] ∧
      (freeCall k p).fn.out = .none ∧ (freeCall k p).fn.keeps = false ∧
      (freeCall k p).args = [[some p]] := by
  have hk : k ∈ [Kind.plaintextBallot, .ciphertextBallot, .submittedBallot] := by
    unfold guardOf at g
    split at g
    · assumption
    · cases g
  have h : ∀ k ∈ [Kind.plaintextBallot, .ciphertextBallot, .submittedBallot],
      fnOf ((freeName k).getD "") ∈ table ∧ (fnOf ((freeName k).getD "")).params = [fr k] ∧
        (fnOf ((freeName k).getD "")).out = .none ∧
        (fnOf ((freeName k).getD "")).keeps = false := by decide +kernel
  obtain ⟨a, b, c, d⟩ := h k hk
  exact ⟨a, b, c, d, rfl⟩

theorem freeCall_handles {k : Kind} (g : guardOf k = .isFreed) (p : Nat) :
    (freeCall k p).handles = [(fr k, p)] := by
  obtain ⟨_, e1, _, _, e2⟩ := freeCall_eq g p
  unfold Call.handles
  rw [e1, e2]; rfl

theorem freeCall_used {k : Kind} (g : guardOf k = .isFreed) (p : Nat) (u : Use) :
    (freeCall k p).used u = if u = .free then [p] else [] := by
  obtain ⟨_, e1, _, _, e2⟩ := freeCall_eq g p
  unfold Call.used
  rw [e1, e2]
  cases u <;> rfl

/-- Invariant of a program. -/
structure PInv (s : S) : Prop where
  reach : Reach Careful Client.after s.heap s.cl
  hinv : ∀ w ∈ s.handles, HInv w
  typed : ∀ w ∈ s.handles, ∀ p, w.ptr = some p → (p, w.kind) ∈ s.cl.types
  owned : ∀ w ∈ s.handles, guardOf w.kind = .isFreed → w.isFreed = false → ∀ p, w.ptr = some p →
    p ∈ s.cl.owned
  diff : ∀ (i j : Nat) (v w : Handle), s.handles[i]? = some v → s.handles[j]? = some w → i ≠ j →
    guardOf v.kind = .isFreed → ∀ p, v.ptr = some p → w.ptr ≠ some p
  uses : ∀ m a, (m, a) ∈ s.cl.uses → ∃ k, guardOf k = .isClosed ∧ (a, k) ∈ s.cl.types

/-- Releasing a ballot is allowed. -/
theorem PInv.careful {s : S} (i : PInv s) {w : Handle} (m : w ∈ s.handles)
    (g : guardOf w.kind = .isFreed) (hf : w.isFreed = false) {p : Nat} (hp : w.ptr = some p) :
    Careful s.heap s.cl (freeCall w.kind p) := by
  obtain ⟨e0, e1, e2, e3, e4⟩ := freeCall_eq g p
  have o := i.owned w m g hf p hp
  have t := i.typed w m p hp
  have hh := freeCall_handles g p
  have inv := reach_inv i.reach
  refine ⟨⟨e0, ?_, ?_, ?_, ?_, ?_⟩, ?_, ?_, ?_, ?_, ?_, ?_⟩
  · rw [e1, e4]; rfl
  · rw [e1, e4]
    intro q hq
    simp [pairs] at hq
  · rw [hh]; intro q a ma; rw [List.mem_singleton] at ma; cases ma; exact .inl o
  · rw [hh]; intro q a ma; rw [List.mem_singleton] at ma; cases ma; exact t
  · rw [hh]; intro q a ma _; rw [List.mem_singleton] at ma; cases ma; exact o
  · unfold Fn.wellTyped; rw [e1, e2]; simp [fr]
  · rw [hh]; intro q a ma hu; rw [List.mem_singleton] at ma; cases ma; exact absurd rfl hu
  · rw [hh]; intro q a ma _; rw [List.mem_singleton] at ma; cases ma; exact o
  · rw [freeCall_used g, freeCall_used g, freeCall_used g]; simp
  · rw [e3]; intro h; cases h
  · rw [hh]; intro q a ma _ x hx; rw [List.mem_singleton] at ma; cases ma
    exfalso
    obtain ⟨k, gk, tk⟩ := i.uses x p hx
    obtain ⟨c, ec, _⟩ := (inv.owned p).1 o
    have k1 := (inv.types p w.kind t).2 c ec
    have k2 := (inv.types p k tk).2 c ec
    rw [← k1, k2] at g
    rw [gk] at g; cases g

theorem getElem?_set {α} {l : List α} {i j : Nat} {a b : α} (h : (l.set i a)[j]? = some b) :
    (j = i ∧ b = a ∧ i < l.length) ∨ (j ≠ i ∧ l[j]? = some b) := by
  rw [List.getElem?_set] at h
  split at h
  · rename_i e
    split at h
    · cases h; exact .inl ⟨e.symm, rfl, by assumption⟩
    · cases h
  · rename_i e
    exact .inr ⟨fun e' => e e'.symm, h⟩

/-- The address of a new object has not been seen before. -/
theorem owned_fresh {h h' : Heap} {c : Call}
    (hf : c.used .free = []) (ho : c.fn.outOwned = true) {ok : Bool} {a : Nat}
    (e : c.exec h = .ret ok (some a) h') : a = h.next := by
  have hr : ∀ {ok out h'}, returns c.fn c.args c.oc h = .ret ok out h' → out = some a → a = h.next := by
    intro ok out h' e o
    unfold returns at e
    unfold Fn.outOwned at ho
    have hf' : usedAs .free c.fn.params c.args = [] := hf
    rw [hf'] at e
    cases hc : c.fn.out with
    | owned d k => rw [hc] at e; cases e; cases o; rfl
    | none => rw [hc] at ho; cases ho
    | ref d k => rw [hc] at ho; cases ho
    | const k x => rw [hc] at ho; cases ho
  unfold Call.exec exec at e
  split at e
  · cases e
  split at e
  · cases e
  split at e
  · cases e
  split at e
  · cases e
  split at e
  · split at e
    · exact hr e rfl
    · cases e
    · cases e
  · exact hr e rfl

/-- A reference that is returned is one to an object in memory. -/
theorem ref_alive {h h' : Heap} {c : Call} {d k : Kind} (ho : c.fn.out = .ref d k) {ok : Bool}
    {a : Nat} (e : c.exec h = .ret ok (some a) h') :
    ∃ x, h'.cell a = some x ∧ x.anc ≠ [] := by
  have hr : returns c.fn c.args c.oc h = .ret ok (some a) h' →
      ∃ x, h'.cell a = some x ∧ x.anc ≠ [] := by
    intro e
    unfold returns at e
    rw [ho] at e
    simp only at e
    have new : ∀ (g : Heap) (y : Cell), y.anc ≠ [] →
        Outcome.ret true (some g.next) (g.insert y) = .ret ok (some a) h' →
        ∃ x, h'.cell a = some x ∧ x.anc ≠ [] := by
      intro g y hy e
      cases e
      exact ⟨y, insert_some.2 (.inl ⟨rfl, rfl⟩), hy⟩
    split at e
    · cases e
    · split at e
      · cases e
      · split at e
        · cases e
        · split at e
          · rename_i y ey
            split at e
            · rename_i hy
              cases e
              exact ⟨y, ey, by rw [hy.2]; simp⟩
            · exact new _ _ (by simp) e
          · exact new _ _ (by simp) e
        · exact new _ _ (by simp) e
  unfold Call.exec exec at e
  split at e
  · cases e
  split at e
  · cases e
  split at e
  · cases e
  split at e
  · cases e
  split at e
  · split at e
    · exact hr e
    · cases e
    · cases e
  · exact hr e

/-- … and so is a constant. -/
theorem const_addr {h h' : Heap} {c : Call} {k : Kind} {x : Nat} (ho : c.fn.out = .const k x)
    {ok : Bool} {a : Nat} (e : c.exec h = .ret ok (some a) h') : a = x := by
  have hr : returns c.fn c.args c.oc h = .ret ok (some a) h' → a = x := by
    intro e
    unfold returns at e
    rw [ho] at e
    cases e; rfl
  unfold Call.exec exec at e
  split at e
  · cases e
  split at e
  · cases e
  split at e
  · cases e
  split at e
  · cases e
  split at e
  · split at e
    · exact hr e
    · cases e
    · cases e
  · exact hr e

set_option maxRecDepth 8000 in
theorem table_const : (table.all fun f => match f.out with
    | .const _ a => decide (a < 10)
    | _ => true) = true := by decide +kernel

theorem PInv.step {s s' : S} {l : Option Call} (i : PInv s) (st : Step s l s') : PInv s' := by
  have inv := reach_inv i.reach
  cases st with
  | @call c ok out h' hc hf e =>
    have r := Reach.step i.reach hc e
    have bk := List.all_eq_true.1 table_ballots _ hc.mem
    unfold ballotsOk at bk
    rw [Bool.and_eq_true, List.all_eq_true] at bk
    -- the new handle
    have mk : ∀ w ∈ made c out, ∃ k, c.fn.outType = some k ∧ w = Handle.new k out := by
      intro w m
      unfold made at m
      split at m
      · cases m
      · rename_i k ek
        rw [List.mem_singleton] at m
        exact ⟨k, ek, m⟩
    have fresh : ∀ w ∈ made c out, guardOf w.kind = .isFreed → ∀ p, w.ptr = some p →
        c.fn.outOwned = true ∧ p = s.heap.next ∧ out = some p := by
      intro w m g p hp
      obtain ⟨k, ek, rfl⟩ := mk w m
      change out = some p at hp
      have ho : c.fn.outOwned = true := by
        have := bk.1
        rw [ek] at this
        change guardOf k = .isFreed at g
        simpa [g] using this
      exact ⟨ho, owned_fresh hf ho (hp ▸ e), hp⟩
    have fresh' : ∀ w ∈ s.handles, ∀ p, w.ptr = some p → p < s.heap.next := fun w m p hp =>
      (inv.types p w.kind (i.typed w m p hp)).1
    refine ⟨r, ?_, ?_, ?_, ?_, ?_⟩
    · intro w m
      rcases List.mem_append.1 m with m | m
      · exact i.hinv w m
      · obtain ⟨k, _, rfl⟩ := mk w m; exact HInv.new k out
    · intro w m p hp
      rcases List.mem_append.1 m with m | m
      · exact mem_after_types.2 (.inl (i.typed w m p hp))
      · obtain ⟨k, ek, rfl⟩ := mk w m
        exact mem_after_types.2 (.inr ⟨hp, ek⟩)
    · intro w m g nf p hp
      rw [mem_after_owned, hf]
      have notgiven : ∀ u, u ≠ .read → u ≠ .free → ∀ k, (p, k) ∈ s.cl.types → guardOf k = .isFreed →
          p ∉ c.used u := by
        intro u u1 u2 k tk gk hu
        obtain ⟨q, mq, hq⟩ := mem_usedAs.1 hu
        have tq := hc.typed q p mq
        have hs : (s.heap.cell p).isSome := (hc.alive q p mq).elim
          (fun o => by obtain ⟨x, e, _⟩ := (inv.owned p).1 o; rw [e]; rfl) id
        obtain ⟨x, ex⟩ := Option.isSome_iff_exists.1 hs
        have k1 := (inv.types p q.decl tq).2 x ex
        have k2 := (inv.types p k tk).2 x ex
        have mp := mem_pairs_param (mem_handles.1 mq)
        have := bk.2 q mp
        rw [← k1, k2, gk, hq] at this
        cases u <;> simp_all
      rcases List.mem_append.1 m with m | m
      · have o := i.owned w m g nf p hp
        have tk := i.typed w m p hp
        exact ⟨.inr ⟨o, by simp⟩, notgiven .own (by simp) (by simp) _ tk g,
          notgiven .sink (by simp) (by simp) _ tk g⟩
      · obtain ⟨ho, hp', eo⟩ := fresh w m g p hp
        refine ⟨.inl ⟨eo, ho⟩, ?_, ?_⟩ <;>
        · intro hu
          obtain ⟨q, mq, _⟩ := mem_usedAs.1 hu
          have := (inv.types p q.decl (hc.typed q p mq)).1
          omega
    · intro a b v w hv hw ne g p hp hq
      rw [List.getElem?_append] at hv hw
      have one : ∀ {n : Nat} {x : Handle}, (made c out)[n]? = some x → n = 0 := by
        intro n x hx
        unfold made at hx
        split at hx
        · simp at hx
        · cases n with
          | zero => rfl
          | succ n => simp at hx
      split at hv <;> split at hw
      · exact i.diff a b v w hv hw ne g p hp hq
      · obtain ⟨k, ek, rfl⟩ := mk w (List.mem_of_getElem? hw)
        have l1 := fresh' v (List.mem_of_getElem? hv) p hp
        have t1 := i.typed v (List.mem_of_getElem? hv) p hp
        -- an old pointer to a ballot is not returned again
        change out = some p at hq
        have inv' := reach_inv r
        have tk : (p, k) ∈ (s.cl.after c out).types := mem_after_types.2 (.inr ⟨hq, ek⟩)
        have tv : (p, v.kind) ∈ (s.cl.after c out).types := mem_after_types.2 (.inl t1)
        have kinds : ∀ x, h'.cell p = some x → False := by
          intro x ex
          have a1 := (inv'.types p k tk).2 x ex
          have a2 := (inv'.types p v.kind tv).2 x ex
          have gk : guardOf k = .isFreed := by rw [← a1, a2]; exact g
          obtain ⟨_, hn, _⟩ := fresh _ (List.mem_of_getElem? hw) gk p hq
          omega
        rw [hq] at e
        cases eo : c.fn.out with
        | none => unfold Fn.outType at ek; rw [eo] at ek; cases ek
        | owned d k' =>
          have := owned_fresh hf (by unfold Fn.outOwned; rw [eo]) e
          omega
        | ref d k' =>
          obtain ⟨x, ex, _⟩ := ref_alive eo e
          exact kinds x ex
        | const k' x =>
          have := const_addr eo e
          have lt := List.all_eq_true.1 table_const _ hc.mem
          rw [eo] at lt
          obtain ⟨y, ey, _⟩ := inv'.const x (of_decide_eq_true lt)
          exact kinds y (this ▸ ey)
      · obtain ⟨_, hp', _⟩ := fresh v (List.mem_of_getElem? hv) g p hp
        have := fresh' w (List.mem_of_getElem? hw) p hq
        omega
      · have := one hv; have := one hw
        omega
    · intro m a u
      rcases mem_after_uses.1 u with u | ⟨_, hk, hr⟩
      · obtain ⟨k, gk, tk⟩ := i.uses m a u
        exact ⟨k, gk, mem_after_types.2 (.inl tk)⟩
      · obtain ⟨q, mq, hq⟩ := mem_usedAs.1 hr
        have mp := mem_pairs_param (mem_handles.1 mq)
        have := bk.2 q mp
        refine ⟨q.decl, ?_, mem_after_types.2 (.inl (hc.typed q a mq))⟩
        simpa [hk, hq] using this
  | @act n a w w' hw e =>
    have m := List.mem_of_getElem? hw
    obtain ⟨i1, k1, p1, _, n1⟩ := (i.hinv w m).act a
    rw [e] at i1 k1 p1 n1
    refine ⟨i.reach, ?_, ?_, ?_, ?_, i.uses⟩
    · intro v hv
      obtain ⟨j, hj⟩ := List.mem_iff_getElem?.1 hv
      rcases getElem?_set hj with ⟨_, rfl, _⟩ | ⟨_, hj⟩
      · exact i1
      · exact i.hinv v (List.mem_of_getElem? hj)
    · intro v hv
      obtain ⟨j, hj⟩ := List.mem_iff_getElem?.1 hv
      rcases getElem?_set hj with ⟨_, rfl, _⟩ | ⟨_, hj⟩
      · simp only at k1 p1
        rw [k1, p1]; exact i.typed w m
      · exact i.typed v (List.mem_of_getElem? hj)
    · intro v hv
      obtain ⟨j, hj⟩ := List.mem_iff_getElem?.1 hv
      rcases getElem?_set hj with ⟨_, rfl, _⟩ | ⟨_, hj⟩
      · simp only at k1 p1 n1
        rw [k1, p1]
        intro g nf
        exact i.owned w m g ((n1 trivial g) ▸ nf)
      · exact i.owned v (List.mem_of_getElem? hj)
    · intro a b x y hx hy ne
      rcases getElem?_set hx with ⟨ea, rfl, _⟩ | ⟨ea, hx⟩ <;>
        rcases getElem?_set hy with ⟨eb, hyy, _⟩ | ⟨eb, hy⟩
      · omega
      · simp only at k1 p1
        rw [k1, p1]
        exact i.diff n b w y hw hy (by omega)
      · simp only at k1 p1
        rw [hyy, p1]
        exact i.diff a n x w hx hw (by omega)
      · exact i.diff a b x y hx hy ne
  | @free n a w w' p ok out h' hw e ex =>
    have m := List.mem_of_getElem? hw
    obtain ⟨i1, k1, p1, f1, _⟩ := (i.hinv w m).act a
    obtain ⟨g, hp, nf, nf'⟩ := f1 p (by rw [e])
    rw [e] at i1 k1 p1 nf'
    simp only at k1 p1 nf'
    have hc := i.careful m g nf hp
    have r := Reach.step i.reach hc ex
    obtain ⟨e0, e1, e2, e3, e4⟩ := freeCall_eq g p
    have ot : (freeCall w.kind p).fn.outType = none := by unfold Fn.outType; rw [e2]
    have oo : (freeCall w.kind p).fn.outOwned = false := by unfold Fn.outOwned; rw [e2]
    have ty : ∀ a k, (a, k) ∈ (s.cl.after (freeCall w.kind p) out).types ↔ (a, k) ∈ s.cl.types := by
      intro a k; rw [mem_after_types, ot]; simp
    refine ⟨r, ?_, ?_, ?_, ?_, ?_⟩
    · intro v hv
      obtain ⟨j, hj⟩ := List.mem_iff_getElem?.1 hv
      rcases getElem?_set hj with ⟨_, rfl, _⟩ | ⟨_, hj⟩
      · exact i1
      · exact i.hinv v (List.mem_of_getElem? hj)
    · intro v hv q hq
      rw [ty]
      obtain ⟨j, hj⟩ := List.mem_iff_getElem?.1 hv
      rcases getElem?_set hj with ⟨_, rfl, _⟩ | ⟨_, hj⟩
      · rw [k1]; rw [p1] at hq; exact i.typed w m q hq
      · exact i.typed v (List.mem_of_getElem? hj) q hq
    · intro v hv gv nv q hq
      obtain ⟨j, hj⟩ := List.mem_iff_getElem?.1 hv
      rcases getElem?_set hj with ⟨_, rfl, _⟩ | ⟨jn, hj'⟩
      · rw [nf'] at nv; cases nv
      · rw [mem_after_owned, freeCall_used g, freeCall_used g, freeCall_used g]
        refine ⟨.inr ⟨i.owned v (List.mem_of_getElem? hj') gv nv q hq, ?_⟩, by simp, by simp⟩
        simp only [if_true, List.mem_singleton]
        intro qp
        exact i.diff j n v w hj' hw jn gv q hq (qp ▸ hp)
    · intro a b x y hx hy ne
      rcases getElem?_set hx with ⟨ea, rfl, _⟩ | ⟨ea, hx⟩ <;>
        rcases getElem?_set hy with ⟨eb, hyy, _⟩ | ⟨eb, hy⟩
      · omega
      · rw [k1, p1]
        exact i.diff n b w y hw hy (by omega)
      · rw [hyy, p1]
        exact i.diff a n x w hx hw (by omega)
      · exact i.diff a b x y hx hy ne
    · intro x a u
      rw [mem_after_uses, e3] at u
      obtain ⟨k, gk, tk⟩ := i.uses x a (u.resolve_right (by simp))
      exact ⟨k, gk, (ty a k).2 tk⟩

theorem PInv.init : PInv {} := by
  refine ⟨.init, ?_, ?_, ?_, ?_, ?_⟩
  · intro w m; cases m
  · intro w m; cases m
  · intro w m; cases m
  · intro i j v w h; simp at h
  · intro m a h; cases h

theorem PInv.steps {s s' : S} {ok : Call → Prop} (i : PInv s) (st : Steps ok s s') : PInv s' := by
  induction st with
  | refl => exact i
  | step _ st _ ih => exact ih.step st

theorem PInv.reachable {s : S} (r : Reachable s) : PInv s := PInv.init.steps r

def kinds : List Kind :=
  [.annotatedString, .ballotStyle, .candidate, .ciphertextBallot, .ciphertextBallotContest,
   .ciphertextBallotSelection, .ciphertextElectionContext, .compactCiphertextBallot,
   .compactPlaintextBallot, .constantChaumPedersenProof, .contactInformation,
   .contestDescription, .contestDescriptionWithPlaceholders, .contextConfiguration,
   .disjunctiveChaumPedersenProof, .electionManifest, .elementModP, .elementModQ,
   .elgamalCiphertext, .elgamalKeypair, .encryptionDevice, .encryptionMediator, .extendedData,
   .geopoliticalUnit, .internalManifest, .internationalizedText, .language, .linkedList,
   .party, .plaintextBallot, .plaintextBallotContest, .plaintextBallotSelection,
   .selectionDescription, .submittedBallot, .text, .bytes]

theorem free_all : (kinds.all fun k => (freeName k).isNone ||
    (match (fnOf ((freeName k).getD "")).params with
      | [p] => p.cast == k && p.use == .free && !p.many
      | _ => false)) = true := by decide +kernel

/-- The functions that release objects. -/
theorem free_params {k : Kind} (h : (freeName k).isSome) :
    ∃ p, (fnOf ((freeName k).getD "")).params = [p] ∧ p.cast = k ∧ p.use = .free ∧
      p.many = false := by
  have m : k ∈ kinds := by cases k <;> decide
  have := List.all_eq_true.1 free_all k m
  cases hf : freeName k with
  | none => rw [hf] at h; cases h
  | some x =>
    rw [hf] at this
    revert this
    simp only [Option.isNone_some, Bool.false_or]
    split
    · rename_i p e
      intro t
      simp only [Bool.and_eq_true, beq_iff_eq, Bool.not_eq_true'] at t
      exact ⟨p, e, t.1.1, t.1.2, t.2⟩
    · intro t; cases t

/-- Nothing else can be released than what belongs to the client. -/
theorem free_ub {h : Heap} {k : Kind} {a : Nat} (hk : (freeName k).isSome)
    (hr : h.isRoot a = false) : (freeCall k a).exec h = .ub := by
  obtain ⟨p, e, _, hu, hm⟩ := free_params hk
  unfold Call.exec freeCall call exec
  simp only [e]
  simp [shaped, pairs, handles, defined, hr, hu, hm]

/-! ## Concrete programs -/

theorem isUb_eq {o : Outcome} (h : o.isUb = true) : o = .ub := by
  cases o with
  | ub => rfl
  | _ => cases h

/-- What happens in a run: a call, or an action on the handle with this number. -/
inductive Ev
  | call (c : Call)
  | act (i : Nat) (a : Act)

def runEv (s : S) : Ev → Option S
  | .call c =>
    if carefulOk s.heap s.cl c && (c.used .free).isEmpty then
      match c.exec s.heap with
      | .ret _ out h' => some ⟨h', s.cl.after c out, s.handles ++ made c out⟩
      | _ => none
    else none
  | .act i a =>
    match s.handles[i]? with
    | none => none
    | some w =>
      match w.act a with
      | (w', none) => some { s with handles := s.handles.set i w' }
      | (w', some p) =>
        match (freeCall w.kind p).exec s.heap with
        | .ret _ out h' => some ⟨h', s.cl.after (freeCall w.kind p) out, s.handles.set i w'⟩
        | _ => none

theorem runEv_step {s s' : S} {e : Ev} (h : runEv s e = some s') : ∃ l, Step s l s' := by
  cases e with
  | call c =>
    simp only [runEv] at h
    by_cases hc : (carefulOk s.heap s.cl c && (c.used .free).isEmpty) = true
    · rw [if_pos hc] at h
      rw [Bool.and_eq_true, List.isEmpty_iff] at hc
      cases he : c.exec s.heap with
      | ub => simp only [he] at h; cases h
      | escaped => simp only [he] at h; cases h
      | ret ok out h' =>
        simp only [he] at h
        cases h
        exact ⟨_, .call (carefulOk_sound hc.1) hc.2 he⟩
    · rw [if_neg hc] at h; cases h
  | act i a =>
    simp only [runEv] at h
    cases hw : s.handles[i]? with
    | none => simp only [hw] at h; cases h
    | some w =>
      simp only [hw] at h
      rcases ea : w.act a with ⟨w', _ | p⟩
      · simp only [ea] at h
        cases h
        exact ⟨_, .act hw ea⟩
      · simp only [ea] at h
        cases he : (freeCall w.kind p).exec s.heap with
        | ub => simp only [he] at h; cases h
        | escaped => simp only [he] at h; cases h
        | ret ok out h' =>
          simp only [he] at h
          cases h
          exact ⟨_, .free hw ea he⟩

def runCs : List Ev → S → Option S
  | [], s => some s
  | e :: es, s => (runEv s e).bind (runCs es)

theorem runCs_steps : ∀ (es : List Ev) {s s0 s' : S}, Steps (fun _ => True) s0 s →
    runCs es s = some s' → Steps (fun _ => True) s0 s'
  | [], s, s0, s', r, h => by cases h; exact r
  | e :: es, s, s0, s', r, h => by
    unfold runCs at h
    cases he : runEv s e with
    | none => rw [he] at h; cases h
    | some s1 =>
      rw [he] at h
      obtain ⟨l, st⟩ := runEv_step he
      exact runCs_steps es (.step r st fun _ _ => trivial) h

/-- A run and a check of where it ends. -/
theorem runCs_reach {es : List Ev} {P : S → Bool}
    (h : (match runCs es {} with | some s => P s | none => false) = true) :
    ∃ s, Reachable s ∧ P s = true := by
  cases e : runCs es {} with
  | none => rw [e] at h; cases h
  | some s => rw [e] at h; exact ⟨s, runCs_steps es .refl e, h⟩

end EG.Cs
