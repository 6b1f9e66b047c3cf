import Verif.Spec.CApi
import Mathlib.Tactic.Tauto

/-!
# Lemmas on the C interface
-/

namespace EG.CApi

/-- Conditions on a descriptor used below; they hold of every entry of the table. -/
def Fn.ok (f : Fn) : Bool :=
  let gives := f.params.any fun p => p.use != .read && p.use != .free
  let allRead := f.params.all fun p => p.use == .read
  (!gives ||
    ((f.params.all fun p => p.null != .reject && p.use != .free) && f.outOwned && !f.keeps)) &&
  (f.params.all fun p =>
    p.use == .read || p.use == .free || p.cast != .encryptionMediator) &&
  ((f.params.all fun p => p.use != .free) ||
    (f.onExn == .noexcept && f.params.length == 1 && f.out == .none &&
      f.params.all fun p => p.use == .free && !p.many)) &&
  (match f.out with
    | .none => !f.keeps
    | .owned _ k => !f.keeps || (allRead && k == .encryptionMediator)
    | .const k a => !f.keeps && k == constKind a && decide (a < 10) && allRead
    | .ref _ _ => !f.keeps && allRead &&
        match f.params with
        | [] => false
        | p :: _ => !p.many && p.null != .allow && p.cast != .elementModP &&
            p.cast != .elementModQ)

set_option maxRecDepth 8000 in
theorem table_ok : table.all Fn.ok = true := by decide +kernel

/-- Invariant of memory.  `O`: owned by the client, `G`: moved from, `T`: types known to the client,
`U`: references kept. -/
structure Inv (h : Heap) (O G : Nat → Prop) (T : Nat → Kind → Prop) (U : Nat → Nat → Prop) :
    Prop where
  lt : ∀ b c, h.cell b = some c → b < h.next
  ten : 10 ≤ h.next
  root : ∀ b c, h.cell b = some c → ∀ r ∈ c.anc.getLast?,
    ∃ d, h.cell r = some d ∧ d.anc = [] ∧ d.static = false
  hollow : ∀ a c, h.cell a = some c → c.hollow = true →
    c.anc = [] ∧ G a ∧ ∀ b x, h.cell b = some x → a ∉ x.anc
  owned : ∀ a, O a ↔ ∃ c, h.cell a = some c ∧ c.anc = [] ∧ c.static = false
  given : ∀ a, G a → a < h.next
  types : ∀ a k, T a k → a < h.next ∧ ∀ c, h.cell a = some c → c.kind = k
  keeps : ∀ b c, h.cell b = some c → ∀ d ∈ c.keeps,
    U b d ∧ c.anc = [] ∧ c.static = false ∧ c.kind = .encryptionMediator ∧ O d ∧ ¬ G d
  stat : ∀ b c, h.cell b = some c → c.static = true →
    c.anc = [] ∧ (c.kind = .elementModP ∨ c.kind = .elementModQ) ∧ b < 10
  const : ∀ a, a < 10 → ∃ c, h.cell a = some c ∧ c.static = true ∧ c.kind = constKind a ∧
    c.hollow = false
  ult : ∀ m a, U m a → m < h.next

theorem Inv.congr {h O G T U O' G' T' U'} (i : Inv h O G T U) (ho : ∀ a, O a ↔ O' a)
    (hg : ∀ a, G a ↔ G' a) (ht : ∀ a k, T' a k → T a k) (hu : ∀ a b, U a b ↔ U' a b) :
    Inv h O' G' T' U' where
  lt := i.lt
  ten := i.ten
  root := i.root
  hollow a c h1 h2 := by
    obtain ⟨x, y, z⟩ := i.hollow a c h1 h2
    exact ⟨x, (hg a).1 y, z⟩
  owned a := by rw [← ho]; exact i.owned a
  given a g := i.given a ((hg a).2 g)
  types a k t := i.types a k (ht a k t)
  keeps b c h1 d h2 := by
    obtain ⟨x, y, z, w, v, u⟩ := i.keeps b c h1 d h2
    exact ⟨(hu _ _).1 x, y, z, w, (ho d).1 v, fun g => u ((hg d).2 g)⟩
  stat := i.stat
  const := i.const
  ult m a u := i.ult m a ((hu m a).2 u)

theorem Inv.init : Inv Heap.init (fun _ => False) (fun _ => False) (fun _ _ => False)
    (fun _ _ => False) := by
  have key : ∀ b c, Heap.init.cell b = some c →
      b < 10 ∧ c = { kind := constKind b, static := true } := by
    intro b c h
    simp only [Heap.init] at h
    split at h
    · next hb => exact ⟨hb, (Option.some.inj h).symm⟩
    · simp at h
  constructor
  · intro b c h; exact (key b c h).1
  · exact Nat.le_refl 10
  · intro b c h r hr
    rw [(key b c h).2] at hr; simp at hr
  · intro a c h hh
    rw [(key a c h).2] at hh; simp at hh
  · intro a
    constructor
    · exact fun f => f.elim
    · rintro ⟨c, h, _, hs⟩
      rw [(key a c h).2] at hs; simp at hs
  · exact fun _ f => f.elim
  · exact fun _ _ f => f.elim
  · intro b c h d hd
    rw [(key b c h).2] at hd; simp at hd
  · intro b c h _
    rw [(key b c h).2]
    have hb := (key b c h).1
    simp only [constKind]
    split <;> simp [hb]
  · intro a ha
    exact ⟨{ kind := constKind a, static := true }, by simp [Heap.init, ha], rfl, rfl, rfl⟩
  · exact fun _ _ f => f.elim

theorem within_iff {h : Heap} {b a : Nat} :
    h.within b a = true ↔ ∃ c, h.cell b = some c ∧ (b = a ∨ a ∈ c.anc) := by
  unfold Heap.within
  cases hb : h.cell b with
  | none => simp
  | some c => simp

/-- A cell that survives `delete`. -/
theorem delete_some {h : Heap} {a b : Nat} {c : Cell} :
    (h.delete a).cell b = some c ↔ h.cell b = some c ∧ b ≠ a ∧ a ∉ c.anc := by
  unfold Heap.delete
  by_cases hw : h.within b a = true
  · simp only [hw, if_true]
    obtain ⟨x, hx, hxa⟩ := within_iff.1 hw
    constructor
    · intro e; cases e
    · rintro ⟨e, n1, n2⟩
      rw [hx] at e; cases e
      rcases hxa with r | r
      · exact absurd r n1
      · exact absurd r n2
  · simp only [hw]
    constructor
    · intro e
      have e : h.cell b = some c := by simpa using e
      exact ⟨e, fun r => hw (within_iff.2 ⟨c, e, .inl r⟩),
        fun r => hw (within_iff.2 ⟨c, e, .inr r⟩)⟩
    · rintro ⟨e, _, _⟩; simpa using e

theorem mem_of_getLast? {α} {l : List α} {r : α} (h : r ∈ l.getLast?) : r ∈ l :=
  List.mem_of_getLast? h

theorem Inv.delete {h O G T U} (i : Inv h O G T U) {a : Nat} (ha : O a)
    (hu : ∀ m, U m a → ¬ O m) : Inv (h.delete a) (fun b => O b ∧ b ≠ a) G T U := by
  obtain ⟨ca, ea, aa, sa⟩ := (i.owned a).1 ha
  constructor
  · intro b c e; exact i.lt b c (delete_some.1 e).1
  · exact i.ten
  · intro b c e r hr
    obtain ⟨e, n1, n2⟩ := delete_some.1 e
    obtain ⟨d, ed, ad, sd⟩ := i.root b c e r hr
    refine ⟨d, delete_some.2 ⟨ed, ?_, ?_⟩, ad, sd⟩
    · rintro rfl; exact n2 (mem_of_getLast? hr)
    · rw [ad]; simp
  · intro b c e hh
    obtain ⟨e, n1, n2⟩ := delete_some.1 e
    obtain ⟨x, y, z⟩ := i.hollow b c e hh
    exact ⟨x, y, fun b' x' e' => z b' x' (delete_some.1 e').1⟩
  · intro b
    constructor
    · rintro ⟨ob, nb⟩
      obtain ⟨c, e, ac, sc⟩ := (i.owned b).1 ob
      exact ⟨c, delete_some.2 ⟨e, nb, by rw [ac]; simp⟩, ac, sc⟩
    · rintro ⟨c, e, ac, sc⟩
      obtain ⟨e, n1, n2⟩ := delete_some.1 e
      exact ⟨(i.owned b).2 ⟨c, e, ac, sc⟩, n1⟩
  · exact i.given
  · intro b k t
    exact ⟨(i.types b k t).1, fun c e => (i.types b k t).2 c (delete_some.1 e).1⟩
  · intro b c e d hd
    obtain ⟨e', n1, n2⟩ := delete_some.1 e
    obtain ⟨p, q, s, w, v, u⟩ := i.keeps b c e' d hd
    refine ⟨p, q, s, w, ⟨v, ?_⟩, u⟩
    rintro rfl
    exact hu b p ((i.owned b).2 ⟨c, e', q, s⟩)
  · intro b c e hs; exact i.stat b c (delete_some.1 e).1 hs
  · intro b hb
    obtain ⟨c, e, sc, kc, hc⟩ := i.const b hb
    refine ⟨c, delete_some.2 ⟨e, ?_, ?_⟩, sc, kc, hc⟩
    · rintro rfl; rw [e] at ea; cases ea; rw [sc] at sa; cases sa
    · rw [(i.stat b c e sc).1]; simp
  · exact i.ult

/-- Cells after `gut`. -/
theorem gut_some {h : Heap} {a b : Nat} {c : Cell} :
    (h.gut a).cell b = some c ↔
      (b = a ∧ ∃ x, h.cell a = some x ∧ c = { x with hollow := true, keeps := [] }) ∨
      (b ≠ a ∧ h.cell b = some c ∧ a ∉ c.anc) := by
  unfold Heap.gut
  by_cases hb : b = a
  · subst hb
    cases e : h.cell b with
    | none => simp
    | some x => simp [eq_comm]
  · simp only [hb, if_false, false_and, false_or, ne_eq, not_false_eq_true, true_and]
    by_cases hw : h.within b a = true
    · simp only [hw, if_true]
      obtain ⟨x, hx, hxa⟩ := within_iff.1 hw
      constructor
      · intro e; cases e
      · rintro ⟨e, n2⟩
        rw [hx] at e; cases e
        rcases hxa with r | r
        · exact absurd r hb
        · exact absurd r n2
    · simp only [hw]
      constructor
      · intro e
        have e : h.cell b = some c := by simpa using e
        exact ⟨e, fun r => hw (within_iff.2 ⟨c, e, .inr r⟩)⟩
      · rintro ⟨e, _⟩; simpa using e

theorem Inv.gut {h O G T U} (i : Inv h O G T U) {a : Nat} (ha : O a)
    (hu : ∀ m, U m a → ¬ O m) : Inv (h.gut a) O (fun b => G b ∨ b = a) T U := by
  obtain ⟨ca, ea, aa, sa⟩ := (i.owned a).1 ha
  have self : (h.gut a).cell a = some { ca with hollow := true, keeps := [] } :=
    gut_some.2 (.inl ⟨rfl, ca, ea, rfl⟩)
  -- a surviving cell comes from a cell with the same owners
  have back : ∀ b c, (h.gut a).cell b = some c → ∃ x, h.cell b = some x ∧ c.anc = x.anc ∧
      c.kind = x.kind ∧ c.static = x.static ∧ a ∉ c.anc := by
    intro b c e
    rcases gut_some.1 e with ⟨rfl, x, ex, rfl⟩ | ⟨_, ex, na⟩
    · rw [ea] at ex; cases ex
      exact ⟨ca, ea, rfl, rfl, rfl, by rw [aa]; simp⟩
    · exact ⟨c, ex, rfl, rfl, rfl, na⟩
  have fwd : ∀ b x, h.cell b = some x → x.anc = [] → ∃ c, (h.gut a).cell b = some c ∧
      c.anc = [] ∧ c.kind = x.kind ∧ c.static = x.static ∧ (b ≠ a → c = x) := by
    intro b x e ax
    by_cases hb : b = a
    · subst hb
      rw [ea] at e; cases e
      exact ⟨_, self, aa, rfl, rfl, fun n => absurd rfl n⟩
    · exact ⟨x, gut_some.2 (.inr ⟨hb, e, by rw [ax]; simp⟩), ax, rfl, rfl, fun _ => rfl⟩
  constructor
  · intro b c e; obtain ⟨x, ex, _⟩ := back b c e; exact i.lt b x ex
  · exact i.ten
  · intro b c e r hr
    obtain ⟨x, ex, ax, _, _, na⟩ := back b c e
    rw [ax] at hr
    obtain ⟨d, ed, ad, sd⟩ := i.root b x ex r hr
    obtain ⟨d', e', ad', _, sd', _⟩ := fwd r d ed ad
    exact ⟨d', e', ad', by rw [sd', sd]⟩
  · intro b c e hh
    rcases gut_some.1 e with ⟨rfl, x, ex, rfl⟩ | ⟨nb, ex, na⟩
    · rw [ea] at ex; cases ex
      refine ⟨aa, .inr rfl, ?_⟩
      intro b' x' e'
      obtain ⟨_, _, _, _, _, na⟩ := back b' x' e'
      exact na
    · obtain ⟨p, q, z⟩ := i.hollow b c ex hh
      refine ⟨p, .inl q, ?_⟩
      intro b' x' e'
      obtain ⟨y, ey, ay, _⟩ := back b' x' e'
      rw [ay]; exact z b' y ey
  · intro b
    rw [i.owned b]
    constructor
    · rintro ⟨c, e, ac, sc⟩
      obtain ⟨d, ed, ad, _, sd, _⟩ := fwd b c e ac
      exact ⟨d, ed, ad, by rw [sd, sc]⟩
    · rintro ⟨c, e, ac, sc⟩
      obtain ⟨x, ex, ax, _, sx, _⟩ := back b c e
      exact ⟨x, ex, by rw [← ax, ac], by rw [← sx, sc]⟩
  · rintro b (g | rfl)
    · exact i.given b g
    · exact i.lt b ca ea
  · intro b k t
    refine ⟨(i.types b k t).1, fun c e => ?_⟩
    obtain ⟨x, ex, _, kx, _⟩ := back b c e
    rw [kx]; exact (i.types b k t).2 x ex
  · intro b c e d hd
    rcases gut_some.1 e with ⟨rfl, x, ex, rfl⟩ | ⟨nb, ex, na⟩
    · simp at hd
    · obtain ⟨p, q, s, w, v, u⟩ := i.keeps b c ex d hd
      refine ⟨p, q, s, w, v, ?_⟩
      rintro (g | rfl)
      · exact u g
      · exact hu b p ((i.owned b).2 ⟨c, ex, q, s⟩)
  · intro b c e hs
    obtain ⟨x, ex, ax, kx, sx, _⟩ := back b c e
    rw [ax, kx]; exact i.stat b x ex (by rw [← sx, hs])
  · intro b hb
    obtain ⟨c, e, sc, kc, hc⟩ := i.const b hb
    obtain ⟨d, ed, _, kd, sd, heq⟩ := fwd b c e (i.stat b c e sc).1
    have nb : b ≠ a := by rintro rfl; rw [e] at ea; cases ea; rw [sc] at sa; cases sa
    refine ⟨d, ed, by rw [sd, sc], by rw [kd, kc], by rw [heq nb, hc]⟩
  · exact i.ult

theorem insert_some {h : Heap} {c : Cell} {b : Nat} {x : Cell} :
    (h.insert c).cell b = some x ↔ (b = h.next ∧ x = c) ∨ (b ≠ h.next ∧ h.cell b = some x) := by
  unfold Heap.insert
  by_cases hb : b = h.next <;> simp [hb, eq_comm]

/-- A new object for the client. -/
theorem Inv.make {h O G T U} (i : Inv h O G T U) (k : Kind) (ks : List Nat)
    (hk : ∀ d ∈ ks, O d ∧ ¬ G d) (hm : ks ≠ [] → k = .encryptionMediator) :
    Inv (h.insert { kind := k, keeps := ks }) (fun b => O b ∨ b = h.next) G
      (fun b l => T b l ∨ (b = h.next ∧ l = k)) (fun b d => U b d ∨ (b = h.next ∧ d ∈ ks)) := by
  have old : ∀ b x, h.cell b = some x →
      (h.insert { kind := k, keeps := ks }).cell b = some x := by
    intro b x e
    exact insert_some.2 (.inr ⟨Nat.ne_of_lt (i.lt b x e), e⟩)
  constructor
  · intro b c e
    show b < h.next + 1
    rcases insert_some.1 e with ⟨rfl, _⟩ | ⟨_, e⟩
    · omega
    · have := i.lt b c e; omega
  · show 10 ≤ h.next + 1
    have := i.ten; omega
  · intro b c e r hr
    rcases insert_some.1 e with ⟨rfl, rfl⟩ | ⟨_, e⟩
    · simp at hr
    · obtain ⟨d, ed, ad, sd⟩ := i.root b c e r hr
      exact ⟨d, old r d ed, ad, sd⟩
  · intro b c e hh
    rcases insert_some.1 e with ⟨rfl, rfl⟩ | ⟨_, e⟩
    · simp at hh
    · obtain ⟨p, q, z⟩ := i.hollow b c e hh
      refine ⟨p, q, ?_⟩
      intro b' x' e'
      rcases insert_some.1 e' with ⟨rfl, rfl⟩ | ⟨_, e'⟩
      · simp
      · exact z b' x' e'
  · intro b
    constructor
    · rintro (o | rfl)
      · obtain ⟨c, e, ac, sc⟩ := (i.owned b).1 o
        exact ⟨c, old b c e, ac, sc⟩
      · exact ⟨_, insert_some.2 (.inl ⟨rfl, rfl⟩), rfl, rfl⟩
    · rintro ⟨c, e, ac, sc⟩
      rcases insert_some.1 e with ⟨rfl, _⟩ | ⟨_, e⟩
      · exact .inr rfl
      · exact .inl ((i.owned b).2 ⟨c, e, ac, sc⟩)
  · intro b g
    show b < h.next + 1
    have := i.given b g; omega
  · rintro b l (t | ⟨rfl, rfl⟩)
    · refine ⟨Nat.lt_succ_of_lt (i.types b l t).1, fun c e => ?_⟩
      rcases insert_some.1 e with ⟨rfl, _⟩ | ⟨_, e⟩
      · exact absurd (i.types _ l t).1 (Nat.lt_irrefl _)
      · exact (i.types b l t).2 c e
    · refine ⟨Nat.lt_succ_self _, fun c e => ?_⟩
      rcases insert_some.1 e with ⟨_, rfl⟩ | ⟨n, _⟩
      · rfl
      · exact absurd rfl n
  · intro b c e d hd
    rcases insert_some.1 e with ⟨rfl, rfl⟩ | ⟨_, e⟩
    · have hd : d ∈ ks := hd
      refine ⟨.inr ⟨rfl, hd⟩, rfl, rfl, hm (List.ne_nil_of_mem hd), .inl (hk d hd).1, (hk d hd).2⟩
    · obtain ⟨p, q, s, w, v, u⟩ := i.keeps b c e d hd
      exact ⟨.inl p, q, s, w, .inl v, u⟩
  · intro b c e hs
    rcases insert_some.1 e with ⟨rfl, rfl⟩ | ⟨_, e⟩
    · simp at hs
    · exact i.stat b c e hs
  · intro b hb
    obtain ⟨c, e, r⟩ := i.const b hb
    exact ⟨c, old b c e, r⟩
  · rintro m a (u | ⟨rfl, _⟩)
    · exact Nat.lt_succ_of_lt (i.ult m a u)
    · exact Nat.lt_succ_self _

/-- A reference to an object inside `base`. -/
theorem Inv.child {h O G T U} (i : Inv h O G T U) (k : Kind) {base : Nat} {x : Cell}
    (hb : h.cell base = some x) (hh : x.hollow = false) (hs : x.static = false) :
    Inv (h.insert { kind := k, anc := base :: x.anc }) O G
      (fun b l => T b l ∨ (b = h.next ∧ l = k)) U := by
  have old : ∀ b y, h.cell b = some y →
      (h.insert { kind := k, anc := base :: x.anc }).cell b = some y := by
    intro b y e
    exact insert_some.2 (.inr ⟨Nat.ne_of_lt (i.lt b y e), e⟩)
  constructor
  · intro b c e
    show b < h.next + 1
    rcases insert_some.1 e with ⟨rfl, _⟩ | ⟨_, e⟩
    · omega
    · have := i.lt b c e; omega
  · show 10 ≤ h.next + 1
    have := i.ten; omega
  · intro b c e r hr
    rcases insert_some.1 e with ⟨rfl, rfl⟩ | ⟨_, e⟩
    · have hr' : (r = base ∧ x.anc = []) ∨ r ∈ x.anc.getLast? := by
        have hr : r ∈ (base :: x.anc).getLast? := hr
        revert hr
        cases x.anc with
        | nil => intro hr; exact .inl ⟨by simpa [eq_comm] using hr, rfl⟩
        | cons y ys => intro hr; rw [List.getLast?_cons_cons] at hr; exact .inr hr
      rcases hr' with ⟨rfl, ha⟩ | hr'
      · exact ⟨x, old _ _ hb, ha, hs⟩
      · obtain ⟨d, ed, ad, sd⟩ := i.root base x hb r hr'
        exact ⟨d, old r d ed, ad, sd⟩
    · obtain ⟨d, ed, ad, sd⟩ := i.root b c e r hr
      exact ⟨d, old r d ed, ad, sd⟩
  · intro b c e hh'
    rcases insert_some.1 e with ⟨rfl, rfl⟩ | ⟨_, e1⟩
    · simp at hh'
    · obtain ⟨p, q, z⟩ := i.hollow b c e1 hh'
      refine ⟨p, q, ?_⟩
      intro b' x' e'
      rcases insert_some.1 e' with ⟨rfl, rfl⟩ | ⟨_, e'⟩
      · show b ∉ base :: x.anc
        rw [List.mem_cons]
        rintro (rfl | m)
        · rw [hb] at e1; cases e1; rw [hh] at hh'; cases hh'
        · exact z base x hb m
      · exact z b' x' e'
  · intro b
    rw [i.owned b]
    constructor
    · rintro ⟨c, e, ac, sc⟩
      exact ⟨c, old b c e, ac, sc⟩
    · rintro ⟨c, e, ac, sc⟩
      rcases insert_some.1 e with ⟨rfl, rfl⟩ | ⟨_, e⟩
      · simp at ac
      · exact ⟨c, e, ac, sc⟩
  · intro b g
    show b < h.next + 1
    have := i.given b g; omega
  · rintro b l (t | ⟨rfl, rfl⟩)
    · refine ⟨Nat.lt_succ_of_lt (i.types b l t).1, fun c e => ?_⟩
      rcases insert_some.1 e with ⟨rfl, _⟩ | ⟨_, e⟩
      · exact absurd (i.types _ l t).1 (Nat.lt_irrefl _)
      · exact (i.types b l t).2 c e
    · refine ⟨Nat.lt_succ_self _, fun c e => ?_⟩
      rcases insert_some.1 e with ⟨_, rfl⟩ | ⟨n, _⟩
      · rfl
      · exact absurd rfl n
  · intro b c e d hd
    rcases insert_some.1 e with ⟨rfl, rfl⟩ | ⟨_, e⟩
    · simp at hd
    · exact i.keeps b c e d hd
  · intro b c e hs'
    rcases insert_some.1 e with ⟨rfl, rfl⟩ | ⟨_, e⟩
    · simp at hs'
    · exact i.stat b c e hs'
  · intro b hb
    obtain ⟨c, e, r⟩ := i.const b hb
    exact ⟨c, old b c e, r⟩
  · exact fun m a u => Nat.lt_succ_of_lt (i.ult m a u)

/-- Owners after `graft`. -/
def regraft (a c n : Nat) (l : List Nat) : List Nat :=
  if l.contains a then l.takeWhile (fun y => y != a) ++ [c, n] else l

theorem graft_some {h : Heap} {a n b : Nat} {c : Cell} :
    (h.graft a n).cell b = some c ↔
      (b = h.next ∧ ∃ x, h.cell a = some x ∧ c = { x with anc := [n] }) ∨
      (b ≠ h.next ∧ b = a ∧ ∃ x, h.cell a = some x ∧
        c = { x with hollow := true, keeps := [] }) ∨
      (b ≠ h.next ∧ b ≠ a ∧ ∃ x, h.cell b = some x ∧
        c = { x with anc := regraft a h.next n x.anc }) := by
  unfold Heap.graft
  by_cases h1 : b = h.next
  · subst h1
    cases e : h.cell a with
    | none => simp [e]
    | some x => simp [e, eq_comm]
  · by_cases h2 : b = a
    · subst h2
      cases e : h.cell b with
      | none => simp [h1, e]
      | some x => simp [h1, e, eq_comm]
    · simp only [h1, h2, if_false, false_and, false_or, ne_eq, not_false_eq_true, true_and]
      cases e : h.cell b with
      | none => simp
      | some x =>
        simp only [Option.map_some, Option.some.injEq, exists_eq_left', regraft]
        by_cases hc : x.anc.contains a = true
        · simp only [hc, if_true]; exact eq_comm
        · simp only [hc]; simp only [Bool.false_eq_true, if_false]; exact eq_comm

theorem regraft_last {a c n : Nat} {l : List Nat} {r : Nat}
    (h : r ∈ (regraft a c n l).getLast?) : r = n ∨ (r ∈ l.getLast? ∧ a ∉ l) := by
  unfold regraft at h
  by_cases hc : l.contains a = true
  · rw [if_pos hc] at h
    left
    have : (l.takeWhile (fun y => y != a) ++ [c, n]).getLast? = some n := by
      rw [show l.takeWhile (fun y => y != a) ++ [c, n] =
        (l.takeWhile (fun y => y != a) ++ [c]) ++ [n] by simp]
      exact List.getLast?_concat
    rw [this] at h
    exact (Option.some.inj h).symm
  · rw [if_neg hc] at h
    exact .inr ⟨h, by simpa using hc⟩

theorem takeWhile_mem {a x : Nat} : ∀ {l : List Nat}, x ∈ l.takeWhile (fun y => y != a) →
    x ∈ l ∧ x ≠ a
  | [], h => by simp at h
  | y :: l, h => by
    rw [List.takeWhile_cons] at h
    split at h
    · next hy =>
      rcases List.mem_cons.1 h with rfl | h
      · exact ⟨List.mem_cons_self, by simpa using hy⟩
      · obtain ⟨p, q⟩ := takeWhile_mem h
        exact ⟨List.mem_cons_of_mem _ p, q⟩
    · simp at h

theorem regraft_mem {a c n : Nat} {l : List Nat} {x : Nat} (h : x ∈ regraft a c n l) :
    (x ∈ l ∧ x ≠ a) ∨ x = c ∨ x = n := by
  unfold regraft at h
  by_cases hc : l.contains a = true
  · rw [if_pos hc] at h
    rcases List.mem_append.1 h with h | h
    · exact .inl (takeWhile_mem h)
    · right; simpa using h
  · rw [if_neg hc] at h
    refine .inl ⟨h, ?_⟩
    rintro rfl
    exact hc (by simpa using h)

theorem regraft_nil {a c n : Nat} {l : List Nat} : regraft a c n l = [] ↔ l = [] := by
  unfold regraft
  by_cases hc : l.contains a = true
  · rw [if_pos hc]
    constructor
    · intro h; simp at h
    · rintro rfl; simp at hc
  · rw [if_neg hc]

theorem Inv.graft {h O G T U} (i : Inv h O G T U) {a n : Nat} (ha : O a) (ga : ¬ G a)
    (hu : ∀ m, U m a → ¬ O m) (hm : ∀ x, h.cell a = some x → x.kind ≠ .encryptionMediator)
    (hn : O n) (gn : ¬ G n) (na : n ≠ a) :
    Inv (h.graft a n) O (fun b => G b ∨ b = a) T U := by
  obtain ⟨ca, ea, aa, sa⟩ := (i.owned a).1 ha
  obtain ⟨cn, en, an, sn⟩ := (i.owned n).1 hn
  have la : a < h.next := i.lt a ca ea
  have ln : n < h.next := i.lt n cn en
  have hca : ca.hollow = false := by
    cases e : ca.hollow with
    | false => rfl
    | true => exact absurd (i.hollow a ca ea e).2.1 ga
  have hka : ca.keeps = [] := by
    cases e : ca.keeps with
    | nil => rfl
    | cons d ds =>
      exact absurd (i.keeps a ca ea d (by rw [e]; exact List.mem_cons_self)).2.2.2.1 (hm ca ea)
  have case : ∀ b c, (h.graft a n).cell b = some c →
      (b = h.next ∧ c = { ca with anc := [n] }) ∨
      (b = a ∧ c = { ca with hollow := true, keeps := [] }) ∨
      (b ≠ h.next ∧ b ≠ a ∧ ∃ x, h.cell b = some x ∧
        c = { x with anc := regraft a h.next n x.anc }) := by
    intro b c e
    rcases graft_some.1 e with ⟨p, x, ex, q⟩ | ⟨_, p, x, ex, q⟩ | r
    · rw [ea] at ex; cases ex; exact .inl ⟨p, q⟩
    · rw [ea] at ex; cases ex; exact .inr (.inl ⟨p, q⟩)
    · exact .inr (.inr r)
  -- roots stay
  have fwd : ∀ b x, h.cell b = some x → x.anc = [] → ∃ c, (h.graft a n).cell b = some c ∧
      c.anc = [] ∧ c.kind = x.kind ∧ c.static = x.static ∧ (b ≠ a → c.hollow = x.hollow) := by
    intro b x e ax
    have lb := i.lt b x e
    by_cases hb : b = a
    · subst hb
      rw [ea] at e; cases e
      exact ⟨_, graft_some.2 (.inr (.inl ⟨Nat.ne_of_lt lb, rfl, ca, ea, rfl⟩)), aa, rfl, rfl,
        fun n => absurd rfl n⟩
    · exact ⟨_, graft_some.2 (.inr (.inr ⟨Nat.ne_of_lt lb, hb, x, e, rfl⟩)),
        regraft_nil.2 ax, rfl, rfl, fun _ => rfl⟩
  -- `a` owns nothing any more; nor does anything hollow
  have free : ∀ t, t ≠ h.next → t ≠ n → (t = a ∨ ∀ b x, h.cell b = some x → t ∉ x.anc) →
      ∀ b c, (h.graft a n).cell b = some c → t ∉ c.anc := by
    intro t t1 t2 t3 b c e m
    rcases case b c e with ⟨_, rfl⟩ | ⟨_, rfl⟩ | ⟨_, _, x, ex, rfl⟩
    · have m : t = n := by simpa using m
      exact t2 m
    · have m : t ∈ ca.anc := m
      rw [aa] at m; simp at m
    · rcases regraft_mem m with ⟨m, ne⟩ | m | m
      · rcases t3 with t3 | t3
        · exact ne t3
        · exact t3 b x ex m
      · exact t1 m
      · exact t2 m
  constructor
  · intro b c e
    show b < h.next + 1
    rcases case b c e with ⟨rfl, _⟩ | ⟨rfl, _⟩ | ⟨_, _, x, ex, _⟩
    · omega
    · omega
    · have := i.lt b x ex; omega
  · show 10 ≤ h.next + 1
    have := i.ten; omega
  · intro b c e r hr
    have rootN : ∃ d, (h.graft a n).cell n = some d ∧ d.anc = [] ∧ d.static = false := by
      obtain ⟨d, ed, ad, _, sd, _⟩ := fwd n cn en an
      exact ⟨d, ed, ad, by rw [sd, sn]⟩
    rcases case b c e with ⟨_, rfl⟩ | ⟨_, rfl⟩ | ⟨_, _, x, ex, rfl⟩
    · have hr : n = r := by simpa using hr
      subst hr; exact rootN
    · have hr : r ∈ ca.anc.getLast? := hr
      rw [aa] at hr; simp at hr
    · rcases regraft_last hr with rfl | ⟨hr, _⟩
      · exact rootN
      · obtain ⟨d, ed, ad, sd⟩ := i.root b x ex r hr
        obtain ⟨d', ed', ad', _, sd', _⟩ := fwd r d ed ad
        exact ⟨d', ed', ad', by rw [sd', sd]⟩
  · intro b c e hh
    rcases case b c e with ⟨_, rfl⟩ | ⟨rfl, rfl⟩ | ⟨nb, _, x, ex, rfl⟩
    · have hh : ca.hollow = true := hh
      rw [hca] at hh; cases hh
    · exact ⟨aa, .inr rfl, free _ (Nat.ne_of_lt la) (fun e => na e.symm) (.inl rfl)⟩
    · obtain ⟨p, q, z⟩ := i.hollow b x ex hh
      refine ⟨regraft_nil.2 p, .inl q, free b nb ?_ (.inr z)⟩
      rintro rfl; exact gn q
  · intro b
    rw [i.owned b]
    constructor
    · rintro ⟨c, e, ac, sc⟩
      obtain ⟨d, ed, ad, _, sd, _⟩ := fwd b c e ac
      exact ⟨d, ed, ad, by rw [sd, sc]⟩
    · rintro ⟨c, e, ac, sc⟩
      rcases case b c e with ⟨_, rfl⟩ | ⟨rfl, rfl⟩ | ⟨_, _, x, ex, rfl⟩
      · simp at ac
      · exact ⟨ca, ea, aa, sa⟩
      · exact ⟨x, ex, regraft_nil.1 ac, sc⟩
  · rintro b (g | rfl)
    · show b < h.next + 1
      have := i.given b g; omega
    · show b < h.next + 1
      omega
  · intro b k t
    refine ⟨Nat.lt_succ_of_lt (i.types b k t).1, fun c e => ?_⟩
    rcases case b c e with ⟨rfl, rfl⟩ | ⟨rfl, rfl⟩ | ⟨_, _, x, ex, rfl⟩
    · exact absurd (i.types _ k t).1 (Nat.lt_irrefl _)
    · exact (i.types _ k t).2 ca ea
    · exact (i.types b k t).2 x ex
  · intro b c e d hd
    rcases case b c e with ⟨_, rfl⟩ | ⟨_, rfl⟩ | ⟨_, _, x, ex, rfl⟩
    · have hd : d ∈ ca.keeps := hd
      rw [hka] at hd; simp at hd
    · simp at hd
    · obtain ⟨p, q, s, w, v, u⟩ := i.keeps b x ex d hd
      refine ⟨p, regraft_nil.2 q, s, w, v, ?_⟩
      rintro (g | rfl)
      · exact u g
      · exact hu b p ((i.owned b).2 ⟨x, ex, q, s⟩)
  · intro b c e hs
    rcases case b c e with ⟨_, rfl⟩ | ⟨_, rfl⟩ | ⟨_, _, x, ex, rfl⟩
    · have hs : ca.static = true := hs
      rw [sa] at hs; cases hs
    · have hs : ca.static = true := hs
      rw [sa] at hs; cases hs
    · obtain ⟨p, q⟩ := i.stat b x ex hs
      exact ⟨regraft_nil.2 p, q⟩
  · intro b hb
    obtain ⟨c, e, sc, kc, hc⟩ := i.const b hb
    obtain ⟨d, ed, _, kd, sd, hd⟩ := fwd b c e (i.stat b c e sc).1
    have nb : b ≠ a := by rintro rfl; rw [e] at ea; cases ea; rw [sc] at sa; cases sa
    exact ⟨d, ed, by rw [sd, sc], by rw [kd, kc], by rw [hd nb, hc]⟩
  · exact fun m a u => Nat.lt_succ_of_lt (i.ult m a u)

theorem adopt_some {h : Heap} {a n b : Nat} {c : Cell} :
    (h.adopt a n).cell b = some c ↔ ∃ x, h.cell b = some x ∧
      ((b = a ∨ a ∈ x.anc) ∧ c = { x with anc := x.anc ++ [n] } ∨
        (b ≠ a ∧ a ∉ x.anc) ∧ c = x) := by
  unfold Heap.adopt
  cases e : h.cell b with
  | none => simp [e]
  | some x =>
    simp only [e, Option.map_some, Option.some.injEq, exists_eq_left']
    by_cases hw : h.within b a = true
    · simp only [hw, if_true]
      obtain ⟨y, ey, hy⟩ := within_iff.1 hw
      rw [e] at ey; cases ey
      constructor
      · intro r; exact .inl ⟨hy, r.symm⟩
      · rintro (⟨_, r⟩ | ⟨⟨n1, n2⟩, _⟩)
        · exact r.symm
        · rcases hy with r | r
          · exact absurd r n1
          · exact absurd r n2
    · simp only [hw]
      have hn : b ≠ a ∧ a ∉ x.anc :=
        ⟨fun r => hw (within_iff.2 ⟨x, e, .inl r⟩), fun r => hw (within_iff.2 ⟨x, e, .inr r⟩)⟩
      constructor
      · intro r
        exact .inr ⟨hn, by simpa using r.symm⟩
      · rintro (⟨r | r, _⟩ | ⟨_, r⟩)
        · exact absurd r hn.1
        · exact absurd r hn.2
        · simpa using r.symm

theorem Inv.adopt {h O G T U} (i : Inv h O G T U) {a n : Nat} (ha : O a) (ga : ¬ G a)
    (hu : ∀ m, U m a → ¬ O m) (hm : ∀ x, h.cell a = some x → x.kind ≠ .encryptionMediator)
    (hn : O n) (gn : ¬ G n) (na : n ≠ a) :
    Inv (h.adopt a n) (fun b => O b ∧ b ≠ a) G T U := by
  obtain ⟨ca, ea, aa, sa⟩ := (i.owned a).1 ha
  obtain ⟨cn, en, an, sn⟩ := (i.owned n).1 hn
  have fwd : ∀ b x, h.cell b = some x → x.anc = [] → b ≠ a →
      (h.adopt a n).cell b = some x := by
    intro b x e ax nb
    exact adopt_some.2 ⟨x, e, .inr ⟨⟨nb, by rw [ax]; simp⟩, rfl⟩⟩
  constructor
  · intro b c e
    obtain ⟨x, ex, _⟩ := adopt_some.1 e
    exact i.lt b x ex
  · exact i.ten
  · intro b c e r hr
    obtain ⟨x, ex, ⟨_, rfl⟩ | ⟨⟨n1, n2⟩, rfl⟩⟩ := adopt_some.1 e
    · have hr : n = r := by simpa using hr
      subst hr
      exact ⟨cn, fwd n cn en an na, an, sn⟩
    · obtain ⟨d, ed, ad, sd⟩ := i.root b c ex r hr
      refine ⟨d, fwd r d ed ad ?_, ad, sd⟩
      rintro rfl; exact n2 (mem_of_getLast? hr)
  · intro b c e hh
    obtain ⟨x, ex, ⟨hb, rfl⟩ | ⟨⟨n1, n2⟩, rfl⟩⟩ := adopt_some.1 e
    · exfalso
      obtain ⟨p, q, z⟩ := i.hollow b x ex hh
      rcases hb with rfl | hb
      · exact ga q
      · rw [p] at hb; simp at hb
    · obtain ⟨p, q, z⟩ := i.hollow b c ex hh
      refine ⟨p, q, ?_⟩
      intro b' c' e'
      obtain ⟨x', ex', ⟨_, rfl⟩ | ⟨_, rfl⟩⟩ := adopt_some.1 e'
      · show b ∉ x'.anc ++ [n]
        rw [List.mem_append]
        rintro (m | m)
        · exact z b' x' ex' m
        · have m : b = n := by simpa using m
          subst m; exact gn q
      · exact z b' c' ex'
  · intro b
    constructor
    · rintro ⟨o, nb⟩
      obtain ⟨c, e, ac, sc⟩ := (i.owned b).1 o
      exact ⟨c, fwd b c e ac nb, ac, sc⟩
    · rintro ⟨c, e, ac, sc⟩
      obtain ⟨x, ex, ⟨_, rfl⟩ | ⟨⟨n1, _⟩, rfl⟩⟩ := adopt_some.1 e
      · simp at ac
      · exact ⟨(i.owned b).2 ⟨c, ex, ac, sc⟩, n1⟩
  · exact i.given
  · intro b k t
    refine ⟨(i.types b k t).1, fun c e => ?_⟩
    obtain ⟨x, ex, ⟨_, rfl⟩ | ⟨_, rfl⟩⟩ := adopt_some.1 e
    · exact (i.types b k t).2 x ex
    · exact (i.types b k t).2 c ex
  · intro b c e d hd
    obtain ⟨x, ex, ⟨hb, rfl⟩ | ⟨⟨n1, _⟩, rfl⟩⟩ := adopt_some.1 e
    · exfalso
      obtain ⟨p, q, s, w, v, u⟩ := i.keeps b x ex d hd
      rcases hb with rfl | hb
      · exact hm x ex w
      · rw [q] at hb; simp at hb
    · obtain ⟨p, q, s, w, v, u⟩ := i.keeps b c ex d hd
      refine ⟨p, q, s, w, ⟨v, ?_⟩, u⟩
      rintro rfl
      exact hu b p ((i.owned b).2 ⟨c, ex, q, s⟩)
  · intro b c e hs
    obtain ⟨x, ex, ⟨hb, rfl⟩ | ⟨_, rfl⟩⟩ := adopt_some.1 e
    · exfalso
      rcases hb with rfl | hb
      · rw [ea] at ex; cases ex
        have hs : ca.static = true := hs
        rw [sa] at hs; cases hs
      · rw [(i.stat b x ex hs).1] at hb; simp at hb
    · exact i.stat b c ex hs
  · intro b hb
    obtain ⟨c, e, sc, kc, hc⟩ := i.const b hb
    have nb : b ≠ a := by rintro rfl; rw [e] at ea; cases ea; rw [sc] at sa; cases sa
    exact ⟨c, fwd b c e (i.stat b c e sc).1 nb, sc, kc, hc⟩
  · exact i.ult

/-- A handle is given away although its object is kept. -/
theorem Inv.give {h O G T U} (i : Inv h O G T U) {a : Nat} (ha : O a)
    (hu : ∀ m, U m a → ¬ O m) : Inv h O (fun b => G b ∨ b = a) T U where
  lt := i.lt
  ten := i.ten
  root := i.root
  hollow b c e hh := by
    obtain ⟨p, q, z⟩ := i.hollow b c e hh
    exact ⟨p, .inl q, z⟩
  owned := i.owned
  given := by
    obtain ⟨ca, ea, _⟩ := (i.owned a).1 ha
    rintro b (g | rfl)
    · exact i.given b g
    · exact i.lt b ca ea
  types := i.types
  keeps b c e d hd := by
    obtain ⟨p, q, s, w, v, u⟩ := i.keeps b c e d hd
    refine ⟨p, q, s, w, v, ?_⟩
    rintro (g | rfl)
    · exact u g
    · exact hu b p ((i.owned b).2 ⟨c, e, q, s⟩)
  stat := i.stat
  const := i.const
  ult := i.ult

/-- A type becomes known. -/
theorem Inv.learn {h O G T U} (i : Inv h O G T U) {a : Nat} {k : Kind} {c : Cell}
    (e : h.cell a = some c) (hk : c.kind = k) :
    Inv h O G (fun b l => T b l ∨ (b = a ∧ l = k)) U where
  lt := i.lt
  ten := i.ten
  root := i.root
  hollow := i.hollow
  owned := i.owned
  given := i.given
  types := by
    rintro b l (t | ⟨rfl, rfl⟩)
    · exact i.types b l t
    · refine ⟨i.lt b c e, fun c' e' => ?_⟩
      rw [e] at e'; cases e'; exact hk
  keeps := i.keeps
  stat := i.stat
  const := i.const
  ult := i.ult

/-! ### Sequences -/

theorem Inv.deletes {T U} {G : Nat → Prop} : ∀ (l : List Nat) {h : Heap} {O : Nat → Prop},
    Inv h O G T U → l.Nodup → (∀ a ∈ l, O a ∧ ∀ m, U m a → ¬ O m) →
    Inv (l.foldl Heap.delete h) (fun b => O b ∧ b ∉ l) G T U
  | [], _, _, i, _, _ => i.congr (by simp) (fun _ => Iff.rfl) (fun _ _ t => t)
      (fun _ _ => Iff.rfl)
  | a :: l, h, O, i, nd, hl => by
    obtain ⟨oa, ua⟩ := hl a List.mem_cons_self
    have i' := i.delete oa ua
    have nd' := List.nodup_cons.1 nd
    have := Inv.deletes l i' nd'.2 (by
      intro b hb
      obtain ⟨ob, ub⟩ := hl b (List.mem_cons_of_mem _ hb)
      exact ⟨⟨ob, fun e => nd'.1 (e ▸ hb)⟩, fun m u o => ub m u o.1⟩)
    refine this.congr ?_ (fun _ => Iff.rfl) (fun _ _ t => t) (fun _ _ => Iff.rfl)
    intro b
    simp only [List.mem_cons, not_or]
    tauto

theorem Inv.gives {T U} {O : Nat → Prop} {h : Heap} : ∀ (l : List Nat) {G : Nat → Prop},
    Inv h O G T U → (∀ a ∈ l, O a ∧ ∀ m, U m a → ¬ O m) →
    Inv h O (fun b => G b ∨ b ∈ l) T U
  | [], _, i, _ => i.congr (fun _ => Iff.rfl) (by simp) (fun _ _ t => t) (fun _ _ => Iff.rfl)
  | a :: l, G, i, hl => by
    obtain ⟨oa, ua⟩ := hl a List.mem_cons_self
    have := Inv.gives l (i.give oa ua) fun b hb => hl b (List.mem_cons_of_mem _ hb)
    refine this.congr (fun _ => Iff.rfl) ?_ (fun _ _ t => t) (fun _ _ => Iff.rfl)
    intro b
    simp only [List.mem_cons]
    tauto

theorem Inv.guts {T U} {O : Nat → Prop} : ∀ (l : List Nat) {h : Heap} {G : Nat → Prop},
    Inv h O G T U → (∀ a ∈ l, O a ∧ G a ∧ ∀ m, U m a → ¬ O m) →
    Inv (l.foldl Heap.gut h) O G T U
  | [], _, _, i, _ => i
  | a :: l, h, G, i, hl => by
    obtain ⟨oa, ga, ua⟩ := hl a List.mem_cons_self
    have i' : Inv (h.gut a) O G T U := (i.gut oa ua).congr (fun _ => Iff.rfl)
      (fun b => ⟨fun g => g.elim id (fun e => e ▸ ga), .inl⟩) (fun _ _ t => t)
      (fun _ _ => Iff.rfl)
    exact Inv.guts l i' fun b hb => hl b (List.mem_cons_of_mem _ hb)

/-- The kind of a live object does not change. -/
theorem graft_kind {h : Heap} {a n b : Nat} {x : Cell} (hb : b < h.next)
    (e : (h.graft a n).cell b = some x) : ∃ y, h.cell b = some y ∧ y.kind = x.kind := by
  rcases graft_some.1 e with ⟨p, _⟩ | ⟨_, rfl, y, ey, rfl⟩ | ⟨_, _, y, ey, rfl⟩
  · omega
  · exact ⟨y, ey, rfl⟩
  · exact ⟨y, ey, rfl⟩

theorem Inv.grafts {T U} {O : Nat → Prop} {n : Nat} : ∀ (l : List Nat) {h : Heap}
    {G : Nat → Prop}, Inv h O G T U → l.Nodup → O n → ¬ G n → n ∉ l →
    (∀ a ∈ l, O a ∧ ¬ G a ∧ (∀ m, U m a → ¬ O m) ∧
      ∀ x, h.cell a = some x → x.kind ≠ .encryptionMediator) →
    Inv (l.foldl (fun h a => h.graft a n) h) O (fun b => G b ∨ b ∈ l) T U
  | [], _, _, i, _, _, _, _, _ => i.congr (fun _ => Iff.rfl) (by simp) (fun _ _ t => t)
      (fun _ _ => Iff.rfl)
  | a :: l, h, G, i, nd, on, gn, nl, hl => by
    obtain ⟨oa, ga, ua, ma⟩ := hl a List.mem_cons_self
    have na : n ≠ a := fun e => nl (e ▸ List.mem_cons_self)
    have nl' : n ∉ l := fun m => nl (List.mem_cons_of_mem _ m)
    have nd' := List.nodup_cons.1 nd
    have := Inv.grafts l (i.graft oa ga ua ma on gn na) nd'.2 on
      (by rintro (g | e); exacts [gn g, na e]) nl' (by
        intro b hb
        obtain ⟨ob, gb, ub, mb⟩ := hl b (List.mem_cons_of_mem _ hb)
        refine ⟨ob, ?_, ub, ?_⟩
        · rintro (g | rfl)
          · exact gb g
          · exact nd'.1 hb
        · intro x e
          obtain ⟨c, ec, _⟩ := (i.owned b).1 ob
          obtain ⟨y, ey, ky⟩ := graft_kind (i.lt b c ec) e
          rw [← ky]; exact mb y ey)
    refine this.congr (fun _ => Iff.rfl) ?_ (fun _ _ t => t) (fun _ _ => Iff.rfl)
    intro b
    simp only [List.mem_cons]
    tauto

theorem adopt_kind {h : Heap} {a n b : Nat} {x : Cell}
    (e : (h.adopt a n).cell b = some x) : ∃ y, h.cell b = some y ∧ y.kind = x.kind := by
  obtain ⟨y, ey, ⟨_, rfl⟩ | ⟨_, rfl⟩⟩ := adopt_some.1 e
  · exact ⟨y, ey, rfl⟩
  · exact ⟨_, ey, rfl⟩

theorem Inv.adopts {T U} {G : Nat → Prop} {n : Nat} : ∀ (l : List Nat) {h : Heap}
    {O : Nat → Prop}, Inv h O G T U → l.Nodup → O n → ¬ G n → n ∉ l →
    (∀ a ∈ l, O a ∧ ¬ G a ∧ (∀ m, U m a → ¬ O m) ∧
      ∀ x, h.cell a = some x → x.kind ≠ .encryptionMediator) →
    Inv (l.foldl (fun h a => h.adopt a n) h) (fun b => O b ∧ b ∉ l) G T U
  | [], _, _, i, _, _, _, _, _ => i.congr (by simp) (fun _ => Iff.rfl) (fun _ _ t => t)
      (fun _ _ => Iff.rfl)
  | a :: l, h, O, i, nd, on, gn, nl, hl => by
    obtain ⟨oa, ga, ua, ma⟩ := hl a List.mem_cons_self
    have na : n ≠ a := fun e => nl (e ▸ List.mem_cons_self)
    have nl' : n ∉ l := fun m => nl (List.mem_cons_of_mem _ m)
    have nd' := List.nodup_cons.1 nd
    have := Inv.adopts l (i.adopt oa ga ua ma on gn na) nd'.2 ⟨on, na⟩ gn nl' (by
        intro b hb
        obtain ⟨ob, gb, ub, mb⟩ := hl b (List.mem_cons_of_mem _ hb)
        refine ⟨⟨ob, fun e => nd'.1 (e ▸ hb)⟩, gb, fun m u o => ub m u o.1, ?_⟩
        intro x e
        obtain ⟨y, ey, ky⟩ := adopt_kind e
        rw [← ky]; exact mb y ey)
    refine this.congr ?_ (fun _ => Iff.rfl) (fun _ _ t => t) (fun _ _ => Iff.rfl)
    intro b
    simp only [List.mem_cons, not_or]
    tauto

theorem grafts_kind {n : Nat} : ∀ (l : List Nat) {h : Heap} {b : Nat} {x : Cell}, b < h.next →
    (l.foldl (fun h a => h.graft a n) h).cell b = some x →
    ∃ y, h.cell b = some y ∧ y.kind = x.kind
  | [], _, _, x, _, e => ⟨x, e, rfl⟩
  | a :: l, h, b, x, hb, e => by
    obtain ⟨y, ey, ky⟩ := grafts_kind l (h := h.graft a n) (Nat.lt_succ_of_lt hb) e
    obtain ⟨z, ez, kz⟩ := graft_kind hb ey
    exact ⟨z, ez, kz.trans ky⟩

/-! ### Handles of a call -/

theorem mem_pairs_param : ∀ {ps : List Param} {as : Args} {p : Param} {x : Option Nat},
    (p, x) ∈ pairs ps as → p ∈ ps
  | [], _, _, _, h => by simp [pairs] at h
  | _ :: _, [], _, _, h => by simp [pairs] at h
  | q :: ps, a :: as, p, x, h => by
    simp only [pairs, List.mem_append, List.mem_map, Prod.mk.injEq] at h
    rcases h with ⟨_, _, rfl, _⟩ | h
    · exact List.mem_cons_self
    · exact List.mem_cons_of_mem _ (mem_pairs_param h)

theorem mem_handles {ps : List Param} {as : Args} {p : Param} {a : Nat} :
    (p, a) ∈ handles ps as ↔ (p, some a) ∈ pairs ps as := by
  unfold handles
  simp only [List.mem_filterMap, Option.map_eq_some_iff, Prod.mk.injEq]
  constructor
  · rintro ⟨⟨q, x⟩, m, b, hb, rfl, rfl⟩
    simp only at hb
    subst hb; exact m
  · intro m; exact ⟨(p, some a), m, a, rfl, rfl, rfl⟩

theorem mem_usedAs {u : Use} {ps : List Param} {as : Args} {a : Nat} :
    a ∈ usedAs u ps as ↔ ∃ p, (p, a) ∈ handles ps as ∧ p.use = u := by
  unfold usedAs
  simp only [List.mem_filterMap]
  constructor
  · rintro ⟨⟨p, b⟩, m, e⟩
    simp only at e
    split at e
    · next hu => cases e; exact ⟨p, m, hu⟩
    · cases e
  · rintro ⟨p, m, hu⟩
    exact ⟨(p, a), m, by simp [hu]⟩

theorem usedAs_nil {u : Use} {ps : List Param} {as : Args} (h : ∀ p ∈ ps, p.use ≠ u) :
    usedAs u ps as = [] := by
  rw [List.eq_nil_iff_forall_not_mem]
  intro a m
  obtain ⟨p, m, hu⟩ := mem_usedAs.1 m
  exact h p (mem_pairs_param (mem_handles.1 m)) hu

/-- Invariant in terms of what the client knows. -/
def InvC (h : Heap) (cl : Client) : Prop :=
  Inv h (fun a => a ∈ cl.owned) (fun a => a ∈ cl.given) (fun a k => (a, k) ∈ cl.types)
    (fun m a => (m, a) ∈ cl.uses)

theorem InvC.init : InvC Heap.init {} :=
  Inv.init.congr (by simp) (by simp) (by simp) (by simp)

theorem mem_after_owned {cl : Client} {c : Call} {out : Option Nat} {b : Nat} :
    b ∈ (cl.after c out).owned ↔
      ((out = some b ∧ c.fn.outOwned = true) ∨ (b ∈ cl.owned ∧ b ∉ c.used .free)) ∧
        b ∉ c.used .own ∧ b ∉ c.used .sink := by
  cases out with
  | none => simp [Client.after, Client.afterDoc]; tauto
  | some a =>
    by_cases ho : c.fn.outOwned = true
    · simp [Client.after, Client.afterDoc, ho, @eq_comm _ a b]
    · simp [Client.after, Client.afterDoc, ho]; tauto

theorem mem_after_given {cl : Client} {c : Call} {out : Option Nat} {b : Nat} :
    b ∈ (cl.after c out).given ↔ b ∈ cl.given ∨ b ∈ c.used .move := by
  simp [Client.after, or_comm]

theorem mem_after_types {cl : Client} {c : Call} {out : Option Nat} {b : Nat} {k : Kind} :
    (b, k) ∈ (cl.after c out).types ↔
      (b, k) ∈ cl.types ∨ (out = some b ∧ c.fn.outType = some k) := by
  cases out with
  | none => simp [Client.after, Client.afterDoc]
  | some a =>
    cases ht : c.fn.outType with
    | none => simp [Client.after, Client.afterDoc, ht]
    | some l => simp [Client.after, Client.afterDoc, ht, @eq_comm _ a b, @eq_comm _ l k]; tauto

theorem mem_after_uses {cl : Client} {c : Call} {out : Option Nat} {m a : Nat} :
    (m, a) ∈ (cl.after c out).uses ↔
      (m, a) ∈ cl.uses ∨ (out = some m ∧ c.fn.keeps = true ∧ a ∈ c.used .read) := by
  cases out with
  | none => simp [Client.after]
  | some b =>
    by_cases hk : c.fn.keeps = true
    · simp only [Client.after, hk, if_true, List.mem_append, List.mem_map, Prod.mk.injEq,
        Option.some.injEq, true_and]
      constructor
      · rintro (⟨x, hx, rfl, rfl⟩ | h)
        · exact .inr ⟨rfl, hx⟩
        · exact .inl h
      · rintro (h | ⟨rfl, hx⟩)
        · exact .inr h
        · exact .inl ⟨a, hx, rfl, rfl⟩
    · simp [Client.after, hk]

/-- The objects kept by others are intact. -/
theorem Inv.intact {h O G T U} (i : Inv h O G T U) {a : Nat} (ga : ¬ G a) :
    h.intact a = true := by
  unfold Heap.intact
  rw [List.all_eq_true]
  intro b _
  cases e : h.cell b with
  | none => rfl
  | some c =>
    simp only [Bool.not_eq_true', Bool.and_eq_false_iff]
    by_cases hh : c.hollow = true
    · left
      obtain ⟨p, q, _⟩ := i.hollow b c e hh
      rw [Bool.eq_false_iff]
      intro w
      obtain ⟨x, ex, hx⟩ := within_iff.1 w
      rw [e] at ex; cases ex
      rcases hx with rfl | hx
      · exact ga q
      · rw [p] at hx; simp at hx
    · right; simpa using hh

theorem Inv.usable {h O G T U} (i : Inv h O G T U) {a : Nat} {c : Cell} {k : Kind}
    (e : h.cell a = some c) (hk : c.kind = k) (ga : ¬ G a) : h.usable k a = true := by
  unfold Heap.usable
  simp only [e, Bool.and_eq_true, beq_iff_eq]
  refine ⟨⟨hk, i.intact ga⟩, ?_⟩
  rw [List.all_eq_true]
  intro b _
  cases eb : h.cell b with
  | none => rfl
  | some x =>
    simp only [Bool.or_eq_true, List.all_eq_true]
    right
    intro d hd
    obtain ⟨_, _, _, _, od, gd⟩ := i.keeps b x eb d hd
    obtain ⟨cd, ed, _⟩ := (i.owned d).1 od
    rw [ed, i.intact gd]; rfl

section step

variable {h : Heap} {cl : Client} {c : Call}

theorem kind_of (i : InvC h cl) (hc : Careful h cl c) {p a} (m : (p, a) ∈ c.handles) :
    ∃ x, h.cell a = some x ∧ x.kind = p.cast := by
  have hs : (h.cell a).isSome := (hc.alive p a m).elim
    (fun o => by obtain ⟨x, e, _⟩ := (i.owned a).1 o; rw [e]; rfl) id
  obtain ⟨x, e⟩ := Option.isSome_iff_exists.1 hs
  refine ⟨x, e, ?_⟩
  rw [(i.types a p.decl (hc.typed p a m)).2 x e]
  have w := hc.wellTyped
  unfold Fn.wellTyped at w
  rw [Bool.and_eq_true, List.all_eq_true] at w
  simpa using w.1 p (mem_pairs_param (mem_handles.1 m))

theorem defined_of (i : InvC h cl) (hc : Careful h cl c) {p a} (m : (p, a) ∈ c.handles) :
    defined h p a = true := by
  obtain ⟨x, e, hk⟩ := kind_of i hc m
  have hasKind : h.hasKind p.cast a = true := by simp [Heap.hasKind, e, hk]
  have us : p.use ≠ .free → h.usable p.cast a = true :=
    fun hf => i.usable e hk (hc.notGiven p a m hf)
  have root : a ∈ cl.owned → h.isRoot a = true := by
    intro o
    obtain ⟨y, ey, ay, sy⟩ := (i.owned a).1 o
    simp [Heap.isRoot, ey, ay, sy]
  unfold defined
  cases hu : p.use with
  | read => exact us (by rw [hu]; simp)
  | move => exact hasKind
  | own =>
    simp only [Bool.and_eq_true]
    exact ⟨us (by rw [hu]; simp), root (hc.gave p a m (by rw [hu]; simp))⟩
  | sink =>
    simp only [Bool.and_eq_true]
    exact ⟨us (by rw [hu]; simp), root (hc.gave p a m (by rw [hu]; simp))⟩
  | free =>
    simp only [Bool.and_eq_true]
    exact ⟨hasKind, root (hc.freed p a m hu)⟩

/-- What holds of a handle that is given away. -/
theorem gives_of (i : InvC h cl) (hc : Careful h cl c) {u : Use} {a : Nat} (m : a ∈ c.used u)
    (h1 : u ≠ .read) : a ∈ cl.owned ∧ (∀ m, (m, a) ∈ cl.uses → m ∉ cl.owned) ∧ a < h.next := by
  obtain ⟨p, m, hu⟩ := mem_usedAs.1 m
  rw [← hu] at h1
  have o := hc.gave p a m h1
  obtain ⟨y, ey, _⟩ := (i.owned a).1 o
  exact ⟨o, fun n hn => hc.inUse p a m h1 n hn, i.lt a y ey⟩

theorem ok_of (hc : Careful h cl c) : c.fn.ok = true :=
  List.all_eq_true.1 table_ok c.fn hc.mem

/-- Nothing is given away or freed: what the client knows only grows. -/
theorem InvC.same (i : InvC h cl) (hf : c.used .free = []) (ho : c.used .own = [])
    (hs : c.used .sink = []) (hm : c.used .move = []) (out : Option Nat)
    (hout : ∀ b k, out = some b → c.fn.outOwned = false ∧ c.fn.keeps = false ∧
      (c.fn.outType = some k → ∃ x, h.cell b = some x ∧ x.kind = k)) :
    InvC h (cl.after c out) := by
  have base : Inv h (fun a => a ∈ (cl.after c out).owned) (fun a => a ∈ (cl.after c out).given)
      (fun a k => (a, k) ∈ cl.types) (fun m a => (m, a) ∈ (cl.after c out).uses) := by
    refine Inv.congr i ?_ ?_ (fun _ _ t => t) ?_
    · intro a
      rw [mem_after_owned, hf, ho, hs]
      constructor
      · intro o; exact ⟨.inr ⟨o, by simp⟩, by simp, by simp⟩
      · rintro ⟨⟨e, hw⟩ | ⟨o, _⟩, _⟩
        · have := (hout a .text e).1
          rw [hw] at this; cases this
        · exact o
    · intro a; rw [mem_after_given, hm]; simp
    · intro m a
      rw [mem_after_uses]
      constructor
      · exact .inl
      · rintro (h | ⟨e, hk, _⟩)
        · exact h
        · have := (hout m .text e).2.1
          rw [hk] at this; cases this
  cases out with
  | none =>
    exact base.congr (fun _ => Iff.rfl) (fun _ => Iff.rfl)
      (fun a k t => (mem_after_types.1 t).elim id (fun e => by simp at e)) (fun _ _ => Iff.rfl)
  | some b =>
    cases ht : c.fn.outType with
    | none =>
      exact base.congr (fun _ => Iff.rfl) (fun _ => Iff.rfl)
        (fun a k t => (mem_after_types.1 t).elim id (fun e => by simp [ht] at e))
        (fun _ _ => Iff.rfl)
    | some k =>
      obtain ⟨x, ex, kx⟩ := (hout b k rfl).2.2 ht
      refine (base.learn ex kx).congr (fun _ => Iff.rfl) (fun _ => Iff.rfl) ?_
        (fun _ _ => Iff.rfl)
      intro a l t
      rcases mem_after_types.1 t with t | ⟨e, hl⟩
      · exact .inl t
      · refine .inr ⟨(Option.some.inj e).symm, ?_⟩
        rw [ht] at hl; exact (Option.some.inj hl).symm

end step

end EG.CApi
