import Verif.Lemmas.CApiStep

/-!
# Lemmas on the C interface: concrete sequences of calls

The rules are decidable for a given call; sequences of calls can be run in the kernel.
-/

namespace EG.CApi

/-- The first function with this name. -/
def fnOf (n : String) : Fn :=
  (table.find? (fun f => f.name == n)).getD ⟨"", "", 0, [], .none, .noexcept, false⟩

/-- A call by name. -/
def call (n : String) (as : Args) (oc : Oc := .fresh) : Call := ⟨fnOf n, as, oc⟩

def docOk (h : Heap) (cl : Client) (c : Call) : Bool :=
  decide (c.fn ∈ table) && shaped c.fn.params c.args &&
  (pairs c.fn.params c.args).all (fun x => x.2.isSome || x.1.null != .deref) &&
  c.handles.all fun x => (cl.owned.contains x.2 || (h.cell x.2).isSome) && cl.types.contains (x.2, x.1.decl) &&
    (x.1.use != .free || cl.owned.contains x.2)

theorem docOk_sound {h cl c} (e : docOk h cl c = true) : Documented h cl c := by
  unfold docOk at e
  simp only [Bool.and_eq_true, decide_eq_true_eq, List.all_eq_true, Bool.or_eq_true, bne_iff_ne,
    ne_eq, List.contains_iff_mem] at e
  obtain ⟨⟨⟨e1, e2⟩, e3⟩, e4⟩ := e
  exact ⟨e1, e2, fun p m => (e3 _ m).resolve_left (by simp), fun p a m => (e4 _ m).1.1,
    fun p a m => (e4 _ m).1.2, fun p a m u => (e4 _ m).2.resolve_left (fun n => n u)⟩

def carefulOk (h : Heap) (cl : Client) (c : Call) : Bool :=
  docOk h cl c && c.fn.wellTyped &&
  c.handles.all (fun x => (x.1.use == .free || !cl.given.contains x.2) &&
    (x.1.use == .read || (cl.owned.contains x.2 &&
      cl.uses.all fun u => !(u.2 == x.2) || !cl.owned.contains u.1)) &&
    (!c.fn.keeps || cl.owned.contains x.2)) &&
  decide (c.used .move ++ c.used .own ++ c.used .sink).Nodup

theorem carefulOk_sound {h cl c} (e : carefulOk h cl c = true) : Careful h cl c := by
  unfold carefulOk at e
  simp only [Bool.and_eq_true, decide_eq_true_eq, List.all_eq_true, Bool.or_eq_true,
    Bool.not_eq_true', beq_iff_eq, List.contains_iff_mem, beq_eq_false_iff_ne, ne_eq,
    ← Bool.not_eq_true] at e
  obtain ⟨⟨⟨e1, e2⟩, e3⟩, e4⟩ := e
  refine ⟨docOk_sound e1, e2, ?_, ?_, e4, ?_, ?_⟩
  · exact fun p a m u => (e3 _ m).1.1.resolve_left u
  · exact fun p a m u => ((e3 _ m).1.2.resolve_left u).1
  · exact fun k p a m => (e3 _ m).2.resolve_left (fun n => n k)
  · intro p a m u n mu
    exact (((e3 _ m).1.2.resolve_left u).2 _ mu).resolve_left (fun n => n rfl)

/-- Runs calls as long as each is allowed and returns. -/
def run (ok : Heap → Client → Call → Bool) (upd : Client → Call → Option Nat → Client) :
    List Call → Heap → Client → Option (Heap × Client)
  | [], h, cl => some (h, cl)
  | c :: cs, h, cl =>
    if ok h cl c then
      match c.exec h with
      | .ret _ out h' => run ok upd cs h' (upd cl c out)
      | _ => none
    else none

theorem run_reach {ok rule upd} (snd : ∀ h cl c, ok h cl c = true → rule h cl c) :
    ∀ (cs : List Call) {h cl h' cl'}, Reach rule upd h cl → run ok upd cs h cl = some (h', cl') →
      Reach rule upd h' cl'
  | [], h, cl, h', cl', r, e => by
    simp only [run, Option.some.injEq, Prod.mk.injEq] at e
    obtain ⟨rfl, rfl⟩ := e
    exact r
  | c :: cs, h, cl, h', cl', r, e => by
    unfold run at e
    split at e
    · next hc =>
      cases he : c.exec h with
      | ub => rw [he] at e; cases e
      | escaped => rw [he] at e; cases e
      | ret b out h1 =>
        rw [he] at e
        exact run_reach snd cs (.step r (snd _ _ _ hc) he) e
    · cases e

def Outcome.isUb : Outcome → Bool
  | .ub => true
  | _ => false

/-- The calls are allowed, and so is the last one, whose behaviour is not defined. -/
def breaks (ok : Heap → Client → Call → Bool) (upd : Client → Call → Option Nat → Client)
    (cs : List Call) (c : Call) : Bool :=
  match run ok upd cs Heap.init {} with
  | some (h, cl) => ok h cl c && (c.exec h).isUb
  | none => false

theorem breaks_doc {cs : List Call} {c : Call} (e : breaks docOk Client.afterDoc cs c = true) :
    ∃ h cl, Reach Documented Client.afterDoc h cl ∧ Documented h cl c ∧ c.exec h = .ub := by
  unfold breaks at e
  split at e
  · next h cl hr =>
    rw [Bool.and_eq_true] at e
    refine ⟨h, cl, run_reach (fun _ _ _ => docOk_sound) cs .init hr, docOk_sound e.1, ?_⟩
    cases he : c.exec h with
    | ub => rfl
    | escaped => rw [he] at e; simp [Outcome.isUb] at e
    | ret _ _ _ => rw [he] at e; simp [Outcome.isUb] at e
  · cases e

/-- Calls all allowed, ending with these handles owned and these addresses in use. -/
def endsWith (cs : List Call) (owned live : List Nat) : Bool :=
  match run carefulOk Client.after cs Heap.init {} with
  | some (h, cl) => cl.owned == owned && (List.range h.next).filter (fun a => (h.cell a).isSome) == live
  | none => false

theorem endsWith_reach {cs : List Call} {o l : List Nat} (e : endsWith cs o l = true) :
    ∃ h cl, Reach Careful Client.after h cl ∧ cl.owned = o ∧
      (List.range h.next).filter (fun a => (h.cell a).isSome) = l := by
  unfold endsWith at e
  split at e
  · next h cl hr =>
    simp only [Bool.and_eq_true, beq_iff_eq] at e
    exact ⟨h, cl, run_reach (fun _ _ _ => carefulOk_sound) cs .init hr, e.1, e.2⟩
  · cases e

end EG.CApi
