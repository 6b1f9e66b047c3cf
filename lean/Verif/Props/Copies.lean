import Verif.Model.Copies
import Verif.Props.Manifest

/-!
# C108: copies of elements, key pairs, parts of manifests and plaintext ballots
-/

namespace EG.Copies

/-! ## Elements: what a program sees, with elements as plain values -/

/-- One step on values. -/
def vStep (s : ℕ → Option (ℕ × Bool)) : POp → Res (Option Str × (ℕ → Option (ℕ × Bool)))
  | .new x v f => .ok (none, upd s x (v, f))
  | .copy x y => match s y with
    | some e => .ok (none, upd s x e)
    | none => .ub
  | .assign x y => match s x, s y with
    | some _, some e => .ok (none, upd s x e)
    | _, _ => .ub
  | .setFixed x f => match s x with
    | some e => .ok (none, upd s x (e.1, f))
    | none => .ub
  | .hex x => match s x with
    | some e => .ok (some (toHexP e.1), s)
    | none => .ub
  | .write x v => match s x with
    | some e => .ok (none, upd s x (v, e.2))
    | none => .ub

/-- A run on values. -/
def vRun (s : ℕ → Option (ℕ × Bool)) : List POp → Res (List (Option Str) × (ℕ → Option (ℕ × Bool)))
  | [] => .ok ([], s)
  | o :: os => do
    let r ← vStep s o
    let q ← vRun r.2 os
    .ok (r.1 :: q.1, q.2)

/-- The value of an object. -/
def PObj.value (e : PObj) : ℕ × Bool := (e.val, e.fixed)

/-- The stored text is that of the value. -/
def PObj.Good (e : PObj) : Prop := ∀ h, e.hex = some h → h = toHexP e.val

/-- Objects and values agree. -/
def Agree (s : ℕ → Option PObj) (v : ℕ → Option (ℕ × Bool)) : Prop :=
  ∀ x, v x = (s x).map PObj.value ∧ ∀ e, s x = some e → e.Good

/-- Not a write through a pointer. -/
def POp.isWrite : POp → Bool
  | .write _ _ => true
  | _ => false

theorem Agree.upd {s v} (h : Agree s v) (x : ℕ) (e : PObj) (he : e.Good) :
    Agree (upd s x e) (upd v x e.value) := by
  intro y
  unfold Copies.upd
  by_cases hy : y = x
  · rw [if_pos hy, if_pos hy]
    exact ⟨rfl, fun e' h' => by cases h'; exact he⟩
  · rw [if_neg hy, if_neg hy]
    exact h y

theorem Agree.upd_right {s v} (h : Agree s v) (x : ℕ) (e e0 : PObj) (he : e.Good) (h0 : s x = some e0)
    (hv : e.value = e0.value) : Agree (Copies.upd s x e) v := by
  have := h.upd x e he
  intro y
  have hy := this y
  refine ⟨?_, hy.2⟩
  rw [← hy.1]
  unfold Copies.upd
  by_cases hyx : y = x
  · rw [if_pos hyx, hyx, (h x).1, h0, hv]
    rfl
  · rw [if_neg hyx]

theorem new_good (v : ℕ) (f : Bool) : (PObj.new v f).Good := fun h hh => by cases hh

theorem toHex_good (e : PObj) (h : e.Good) :
    e.toHex.1 = toHexP e.val ∧ e.toHex.2.Good ∧ e.toHex.2.value = e.value := by
  unfold PObj.toHex
  cases he : e.hex with
  | none =>
    dsimp only
    generalize hg : toHexP e.val = g
    refine ⟨rfl, fun t ht => ?_, rfl⟩
    rw [hg]
    exact (Option.some.inj ht).symm
  | some t => exact ⟨h t he, h, rfl⟩

theorem pStep_agree {s v} (h : Agree s v) (o : POp) (ho : o.isWrite = false) :
    (∃ out s' v', pStep s o = .ok (out, s') ∧ vStep v o = .ok (out, v') ∧ Agree s' v') ∨
    (pStep s o = .ub ∧ vStep v o = .ub) := by
  cases o with
  | new x a f => exact .inl ⟨_, _, _, rfl, rfl, h.upd x _ (new_good a f)⟩
  | copy x y =>
    simp only [pStep, vStep, (h y).1]
    cases hy : s y with
    | none => exact .inr ⟨rfl, rfl⟩
    | some e => exact .inl ⟨_, _, _, rfl, rfl, h.upd x e.copy (new_good _ _)⟩
  | assign x y =>
    simp only [pStep, vStep, (h y).1, (h x).1]
    cases hx : s x with
    | none => exact .inr ⟨rfl, rfl⟩
    | some a =>
      cases hy : s y with
      | none => exact .inr ⟨rfl, rfl⟩
      | some e => exact .inl ⟨_, _, _, rfl, rfl, h.upd x e.copy (new_good _ _)⟩
  | setFixed x f =>
    simp only [pStep, vStep, (h x).1]
    cases hx : s x with
    | none => exact .inr ⟨rfl, rfl⟩
    | some e =>
      exact .inl ⟨_, _, _, rfl, rfl, h.upd x { e with fixed := f } (fun t ht => (h x).2 e hx t ht)⟩
  | hex x =>
    simp only [pStep, vStep, (h x).1]
    cases hx : s x with
    | none => exact .inr ⟨rfl, rfl⟩
    | some e =>
      have hg := toHex_good e ((h x).2 e hx)
      refine .inl ⟨some (toHexP e.val), upd s x e.toHex.2, v, ?_, rfl, ?_⟩
      · rw [← hg.1]
      · exact h.upd_right x _ e hg.2.1 hx hg.2.2
  | write x w => cases ho

theorem pRun_agree (ops : List POp) : ∀ {s v}, Agree s v → (∀ o ∈ ops, o.isWrite = false) →
    (∃ out s' v', pRun s ops = .ok (out, s') ∧ vRun v ops = .ok (out, v') ∧ Agree s' v') ∨
    (pRun s ops = .ub ∧ vRun v ops = .ub) := by
  induction ops with
  | nil => exact fun h _ => .inl ⟨_, _, _, rfl, rfl, h⟩
  | cons o os ih =>
    intro s v h ho
    rcases pStep_agree h o (ho o (List.mem_cons_self ..)) with ⟨out, s', v', h1, h2, h3⟩ | ⟨h1, h2⟩
    · rcases ih h3 (fun o' h' => ho o' (List.mem_cons_of_mem _ h')) with ⟨out2, s2, v2, g1, g2, g3⟩ | ⟨g1, g2⟩
      · refine .inl ⟨out :: out2, s2, v2, ?_, ?_, g3⟩
        · simp [pRun, h1, g1]
        · simp [vRun, h2, g2]
      · refine .inr ⟨?_, ?_⟩
        · simp [pRun, h1, g1]
        · simp [vRun, h2, g2]
    · refine .inr ⟨?_, ?_⟩
      · simp [pRun, h1]
      · simp [vRun, h2]

/-- C108, elements: in every program that does not write through the pointer of `get`, all texts, and the
values and flags of all elements, are as if elements were plain values that are copied. -/
theorem C108_elements_partial (ops : List POp) (h : ∀ o ∈ ops, o.isWrite = false) :
    (∃ out s v, pRun (fun _ => none) ops = .ok (out, s) ∧ vRun (fun _ => none) ops = .ok (out, v) ∧
      ∀ x, v x = (s x).map PObj.value) ∨
    (pRun (fun _ => none) ops = .ub ∧ vRun (fun _ => none) ops = .ub) := by
  have h0 : Agree (fun _ => none) (fun _ => none) := fun x => ⟨rfl, fun e he => by cases he⟩
  rcases pRun_agree ops h0 h with ⟨out, s, v, h1, h2, h3⟩ | h'
  · exact .inl ⟨out, s, v, h1, h2, fun x => (h3 x).1⟩
  · exact .inr h'

example : ∀ o ∈ [POp.new 0 5 true, .hex 0, .copy 1 0, .new 2 7 false, .assign 0 2, .hex 0, .hex 1],
    o.isWrite = false := by decide

/-- C108 is violated for writes: a text that was asked for before stays, whatever is written. -/
theorem C108_hex_stale (x v w : ℕ) (f : Bool) :
    ∃ s e, pRun (fun _ => none) [.new x v f, .hex x, .write x w, .hex x] =
        .ok ([none, some (toHexP v), none, some (toHexP v)], s) ∧ s x = some e ∧ e.val = w := by
  refine ⟨_, ⟨w, f, some (toHexP v)⟩, by simp [pRun, pStep, upd, PObj.new, PObj.toHex]; rfl, ?_, rfl⟩
  simp [upd]

/-- C108: the two texts do differ. -/
theorem C108_hex_violated : toHexP 1 ≠ toHexP 2 := by decide +kernel

/-! ## Key pairs -/

/-- C108, key pairs: a copy has the elements of the source; programs that copy a pair and then use only the
copy see the elements.  What is missing is the source. -/
theorem C108_keypair_partial (x y s p : ℕ) :
    ∃ st, kRun (fun _ => none) [.new x s p, .copy y x, .get y] = .ok ([none, none, some (s, p)], st) := by
  simp [kRun, kStep, upd, KObj.new, KObj.copy]

/-- C108 is violated for every key pair: after it was copied, using its elements is undefined, until it is
assigned to; the same after it was assigned to another. -/
theorem C108_keypair_violated (x y s p s' p' : ℕ) (h : x ≠ y) :
    kRun (fun _ => none) [.new x s p, .copy y x, .get x] = .ub ∧
    kRun (fun _ => none) [.new x s p, .new y s' p', .assign y x, .get x] = .ub := by
  constructor <;> simp [kRun, kStep, upd, KObj.new, KObj.copy, h]

example : (0 : ℕ) ≠ 1 := by decide

/-- C108, key pairs: assigning a pair to itself keeps it. -/
theorem C108_keypair_self (x s p : ℕ) :
    ∃ st, kRun (fun _ => none) [.new x s p, .assign x x, .get x] = .ok ([none, none, some (s, p)], st) := by
  simp [kRun, kStep, upd, KObj.new, KObj.copy]

/-! ## Manifests and plaintext ballots -/

theorem foldl_copy {α : Type} (f : α → α) (hf : ∀ a, f a = a) (l : List α) :
    ∀ acc, l.foldl (fun acc e => acc ++ [f e]) acc = acc ++ l := by
  induction l with
  | nil => simp
  | cons a l ih => intro acc; rw [List.foldl_cons, ih, hf]; simp

theorem foldl_id {α : Type} (l : List α) : l.foldl (fun acc e => acc ++ [e]) [] = l := by
  simpa using foldl_copy id (fun _ => rfl) l []

/-- C108, parts of manifests: copies of texts, contacts, geopolitical units, ballot styles, candidates and
selections equal the original. -/
theorem C108_manifest_parts :
    (∀ a, copyAnnotated a = a) ∧ (∀ t, copyText t = t) ∧ (∀ c, copyContact c = c) ∧
    (∀ u, copyGpUnit u = u) ∧ (∀ s, copyStyle s = s) ∧ (∀ c, copyCandidate c = c) ∧
    (∀ s, copySelectionDesc s = s) := by
  have ht : ∀ t, copyText t = t := fun t => by
    simpa [copyText] using foldl_copy copyLanguage (fun _ => rfl) t []
  have hc : ∀ c, copyContact c = c := fun c => by
    have h1 := foldl_copy copyAnnotated (fun _ => rfl)
    obtain ⟨a, e, p, n⟩ := c
    simp only [copyContact, foldl_id, h1, List.nil_append]
  refine ⟨fun _ => rfl, ht, hc, fun u => ?_, fun s => ?_, fun c => ?_, fun _ => rfl⟩
  · obtain ⟨i, n, t, c⟩ := u
    cases c <;> simp [copyGpUnit, hc]
  · simp only [copyStyle, foldl_id]
  · obtain ⟨i, n, t, c⟩ := c
    cases n <;> simp [copyCandidate, ht]

/-- C108: so an internal manifest has the units, candidates and ballot styles of the manifest. -/
theorem C108_internal_manifest (G : Params) (C : Crypto) (S : StdSort) (m : Manifest) (i : IManifest)
    (h : IManifest.ofManifest G C S m = .ok i) : (i.gpUnits, i.candidates, i.styles) = copyParts m := by
  have hp := C108_manifest_parts
  obtain ⟨cs, -, h2⟩ := (Res.bind_eq_ok _ _ _).1 h
  obtain ⟨hh, -, h3⟩ := (Res.bind_eq_ok _ _ _).1 h2
  cases h3
  have h1 := foldl_copy copyGpUnit hp.2.2.2.1
  have h2 := foldl_copy copyCandidate hp.2.2.2.2.2.1
  have h3 := foldl_copy copyStyle hp.2.2.2.2.1
  simp [copyParts, h1, h2, h3]

/-- C108, parties: exactly the parties with a name are copied as they are. -/
theorem C108_party_partial (p : Party) : copyParty p = p ↔ p.name ≠ none := by
  obtain ⟨i, n, a, c, l⟩ := p
  cases n <;> simp [copyParty, partyNoName, C108_manifest_parts.2.1]

example : copyParty ⟨"p".toList, some [], [], [], []⟩ = ⟨"p".toList, some [], [], [], []⟩ := by decide

/-- C108 is violated for all parties without a name: the copy has an empty name, so that (for some hash
function) its hash is another. -/
theorem C108_party_violated :
    (∀ p : Party, p.name = none → (copyParty p).name = some []) ∧
    ∃ (p : Party) (C : Crypto), (copyParty p).hash .std C ≠ p.hash .std C := by
  refine ⟨fun p hp => by simp [copyParty, hp, partyNoName], ⟨"p".toList, none, [], [], []⟩, demoCrypto, ?_⟩
  decide +kernel

/-- C108, plaintext ballots: copies of selections, contests and ballots equal the original. -/
theorem C108_plaintext : (∀ s, copyPSelection s = s) ∧ (∀ c, copyPContest c = c) ∧ ∀ b, copyPBallot b = b := by
  have hc : ∀ c, copyPContest c = c := fun c => by
    have h1 := foldl_copy copyPSelection (fun _ => rfl)
    simp [copyPContest, h1]
  refine ⟨fun _ => rfl, hc, fun b => ?_⟩
  have h1 := foldl_copy copyPContest hc
  simp [copyPBallot, h1]

end EG.Copies
