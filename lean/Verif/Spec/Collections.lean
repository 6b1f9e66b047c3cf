import Verif.Model.Collections

/-!
# What the linked list should be: a sequence of pairs of strings

A missing string (`none`) stands for a failed `strdup`, which the code does not check.
-/

namespace EG.CList

/-- A key and a value. -/
abbrev Entry := Option (List Char) × Option (List Char)

/-- The pointer refers to the string, or is null if there is none. -/
def StrAt (m : Mem) (a : Addr) : Option (List Char) → Prop
  | none => a = 0
  | some s => readStr m a = .ok s

/-- The effect on a sequence of a call that returned a status. -/
def Effect : Op → Status → List Entry → List Entry → Prop
  | .append key value, .success, es, es' => ∃ e : Entry, es' = es ++ [e] ∧
      (e.1 = none ∨ e.1 = some key) ∧ (e.2 = none ∨ e.2 = some value)
  | .append _ _, .badAlloc, es, es' => es' = es
  | .deleteLast, .success, es, es' => es' = es.dropLast
  | _, _, _, _ => False

/-- The effect of a sequence of calls. -/
def Effects : List Op → List Status → List Entry → List Entry → Prop
  | [], [], es, es' => es' = es
  | op :: ops, s :: ss, es, es' => ∃ mid, Effect op s es mid ∧ Effects ops ss mid es'
  | _, _, _, _ => False

/-- The sequence after a history of calls none of which runs out of memory. -/
def sequenceOf : List Op → List (List Char × List Char) → List (List Char × List Char)
  | [], l => l
  | .append key value :: ops, l => sequenceOf ops (l ++ [(key, value)])
  | .deleteLast :: ops, l => sequenceOf ops l.dropLast

/-- Everything the getters show of a list: it looks like the sequence `es`. -/
structure Shows (m : Mem) (l : LList) (es : List Entry) : Prop where
  count : getCount l = es.length
  element : ∀ i (h : i < es.length), ∃ k v, getElementAt m l i = .ok (.success, some (k, v)) ∧
    StrAt m k es[i].1 ∧ StrAt m v es[i].2
  value : ∀ i (h : i < es.length), ∃ v, getValueAt m l i = .ok (.success, some v) ∧
    StrAt m v es[i].2
  outside : ∀ i, es.length ≤ i → getElementAt m l i = .ok (.outOfRange, none) ∧
    getValueAt m l i = .ok (.outOfRange, none)

end EG.CList
