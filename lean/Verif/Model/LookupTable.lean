import Verif.Model.Group

/-!
# Fixed-base exponentiation tables (src/electionguard/lookup_table.hpp)
-/

namespace EG

/-- lookup_table.hpp:115-118, the inner loop: store `running`, multiply by `rowBase`. -/
def genRow (c : Hacl.Ctx) (rowBase : ℕ) : ℕ → ℕ → List ℕ × ℕ
  | 0, running => ([], running)
  | n + 1, running =>
    let rest := genRow c rowBase n (Hacl.fieldMul c running rowBase)
    (running :: rest.1, rest.2)

/-- lookup_table.hpp:113-120, the loop over rows.  Entry 0 of a row stays zero-initialised; after a
row `row_base` is set to `running_base`. -/
def genRows (c : Hacl.Ctx) : ℕ → ℕ → ℕ → List (List ℕ)
  | 0, _, _ => []
  | n + 1, rowBase, running =>
    let row := genRow c rowBase 255 running
    (0 :: row.1) :: genRows c n row.2 row.2

/-- A generated table: `_lookupTable` (32 rows of 256 entries) and `one_in_montgomery_form`. -/
structure Lut where
  rows : List (List ℕ)
  one : ℕ

/-- lookup_table.hpp:94-126 `generateTable`. -/
def genLut (c : Hacl.Ctx) (base : ℕ) : Lut :=
  let b := Hacl.toField c base
  { rows := genRows c 32 b b, one := Hacl.toField c 1 }

/-- lookup_table.hpp:73-83, the loop over the rows; an index beyond the row is undefined behaviour. -/
def lutLoop (c : Hacl.Ctx) : List (List ℕ) → List UInt8 → ℕ → Res ℕ
  | [], _, acc => .ok acc
  | _ :: _, [], _ => .ub
  | row :: rows, slice :: bytes, acc =>
    if slice = 0 then lutLoop c rows bytes acc
    else match row[slice.toNat]? with
      | none => .ub
      | some x => lutLoop c rows bytes (Hacl.fieldMul c acc x)

/-- lookup_table.hpp:54-91 `LookupTable::pow_mod_p`. -/
def lutPow (c : Hacl.Ctx) (t : Lut) (e : ℕ) : Res ℕ := do
  -- exponent bytes, reversed to little endian
  let r ← lutLoop c t.rows (toBytesBE 32 e).reverse t.one
  pure (Hacl.fromField c r)

/-- `LookupTableContext::key_map`, lookup_table.hpp:177. -/
abbrev LutCache := List (List Char × Lut)

/-- lookup_table.hpp:179-188 `getBaseLookupTable`: find the table by key, else generate it. -/
def getLut (c : Hacl.Ctx) (cache : LutCache) (key : List Char) (base : ℕ) : Lut × LutCache :=
  match cache.find? (fun kv => kv.1 = key) with
  | some kv => (kv.2, cache)
  | none =>
    let t := genLut c base
    (t, (key, t) :: cache)

/-- group.cpp:609-628 `pow_mod_p(ElementModP, ElementModQ)` with the table cache as state.
`fixed` is `base.isFixedBase()`. -/
def powModPS (G : Params) (cache : LutCache) (fixed : Bool) (base e : ℕ) : Res ℕ × LutCache :=
  if e = 0 then (.ok 1, cache)
  else if fixed then
    let r := getLut (ctxP G) cache (toHexP base) base
    (lutPow (ctxP G) r.1 e, r.2)
  else (.ok (powModPP G base e), cache)

/-- `pow_mod_p(ElementModP, ElementModQ)` for a base that is not flagged; by
`C05_pow_mod_p_eq` every call with a flagged base gives the same result, so the rest of the model
uses this function for both. -/
def powModP (G : Params) (base e : ℕ) : ℕ := if e = 0 then 1 else powModPP G base e

/-- group.cpp:635-638 `g_pow_p`. -/
def gPowP (G : Params) (e : ℕ) : ℕ := powModP G G.g e

/-- group.cpp:211-215 `ElementModP::isValidResidue`. -/
def isValidResidue (G : Params) (v : ℕ) : Bool :=
  let residue := decide (powModP G v G.q = 1)
  isInBoundsP G v && residue

end EG
