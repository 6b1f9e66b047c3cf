import Verif.Model.ContextMake
import Verif.Spec.Collections

/-!
# What a context made of arguments, a configuration and a list of entries should be
-/

namespace EG

open CList (Mem LList)

/-- `v` belongs to the last entry with the key. -/
def LastValue (es : List (Str × Str)) (key v : Str) : Prop :=
  ∃ pre post, es = pre ++ (key, v) :: post ∧ ∀ e ∈ post, e.1 ≠ key

/-- The map holds each key of the list once, with its last value. -/
def Holds (d : Entries) (es : List (Str × Str)) : Prop :=
  (d.map Prod.fst).Nodup ∧ ∀ key v, (key, v) ∈ d ↔ LastValue es key v

/-- The getters show a list of entries with no text missing. -/
def ShowsTexts (m : Mem) (l : LList) (es : List (Str × Str)) : Prop :=
  CList.Shows m l (es.map (fun e => (some e.1, some e.2)))

/-- The context is the one of the arguments: everything given is stored, and the hashes are those of the specification
(H(p, q, g, n, k, manifest) and H of it with the commitments). -/
structure FullContext.IsFor (G : Params) (C : Crypto) (c : FullContext) (a : MakeArgs) (cfg : Config) : Prop where
  guardians : c.context.numberOfGuardians = a.guardians
  quorum : c.context.quorum = a.quorum
  pub : c.context.pub = a.pub
  commitment : c.context.commitmentHash = a.commitment
  manifest : c.context.manifestHash = a.manifest
  baseHash : c.context.baseHash = hashElems G C [.p G.p, .q G.q, .p G.g, .u64 a.guardians, .u64 a.quorum, .q a.manifest]
  extHash : c.context.extHash = hashElems G C [.q c.context.baseHash, .q a.commitment]
  allow : c.config.allowOvervotes = cfg.allowOvervotes
  max : c.config.maxBallots = cfg.maxBallots

end EG
