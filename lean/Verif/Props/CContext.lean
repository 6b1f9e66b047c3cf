import Verif.Spec.CContext
import Verif.Model.CEncrypt
import Verif.Props.CHash
import Verif.Props.ContextMake
import Verif.Props.CEncrypt

/-!
# C133: an election context goes from one program in C# to another as text
-/

namespace EG.CContext

open EG.CText (Status)
open EG.CGroup (Out Cs Exn deref throwIfError call handle)

variable {G : Params} {C : Crypto}

/-! ## Texts of documents have no zero in them -/

theorem zero_escapeChar (c : Char) : Char.ofNat 0 ∉ escapeChar c := by
  have hx : ∀ n < 32, Char.ofNat 0 ∉ ['\\', 'u'] ++ escapeHex n := by decide
  have h8 : ∀ d : Char, d ≠ Char.ofNat 0 → Char.ofNat 0 ∉ ['\\', d] := by
    intro d hd h
    simp only [List.mem_cons, List.not_mem_nil, or_false] at h
    rcases h with h | h
    · exact absurd h (by decide)
    · exact hd h.symm
  unfold escapeChar
  split_ifs with h1 h2 h3 h4 h5 h6 h7 h9
  iterate 7 exact h8 _ (by decide)
  · exact hx _ h9
  · intro h
    rw [List.mem_singleton] at h
    rw [← h] at h9
    exact h9 (by decide)

theorem zero_dumpStr (s : Str) : Char.ofNat 0 ∉ dumpStr s := by
  unfold dumpStr
  intro h
  simp only [List.cons_append, List.mem_cons, List.mem_append, List.mem_flatMap, List.not_mem_nil, or_false] at h
  rcases h with h | ⟨c, -, h⟩ | h
  · exact absurd h (by decide)
  · exact zero_escapeChar c h
  · exact absurd h (by decide)

theorem zero_dumpNum (n : ℕ) : Char.ofNat 0 ∉ dumpNum n := fun h => absurd (dumpNum_digits n _ h) (by decide)

mutual

theorem zero_dump : ∀ j : Json, Char.ofNat 0 ∉ j.dump
  | .null => by rw [Json.dump]; decide
  | .bool true => by rw [Json.dump]; decide
  | .bool false => by rw [Json.dump]; decide
  | .num n => by rw [Json.dump]; exact zero_dumpNum n
  | .int n => by
    rw [Json.dump]
    split_ifs
    · decide
    · intro h
      rcases List.mem_cons.1 h with h | h
      · exact absurd h (by decide)
      · exact zero_dumpNum n h
  | .float _ => by rw [Json.dump]; decide
  | .str s => by rw [Json.dump]; exact zero_dumpStr s
  | .arr l => by
    rw [Json.dump]
    intro h
    simp only [List.cons_append, List.mem_cons, List.mem_append, List.not_mem_nil, or_false] at h
    rcases h with h | h | h
    · exact absurd h (by decide)
    · exact zero_dumpArr l h
    · exact absurd h (by decide)
  | .obj m => by
    rw [Json.dump]
    intro h
    simp only [List.cons_append, List.mem_cons, List.mem_append, List.not_mem_nil, or_false] at h
    rcases h with h | h | h
    · exact absurd h (by decide)
    · exact zero_dumpMembers m h
    · exact absurd h (by decide)

theorem zero_dumpArr : ∀ l : List Json, Char.ofNat 0 ∉ dumpArr l
  | [] => by rw [dumpArr]; decide
  | [x] => by rw [dumpArr]; exact zero_dump x
  | x :: y :: rest => by
    rw [dumpArr]
    intro h
    simp only [List.mem_cons, List.mem_append] at h
    rcases h with h | h | h
    · exact zero_dump x h
    · exact absurd h (by decide)
    · exact zero_dumpArr (y :: rest) h

theorem zero_dumpMembers : ∀ l : List (Str × Json), Char.ofNat 0 ∉ dumpMembers l
  | [] => by rw [dumpMembers]; decide
  | [(k, x)] => by
    rw [dumpMembers]
    intro h
    simp only [List.mem_cons, List.mem_append] at h
    rcases h with h | h | h
    · exact zero_dumpStr k h
    · exact absurd h (by decide)
    · exact zero_dump x h
  | (k, x) :: y :: rest => by
    rw [dumpMembers]
    intro h
    simp only [List.mem_cons, List.mem_append] at h
    rcases h with h | h | h | h | h
    · exact zero_dumpStr k h
    · exact absurd h (by decide)
    · exact zero_dump x h
    · exact absurd h (by decide)
    · exact zero_dumpMembers (y :: rest) h

end

theorem cText_dump (j : Json) : CGroup.cText j.dump = j.dump := CHash.cText_self _ (zero_dump j)

/-! ## The constructors -/

/-- The constructors of C# that take elements make the context of the arguments, and end with an exception, never with
undefined behaviour, if a reference is null or an object was disposed of. -/
theorem C133_new (n k : UInt64) (pub commitment manifest : Option (Option ℕ)) (config : Option (Option Config)) :
    ((∃ K h m, pub = some (some K) ∧ commitment = some (some h) ∧ manifest = some (some m) ∧
        ∃ c, newContext G C n k pub commitment manifest = .ok c ∧
          c.IsFor G C ⟨n.toNat, k.toNat, K, h, m⟩ ⟨true, 1000000⟩ ∧ c.extendedData = []) ∨
      ∃ e, newContext G C n k pub commitment manifest = .throw e ∧ (e = .nullReference ∨ e = .argumentNull) ∧
        (none ∈ [pub, commitment, manifest] ∨ some none ∈ [pub, commitment, manifest]) ∧
        (e = .nullReference ↔ none ∈ [pub, commitment, manifest])) ∧
    ((∃ K h m f, pub = some (some K) ∧ commitment = some (some h) ∧ manifest = some (some m) ∧ config = some (some f) ∧
        ∃ c, newContextWith G C n k pub commitment manifest config = .ok c ∧
          c.IsFor G C ⟨n.toNat, k.toNat, K, h, m⟩ f ∧ c.extendedData = []) ∨
      ∃ e, newContextWith G C n k pub commitment manifest config = .throw e ∧
        (e = .nullReference ∨ e = .argumentNull) ∧
        (none ∈ [pub, commitment, manifest] ∨ some none ∈ [pub, commitment, manifest] ∨ config = none ∨
          config = some none) ∧
        (e = .nullReference ↔ none ∈ [pub, commitment, manifest] ∨ config = none)) := by
  have hf := fun (a : MakeArgs) (f : Config) => C99_elements G C a f []
  constructor
  · rcases pub with _ | _ | K <;> rcases commitment with _ | _ | h <;> rcases manifest with _ | _ | m
    all_goals first
      | exact Or.inl ⟨K, h, m, rfl, rfl, rfl, _, rfl, (hf _ ⟨true, 0⟩).1, rfl⟩
      | exact Or.inr ⟨.nullReference, rfl, by simp, by simp, by simp⟩
      | exact Or.inr ⟨.argumentNull, rfl, by simp, by simp, by simp⟩
  · rcases pub with _ | _ | K <;> rcases commitment with _ | _ | h <;> rcases manifest with _ | _ | m <;>
      rcases config with _ | _ | f
    all_goals first
      | exact Or.inl ⟨K, h, m, f, rfl, rfl, rfl, rfl, _, rfl, (hf _ f).2.2.1, rfl⟩
      | exact Or.inr ⟨.nullReference, rfl, by simp, by simp, by simp⟩
      | exact Or.inr ⟨.argumentNull, rfl, by simp, by simp, by simp⟩

/-! ## Text -/

theorem toJson_eq (c : FullContext) : csToJson (some (some c)) = .ok (c.context.toDoc (extras c)).dump := by
  show Cs.ok (CGroup.cText (c.context.toDoc (extras c)).dump) = _
  rw [cText_dump]

/-- Reading a text in C#: the context in it; whatever is wrong with it is reported as lack of memory. -/
theorem C133_read (t : Str) :
    (∀ c, newContextJson G (some t) = .ok c ↔ ∃ r, readText (Context.ofDoc G) (CGroup.cText t) = .ok r ∧ c = ofRead r) ∧
    (newContextJson G (some t) = .throw .outOfMemory ↔ ∃ e, readText (Context.ofDoc G) (CGroup.cText t) = .throw e) ∧
    (∀ e, newContextJson G (some t) = .throw e → e = .outOfMemory) ∧
    newContextJson G none = .ub := by
  have h : newContextJson G (some t) = call throwIfError (CGroup.caught .badAlloc (do
      let r ← readText (Context.ofDoc G) (CGroup.cText t)
      .ok (ofRead r))) := rfl
  rw [h]
  cases readText (Context.ofDoc G) (CGroup.cText t) with
  | ok r =>
    refine ⟨fun c => ⟨fun h => ⟨r, rfl, ?_⟩, ?_⟩, ⟨fun h => ?_, ?_⟩, fun e h => ?_, rfl⟩
    · exact (Cs.ok.inj h).symm
    · rintro ⟨r', h1, rfl⟩
      cases h1
      rfl
    · cases h
    · rintro ⟨e, h⟩
      cases h
    · cases h
  | throw e =>
    refine ⟨fun c => ⟨fun h => ?_, ?_⟩, ⟨fun h => ⟨e, rfl⟩, fun _ => rfl⟩, fun e h => ?_, rfl⟩
    · cases h
    · rintro ⟨r', h1, rfl⟩
      cases h1
    · cases h
      rfl
  | ub =>
    refine ⟨fun c => ⟨fun h => ?_, ?_⟩, ⟨fun h => ?_, ?_⟩, fun e h => ?_, rfl⟩
    · cases h
    · rintro ⟨r', h1, rfl⟩
      cases h1
    · cases h
    · rintro ⟨e, h⟩
      cases h
    · cases h

theorem shows (c : FullContext) : Shows c c.context.pub c.context.commitmentHash c.context.manifestHash
    c.context.baseHash c.context.extHash c.config.allowOvervotes c.config.maxBallots :=
  ⟨rfl, rfl, rfl, rfl, rfl, _, rfl, rfl, rfl⟩

/-- A context made in C# with a configuration, written with `ToJson` and read by another program: the properties there
show what was given, and the hashes of the specification.  Missing for the full claim: elements that are zero, see
`C133_zero_violated`. -/
theorem C133_transfer_partial (hG : G.Valid) (n k : UInt64) (K h m : ℕ) (allow : Bool) (max : UInt64)
    (hK : Nonzero G.p K) (hh : Nonzero G.q h) (hm : Nonzero G.q m)
    (hb : hashElems G C [.p G.p, .q G.q, .p G.g, .u64 n.toNat, .u64 k.toNat, .q m] ≠ 0)
    (he : hashElems G C [.q (hashElems G C [.p G.p, .q G.q, .p G.g, .u64 n.toNat, .u64 k.toNat, .q m]), .q h] ≠ 0) :
    ∃ f c t c', newConfig allow max = .ok f ∧
      newContextWith G C n k (some (some K)) (some (some h)) (some (some m)) (some (some f)) = .ok c ∧
      csToJson (some (some c)) = .ok t ∧ newContextJson G (some t) = .ok c' ∧ c' = c ∧
      Shows c' K h m (hashElems G C [.p G.p, .q G.q, .p G.g, .u64 n.toNat, .u64 k.toNat, .q m])
        (hashElems G C [.q (hashElems G C [.p G.p, .q G.q, .p G.g, .u64 n.toNat, .u64 k.toNat, .q m]), .q h])
        allow max.toNat := by
  let c : FullContext := makeConfig G C ⟨n.toNat, k.toNat, K, h, m⟩ ⟨allow, max.toNat⟩
  have hr : c.context.Readable G := {
    guardians := n.toNat_lt
    quorum := k.toNat_lt
    pub := hK
    commitment := hh
    manifest := hm
    base := ⟨hb, (hashElems_lt (C := C) hG [.p G.p, .q G.q, .p G.g, .u64 n.toNat, .u64 k.toNat, .q m]).le⟩
    ext := ⟨he, (hashElems_lt (C := C) hG
      [.q (hashElems G C [.p G.p, .q G.q, .p G.g, .u64 n.toNat, .u64 k.toNat, .q m]), .q h]).le⟩ }
  have hx : (extras c).Readable := ⟨max.toNat_lt, List.nodup_nil⟩
  obtain ⟨d, h1, h2⟩ := C61_context hG c.context (extras c) hr hx
  obtain rfl : d = [] := List.Perm.eq_nil h2
  refine ⟨⟨allow, max.toNat⟩, c, _, c, rfl, rfl, toJson_eq c, ?_, rfl, shows c⟩
  exact ((C133_read _).1 c).2 ⟨_, by rw [cText_dump]; exact h1, rfl⟩

/-- The same for any context with extended data, however it was made: it arrives with the same entries. -/
theorem C133_data (hG : G.Valid) (c : FullContext) (hc : c.context.Readable G) (hm : c.config.maxBallots < 2 ^ 64)
    (hd : (c.extendedData.map Prod.fst).Nodup) :
    ∃ t d, csToJson (some (some c)) = .ok t ∧ Char.ofNat 0 ∉ t ∧
      newContextJson G (some t) = .ok { c with extendedData := d } ∧ d.Perm c.extendedData := by
  obtain ⟨d, h1, h2⟩ := C61_context hG c.context (extras c) hc ⟨hm, hd⟩
  refine ⟨_, d, toJson_eq c, zero_dump _, ?_, h2⟩
  exact ((C133_read _).1 _).2 ⟨_, by rw [cText_dump]; exact h1, rfl⟩

/-- The receiving program makes a mediator of the context exactly if its manifest is the one the context was made
for. -/
theorem C133_mediator (hG : G.Valid) (c : FullContext) (hc : c.context.Readable G) (hm : c.config.maxBallots < 2 ^ 64)
    (hd : (c.extendedData.map Prod.fst).Nodup) (m : IManifest) (hh : m.manifestHash < 2 ^ 256) (d : Device) :
    ∃ t c', csToJson (some (some c)) = .ok t ∧ newContextJson G (some t) = .ok c' ∧
      ((∃ md, CEncrypt.newMediator (some (some m)) (some (some c'.context)) (some (some d)) = .ok md) ↔
        m.manifestHash = c.context.manifestHash) := by
  obtain ⟨t, e, h1, -, h2, -⟩ := C133_data hG c hc hm hd
  refine ⟨t, _, h1, h2, ?_⟩
  have hlt : c.context.manifestHash < 2 ^ 256 := lt_of_le_of_lt hc.manifest.2 hG.q_lt
  have k := CEncrypt.C130_mediator (some (some m)) (some (some c.context)) (some (some d))
    (by rintro x h; cases h; exact hh) (by rintro x h; cases h; exact hlt)
  constructor
  · rintro ⟨md, h⟩
    obtain ⟨m', c', d', e1, e2, -, h, -⟩ := (k.1 md).1 h
    cases e1
    cases e2
    exact h
  · intro h
    exact ⟨_, (k.1 _).2 ⟨_, _, _, rfl, rfl, rfl, h, rfl⟩⟩

/-- The hashes in a text are not checked: a text with other hashes is read in C#, and the properties show them. -/
theorem C133_hashes_violated (hG : G.Valid) (c : FullContext) (hc : c.context.Readable G)
    (hm : c.config.maxBallots < 2 ^ 64) (hd : (c.extendedData.map Prod.fst).Nodup) (base ext : ℕ)
    (hb : Nonzero G.q base) (hx : Nonzero G.q ext) :
    ∃ t c', newContextJson G (some t) = .ok c' ∧ elGamalPublicKey (some (some c')) = .ok c.context.pub ∧
      commitmentHash (some (some c')) = .ok c.context.commitmentHash ∧
      manifestHash (some (some c')) = .ok c.context.manifestHash ∧
      cryptoBaseHash (some (some c')) = .ok base ∧ cryptoExtendedBaseHash (some (some c')) = .ok ext := by
  obtain ⟨t, d, -, -, h, -⟩ := C133_data hG { c with context := { c.context with baseHash := base, extHash := ext } }
    { hc with base := hb, ext := hx } hm hd
  exact ⟨t, _, h, rfl, rfl, rfl, rfl, rfl⟩

/-- With a commitment hash of zero a context is made and written, but the text cannot be read. -/
theorem C133_zero_violated (n k : UInt64) (K m : ℕ) :
    ∃ c t, newContext G C n k (some (some K)) (some (some 0)) (some (some m)) = .ok c ∧
      csToJson (some (some c)) = .ok t ∧ newContextJson G (some t) = .throw .outOfMemory := by
  let c : FullContext := makePlain G C ⟨n.toNat, k.toNat, K, 0, m⟩
  refine ⟨c, _, rfl, toJson_eq c, (C133_read _).2.1.2 ⟨.outOfRange, ?_⟩⟩
  have hn : n.toNat < 2 ^ 64 := n.toNat_lt
  have hk : k.toNat < 2 ^ 64 := k.toNat_lt
  have hwf : (c.context.toDoc (extras c)).WF := by
    refine Json.wf_setIf (Json.wf_object ?_) _ _ (Json.wf_object ?_)
    · intro d hd
      simp only [List.mem_cons, List.not_mem_nil, or_false] at hd
      rcases hd with rfl | rfl | rfl | rfl | rfl | rfl | rfl | rfl
      iterate 5 trivial
      · exact hn
      · exact hk
      · refine Json.wf_object ?_
        intro d hd
        simp only [List.mem_cons, List.not_mem_nil, or_false] at hd
        rcases hd with rfl | rfl
        · trivial
        · exact (by decide : 1000000 < 2 ^ 64)
    · intro d hd
      obtain ⟨x, _, rfl⟩ := List.mem_map.1 hd
      trivial
  rw [cText_dump, readText_dump _ _ hwf]
  have hobj : (c.context.toDoc (extras c)).IsObj := Json.isObj_setIf (Json.isObj_object _) _ _ _
  have hget : ∀ k, (c.context.toDoc (extras c)).get k = _ := fun k =>
    Json.get_setIf (Json.isObj_object _).node _ _ k _
  have h0 : c.context.commitmentHash = 0 := rfl
  unfold Context.ofDoc
  simp [Json.strAt, Json.natAt, Json.boolAt, Json.at_eq hobj, Json.at_eq (Json.isObj_object _), hget, Json.optWith,
    Json.opt_eq, Json.get_object, Json.asNat, Json.asStr, Json.asBool, key_inj, h0, (C08_hex_zero (G := G) false).1]

/-- The getters of C for contexts follow a null pointer, where those of configurations report it; in C# a null
reference or a context that was disposed of ends with an exception. -/
theorem C133_null :
    getAllowed none = (.invalidArgument, none) ∧ getMax none = (.invalidArgument, none) ∧
    getPublicKey none = .ub ∧ getConfiguration none = .ub ∧ getCommitmentHash none = .ub ∧ getManifestHash none = .ub ∧
    getBaseHash none = .ub ∧ getExtendedHash none = .ub ∧ toJson none = .ub ∧ fromJson G none = .ub ∧
    (∀ c : Option (Option FullContext), c = none ∨ c = some none → ∃ e, (e = .nullReference ∨ e = .argumentNull) ∧
      elGamalPublicKey c = .throw e ∧ commitmentHash c = .throw e ∧ manifestHash c = .throw e ∧
      cryptoBaseHash c = .throw e ∧ cryptoExtendedBaseHash c = .throw e ∧ configuration c = .throw e ∧
      csToJson c = .throw e) := by
  refine ⟨rfl, rfl, rfl, rfl, rfl, rfl, rfl, rfl, rfl, rfl, ?_⟩
  rintro c (rfl | rfl)
  · exact ⟨.nullReference, Or.inl rfl, rfl, rfl, rfl, rfl, rfl, rfl, rfl⟩
  · exact ⟨.argumentNull, Or.inr rfl, rfl, rfl, rfl, rfl, rfl, rfl, rfl⟩

/-! The hypotheses can be met. -/

example : ∃ f c t c', newConfig false 3 = .ok f ∧
    newContextWith .std (constCrypto 5) 3 2 (some (some 4)) (some (some 7)) (some (some 9)) (some (some f)) = .ok c ∧
    csToJson (some (some c)) = .ok t ∧ newContextJson .std (some t) = .ok c' ∧ c' = c ∧
    Shows c' 4 7 9 5 5 false 3 := by
  have hp : 100 < Params.std.p := by decide +kernel
  have hq : 100 < Params.std.q := by decide +kernel
  have h5 := hashElems_const5
  have hG := C54_std_valid
  generalize Params.std = G at *
  have k := C133_transfer_partial (C := constCrypto 5) hG 3 2 4 7 9 false 3 ⟨by decide, by omega⟩ ⟨by decide, by omega⟩
    ⟨by decide, by omega⟩ (by rw [h5]; decide) (by rw [h5]; decide)
  simp only [h5] at k
  exact k

/-- A context with extended data. -/
example : ∃ c : FullContext, c.context.Readable .std ∧ c.config.maxBallots < 2 ^ 64 ∧
    (c.extendedData.map Prod.fst).Nodup ∧ c.extendedData.length = 2 := by
  have hp : 100 < Params.std.p := by decide +kernel
  have hq : 100 < Params.std.q := by decide +kernel
  generalize Params.std = G at *
  refine ⟨⟨⟨3, 2, 4, 7, 9, 5, 5⟩, ⟨true, 10⟩, [("a".toList, "x".toList), ("b".toList, [])]⟩, ?_, by decide, by decide, rfl⟩
  exact ⟨by decide, by decide, ⟨by decide, by show 4 ≤ G.p; omega⟩, ⟨by decide, by show 7 ≤ G.q; omega⟩,
    ⟨by decide, by show 9 ≤ G.q; omega⟩, ⟨by decide, by show 5 ≤ G.q; omega⟩, ⟨by decide, by show 5 ≤ G.q; omega⟩⟩

end EG.CContext
