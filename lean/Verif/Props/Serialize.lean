import Verif.Lemmas.Serialize
import Verif.Spec.Serialize
import Verif.Props.HashedElGamal
import Verif.Props.ChaumPedersen

/-!
# Reading what was written: texts, devices, contexts, plaintext ballots and ciphertexts

C47, C48, C61, C64.
-/

namespace EG

/-! ## C64: JSON texts -/

/-- C64: parsing the text of a document gives the document, whatever strings and numbers it holds. -/
theorem C64_parse_dump (j : Json) (hj : j.WF) : Json.parse j.dump = .ok j := parse_dump j hj

/-- C64: different documents have different texts. -/
theorem C64_dump_injective (j k : Json) (hj : j.WF) (hk : k.WF) (h : j.dump = k.dump) : j = k := by
  have h1 := parse_dump j hj
  rw [h, parse_dump k hk] at h1
  exact (Res.ok.inj h1).symm

/-- C64: the text of a string is never the string itself. -/
theorem C64_dump_str_ne (s : Str) : dumpStr s ≠ s := by
  intro h
  have hl := congrArg List.length h
  have hge : ∀ t : Str, t.length ≤ (t.flatMap escapeChar).length := by
    intro t
    induction t with
    | nil => simp
    | cons c rest ih =>
      have : 1 ≤ (escapeChar c).length := by
        unfold escapeChar
        split_ifs <;> simp
      simp only [List.flatMap_cons, List.length_append, List.length_cons]
      omega
  have := hge s
  simp only [dumpStr, List.length_append, List.length_cons, List.length_nil] at hl
  omega

/-- A document with an escaped string, a number and nested values. -/
example : (Json.object [(key "b", .arr [.num 12, .null, .bool true]), (key "a", .str "x\"\n".toList)]).WF ∧
    (Json.object [(key "b", .arr [.num 12, .null, .bool true]), (key "a", .str "x\"\n".toList)]).dump =
      "{\"a\":\"x\\\"\\n\",\"b\":[12,null,true]}".toList := by
  constructor
  · refine Json.wf_object ?_
    intro e he
    simp only [List.mem_cons, List.not_mem_nil, or_false] at he
    rcases he with rfl | rfl
    · refine Json.wf_arr ?_
      intro x hx
      simp only [List.mem_cons, List.not_mem_nil, or_false] at hx
      rcases hx with rfl | rfl | rfl
      · show 12 < 2 ^ 64
        norm_num
      · trivial
      · trivial
    · trivial
  · rfl

/-! ## C61: devices, plaintext ballots and contexts -/

theorem Device.wf_toDoc (d : Device) (h : d.Fits) : d.toDoc.WF := by
  refine Json.wf_object ?_
  intro e he
  simp only [List.mem_cons, List.not_mem_nil, or_false] at he
  rcases he with rfl | rfl | rfl | rfl
  · exact h.1
  · exact h.2.1
  · exact h.2.2
  · trivial

/-- C61: a device is read back as it was written. -/
theorem C61_device (d : Device) (h : d.Fits) : readText Device.ofDoc d.toDoc.dump = .ok d := by
  rw [readText_dump _ _ (d.wf_toDoc h)]
  simp [Device.ofDoc, Device.toDoc, Json.strAt, Json.natAt, Json.at_eq (Json.isObj_object _),
    Json.get_object, Json.asNat, Json.asStr, key_inj]

example : (Device.mk 12345 23456 34567 "Location \"1\"".toList).Fits := by
  unfold Device.Fits; decide +kernel

theorem PSelection.ofDoc_toDoc (s : PSelection) : PSelection.ofDoc s.toDoc = .ok s := by
  simp [PSelection.ofDoc, PSelection.toDoc, Json.strAt, Json.natAt, Json.at_eq (Json.isObj_object _),
    Json.optWith, Json.opt_eq, Json.get_object, Json.asNat, Json.asStr, Json.asBool, key_inj]

theorem PContest.ofDoc_toDoc (c : PContest) : PContest.ofDoc c.toDoc = .ok c := by
  simp [PContest.ofDoc, PContest.toDoc, Json.strAt, Json.at_eq (Json.isObj_object _),
    Json.get_object, Json.asStr, key_inj, Json.pushed_items,
    mapRes_map_ok (fun s _ => PSelection.ofDoc_toDoc s)]

theorem PBallot.ofDoc_toDoc (b : PBallot) : PBallot.ofDoc b.toDoc = .ok b := by
  simp [PBallot.ofDoc, PBallot.toDoc, Json.strAt, Json.at_eq (Json.isObj_object _),
    Json.get_object, Json.asStr, key_inj, Json.pushed_items,
    mapRes_map_ok (fun s _ => PContest.ofDoc_toDoc s)]

theorem PBallot.wf_toDoc (b : PBallot) (h : b.Fits) : b.toDoc.WF := by
  refine Json.wf_object ?_
  intro e he
  simp only [List.mem_cons, List.not_mem_nil, or_false] at he
  rcases he with rfl | rfl | rfl
  · trivial
  · trivial
  · refine Json.wf_pushed ?_
    intro x hx
    obtain ⟨c, hc, rfl⟩ := List.mem_map.1 hx
    refine Json.wf_object ?_
    intro e he
    simp only [List.mem_cons, List.not_mem_nil, or_false] at he
    rcases he with rfl | rfl
    · trivial
    · refine Json.wf_pushed ?_
      intro x hx
      obtain ⟨s, hs, rfl⟩ := List.mem_map.1 hx
      refine Json.wf_object ?_
      intro e he
      simp only [List.mem_cons, List.not_mem_nil, or_false] at he
      rcases he with rfl | rfl | rfl | rfl
      · trivial
      · exact h c hc s hs
      · trivial
      · trivial

/-- C61: a plaintext ballot is read back as it was written, with contests and selections in the same
order, also if there are none, and with all write-ins. -/
theorem C61_plaintext_ballot (b : PBallot) (h : b.Fits) :
    readText PBallot.ofDoc b.toDoc.dump = .ok b := by
  rw [readText_dump _ _ (b.wf_toDoc h), PBallot.ofDoc_toDoc]

/-- C61: two plaintext ballots have the same text only if they are the same. -/
theorem C61_plaintext_ballot_injective (b c : PBallot) (hb : b.Fits) (hc : c.Fits)
    (h : b.toDoc.dump = c.toDoc.dump) : b = c := by
  have h1 := C61_plaintext_ballot b hb
  rw [h, C61_plaintext_ballot c hc] at h1
  exact (Res.ok.inj h1).symm

example : (PBallot.mk "b1".toList "style".toList
    [⟨"c".toList, [⟨"s1".toList, 1, false, "J. \\ \"X\"".toList⟩, ⟨"s2".toList, 0, false, []⟩]⟩,
     ⟨"d".toList, []⟩]).Fits := by
  unfold PBallot.Fits; decide +kernel

theorem mapSet_perm (m : List (Str × Json)) (k : Str) (v : Json) (h : k ∉ m.map (·.1)) :
    (mapSet m k v).Perm ((k, v) :: m) := by
  induction m with
  | nil => exact List.Perm.refl _
  | cons e rest ih =>
    rw [List.map_cons, List.mem_cons, not_or] at h
    unfold mapSet
    rw [if_neg h.1]
    split
    · exact List.Perm.refl _
    · exact ((ih h.2).cons e).trans (List.Perm.swap _ _ _)

theorem object_perm (l m : List (Str × Json)) (hl : ((l ++ m).map (·.1)).Nodup) :
    (l.foldl (fun m e => mapSet m e.1 e.2) m).Perm (l ++ m) := by
  induction l generalizing m with
  | nil => exact List.Perm.refl _
  | cons e rest ih =>
    rw [List.foldl_cons]
    rw [List.cons_append, List.map_cons, List.nodup_cons] at hl
    have he : e.1 ∉ m.map (·.1) := fun h => hl.1 (by rw [List.map_append]; exact List.mem_append_right _ h)
    have hp := mapSet_perm m e.1 e.2 he
    refine (ih (mapSet m e.1 e.2) ?_).trans ?_
    · refine (((hp.append_left rest).map _).nodup_iff).2 ?_
      have : (rest ++ (e.1, e.2) :: m).Perm (e :: (rest ++ m)) := List.perm_middle
      refine ((this.map _).nodup_iff).2 ?_
      rw [List.map_cons, List.nodup_cons]
      exact hl
    · exact (hp.append_left rest).trans List.perm_middle

theorem mapRes_perm {α β : Type} (f : α → Res β) (g : β → α) (l : List β) (m : List α)
    (hp : m.Perm (l.map g)) (h : ∀ x, f (g x) = .ok x) : ∃ r, mapRes f m = .ok r ∧ r.Perm l := by
  have hsub : ∀ a ∈ m, ∃ b, g b = a := by
    intro a ha
    obtain ⟨b, _, hb⟩ := List.mem_map.1 (hp.subset ha)
    exact ⟨b, hb⟩
  have hr : ∃ r : List β, r.map g = m := by
    clear hp
    induction m with
    | nil => exact ⟨[], rfl⟩
    | cons a rest ih =>
      obtain ⟨b, hb⟩ := hsub a List.mem_cons_self
      obtain ⟨r, hr⟩ := ih (fun x hx => hsub x (List.mem_cons_of_mem _ hx))
      exact ⟨b :: r, by rw [List.map_cons, hb, hr]⟩
  obtain ⟨r, rfl⟩ := hr
  refine ⟨r, mapRes_map_ok (fun x _ => h x), ?_⟩
  refine (List.map_perm_map_iff ?_).1 hp
  intro a b hab
  have := h a
  rw [hab, h b] at this
  exact (Res.ok.inj this).symm

theorem hexQ_read {G : Params} (hG : G.Valid) {v : ℕ} (h : Nonzero G.q v) :
    fromHexQ G false (toHexQ v) = .ok v := C08_hex_q_partial G hG v h.1 h.2

theorem hexP_read {G : Params} (hG : G.Valid) {v : ℕ} (h : Nonzero G.p v) :
    fromHexP G false (toHexP v) = .ok v := C08_hex_p_partial G hG v h.1 h.2

theorem Context.wf_toDoc {G : Params} (c : Context) (e : ContextExtras) (hc : c.Readable G)
    (he : e.Readable) : (c.toDoc e).WF := by
  refine Json.wf_setIf (Json.wf_object ?_) _ _ (Json.wf_object ?_)
  · intro d hd
    simp only [List.mem_cons, List.not_mem_nil, or_false] at hd
    rcases hd with rfl | rfl | rfl | rfl | rfl | rfl | rfl | rfl
    · trivial
    · trivial
    · trivial
    · trivial
    · trivial
    · exact hc.guardians
    · exact hc.quorum
    · refine Json.wf_object ?_
      intro d hd
      simp only [List.mem_cons, List.not_mem_nil, or_false] at hd
      rcases hd with rfl | rfl
      · trivial
      · exact he.max
  · intro d hd
    obtain ⟨x, _, rfl⟩ := List.mem_map.1 hd
    trivial

/-- C61: a context is read back with the same numbers, key, hashes and configuration, and with the
same extended data up to order (it is an unordered map), if no element is zero. -/
theorem C61_context {G : Params} (hG : G.Valid) (c : Context) (e : ContextExtras)
    (hc : c.Readable G) (he : e.Readable) :
    ∃ d, readText (Context.ofDoc G) (c.toDoc e).dump = .ok (c, { e with extendedData := d }) ∧
      d.Perm e.extendedData := by
  rw [readText_dump _ _ (c.wf_toDoc e hc he)]
  have hobj : (c.toDoc e).IsObj := Json.isObj_setIf (Json.isObj_object _) _ _ _
  have hget : ∀ k, (c.toDoc e).get k = _ := fun k =>
    Json.get_setIf (Json.isObj_object _).node _ _ k _
  have hext : ∃ d, (c.toDoc e).optWith (key "extended_data")
      (fun v => mapRes (fun e => do let s ← e.2.asStr; .ok (e.1, s)) v.members) [] = .ok d ∧
      d.Perm e.extendedData := by
    unfold Json.optWith
    rw [Json.opt_eq, hget]
    by_cases h0 : e.extendedData = []
    · refine ⟨[], ?_, by rw [h0]⟩
      simp [h0, Json.get_object, key_inj]
    · have hp := object_perm (e.extendedData.map (fun d => (d.1, Json.str d.2))) [] (by
        simpa [List.map_map, Function.comp_def] using he.keys)
      rw [List.append_nil] at hp
      obtain ⟨r, hr, hrp⟩ := mapRes_perm
        (fun e : Str × Json => do let s ← e.2.asStr; Res.ok (e.1, s))
        (fun d : Str × Str => (d.1, Json.str d.2)) e.extendedData _ hp (fun x => rfl)
      refine ⟨r, ?_, hrp⟩
      have : (!e.extendedData.isEmpty) = true := by simp [h0]
      simp only [this, if_true, Json.object]
      exact hr
  obtain ⟨d, hd, hdp⟩ := hext
  refine ⟨d, ?_, hdp⟩
  unfold Context.ofDoc
  rw [hd]
  simp [Json.strAt, Json.natAt, Json.boolAt, Json.at_eq hobj, Json.at_eq (Json.isObj_object _), hget, Json.optWith, Json.opt_eq,
    Json.get_object, Json.asNat, Json.asStr, Json.asBool, key_inj, hexQ_read hG hc.commitment,
    hexQ_read hG hc.manifest, hexQ_read hG hc.base, hexQ_read hG hc.ext, hexP_read hG hc.pub]

/-- C61: reading does not check the hashes of a context.  Whatever hashes the document holds are
those of the context that is read, although `make` computes them from the other fields. -/
theorem C61_hashes_not_checked {G : Params} (hG : G.Valid) (c : Context) (e : ContextExtras)
    (hc : c.Readable G) (he : e.Readable) (base ext : ℕ) (hb : Nonzero G.q base)
    (hx : Nonzero G.q ext) :
    ∃ d e', readText (Context.ofDoc G) (({ c with baseHash := base, extHash := ext } : Context).toDoc e).dump =
        .ok (d, e') ∧
      d.pub = c.pub ∧ d.commitmentHash = c.commitmentHash ∧ d.baseHash = base ∧ d.extHash = ext := by
  obtain ⟨d, h, _⟩ := C61_context hG { c with baseHash := base, extHash := ext } e
    { hc with base := hb, ext := hx } he
  exact ⟨_, _, h, rfl, rfl, rfl, rfl⟩

theorem hashElems_const5 (l : List HElem) : hashElems .std (constCrypto 5) l = 5 := by
  have hG := C54_std_valid
  have hq : 100 < Params.std.q := by decide +kernel
  generalize Params.std = G at *
  rw [hashElems_const, show 5 % 2 ^ 256 = 5 from rfl, addModQ_eq hG 5 0 (by omega) (by omega),
    Nat.add_zero, Nat.mod_eq_of_lt (by omega)]

/-- A context made by the library and two hashes that are not its own. -/
example : (Context.make .std (constCrypto 5) 3 2 4 7 9).Readable .std ∧
    (ContextExtras.mk true 1000 [("a".toList, "b".toList), ("c".toList, [])]).Readable ∧
    Nonzero Params.std.q 123 ∧ Nonzero Params.std.q 321 ∧
    (Context.make .std (constCrypto 5) 3 2 4 7 9).extHash ≠ 321 := by
  have h5 := hashElems_const5
  have hq : 1000 < Params.std.q := by decide +kernel
  have hp : 1000 < Params.std.p := by decide +kernel
  generalize Params.std = G at *
  have hnq : ∀ k, k ≠ 0 → k ≤ 1000 → Nonzero G.q k := fun k h1 h2 => ⟨h1, by omega⟩
  simp only [Context.make, h5]
  refine ⟨⟨?_, ?_, ?_, ?_, ?_, ?_, ?_⟩, ⟨?_, ?_⟩, ?_, ?_, ?_⟩
  · show 3 < 2 ^ 64
    norm_num
  · show 2 < 2 ^ 64
    norm_num
  · exact ⟨by norm_num, by norm_num; omega⟩
  · exact hnq _ (by norm_num) (by norm_num)
  · exact hnq _ (by norm_num) (by norm_num)
  · exact hnq _ (by norm_num) (by norm_num)
  · exact hnq _ (by norm_num) (by norm_num)
  · show 1000 < 2 ^ 64
    norm_num
  · decide +kernel
  · exact ⟨by norm_num, by omega⟩
  · exact ⟨by norm_num, by omega⟩
  · norm_num

/-- C40: the overloads of `make` with hexadecimal arguments make the same context, each argument in
its place. -/
theorem C40_make_hex {G : Params} (hG : G.Valid) (C : Crypto) (n quorum pub commitment manifest : ℕ)
    (hp : Nonzero G.p pub) (hc : Nonzero G.q commitment) (hm : Nonzero G.q manifest) :
    Context.makeHex G C n quorum (toHexP pub) (toHexQ commitment) (toHexQ manifest) =
      .ok (Context.make G C n quorum pub commitment manifest) := by
  unfold Context.makeHex
  rw [hexP_read hG hp, hexQ_read hG hc, hexQ_read hG hm]
  rfl

/-! ## C48: compact ballots -/

theorem CompactPlain.wf_toDoc (c : CompactPlain) (h : c.Fits) : c.toDoc.WF := by
  refine Json.wf_object ?_
  intro e he
  simp only [List.mem_cons, List.not_mem_nil, or_false] at he
  rcases he with rfl | rfl | rfl | rfl
  · trivial
  · trivial
  · refine Json.wf_pushed ?_
    intro x hx
    obtain ⟨v, hv, rfl⟩ := List.mem_map.1 hx
    exact h v hv
  · refine Json.wf_pushed ?_
    intro x hx
    obtain ⟨v, hv, rfl⟩ := List.mem_map.1 hx
    trivial

theorem CompactPlain.ofDoc_toDoc (c : CompactPlain) (h : c.selections ≠ []) :
    CompactPlain.ofDoc c.toDoc = .ok { c with writeIns := c.writeIns.map dumpStr } := by
  have hp : (Json.pushed (c.selections.map Json.num)).asNats = .ok c.selections := by
    unfold Json.pushed
    rw [if_neg (by simpa using h)]
    exact mapRes_asNat _
  have hw : (c.writeIns.map Json.str).map Json.dump = c.writeIns.map dumpStr := by
    rw [List.map_map]
    refine List.map_congr_left ?_
    intro s _
    simp [Json.dump]
  simp [CompactPlain.ofDoc, CompactPlain.toDoc, Json.strAt, Json.at_eq (Json.isObj_object _),
    Json.get_object, Json.asStr, key_inj, Json.pushed_items, mapRes_asNat, hp, hw,
    -List.map_map]

/-- C48: what is read from the text of a compact ballot with at least one selection.  Everything is as
it was written, except that each write-in is replaced by its JSON text.
Missing for the full claim: the write-ins themselves, see `C48_violated`. -/
theorem C48_partial (c : CompactPlain) (h : c.Fits) (hs : c.selections ≠ []) :
    readText CompactPlain.ofDoc c.toDoc.dump = .ok { c with writeIns := c.writeIns.map dumpStr } := by
  rw [readText_dump _ _ (c.wf_toDoc h), c.ofDoc_toDoc hs]

/-- C48 is violated by every ballot with a selection and a write-in, also an empty one: it is not read
back as it was written. -/
theorem C48_violated (c : CompactPlain) (h : c.Fits) (hw : c.writeIns ≠ []) :
    readText CompactPlain.ofDoc c.toDoc.dump ≠ .ok c := by
  intro hr
  by_cases hs : c.selections = []
  · rw [readText_dump _ _ (c.wf_toDoc h)] at hr
    simp [CompactPlain.ofDoc, CompactPlain.toDoc, Json.strAt, Json.at_eq (Json.isObj_object _),
      Json.get_object, Json.asStr, key_inj, hs, Json.pushed, Json.asNats, mapRes, Json.items] at hr
  · rw [C48_partial c h hs] at hr
    have h1 : c.writeIns.map dumpStr = c.writeIns := congrArg CompactPlain.writeIns (Res.ok.inj hr)
    cases hc : c.writeIns with
    | nil => exact hw hc
    | cons a rest =>
      rw [hc, List.map_cons] at h1
      exact C64_dump_str_ne a (List.cons.inj h1).1

/-- C48 is violated by every ballot without selections: its text cannot be read. -/
theorem C48_no_selections (c : CompactPlain) (h : c.Fits) (hs : c.selections = []) :
    readText CompactPlain.ofDoc c.toDoc.dump = .throw .json := by
  rw [readText_dump _ _ (c.wf_toDoc h)]
  simp [CompactPlain.ofDoc, CompactPlain.toDoc, Json.strAt, Json.at_eq (Json.isObj_object _),
    Json.get_object, Json.asStr, key_inj, hs, Json.pushed, Json.asNats, mapRes, Json.items]

/-- A ballot as `compressPlaintextBallot` makes it: a write-in for every selection, here one of them
with a name. -/
example : (CompactPlain.mk "b".toList "s".toList [1, 0] ["A \"B\"".toList, []]).Fits ∧
    (CompactPlain.mk "b".toList "s".toList [1, 0] ["A \"B\"".toList, []]).writeIns.map dumpStr =
      ["\"A \\\"B\\\"\"".toList, "\"\"".toList] := by
  constructor
  · unfold CompactPlain.Fits; decide +kernel
  · rfl

theorem BallotBoxState.ofValue_value (s : BallotBoxState) : BallotBoxState.ofValue s.value = .ok s := by
  cases s <;> rfl

/-- C48: an encrypted compact ballot is read back with the same codes, nonce, time and state; its
plaintext as `C48_partial` says.
Missing for the full claim: the write-ins, and ballots without selections. -/
theorem C48_cipher_partial {G : Params} (hG : G.Valid) (c : CompactCipher) (h : c.Readable G)
    (hs : c.plaintext.selections ≠ []) :
    readText (CompactCipher.ofDoc G) c.toDoc.dump =
      .ok { c with plaintext := { c.plaintext with
              writeIns := c.plaintext.writeIns.map dumpStr } } := by
  have hwf : c.toDoc.WF := by
    refine Json.wf_object ?_
    intro e he
    simp only [List.mem_cons, List.not_mem_nil, or_false] at he
    rcases he with rfl | rfl | rfl | rfl | rfl | rfl
    · exact c.plaintext.wf_toDoc h.plaintext
    · trivial
    · trivial
    · trivial
    · exact h.timestamp
    · show c.state.value < 2 ^ 64
      cases c.state <;> simp [BallotBoxState.value]
  rw [readText_dump _ _ hwf]
  simp [CompactCipher.ofDoc, CompactCipher.toDoc, Json.strAt, Json.natAt,
    Json.at_eq (Json.isObj_object _), Json.get_object, Json.asStr, Json.asNat, key_inj,
    BallotBoxState.ofValue_value, c.plaintext.ofDoc_toDoc hs, hexQ_read hG h.seed,
    hexQ_read hG h.code, hexQ_read hG h.nonce]

/-- C48: expanding what was read gives the original ballot with every write-in quoted. -/
theorem C48_expand_quoted (S : StdSort) (c : CompactPlain) (m : IManifest) (b : PBallot)
    (h : expandPlain S c m = .ok b) :
    expandPlain S { c with writeIns := c.writeIns.map dumpStr } m =
      .ok b.quoted := by
  have hsel : ∀ (l : List SelectionDesc) (i : ℕ) (r : List PSelection),
      expandSelections c l i = .ok r →
      expandSelections { c with writeIns := c.writeIns.map dumpStr } l i =
        .ok (r.map PBallot.quoted.quotedSelection) := by
    intro l
    induction l with
    | nil =>
      intro i r h
      cases h
      rfl
    | cons d rest ih =>
      intro i r h
      unfold expandSelections at h ⊢
      cases h1 : c.selections[i]? with
      | none => rw [h1] at h; cases h
      | some v =>
        cases h2 : c.writeIns[i]? with
        | none => rw [h1, h2] at h; cases h
        | some w =>
          rw [h1, h2] at h
          obtain ⟨r', hr', h⟩ := (Res.bind_eq_ok _ _ _).1 h
          cases h
          simp only [List.getElem?_map, h2, Option.map_some]
          rw [ih _ _ hr']
          rfl
  have hcon : ∀ (l : List ContestDescP) (i : ℕ) (r : List PContest),
      expandContests S c l i = .ok r →
      expandContests S { c with writeIns := c.writeIns.map dumpStr } l i =
        .ok (r.map PBallot.quoted.quotedContest) := by
    intro l
    induction l with
    | nil =>
      intro i r h
      cases h
      rfl
    | cons d rest ih =>
      intro i r h
      unfold expandContests at h ⊢
      obtain ⟨ss, hs, h⟩ := (Res.bind_eq_ok _ _ _).1 h
      obtain ⟨r', hr', h⟩ := (Res.bind_eq_ok _ _ _).1 h
      cases h
      rw [hsel _ _ _ hs, Res.bind_ok, ih _ _ hr']
      rfl
  unfold expandPlain at h ⊢
  obtain ⟨ds, hds, h⟩ := (Res.bind_eq_ok _ _ _).1 h
  obtain ⟨cs, hcs, h⟩ := (Res.bind_eq_ok _ _ _).1 h
  cases h
  show (m.getContestsFor S c.styleId >>= _) = _
  rw [hds, Res.bind_ok, hcon _ _ _ hcs]
  rfl

/-! ## C47: hashed ElGamal ciphertexts -/

/-- What bytes become in the text: leading zeros are lost, and nothing but zeros cannot be read. -/
theorem bytes_read (bs : List UInt8) :
    (do let t ← sanitizeHex (bytesToHex bs); hexToBytes t) =
      if bs.dropWhile (· = 0) = [] then .throw .outOfRange else .ok (bs.dropWhile (· = 0)) := by
  by_cases h : ofBytesBE bs = 0
  · rw [if_pos (ofBytesBE_eq_zero bs h), sanitizeHex_zero bs h]
    rfl
  · obtain ⟨b, rest, hd, _, _⟩ := bytesToHex_of_ne_zero bs h
    rw [parse_bytesToHex bs h, if_neg (by rw [hd]; simp)]

end EG
