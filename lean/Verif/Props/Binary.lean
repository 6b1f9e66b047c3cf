import Verif.Lemmas.BinaryWrite
import Verif.Props.Serialize
import Verif.Props.SerializeBallot
import Verif.Props.SerializeManifest

/-!
# MessagePack and BSON

C95, C96.
-/

namespace EG

open EG.Binary EG.Spec.Binary

/-! ## C95: MessagePack -/

/-- C95: bytes are read as a document exactly if the grammar of MessagePack says that they denote it. -/
theorem C95_grammar (t : List UInt8) (j : Json) : unpack t = .ok j ↔ Pack t j := unpack_iff t j

/-- C95: what is written denotes the document, and is read back as this document, up to 4 GiB. -/
theorem C95_written (j : Json) (hj : j.WF) (hl : (pack j).length < 2 ^ 32) :
    Pack (pack j) j ∧ unpack (pack j) = .ok j :=
  ⟨pack_spec j hj hl, (unpack_iff _ _).2 (pack_spec j hj hl)⟩

/-- C95: different documents are written as different bytes. -/
theorem C95_injective (j k : Json) (hj : j.WF) (hk : k.WF) (hl : (pack j).length < 2 ^ 32) (h : pack j = pack k) :
    j = k := by
  have h1 := (C95_written j hj hl).2
  rw [h, (C95_written k hk (by rw [← h]; exact hl)).2] at h1
  exact (Except.ok.inj h1).symm

/-- C95: reading the bytes of an object gives what reading its text gives, for every class. -/
theorem C95_same_as_text {α : Type} (ofDoc : Json → Res α) (j : Json) (hj : j.WF) (hl : (pack j).length < 2 ^ 32) :
    readPack ofDoc (pack j) = some (readText ofDoc j.dump) := by
  rw [readPack, (C95_written j hj hl).2, readText_dump _ _ hj]
  rfl

/-- C95: nothing can be appended to bytes that are read: there is an exception for every class. -/
theorem C95_prefix (t u : List UInt8) (j : Json) (h : unpack t = .ok j) (hu : u ≠ []) :
    unpack (t ++ u) = .error .refused ∧
      ∀ (α : Type) (ofDoc : Json → Res α), readPack ofDoc (t ++ u) = some (.throw .json) := by
  suffices hs : unpack (t ++ u) = .error .refused from ⟨hs, fun α ofDoc => by rw [readPack, hs]; rfl⟩
  rw [unpack_iff] at h
  have := unpack_complete h (2 * (t ++ u).length + 1) u (by simp only [List.length_append]; omega)
  rw [unpack, this]
  cases u with
  | nil => exact absurd rfl hu
  | cons b u => rfl

/-- C95: bytes that were cut are not read as any document. -/
theorem C95_truncated (j : Json) (hj : j.WF) (hl : (pack j).length < 2 ^ 32) (t u : List UInt8) (h : pack j = t ++ u)
    (hu : u ≠ []) (k : Json) : unpack t ≠ .ok k := by
  intro hk
  have h1 := (C95_prefix t u k hk hu).1
  rw [← h, (C95_written j hj hl).2] at h1
  cases h1

/-- C95: the bytes are not determined by the document: every object has others, which are read as well. -/
theorem C95_not_unique (m : List (Str × Json)) (hj : (Json.obj m).WF) (hm : m.length < 2 ^ 16)
    (hl : (pack (.obj m)).length < 2 ^ 32) : ∃ t, t ≠ pack (.obj m) ∧ unpack t = .ok (.obj m) := by
  have hp := hl
  simp only [pack, List.length_append] at hl
  have h1 := packMembers_spec m hj.2 (by omega)
  refine ⟨(0xDF :: beBytes 4 m.length) ++ packMembers m, ?_, ?_⟩
  · intro h
    simp only [pack] at h
    have := congrArg List.head? h
    unfold objHead at this
    by_cases h2 : m.length < 16
    · rw [if_pos h2] at this
      simp only [List.cons_append, List.head?_cons, Option.some.injEq] at this
      have := congrArg UInt8.toNat this
      rw [u8_toNat (by omega)] at this
      have e : (0xDF : UInt8).toNat = 0xDF := rfl
      omega
    · rw [if_neg h2, if_pos hm] at this
      simp at this
  · rw [unpack_iff]
    exact .map (.map32 (beBytes_length _ _) (big_beBytes _ _ (by omega))) h1 (isMap_self hj.1)

/-- C95: a key that occurs several times is accepted; the last one counts. -/
theorem C95_last_key (k : Str) (x y : Json) (hx : x.WF) (hy : y.WF) (hk : k.bytes.length < 32)
    (hlx : (pack x).length < 2 ^ 32) (hly : (pack y).length < 2 ^ 32) :
    unpack (0x82 :: (packStr k ++ (pack x ++ (packStr k ++ pack y)))) = .ok (.obj [(k, y)]) := by
  rw [unpack_iff]
  have h := PackMap.cons (strHead_spec (n := k.bytes.length) (by omega)) (pack_spec x hx hlx)
    (PackMap.cons (s := k) (strHead_spec (n := k.bytes.length) (by omega)) (pack_spec y hy hly) .nil)
  rw [List.append_nil] at h
  have := Pack.map (h := [0x82]) (.fix (n := 2) (by omega) rfl) h ((isMap_iff _ _).2 rfl)
  simpa [packStr, mapOf, mapSet] using this

/-- C95: a plaintext ballot is read back as it was written. -/
theorem C95_plaintext_ballot (b : PBallot) (h : b.Fits) (hl : (pack b.toDoc).length < 2 ^ 32) :
    readPack PBallot.ofDoc (pack b.toDoc) = some (.ok b) := by
  rw [C95_same_as_text _ _ (b.wf_toDoc h) hl, C61_plaintext_ballot b h]

/-- C95: an encrypted ballot is read back as from its text. -/
theorem C95_ballot_partial {G : Params} (hG : G.Valid) (S : StdSort) (withNonces : Bool) (b : CBallot)
    (h : b.Readable G withNonces) : ∃ data, writePack (b.toDoc S withNonces) = .ok data ∧
      (data.length < 2 ^ 32 → readPack (CBallot.ofDoc G) data = some (.ok (b.read S withNonces))) := by
  obtain ⟨d, hd, _, hwf, hr, _⟩ := CBallot.round_trip hG S withNonces b h
  refine ⟨pack d, by rw [writePack, hd]; rfl, fun hl => ?_⟩
  rw [C95_same_as_text _ _ hwf hl, readText_dump _ _ hwf, hr]

/-- C95: a compact ballot is read back as from its text, so without its write-ins. -/
theorem C95_compact_partial (c : CompactPlain) (h : c.Fits) (hs : c.selections ≠ []) (hl : (pack c.toDoc).length < 2 ^ 32) :
    readPack CompactPlain.ofDoc (pack c.toDoc) = some (.ok { c with writeIns := c.writeIns.map dumpStr }) := by
  rw [C95_same_as_text _ _ (c.wf_toDoc h) hl, C48_partial c h hs]

/-- C95: a manifest is read back as from its text. -/
theorem C95_manifest_partial (S : StdSort) (m : Manifest) (hm : ∀ c ∈ m.contests, c.Fits) :
    ∃ data, writePack (m.toDoc S) = .ok data ∧
      (data.length < 2 ^ 32 → readPack Manifest.ofDoc data = some (.ok (m.read S))) := by
  obtain ⟨d, hd, hwf, hr⟩ := Manifest.round_trip S m hm
  refine ⟨pack d, by rw [writePack, hd]; rfl, fun hl => ?_⟩
  rw [C95_same_as_text _ _ hwf hl, readText_dump _ _ hwf, hr]

/-- A document with a long text, a negative number and nested values, and its bytes. -/
example : pack (.obj [(key "a", .arr [.num 1, .num 300, .int 1, .null]), (key "b", .str "é".toList)]) =
    [0x82, 0xA1, 0x61, 0x94, 0x01, 0xCD, 0x01, 0x2C, 0xFF, 0xC0, 0xA1, 0x62, 0xA2, 0xC3, 0xA9] := by
  decide +kernel

example : (pack (PBallot.toDoc ⟨"b".toList, "s".toList,
      [⟨"c".toList, [⟨"x".toList, 1, false, "A \"B\"".toList⟩]⟩]⟩)).length < 2 ^ 32 := by
  decide +kernel

/-! ## C96: BSON -/

/-- C96: bytes are read as a document exactly if the grammar of BSON says that they denote it, where sizes, the bytes
behind texts and the value of a boolean are not looked at. -/
theorem C96_grammar (t : List UInt8) (j : Json) : ofBson t = .ok j ↔ Doc false t j := ofBson_iff t j

/-- C96: what is written denotes the document as the specification demands, with all sizes, and is read back as this
document, up to 2 GiB. -/
theorem C96_written (j : Json) (hj : j.WF) (t : List UInt8) (h : toBson j = .ok t) (hl : t.length < 2 ^ 31) :
    Doc true t j ∧ ofBson t = .ok j :=
  ⟨toBson_spec hj h hl, (ofBson_iff _ _).2 (Doc.loose (toBson_spec hj h hl))⟩

/-- C96: a document is written exactly if it is an object, its numbers are below 2^63 and there is no zero character in
its keys; otherwise there is an exception. -/
theorem C96_written_iff (j : Json) : ((∃ t, toBson j = .ok t) ↔ (∃ m, j = .obj m) ∧ Fits j) ∧
    ((∀ t, toBson j ≠ .ok t) → toBson j = .throw .json) := by
  cases j with
  | obj m =>
    simp only [toBson]
    rcases bsonMembers_ok m with ⟨⟨v, hv⟩, h⟩ | ⟨hv, h⟩
    · rw [hv]
      exact ⟨⟨fun _ => ⟨⟨_, rfl⟩, h⟩, fun _ => ⟨_, rfl⟩⟩, fun hn => absurd rfl (hn (bsonDoc v))⟩
    · rw [hv]
      refine ⟨⟨fun ⟨t, ht⟩ => ?_, fun hf => absurd hf.2 h⟩, fun _ => rfl⟩
      cases ht
  | _ => simp [toBson]

/-- C96: reading the bytes of an object gives what reading its text gives, for every class. -/
theorem C96_same_as_text {α : Type} (ofDoc : Json → Res α) (j : Json) (hj : j.WF) (t : List UInt8)
    (h : toBson j = .ok t) (hl : t.length < 2 ^ 31) : readBson ofDoc t = some (readText ofDoc j.dump) := by
  rw [readBson, (C96_written j hj t h hl).2, readText_dump _ _ hj]
  rfl

/-- C96: nothing can be appended to bytes that are read: there is an exception for every class. -/
theorem C96_prefix (t u : List UInt8) (j : Json) (h : ofBson t = .ok j) (hu : u ≠ []) :
    ofBson (t ++ u) = .error .refused ∧
      ∀ (α : Type) (ofDoc : Json → Res α), readBson ofDoc (t ++ u) = some (.throw .json) := by
  suffices hs : ofBson (t ++ u) = .error .refused from ⟨hs, fun α ofDoc => by rw [readBson, hs]; rfl⟩
  rw [ofBson_iff] at h
  cases h with
  | @mk n t l m hs he hm =>
    have := bdoc_of hs.1 (Nat.succ_pos _) (elems_complete he (3 * ((n ++ (t ++ [0])) ++ u).length + 3 - 1) u (by
      simp only [List.length_append, List.length_cons, List.length_nil]; omega))
    rw [ofBson, this]
    cases u with
    | nil => exact absurd rfl hu
    | cons b u => rfl

/-- C96: bytes that were cut are not read as any document. -/
theorem C96_truncated (j : Json) (hj : j.WF) (b t u : List UInt8) (hb : toBson j = .ok b) (hl : b.length < 2 ^ 31)
    (h : b = t ++ u) (hu : u ≠ []) (k : Json) : ofBson t ≠ .ok k := by
  intro hk
  have h1 := (C96_prefix t u k hk hu).1
  rw [← h, (C96_written j hj b hb hl).2] at h1
  cases h1

/-- C96 is violated, sizes: the size at the beginning can be anything. -/
theorem C96_size_violated (n n' t : List UInt8) (hn : n.length = 4) (hn' : n'.length = 4) :
    ofBson (n ++ t) = ofBson (n' ++ t) := by
  have e : (n ++ t).length = (n' ++ t).length := by simp [hn, hn']
  unfold ofBson
  rw [e, readDoc, readDoc, (take_iff _ _ _ _).2 ⟨rfl, hn⟩, (take_iff _ _ _ _).2 ⟨rfl, hn'⟩]

/-! ### Which objects of the library can be written -/

theorem fitsArr_iff (l : List Json) : fitsArr l ↔ ∀ x ∈ l, Fits x := by
  induction l with
  | nil => simp [fitsArr]
  | cons x rest ih => simp [fitsArr, ih]

theorem fitsMembers_iff (m : List (Str × Json)) :
    fitsMembers m ↔ ∀ e ∈ m, Char.ofNat 0 ∉ e.1 ∧ Fits e.2 := by
  induction m with
  | nil => simp [fitsMembers]
  | cons e rest ih => obtain ⟨k, x⟩ := e; simp [fitsMembers, ih, and_assoc]

theorem fits_mapSet {m : List (Str × Json)} (h : Fits (.obj m)) {k : Str} (hk : Char.ofNat 0 ∉ k) {v : Json}
    (hv : Fits v) : Fits (.obj (mapSet m k v)) := by
  simp only [Fits, fitsMembers_iff] at h ⊢
  intro e he
  rcases mem_mapSet he with rfl | he
  · exact ⟨hk, hv⟩
  · exact h e he

theorem fits_object {l : List (Str × Json)} (h : ∀ e ∈ l, Char.ofNat 0 ∉ e.1 ∧ Fits e.2) : Fits (.object l) := by
  have key : ∀ (l m : List (Str × Json)), (∀ e ∈ l, Char.ofNat 0 ∉ e.1 ∧ Fits e.2) → Fits (.obj m) →
      Fits (.obj (l.foldl (fun m e => mapSet m e.1 e.2) m)) := by
    intro l
    induction l with
    | nil => intro m _ hm; exact hm
    | cons e l ih =>
      intro m hl hm
      have h1 := hl e List.mem_cons_self
      exact ih _ (fun x hx => hl x (List.mem_cons_of_mem _ hx)) (fits_mapSet hm h1.1 h1.2)
  exact key l [] h (by simp [Fits, fitsMembers])

theorem fits_get {j v : Json} {k : Str} (h : Fits j) (hg : j.get k = some v) : Char.ofNat 0 ∉ k ∧ Fits v := by
  cases j with
  | obj m =>
    simp only [Fits, fitsMembers_iff] at h
    simp only [Json.get, mapGet, Option.map_eq_some_iff] at hg
    obtain ⟨e, he, rfl⟩ := hg
    have h1 := h e (List.mem_of_find?_eq_some he)
    have h2 := List.find?_some he
    simp only [decide_eq_true_eq] at h2
    rw [← h2]
    exact h1
  | _ => cases hg

theorem fits_pushed (l : List Json) : Fits (.pushed l) ↔ ∀ x ∈ l, Fits x := by
  unfold Json.pushed
  cases l with
  | nil => simp [Fits]
  | cons x l =>
    show Fits (.arr (x :: l)) ↔ _
    simp only [Fits]
    exact fitsArr_iff _

/-- C96: a device is written and read back exactly if its three numbers are below 2^63. -/
theorem C96_device_partial (d : Device) (h : d.Fits) :
    ((∃ t, toBson d.toDoc = .ok t) ↔ d.deviceUuid < 2 ^ 63 ∧ d.sessionUuid < 2 ^ 63 ∧ d.launchCode < 2 ^ 63) ∧
    ∀ t, toBson d.toDoc = .ok t → t.length < 2 ^ 31 → readBson Device.ofDoc t = some (.ok d) := by
  constructor
  · rw [(C96_written_iff _).1]
    constructor
    · rintro ⟨_, hf⟩
      exact ⟨(fits_get (k := key "device_id") (v := .num d.deviceUuid) hf
          (by simp [Device.toDoc, Json.get_object, key_inj])).2,
        (fits_get (k := key "session_id") (v := .num d.sessionUuid) hf
          (by simp [Device.toDoc, Json.get_object, key_inj])).2,
        (fits_get (k := key "launch_code") (v := .num d.launchCode) hf
          (by simp [Device.toDoc, Json.get_object, key_inj])).2⟩
    · rintro ⟨h1, h2, h3⟩
      refine ⟨⟨_, rfl⟩, fits_object ?_⟩
      intro e he
      simp only [List.mem_cons, List.not_mem_nil, or_false] at he
      rcases he with rfl | rfl | rfl | rfl
      · exact ⟨by dsimp only; decide +kernel, h1⟩
      · exact ⟨by dsimp only; decide +kernel, h2⟩
      · exact ⟨by dsimp only; decide +kernel, h3⟩
      · exact ⟨by dsimp only; decide +kernel, trivial⟩
  · intro t ht hl
    rw [C96_same_as_text _ _ (d.wf_toDoc h) t ht hl, C61_device d h]

/-- C96 is violated: a device with a number from 2^63 has a text that is read back, and no BSON. -/
theorem C96_device_violated (d : Device) (h : d.Fits)
    (hd : 2 ^ 63 ≤ d.deviceUuid ∨ 2 ^ 63 ≤ d.sessionUuid ∨ 2 ^ 63 ≤ d.launchCode) :
    toBson d.toDoc = .throw .json ∧ readText Device.ofDoc d.toDoc.dump = .ok d := by
  refine ⟨(C96_written_iff _).2 fun t ht => ?_, C61_device d h⟩
  have := (C96_device_partial d h).1.1 ⟨t, ht⟩
  omega

/-- C96: a plaintext ballot is written and read back exactly if its votes are below 2^63. -/
theorem C96_plaintext_ballot_partial (b : PBallot) (h : b.Fits) :
    ((∃ t, toBson b.toDoc = .ok t) ↔ ∀ c ∈ b.contests, ∀ s ∈ c.selections, s.vote < 2 ^ 63) ∧
    ∀ t, toBson b.toDoc = .ok t → t.length < 2 ^ 31 → readBson PBallot.ofDoc t = some (.ok b) := by
  constructor
  · rw [(C96_written_iff _).1]
    constructor
    · rintro ⟨_, hf⟩ c hc s hs
      have h1 := (fits_get (k := key "contests") (v := .pushed (b.contests.map PContest.toDoc)) hf
          (by simp [PBallot.toDoc, Json.get_object])).2
      have h2 := (fits_pushed _).1 h1 _ (List.mem_map_of_mem hc)
      have h3 := (fits_get (k := key "ballot_selections") (v := .pushed (c.selections.map PSelection.toDoc)) h2
          (by simp [PContest.toDoc, Json.get_object])).2
      have h4 := (fits_pushed _).1 h3 _ (List.mem_map_of_mem hs)
      exact (fits_get (k := key "vote") (v := .num s.vote) h4
          (by simp [PSelection.toDoc, Json.get_object, key_inj])).2
    · intro hv
      refine ⟨⟨_, rfl⟩, fits_object ?_⟩
      intro e he
      simp only [List.mem_cons, List.not_mem_nil, or_false] at he
      rcases he with rfl | rfl | rfl
      · exact ⟨by dsimp only; decide +kernel, trivial⟩
      · exact ⟨by dsimp only; decide +kernel, trivial⟩
      refine ⟨by dsimp only; decide +kernel, (fits_pushed _).2 ?_⟩
      intro x hx
      obtain ⟨c, hc, rfl⟩ := List.mem_map.1 hx
      refine fits_object ?_
      intro e he
      simp only [List.mem_cons, List.not_mem_nil, or_false] at he
      rcases he with rfl | rfl
      · exact ⟨by dsimp only; decide +kernel, trivial⟩
      refine ⟨by dsimp only; decide +kernel, (fits_pushed _).2 ?_⟩
      intro x hx
      obtain ⟨s, hs, rfl⟩ := List.mem_map.1 hx
      refine fits_object ?_
      intro e he
      simp only [List.mem_cons, List.not_mem_nil, or_false] at he
      rcases he with rfl | rfl | rfl | rfl
      · exact ⟨by dsimp only; decide +kernel, trivial⟩
      · exact ⟨by dsimp only; decide +kernel, hv c hc s hs⟩
      · exact ⟨by dsimp only; decide +kernel, trivial⟩
      · exact ⟨by dsimp only; decide +kernel, trivial⟩
  · intro t ht hl
    rw [C96_same_as_text _ _ (b.wf_toDoc h) t ht hl, C61_plaintext_ballot b h]

/-- C96: a context is written exactly if its numbers are below 2^63 and no key of the extended data has a zero
character; it is then read back, with the extended data in any order. -/
theorem C96_context_partial {G : Params} (hG : G.Valid) (c : Context) (e : ContextExtras) (hc : c.Readable G)
    (he : e.Readable) :
    ((∃ t, toBson (c.toDoc e) = .ok t) ↔ c.numberOfGuardians < 2 ^ 63 ∧ c.quorum < 2 ^ 63 ∧ e.maxBallots < 2 ^ 63 ∧
      ∀ d ∈ e.extendedData, Char.ofNat 0 ∉ d.1) ∧
    ∀ t, toBson (c.toDoc e) = .ok t → t.length < 2 ^ 31 →
      ∃ d, readBson (Context.ofDoc G) t = some (.ok (c, { e with extendedData := d })) ∧ d.Perm e.extendedData := by
  have hobj : (c.toDoc e).IsObj := Json.isObj_setIf (Json.isObj_object _) _ _ _
  have hget : ∀ k, (c.toDoc e).get k = _ := fun k =>
    Json.get_setIf (Json.isObj_object _).node _ _ k _
  constructor
  · rw [(C96_written_iff _).1]
    constructor
    · rintro ⟨_, hf⟩
      refine ⟨(fits_get (k := key "number_of_guardians") (v := .num c.numberOfGuardians) hf
          (by simp [hget, Json.get_object, key_inj])).2,
        (fits_get (k := key "quorum") (v := .num c.quorum) hf
          (by simp [hget, Json.get_object, key_inj])).2, ?_, ?_⟩
      · have h1 := (fits_get (k := key "configuration") (v := .object [(key "allow_overvotes", .bool e.allowOvervotes),
            (key "max_votes", .num e.maxBallots)]) hf (by simp [hget, Json.get_object, key_inj])).2
        exact (fits_get (k := key "max_votes") (v := .num e.maxBallots) h1
          (by simp [Json.get_object])).2
      · intro d hd
        have h0 : e.extendedData ≠ [] := List.ne_nil_of_mem hd
        have h1 := (fits_get (k := key "extended_data")
          (v := .object (e.extendedData.map (fun d => (d.1, .str d.2)))) hf (by simp [hget, h0])).2
        have hp := object_perm (e.extendedData.map (fun d => (d.1, Json.str d.2))) [] (by
          simpa [List.map_map, Function.comp_def] using he.keys)
        rw [List.append_nil] at hp
        simp only [Json.object, Fits, fitsMembers_iff] at h1
        exact (h1 (d.1, .str d.2) (hp.symm.subset (List.mem_map_of_mem hd))).1
    · rintro ⟨h1, h2, h3, h4⟩
      refine ⟨hobj, ?_⟩
      have hb : Fits (Json.object [(key "crypto_base_hash", .str (toHexQ c.baseHash)),
          (key "crypto_extended_base_hash", .str (toHexQ c.extHash)),
          (key "commitment_hash", .str (toHexQ c.commitmentHash)),
          (key "manifest_hash", .str (toHexQ c.manifestHash)),
          (key "elgamal_public_key", .str (toHexP c.pub)),
          (key "number_of_guardians", .num c.numberOfGuardians), (key "quorum", .num c.quorum),
          (key "configuration", .object [(key "allow_overvotes", .bool e.allowOvervotes),
            (key "max_votes", .num e.maxBallots)])]) := by
        refine fits_object ?_
        intro d hd
        simp only [List.mem_cons, List.not_mem_nil, or_false] at hd
        rcases hd with rfl | rfl | rfl | rfl | rfl | rfl | rfl | rfl
        · exact ⟨by dsimp only; decide +kernel, trivial⟩
        · exact ⟨by dsimp only; decide +kernel, trivial⟩
        · exact ⟨by dsimp only; decide +kernel, trivial⟩
        · exact ⟨by dsimp only; decide +kernel, trivial⟩
        · exact ⟨by dsimp only; decide +kernel, trivial⟩
        · exact ⟨by dsimp only; decide +kernel, h1⟩
        · exact ⟨by dsimp only; decide +kernel, h2⟩
        · refine ⟨by dsimp only; decide +kernel, fits_object ?_⟩
          intro d hd
          simp only [List.mem_cons, List.not_mem_nil, or_false] at hd
          rcases hd with rfl | rfl
          · exact ⟨by dsimp only; decide +kernel, trivial⟩
          · exact ⟨by dsimp only; decide +kernel, h3⟩
      unfold Context.toDoc Json.setIf
      split
      · refine fits_mapSet hb (by decide) (fits_object ?_)
        intro d hd
        obtain ⟨x, hx, rfl⟩ := List.mem_map.1 hd
        exact ⟨h4 x hx, trivial⟩
      · exact hb
  · intro t ht hl
    obtain ⟨d, hd, hp⟩ := C61_context hG c e hc he
    exact ⟨d, by rw [C96_same_as_text _ _ (c.wf_toDoc e hc he) t ht hl, hd], hp⟩

/-- C96: an encrypted ballot that is written is read back as from its text. -/
theorem C96_ballot_partial {G : Params} (hG : G.Valid) (S : StdSort) (withNonces : Bool) (b : CBallot)
    (h : b.Readable G withNonces) (t : List UInt8) (ht : writeBson (b.toDoc S withNonces) = .ok t)
    (hl : t.length < 2 ^ 31) : readBson (CBallot.ofDoc G) t = some (.ok (b.read S withNonces)) := by
  obtain ⟨d, hd, _, hwf, hr, _⟩ := CBallot.round_trip hG S withNonces b h
  rw [writeBson, hd, Res.bind_ok] at ht
  rw [C96_same_as_text _ _ hwf t ht hl, readText_dump _ _ hwf, hr]

/-- C96: a manifest that is written is read back as from its text. -/
theorem C96_manifest_partial (S : StdSort) (m : Manifest) (hm : ∀ c ∈ m.contests, c.Fits) (t : List UInt8)
    (ht : writeBson (m.toDoc S) = .ok t) (hl : t.length < 2 ^ 31) :
    readBson Manifest.ofDoc t = some (.ok (m.read S)) := by
  obtain ⟨d, hd, hwf, hr⟩ := Manifest.round_trip S m hm
  rw [writeBson, hd, Res.bind_ok] at ht
  rw [C96_same_as_text _ _ hwf t ht hl, readText_dump _ _ hwf, hr]

/-- The first example of bsonspec.org, and one with an array. -/
example : toBson (.obj [(key "hello", .str "world".toList)]) =
    .ok [0x16, 0, 0, 0, 0x02, 0x68, 0x65, 0x6C, 0x6C, 0x6F, 0, 6, 0, 0, 0, 0x77, 0x6F, 0x72, 0x6C, 0x64, 0, 0] := by
  decide +kernel

example : toBson (.obj [(key "a", .arr [.num 1, .null])]) =
    .ok [0x17, 0, 0, 0, 0x04, 0x61, 0, 0x0F, 0, 0, 0, 0x10, 0x30, 0, 1, 0, 0, 0, 0x0A, 0x31, 0, 0, 0] := by
  decide +kernel

/-- A device as `C96_device_violated` asks for. -/
example : (Device.mk (2 ^ 63) 1 2 "x".toList).Fits := by unfold Device.Fits; decide +kernel

end EG
