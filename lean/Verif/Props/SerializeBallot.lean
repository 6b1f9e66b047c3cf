import Verif.Props.Serialize
import Verif.Props.BallotHash

/-!
# Reading encrypted ballots that were written

C47 and C60.
-/

namespace EG

/-! ## Hashed ciphertexts -/

theorem bind_bytes {α : Type} (bs : List UInt8) (f : List UInt8 → Res α) :
    (do let t ← sanitizeHex (bytesToHex bs); let d ← hexToBytes t; f d) =
      (if bs.dropWhile (· = 0) = [] then .throw .outOfRange else .ok (bs.dropWhile (· = 0))) >>= f := by
  rw [← bytes_read]
  cases sanitizeHex (bytesToHex bs) <;> rfl

theorem leadingNonzero_iff (bs : List UInt8) :
    LeadingNonzero bs ↔ bs.dropWhile (· = 0) ≠ [] ∧ bs.dropWhile (· = 0) = bs := by
  cases bs with
  | nil => simp [LeadingNonzero]
  | cons b rest =>
    by_cases hb : b = 0
    · subst hb
      constructor
      · rintro ⟨c, r, h, hc⟩
        exact absurd (List.cons.inj h).1.symm hc
      · rintro ⟨_, h⟩
        have h1 := congrArg List.length h
        rw [List.dropWhile_cons_of_pos (by simp)] at h1
        have h2 := (List.dropWhile_sublist (l := rest) (fun x : UInt8 => decide (x = 0))).length_le
        simp only [List.length_cons] at h1
        omega
    · simp [LeadingNonzero, hb]

/-- Reading a hashed ciphertext that was written. -/
theorem HashedCiphertext.ofDoc_toDoc {G : Params} (hG : G.Valid) (c : HashedCiphertext)
    (hp : Nonzero G.p c.pad) :
    HashedCiphertext.ofDoc G c.toDoc =
      if c.data.dropWhile (· = 0) = [] ∨ c.mac.dropWhile (· = 0) = [] then .throw .outOfRange
      else .ok { c with data := c.data.dropWhile (· = 0), mac := c.mac.dropWhile (· = 0) } := by
  have hz : ∀ bs : List UInt8, bs.dropWhile (· = 0) = [] →
      sanitizeHex (bytesToHex bs) = .throw .outOfRange := by
    intro bs h
    rw [bytesToHex, h]
    rfl
  have hn : ∀ bs : List UInt8, bs.dropWhile (· = 0) ≠ [] →
      ∃ t, sanitizeHex (bytesToHex bs) = .ok t ∧ hexToBytes t = .ok (bs.dropWhile (· = 0)) := by
    intro bs h
    have := bytes_read bs
    rw [if_neg h] at this
    exact (Res.bind_eq_ok _ _ _).1 this
  by_cases hd : c.data.dropWhile (· = 0) = []
  · rw [if_pos (.inl hd)]
    simp [HashedCiphertext.ofDoc, HashedCiphertext.toDoc, Json.strAt,
      Json.at_eq (Json.isObj_object _), Json.get_object, Json.asStr, key_inj, hz _ hd]
  · obtain ⟨t, ht, htb⟩ := hn _ hd
    by_cases hm : c.mac.dropWhile (· = 0) = []
    · rw [if_pos (.inr hm)]
      simp [HashedCiphertext.ofDoc, HashedCiphertext.toDoc, Json.strAt,
        Json.at_eq (Json.isObj_object _), Json.get_object, Json.asStr, key_inj, hz _ hm, ht]
    · obtain ⟨u, hu, hub⟩ := hn _ hm
      rw [if_neg (not_or.2 ⟨hd, hm⟩)]
      simp [HashedCiphertext.ofDoc, HashedCiphertext.toDoc, Json.strAt,
        Json.at_eq (Json.isObj_object _), Json.get_object, Json.asStr, key_inj, ht, htb, hu, hub,
        hexP_read hG hp]

theorem HashedCiphertext.wf_toDoc (c : HashedCiphertext) : c.toDoc.WF := by
  refine Json.wf_object ?_
  intro e he
  simp only [List.mem_cons, List.not_mem_nil, or_false] at he
  rcases he with rfl | rfl | rfl <;> trivial

/-- C47: a hashed ElGamal ciphertext is read back as it was written exactly if its data and its MAC
begin with a byte other than zero. -/
theorem C47_hashed_iff {G : Params} (hG : G.Valid) (c : HashedCiphertext) (hp : Nonzero G.p c.pad) :
    readText (HashedCiphertext.ofDoc G) c.toDoc.dump = .ok c ↔
      LeadingNonzero c.data ∧ LeadingNonzero c.mac := by
  rw [readText_dump _ _ c.wf_toDoc, HashedCiphertext.ofDoc_toDoc hG c hp, leadingNonzero_iff,
    leadingNonzero_iff]
  constructor
  · intro h
    split at h
    · cases h
    · next hne =>
      rw [not_or] at hne
      have h1 := Res.ok.inj h
      exact ⟨⟨hne.1, congrArg HashedCiphertext.data h1⟩, ⟨hne.2, congrArg HashedCiphertext.mac h1⟩⟩
  · rintro ⟨⟨h1, h2⟩, h3, h4⟩
    rw [if_neg (not_or.2 ⟨h1, h3⟩), h2, h4]

/-- C47 is violated by ciphertexts with a zero byte in front of the MAC, about one in 256: either the
text cannot be read, or what is read cannot be decrypted, with any key. -/
theorem C47_mac_violated {G : Params} (hG : G.Valid) (C : Crypto) (c : HashedCiphertext)
    (hp : Nonzero G.p c.pad) (hl : c.mac.length = 32) (h0 : c.mac.head? = some 0) :
    readText (HashedCiphertext.ofDoc G) c.toDoc.dump = .throw .outOfRange ∨
      ∃ d, readText (HashedCiphertext.ofDoc G) c.toDoc.dump = .ok d ∧
        ∀ secret seed pad, ∃ x, hashedDecrypt G C d secret seed pad = .throw x := by
  rw [readText_dump _ _ c.wf_toDoc, HashedCiphertext.ofDoc_toDoc hG c hp]
  split
  · exact .inl rfl
  · refine .inr ⟨_, rfl, ?_⟩
    intro secret seed pad
    obtain ⟨rest, hr⟩ : ∃ rest, c.mac = 0 :: rest := by
      cases hm : c.mac with
      | nil => rw [hm] at h0; cases h0
      | cons a rest => rw [hm] at h0; exact ⟨rest, by rw [Option.some.inj h0]⟩
    have hlen : (c.mac.dropWhile (· = 0)).length ≠ 32 := by
      rw [hr, List.dropWhile_cons_of_pos (by simp)]
      have := (List.dropWhile_sublist (l := rest) (fun x : UInt8 => decide (x = 0))).length_le
      rw [hr, List.length_cons] at hl
      omega
    unfold hashedDecrypt
    dsimp only
    split
    · exact ⟨_, rfl⟩
    · split
      · exact ⟨_, rfl⟩
      · next hne =>
        rw [not_not] at hne
        refine absurd (congrArg List.length hne) ?_
        simp only [macOf, getHmac, lt_irrefl, if_false]
        rw [C.hmac_length]
        exact hlen

/-- C47 is violated by ciphertexts with zero bytes in front of the data: either the text cannot be
read, or what is read has lost its whole blocks and cannot be decrypted, with any key. -/
theorem C47_data_violated {G : Params} (hG : G.Valid) (C : Crypto) (c : HashedCiphertext)
    (hp : Nonzero G.p c.pad) (hl : c.data.length % 32 = 0)
    (h0 : (c.data.takeWhile (· = 0)).length % 32 ≠ 0) :
    readText (HashedCiphertext.ofDoc G) c.toDoc.dump = .throw .outOfRange ∨
      ∃ d, readText (HashedCiphertext.ofDoc G) c.toDoc.dump = .ok d ∧
        ∀ secret seed pad, hashedDecrypt G C d secret seed pad = .throw .invalidArgument := by
  rw [readText_dump _ _ c.wf_toDoc, HashedCiphertext.ofDoc_toDoc hG c hp]
  split
  · exact .inl rfl
  · refine .inr ⟨_, rfl, ?_⟩
    intro secret seed pad
    have hlen := congrArg List.length (List.takeWhile_append_dropWhile (p := (fun x : UInt8 =>
      decide (x = 0))) (l := c.data))
    rw [List.length_append] at hlen
    unfold hashedDecrypt
    rw [if_pos]
    left
    show (c.data.dropWhile _).length % 2 ^ 32 % 32 ≠ 0
    omega

/-- Ciphertexts with a zero byte in front of the MAC, and in front of the data. -/
example : (HashedCiphertext.mk 4 (List.replicate 512 7) (0 :: List.replicate 31 9)).mac.length = 32 ∧
    (HashedCiphertext.mk 4 (List.replicate 512 7) (0 :: List.replicate 31 9)).mac.head? = some 0 ∧
    ((0 :: List.replicate 511 7 : List UInt8).takeWhile (· = 0)).length % 32 ≠ 0 := by
  refine ⟨?_, rfl, ?_⟩
  · rw [List.length_cons, List.length_replicate]
  · rw [List.takeWhile_cons_of_pos (by rfl), List.replicate_succ, List.takeWhile_cons_of_neg (by decide)]
    decide

/-! ## Ballots -/

theorem Ciphertext.ofDoc_toDoc {G : Params} (hG : G.Valid) (c : Ciphertext) (h : c.Readable G) :
    Ciphertext.ofDoc G c.toDoc = .ok c := by
  simp [Ciphertext.ofDoc, Ciphertext.toDoc, Json.strAt, Json.at_eq (Json.isObj_object _),
    Json.get_object, Json.asStr, key_inj, hexP_read hG h.1, hexP_read hG h.2]

theorem DisjProof.ofDoc_toDoc {G : Params} (hG : G.Valid) (p : DisjProof) (h : p.Readable G) :
    DisjProof.ofDoc G p.toDoc = .ok p := by
  simp [DisjProof.ofDoc, DisjProof.toDoc, Json.strAt, Json.at_eq (Json.isObj_object _),
    Json.get_object, Json.asStr, key_inj, hexP_read hG h.zeroPad, hexP_read hG h.zeroData,
    hexP_read hG h.onePad, hexP_read hG h.oneData, hexQ_read hG h.zeroChallenge,
    hexQ_read hG h.oneChallenge, hexQ_read hG h.challenge, hexQ_read hG h.zeroResponse,
    hexQ_read hG h.oneResponse]

theorem ConstProof.ofDoc_toDoc {G : Params} (hG : G.Valid) (p : ConstProof) (h : p.Readable G) :
    ConstProof.ofDoc G p.toDoc = .ok p := by
  simp [ConstProof.ofDoc, ConstProof.toDoc, Json.strAt, Json.natAt, Json.at_eq (Json.isObj_object _),
    Json.get_object, Json.asStr, Json.asNat, key_inj, hexP_read hG h.pad, hexP_read hG h.data,
    hexQ_read hG h.challenge, hexQ_read hG h.response]

theorem Ciphertext.wf_toDoc (c : Ciphertext) : c.toDoc.WF := by
  refine Json.wf_object ?_
  intro e he
  simp only [List.mem_cons, List.not_mem_nil, or_false] at he
  rcases he with rfl | rfl <;> trivial

theorem DisjProof.wf_toDoc (p : DisjProof) : p.toDoc.WF := by
  refine Json.wf_object ?_
  intro e he
  simp only [List.mem_cons, List.not_mem_nil, or_false] at he
  rcases he with rfl | rfl | rfl | rfl | rfl | rfl | rfl | rfl | rfl <;> trivial

theorem ConstProof.wf_toDoc {p : ConstProof} (h : p.constant < 2 ^ 64) : p.toDoc.WF := by
  refine Json.wf_object ?_
  intro e he
  simp only [List.mem_cons, List.not_mem_nil, or_false] at he
  rcases he with rfl | rfl | rfl | rfl | rfl
  · trivial
  · trivial
  · trivial
  · trivial
  · exact h

/-- Writing and reading a nonce leaves the other members alone. -/
theorem setNonce_spec {G : Params} (hG : G.Valid) (j : Json) (hj : j.IsObj) (hjw : j.WF)
    (hjn : j.get (key "nonce") = none) (withNonces : Bool) (nonce : Option ℕ)
    (h : NonceReadable G withNonces nonce) :
    ∃ d, setNonce j withNonces nonce = .ok d ∧ d.IsObj ∧ d.WF ∧
      (∀ k, key "nonce" ≠ k → d.get k = j.get k) ∧
      ∃ t n, nonceText d = .ok t ∧ nonceFromText G t = .ok n ∧
        nonceRead withNonces nonce = some n := by
  unfold setNonce
  cases withNonces with
  | false =>
    refine ⟨j, by simp, hj, hjw, fun _ _ => rfl, [], 0, ?_, rfl, rfl⟩
    simp [nonceText, Json.at_eq hj, hjn]
  | true =>
    obtain ⟨n, rfl, hn⟩ := h rfl
    refine ⟨j.set (key "nonce") (.str (toHexQ n)), by simp, Json.isObj_set hj.node _ _,
      Json.wf_set hjw _ trivial, ?_, toHexQ n, n, ?_, ?_, rfl⟩
    · intro k hk
      rw [Json.get_set hj.node, if_neg hk]
    · simp [nonceText, Json.at_eq (Json.isObj_set hj.node _ _), Json.get_set hj.node, Json.asStr]
    · unfold nonceFromText
      rw [hexQ_read hG hn, if_neg]
      have : toHexQ n ≠ [] := by
        unfold toHexQ bytesToHex
        split
        · simp
        · simp [byteToHex]
      simpa using this

theorem CSelection.round_trip {G : Params} (hG : G.Valid) (withNonces : Bool)
    (s : CSelection) (h : s.Readable G withNonces) :
    ∃ d, s.toDoc withNonces = .ok d ∧ d.WF ∧
      CSelection.ofDoc G d = .ok (CBallot.read.readSelection withNonces s) := by
  obtain ⟨p, hp, hpr⟩ := h.proof
  unfold CSelection.toDoc
  rw [hp]
  dsimp only
  obtain ⟨d, hd, hobj, hwf, hget, t, n, ht, hn, hr⟩ := setNonce_spec hG (Json.object [
      (key "object_id", .str s.objectId),
      (key "sequence_order", .num s.seq), (key "description_hash", .str (toHexQ s.descHash)),
      (key "ciphertext", s.ciphertext.toDoc), (key "is_placeholder_selection", .bool s.isPlaceholder),
      (key "crypto_hash", .str (toHexQ s.cryptoHash)), (key "proof", p.toDoc)])
    (Json.isObj_object _) (by
      refine Json.wf_object ?_
      intro e he
      simp only [List.mem_cons, List.not_mem_nil, or_false] at he
      rcases he with rfl | rfl | rfl | rfl | rfl | rfl | rfl
      · trivial
      · exact h.seq
      · trivial
      · exact s.ciphertext.wf_toDoc
      · trivial
      · trivial
      · exact p.wf_toDoc) (by simp [Json.get_object, key_inj]) withNonces s.nonce h.nonce
  refine ⟨d, hd, hwf, ?_⟩
  unfold CSelection.ofDoc
  rw [ht]
  simp [Json.strAt, Json.natAt, Json.boolAt, Json.at_eq hobj, hget, key_inj, Json.get_object,
    Json.asStr, Json.asNat, Json.asBool, hn, hexQ_read hG h.descHash, hexQ_read hG h.cryptoHash,
    Ciphertext.ofDoc_toDoc hG _ h.ciphertext, DisjProof.ofDoc_toDoc hG p hpr,
    CBallot.read.readSelection, hr, hp]

theorem CContest.round_trip {G : Params} (hG : G.Valid) (S : StdSort) (withNonces : Bool)
    (c : CContest) (h : c.Readable G withNonces) :
    ∃ d, c.toDoc S withNonces = .ok d ∧ d.WF ∧
      CContest.ofDoc G d = .ok (CBallot.read.readContest S withNonces c) := by
  obtain ⟨p, hp, hpr⟩ := h.proof
  obtain ⟨e, he, her⟩ := h.extended
  have hsel : ∀ s ∈ c.getSelections S, s.Readable G withNonces :=
    fun s hs => h.selections s ((mem_sort S _ _ s).1 hs)
  obtain ⟨ds, hds⟩ := mapRes_total (g := CSelection.toDoc withNonces) (l := c.getSelections S)
    (fun s hs => by
      obtain ⟨d, hd, _⟩ := CSelection.round_trip hG withNonces s (hsel s hs)
      exact ⟨d, hd⟩)
  have hdw : ∀ d ∈ ds, d.WF := mapRes_forall hds (fun s hs d hd => by
    obtain ⟨d', hd', hw, _⟩ := CSelection.round_trip hG withNonces s (hsel s hs)
    rw [hd] at hd'
    exact (Res.ok.inj hd') ▸ hw)
  have hread : mapRes (CSelection.ofDoc G) ds =
      .ok ((c.getSelections S).map (CBallot.read.readSelection withNonces)) :=
    mapRes_mapRes_ok hds (fun s hs d hd => by
      obtain ⟨d', hd', _, hr⟩ := CSelection.round_trip hG withNonces s (hsel s hs)
      rw [hd] at hd'
      rw [Res.ok.inj hd']
      exact hr)
  unfold CContest.toDoc
  rw [hds, hp, he, Res.bind_ok]
  dsimp only
  obtain ⟨d, hd, hobj, hwf, hget, t, n, ht, hn, hr⟩ := setNonce_spec hG (Json.object [
      (key "object_id", .str c.objectId),
      (key "sequence_order", .num c.seq), (key "description_hash", .str (toHexQ c.descHash)),
      (key "ballot_selections", .pushed ds),
      (key "ciphertext_accumulation", c.accumulation.toDoc),
      (key "crypto_hash", .str (toHexQ c.cryptoHash)), (key "proof", p.toDoc),
      (key "extended_data", e.toDoc)])
    (Json.isObj_object _) (by
      refine Json.wf_object ?_
      intro x hx
      simp only [List.mem_cons, List.not_mem_nil, or_false] at hx
      rcases hx with rfl | rfl | rfl | rfl | rfl | rfl | rfl | rfl
      · trivial
      · exact h.seq
      · trivial
      · exact Json.wf_pushed hdw
      · exact c.accumulation.wf_toDoc
      · trivial
      · exact ConstProof.wf_toDoc hpr.constant
      · exact e.wf_toDoc) (by simp [Json.get_object, key_inj]) withNonces c.nonce h.nonce
  refine ⟨d, hd, hwf, ?_⟩
  have hext : HashedCiphertext.ofDoc G e.toDoc = .ok e := by
    have h1 := (C47_hashed_iff hG e her.1).2 her.2
    rwa [readText_dump _ _ e.wf_toDoc] at h1
  unfold CContest.ofDoc
  rw [ht]
  simp [Json.strAt, Json.natAt, Json.at_eq hobj, hget, key_inj, Json.get_object,
    Json.asStr, Json.asNat, hn, hexQ_read hG h.descHash, hexQ_read hG h.cryptoHash,
    Ciphertext.ofDoc_toDoc hG _ h.accumulation, ConstProof.ofDoc_toDoc hG p hpr, hext,
    Json.pushed_items, hread, CBallot.read.readContest, hr, hp, he]

theorem CBallot.round_trip {G : Params} (hG : G.Valid) (S : StdSort) (withNonces : Bool)
    (b : CBallot) (h : b.Readable G withNonces) :
    ∃ d, b.toDoc S withNonces = .ok d ∧ d.IsObj ∧ d.WF ∧
      CBallot.ofDoc G d = .ok (b.read S withNonces) ∧
      (∀ k v, key "state" = k → CBallot.ofDoc G (d.set k v) = .ok (b.read S withNonces)) := by
  have hcon : ∀ c ∈ b.getContests S, c.Readable G withNonces :=
    fun c hc => h.contests c ((mem_sort S _ _ c).1 hc)
  obtain ⟨ds, hds⟩ := mapRes_total (g := CContest.toDoc S withNonces) (l := b.getContests S)
    (fun c hc => by
      obtain ⟨d, hd, _⟩ := CContest.round_trip hG S withNonces c (hcon c hc)
      exact ⟨d, hd⟩)
  have hdw : ∀ d ∈ ds, d.WF := mapRes_forall hds (fun c hc d hd => by
    obtain ⟨d', hd', hw, _⟩ := CContest.round_trip hG S withNonces c (hcon c hc)
    rw [hd] at hd'
    exact (Res.ok.inj hd') ▸ hw)
  have hread : mapRes (CContest.ofDoc G) ds =
      .ok ((b.getContests S).map (CBallot.read.readContest S withNonces)) :=
    mapRes_mapRes_ok hds (fun c hc d hd => by
      obtain ⟨d', hd', _, hr⟩ := CContest.round_trip hG S withNonces c (hcon c hc)
      rw [hd] at hd'
      rw [Res.ok.inj hd']
      exact hr)
  unfold CBallot.toDoc
  rw [hds, Res.bind_ok]
  obtain ⟨d, hd, hobj, hwf, hget, t, n, ht, hn, hr⟩ := setNonce_spec hG (Json.object [
      (key "object_id", .str b.objectId), (key "style_id", .str b.styleId),
      (key "manifest_hash", .str (toHexQ b.manifestHash)),
      (key "code_seed", .str (toHexQ b.ballotCodeSeed)), (key "contests", .pushed ds),
      (key "code", .str (toHexQ b.ballotCode)), (key "timestamp", .num b.timestamp),
      (key "crypto_hash", .str (toHexQ b.cryptoHash))])
    (Json.isObj_object _) (by
      refine Json.wf_object ?_
      intro x hx
      simp only [List.mem_cons, List.not_mem_nil, or_false] at hx
      rcases hx with rfl | rfl | rfl | rfl | rfl | rfl | rfl | rfl
      · trivial
      · trivial
      · trivial
      · trivial
      · exact Json.wf_pushed hdw
      · trivial
      · exact h.timestamp
      · trivial) (by simp [Json.get_object, key_inj]) withNonces b.nonce h.nonce
  refine ⟨d, hd, hobj, hwf, ?_, ?_⟩
  · unfold CBallot.ofDoc
    rw [ht]
    simp [Json.strAt, Json.natAt, Json.at_eq hobj, hget, key_inj, Json.get_object,
      Json.asStr, Json.asNat, hn, hexQ_read hG h.manifestHash, hexQ_read hG h.seed,
      hexQ_read hG h.code, hexQ_read hG h.cryptoHash, Json.pushed_items, hread, CBallot.read, hr]
  · intro k v hk
    subst hk
    have hobj' : (d.set (key "state") v).IsObj := Json.isObj_set hobj.node _ _
    have ht' : nonceText (d.set (key "state") v) = .ok t := by
      rw [← ht]
      simp [nonceText, Json.at_eq hobj', Json.at_eq hobj, Json.get_set hobj.node, key_inj]
    unfold CBallot.ofDoc
    rw [ht']
    simp [Json.strAt, Json.natAt, Json.at_eq hobj', Json.get_set hobj.node, hget, key_inj,
      Json.get_object, Json.asStr, Json.asNat, hn, hexQ_read hG h.manifestHash,
      hexQ_read hG h.seed, hexQ_read hG h.code, hexQ_read hG h.cryptoHash, Json.pushed_items, hread,
      CBallot.read, hr]

/-- C47: an encrypted ballot whose numbers are not zero and whose hashed data does not begin with zero
bytes is read back from its text, with contests and selections in sequence order. -/
theorem C47_ballot_partial {G : Params} (hG : G.Valid) (S : StdSort) (withNonces : Bool) (b : CBallot)
    (h : b.Readable G withNonces) :
    ∃ text, writeText (b.toDoc S withNonces) = .ok text ∧
      readText (CBallot.ofDoc G) text = .ok (b.read S withNonces) := by
  obtain ⟨d, hd, _, hwf, hr, _⟩ := CBallot.round_trip hG S withNonces b h
  refine ⟨d.dump, ?_, ?_⟩
  · rw [writeText, hd]
    rfl
  · rw [readText_dump _ _ hwf, hr]

theorem getSelections_read (S : StdSort) (withNonces : Bool) (c : CContest)
    (hn : (c.selections.map CSelection.seq).Nodup) :
    (CBallot.read.readContest S withNonces c).getSelections S =
      (c.getSelections S).map (CBallot.read.readSelection withNonces) := by
  show S.sort CSelection.seq ((S.sort CSelection.seq c.selections).map _) = _
  rw [sort_map S CSelection.seq CSelection.seq (CBallot.read.readSelection withNonces) _ (fun _ => rfl)
    (((S.perm CSelection.seq c.selections).map _).nodup_iff.2 hn)]
  congr 1
  refine sort_of_sorted S _ _ (S.sorted _ _) ?_
  exact key_inj_of_nodup _ _ (((S.perm CSelection.seq c.selections).map _).nodup_iff.2 hn)

theorem getContests_read (S : StdSort) (withNonces : Bool) (b : CBallot)
    (hn : (b.contests.map CContest.seq).Nodup) :
    (b.read S withNonces).getContests S =
      (b.getContests S).map (CBallot.read.readContest S withNonces) := by
  show S.sort CContest.seq ((S.sort CContest.seq b.contests).map _) = _
  rw [sort_map S CContest.seq CContest.seq (CBallot.read.readContest S withNonces) _ (fun _ => rfl)
    (((S.perm CContest.seq b.contests).map _).nodup_iff.2 hn)]
  congr 1
  refine sort_of_sorted S _ _ (S.sorted _ _) ?_
  exact key_inj_of_nodup _ _ (((S.perm CContest.seq b.contests).map _).nodup_iff.2 hn)

theorem isValid_readContest (G : Params) (C : Crypto) (S : StdSort) (withNonces : Bool) (c : CContest)
    (hn : (c.selections.map CSelection.seq).Nodup) (seed pub ext : ℕ) :
    (CBallot.read.readContest S withNonces c).isValid G C S seed pub ext =
      c.isValid G C S seed pub ext := by
  have h1 : ∀ l : List CSelection, contestHash G C c.objectId
      (l.map (CBallot.read.readSelection withNonces)) seed = contestHash G C c.objectId l seed := by
    intro l
    simp [contestHash, Function.comp_def, CBallot.read.readSelection]
  have h2 : ∀ l : List CSelection, accumulate G (l.map (CBallot.read.readSelection withNonces)) =
      accumulate G l := by
    intro l
    simp [accumulate, Function.comp_def, CBallot.read.readSelection]
  unfold CContest.isValid
  rw [getSelections_read S withNonces c hn]
  show (contestHash G C c.objectId _ seed >>= _) = _
  rw [h1]
  congr 1
  funext hash
  dsimp only
  rw [h2]
  rfl

theorem selectionChecks_read (G : Params) (C : Crypto) (withNonces : Bool) (pub ext : ℕ) (id : Str)
    (l : List CSelection) (m : List (Str × Bool)) :
    selectionChecks G C pub ext id (l.map (CBallot.read.readSelection withNonces)) m =
      selectionChecks G C pub ext id l m := by
  induction l generalizing m with
  | nil => rfl
  | cons s l ih =>
    simp only [List.map_cons, selectionChecks]
    rw [ih]
    rfl

/-- C47: the ballot that was read is valid exactly if the one that was written is, and has the same
contests and selections up to the nonces. -/
theorem C47_valid_partial {G : Params} (hG : G.Valid) (C : Crypto) (S : StdSort) (withNonces : Bool)
    (b : CBallot) (h : b.Readable G withNonces) (hn : (b.contests.map CContest.seq).Nodup)
    (hs : ∀ c ∈ b.contests, (c.selections.map CSelection.seq).Nodup) (mh pub ext : ℕ) :
    ∃ text b', writeText (b.toDoc S withNonces) = .ok text ∧
      readText (CBallot.ofDoc G) text = .ok b' ∧
      b'.isValid G C S mh pub ext = b.isValid G C S mh pub ext ∧
      b'.objectId = b.objectId ∧ b'.styleId = b.styleId ∧ b'.ballotCode = b.ballotCode ∧
      b'.timestamp = b.timestamp ∧ b'.ballotCodeSeed = b.ballotCodeSeed ∧
      (b'.getContests S).map (·.objectId) = (b.getContests S).map (·.objectId) ∧
      (b'.getContests S).map (·.extended) = (b.getContests S).map (·.extended) ∧
      (b'.getContests S).map (fun c => (c.getSelections S).map
        (fun s => (s.objectId, s.ciphertext, s.proof, s.isPlaceholder))) =
      (b.getContests S).map (fun c => (c.getSelections S).map
        (fun s => (s.objectId, s.ciphertext, s.proof, s.isPlaceholder))) ∧
      (withNonces = true → (b'.getContests S).map (fun c => (c.nonce, (c.getSelections S).map (·.nonce))) =
        (b.getContests S).map (fun c => (c.nonce, (c.getSelections S).map (·.nonce))) ∧
        b'.nonce = b.nonce) := by
  obtain ⟨text, ht, hr⟩ := C47_ballot_partial hG S withNonces b h
  have hs' : ∀ c ∈ b.getContests S, (c.selections.map CSelection.seq).Nodup :=
    fun c hc => hs c ((mem_sort S _ _ c).1 hc)
  refine ⟨text, _, ht, hr, ?_, rfl, rfl, rfl, rfl, rfl, ?_, ?_, ?_, ?_⟩
  · have h1 : ∀ (l : List CContest) m, (∀ c ∈ l, (c.selections.map CSelection.seq).Nodup) →
        contestChecks G C S pub ext (l.map (CBallot.read.readContest S withNonces)) m =
        contestChecks G C S pub ext l m := by
      intro l
      induction l with
      | nil => intro m _; rfl
      | cons c l ih =>
        intro m hl
        simp only [List.map_cons, contestChecks]
        rw [getSelections_read S withNonces c (hl c (List.mem_cons_self ..)),
          isValid_readContest G C S withNonces c (hl c (List.mem_cons_self ..))]
        rw [selectionChecks_read]
        have := fun m => ih m (fun c hc => hl c (List.mem_cons_of_mem _ hc))
        simp only [this]
        rfl
    have h2 : ballotHash G C b.objectId ((b.getContests S).map
        (CBallot.read.readContest S withNonces)) mh =
        ballotHash G C b.objectId (b.getContests S) mh := by
      simp [ballotHash, Function.comp_def, CBallot.read.readContest]
    unfold CBallot.isValid
    rw [getContests_read S withNonces b hn, h1 _ _ hs']
    show (if mh ≠ b.manifestHash then _ else ballotHash G C b.objectId _ mh >>= _) = _
    rw [h2]
    rfl
  · rw [getContests_read S withNonces b hn, List.map_map]
    rfl
  · rw [getContests_read S withNonces b hn, List.map_map]
    rfl
  · rw [getContests_read S withNonces b hn, List.map_map]
    refine List.map_congr_left (fun c hc => ?_)
    show ((CBallot.read.readContest S withNonces c).getSelections S).map _ = _
    rw [getSelections_read S withNonces c (hs' c hc), List.map_map]
    rfl
  · rintro rfl
    refine ⟨?_, rfl⟩
    rw [getContests_read S true b hn, List.map_map]
    refine List.map_congr_left (fun c hc => ?_)
    show (_, ((CBallot.read.readContest S true c).getSelections S).map _) = _
    rw [getSelections_read S true c (hs' c hc), List.map_map]
    rfl

theorem CSelection.toDoc_zero {G : Params} (s : CSelection) (h : s.Readable G false) :
    ∃ d, (CBallot.read.readSelection false s).toDoc true = .ok d ∧ d.WF := by
  obtain ⟨p, hp, _⟩ := h.proof
  refine ⟨_, by simp [CSelection.toDoc, CBallot.read.readSelection, hp, nonceRead, setNonce]; rfl, ?_⟩
  refine Json.wf_set (Json.wf_object ?_) _ trivial
  intro e he
  simp only [List.mem_cons, List.not_mem_nil, or_false] at he
  rcases he with rfl | rfl | rfl | rfl | rfl | rfl | rfl
  · trivial
  · exact h.seq
  · trivial
  · exact s.ciphertext.wf_toDoc
  · trivial
  · trivial
  · exact p.wf_toDoc

theorem CContest.toDoc_zero {G : Params} (S : StdSort) (c : CContest) (h : c.Readable G false) :
    ∃ d, (CBallot.read.readContest S false c).toDoc S true = .ok d ∧ d.WF := by
  obtain ⟨p, hp, hpr⟩ := h.proof
  obtain ⟨x, hx, _⟩ := h.extended
  have hsel : ∀ s ∈ (CBallot.read.readContest S false c).getSelections S,
      ∃ d, s.toDoc true = .ok d ∧ d.WF := by
    intro s hs
    have hs := (mem_sort S _ _ s).1 hs
    obtain ⟨s', hs', rfl⟩ := List.mem_map.1 hs
    exact CSelection.toDoc_zero s' (h.selections s' ((mem_sort S _ _ s').1 hs'))
  obtain ⟨ds, hds⟩ := mapRes_total (fun s hs => ⟨_, (hsel s hs).choose_spec.1⟩)
  have hdw : ∀ d ∈ ds, d.WF := mapRes_forall hds (fun s hs d hd => by
    obtain ⟨d', hd', hw⟩ := hsel s hs
    rw [hd] at hd'
    exact (Res.ok.inj hd') ▸ hw)
  refine ⟨_, by
    unfold CContest.toDoc
    rw [hds, Res.bind_ok]
    simp [CBallot.read.readContest, hp, hx, nonceRead, setNonce]
    rfl, ?_⟩
  refine Json.wf_set (Json.wf_object ?_) _ trivial
  intro e he
  simp only [List.mem_cons, List.not_mem_nil, or_false] at he
  rcases he with rfl | rfl | rfl | rfl | rfl | rfl | rfl | rfl
  · trivial
  · exact h.seq
  · trivial
  · exact Json.wf_pushed hdw
  · exact c.accumulation.wf_toDoc
  · trivial
  · exact ConstProof.wf_toDoc hpr.constant
  · exact x.wf_toDoc

/-- C47 is violated by nonces: a ballot written without them is read with the nonce zero, and if that
ballot is written with nonces its text cannot be read. -/
theorem C47_nonce_violated {G : Params} (hG : G.Valid) (S : StdSort) (b : CBallot)
    (h : b.Readable G false) :
    ∃ text b', writeText (b.toDoc S false) = .ok text ∧ readText (CBallot.ofDoc G) text = .ok b' ∧
      b'.nonce = some 0 ∧
      ∃ text', writeText (b'.toDoc S true) = .ok text' ∧
        ∀ c, readText (CBallot.ofDoc G) text' ≠ .ok c := by
  obtain ⟨text, ht, hr⟩ := C47_ballot_partial hG S false b h
  refine ⟨text, _, ht, hr, rfl, ?_⟩
  have hcon : ∀ c ∈ (b.read S false).getContests S, ∃ d, c.toDoc S true = .ok d ∧ d.WF := by
    intro c hc
    have hc := (mem_sort S _ _ c).1 hc
    obtain ⟨c', hc', rfl⟩ := List.mem_map.1 hc
    exact CContest.toDoc_zero S c' (h.contests c' ((mem_sort S _ _ c').1 hc'))
  obtain ⟨ds, hds⟩ := mapRes_total (fun c hc => ⟨_, (hcon c hc).choose_spec.1⟩)
  have hdw : ∀ d ∈ ds, d.WF := mapRes_forall hds (fun c hc d hd => by
    obtain ⟨d', hd', hw⟩ := hcon c hc
    rw [hd] at hd'
    exact (Res.ok.inj hd') ▸ hw)
  have hwf : (Json.object [(key "object_id", .str b.objectId), (key "style_id", .str b.styleId),
      (key "manifest_hash", .str (toHexQ b.manifestHash)),
      (key "code_seed", .str (toHexQ b.ballotCodeSeed)), (key "contests", .pushed ds),
      (key "code", .str (toHexQ b.ballotCode)), (key "timestamp", .num b.timestamp),
      (key "crypto_hash", .str (toHexQ b.cryptoHash))]).WF := by
    refine Json.wf_object ?_
    intro x hx
    simp only [List.mem_cons, List.not_mem_nil, or_false] at hx
    rcases hx with rfl | rfl | rfl | rfl | rfl | rfl | rfl | rfl
    · trivial
    · trivial
    · trivial
    · trivial
    · exact Json.wf_pushed hdw
    · trivial
    · exact h.timestamp
    · trivial
  have hd : (b.read S false).toDoc S true = .ok ((Json.object [
      (key "object_id", .str b.objectId), (key "style_id", .str b.styleId),
      (key "manifest_hash", .str (toHexQ b.manifestHash)),
      (key "code_seed", .str (toHexQ b.ballotCodeSeed)), (key "contests", .pushed ds),
      (key "code", .str (toHexQ b.ballotCode)), (key "timestamp", .num b.timestamp),
      (key "crypto_hash", .str (toHexQ b.cryptoHash))]).set (key "nonce") (.str (toHexQ 0))) := by
    unfold CBallot.toDoc
    rw [hds, Res.bind_ok]
    simp [CBallot.read, nonceRead, setNonce]
  refine ⟨_, by rw [writeText, hd]; rfl, ?_⟩
  intro c hc
  rw [readText_dump _ _ (Json.wf_set (v := .str (toHexQ 0)) hwf _ trivial)] at hc
  have hobj := Json.isObj_set (Json.isObj_object [
      (key "object_id", .str b.objectId), (key "style_id", .str b.styleId),
      (key "manifest_hash", .str (toHexQ b.manifestHash)),
      (key "code_seed", .str (toHexQ b.ballotCodeSeed)), (key "contests", .pushed ds),
      (key "code", .str (toHexQ b.ballotCode)), (key "timestamp", .num b.timestamp),
      (key "crypto_hash", .str (toHexQ b.cryptoHash))]).node (key "nonce") (.str (toHexQ 0))
  unfold CBallot.ofDoc at hc
  obtain ⟨_, _, hc⟩ := (Res.bind_eq_ok _ _ _).1 hc
  obtain ⟨_, _, hc⟩ := (Res.bind_eq_ok _ _ _).1 hc
  obtain ⟨_, _, hc⟩ := (Res.bind_eq_ok _ _ _).1 hc
  obtain ⟨_, _, hc⟩ := (Res.bind_eq_ok _ _ _).1 hc
  obtain ⟨_, _, hc⟩ := (Res.bind_eq_ok _ _ _).1 hc
  obtain ⟨_, _, hc⟩ := (Res.bind_eq_ok _ _ _).1 hc
  obtain ⟨t, hnt, hc⟩ := (Res.bind_eq_ok _ _ _).1 hc
  obtain ⟨_, _, hc⟩ := (Res.bind_eq_ok _ _ _).1 hc
  obtain ⟨_, _, hc⟩ := (Res.bind_eq_ok _ _ _).1 hc
  obtain ⟨_, _, hc⟩ := (Res.bind_eq_ok _ _ _).1 hc
  obtain ⟨n, hn, hc⟩ := (Res.bind_eq_ok _ _ _).1 hc
  rw [nonceText, Json.at_eq hobj, Json.get_set (Json.isObj_object _).node, if_pos rfl] at hnt
  obtain rfl : toHexQ 0 = t := Res.ok.inj hnt
  have h0 : toHexQ 0 = "00".toList := by decide +kernel
  rw [h0] at hn
  have : nonceFromText G "00".toList = .throw .outOfRange := rfl
  rw [this] at hn
  cases hn

end EG
