import Verif.Props.EncryptBallot
import Verif.Spec.Mediator

/-!
# C37, C40: the chain of ballot codes, mediators and contexts
-/

namespace EG

variable (G : Params) (C : Crypto) (S : StdSort)

theorem encryptBallot_facts (b : PBallot) (m : IManifest) (ctx : Context) (seed : ℕ) (nonce : Option ℕ)
    (timestamp : ℕ) (verify : Bool) (w w' : World) (e : CBallot)
    (h : encryptBallot G C S b m ctx seed nonce timestamp verify w = (.ok e, w')) :
    e.ballotCodeSeed = seed ∧ e.objectId = b.objectId ∧
      e.ballotCode = hashElems G C [.q seed, .u64 e.timestamp, .q e.cryptoHash] ∧
      e.cryptoHash = hashElems G C (.str b.objectId :: .q m.manifestHash ::
        e.contests.map (fun c => .q c.cryptoHash)) ∧ e.manifestHash = m.manifestHash := by
  unfold encryptBallot at h
  cases hst : m.getBallotStyle b.styleId with
  | none => rw [hst] at h; simp [M.raise] at h
  | some style =>
    rw [hst] at h
    dsimp only at h
    simp only [M.bind_eq_ok] at h
    obtain ⟨n, w1, h1, es, w2, h2, ts, w3, h3, e', w4, h4, h⟩ := h
    rw [cballot_make_ok] at h4
    have hee : e = e' := by
      cases verify with
      | false =>
        simp only [Bool.not_false, if_true, M.ret, Prod.mk.injEq, Res.ok.injEq] at h
        exact h.1.symm
      | true =>
        simp only [Bool.not_true, Bool.false_eq_true, if_false, M.bind_eq_ok, M.lift,
          Prod.mk.injEq] at h
        obtain ⟨v, w5, ⟨hv, rfl⟩, h⟩ := h
        cases v with
        | false => simp [M.raise] at h
        | true =>
          simp only [if_true, M.ret, Prod.mk.injEq, Res.ok.injEq] at h
          exact h.1.symm
    subst hee
    obtain ⟨-, -, f1, -, f3, f4, -, f6, f7, -, f9⟩ := h4
    simp only [Option.getD_some, Option.getD_none] at f7 f9
    exact ⟨f7, f1, by rw [f9, f7], by rw [f6, f4], f3⟩

/-- Whatever the arguments, the code of an encrypted ballot is the hash of seed, time and ballot
hash. -/
theorem encryptBallot_code (b : PBallot) (m : IManifest) (ctx : Context) (seed : ℕ) (nonce : Option ℕ)
    (timestamp : ℕ) (verify : Bool) (w w' : World) (e : CBallot)
    (h : encryptBallot G C S b m ctx seed nonce timestamp verify w = (.ok e, w')) :
    e.ballotCodeSeed = seed ∧ e.objectId = b.objectId ∧
      e.ballotCode = hashElems G C [.q seed, .u64 e.timestamp, .q e.cryptoHash] ∧
      e.cryptoHash = hashElems G C (.str b.objectId :: .q m.manifestHash ::
        e.contests.map (fun c => .q c.cryptoHash)) :=
  have h := encryptBallot_facts G C S b m ctx seed nonce timestamp verify w w' e h
  ⟨h.1, h.2.1, h.2.2.1, h.2.2.2.1⟩

theorem cloneQ_eq_ok (x y : ℕ) (h : cloneQ G x = .ok y) : y = x := by
  unfold cloneQ mkQ at h
  split at h
  · simp at h
  · simpa using h.symm

theorem encryptCompactBallot_code (b : PBallot) (m : IManifest) (ctx : Context) (seed : ℕ)
    (nonce : Option ℕ) (timestamp : ℕ) (verify : Bool) (w w' : World) (c : CompactCipher)
    (h : encryptCompactBallot G C S b m ctx seed nonce timestamp verify w = (.ok c, w')) :
    ∃ e : CBallot, e.objectId = c.plaintext.objectId ∧ e.ballotCodeSeed = seed ∧
      c.ballotCodeSeed = seed ∧ c.timestamp = e.timestamp ∧ c.ballotCode = e.ballotCode ∧
      e.ballotCode = hashElems G C [.q seed, .u64 e.timestamp, .q e.cryptoHash] := by
  unfold encryptCompactBallot at h
  simp only [M.bind_eq_ok, M.lift, Prod.mk.injEq] at h
  obtain ⟨b', w1, ⟨h1, rfl⟩, e, w2, h2, h3, rfl⟩ := h
  obtain ⟨k1, k2, k3, -⟩ := encryptBallot_code G C S _ _ _ _ _ _ _ _ _ _ h2
  unfold compressCipher at h3
  cases hn : e.nonce with
  | none => rw [hn] at h3; simp at h3
  | some n =>
    rw [hn] at h3
    simp only [Res.bind_eq_ok, Res.ok.injEq] at h3
    obtain ⟨s, hs, cd, hcd, n', hn', rfl⟩ := h3
    have hs' := cloneQ_eq_ok G _ _ hs
    have hcd' := cloneQ_eq_ok G _ _ hcd
    exact ⟨e, by rw [k2]; rfl, k1, by rw [← k1]; exact hs', rfl, hcd', k3⟩

theorem encrypt_step (md md' : Mediator) (b : PBallot) (verify : Bool) (w w' : World) (r : Res CBallot)
    (h : md.encrypt G C S b verify w = (r, md', w')) :
    md'.manifest = md.manifest ∧ md'.context = md.context ∧ md'.device = md.device ∧
    (∀ e, r = .ok e → e.ballotCodeSeed = md.seed G C ∧ md'.seed G C = e.ballotCode ∧
      e.ballotCode = hashElems G C [.q (md.seed G C), .u64 e.timestamp, .q e.cryptoHash]) ∧
    ((∀ e, r ≠ .ok e) → md'.seed G C = md.seed G C) := by
  unfold Mediator.encrypt at h
  dsimp only at h
  split at h
  · next e w1 he =>
    simp only [Prod.mk.injEq] at h
    obtain ⟨rfl, rfl, rfl⟩ := h
    refine ⟨rfl, rfl, rfl, ?_, fun hr => absurd rfl (hr e)⟩
    rintro _ ⟨⟩
    simp only [M.bind_eq_ok, M.now, Prod.mk.injEq] at he
    obtain ⟨t, w2, ⟨ht, rfl⟩, he⟩ := he
    obtain ⟨k1, k2, k3, -⟩ := encryptBallot_code G C S _ _ _ _ _ _ _ _ _ _ he
    exact ⟨k1, rfl, k3⟩
  · next r' w1 hr' he =>
    simp only [Prod.mk.injEq] at h
    obtain ⟨rfl, rfl, rfl⟩ := h
    refine ⟨rfl, rfl, rfl, ?_, fun _ => rfl⟩
    rintro e rfl
    exact (hr' e rfl).elim

theorem compactEncrypt_step (md md' : Mediator) (b : PBallot) (verify : Bool) (w w' : World)
    (r : Res CompactCipher) (h : md.compactEncrypt G C S b verify w = (r, md', w')) :
    md'.manifest = md.manifest ∧ md'.context = md.context ∧ md'.device = md.device ∧
    (∀ c, r = .ok c → md'.seed G C = c.ballotCode ∧ c.ballotCodeSeed = md.seed G C ∧
      ∃ e : CBallot, e.objectId = c.plaintext.objectId ∧ e.ballotCodeSeed = md.seed G C ∧
        c.timestamp = e.timestamp ∧ c.ballotCode = e.ballotCode ∧
        e.ballotCode = hashElems G C [.q (md.seed G C), .u64 e.timestamp, .q e.cryptoHash]) ∧
    ((∀ e, r ≠ .ok e) → md'.seed G C = md.seed G C) := by
  unfold Mediator.compactEncrypt at h
  dsimp only at h
  split at h
  · next e w1 he =>
    simp only [Prod.mk.injEq] at h
    obtain ⟨rfl, rfl, rfl⟩ := h
    refine ⟨rfl, rfl, rfl, ?_, fun hr => absurd rfl (hr e)⟩
    rintro _ ⟨⟩
    simp only [M.bind_eq_ok, M.now, Prod.mk.injEq] at he
    obtain ⟨t, w2, ⟨ht, rfl⟩, he⟩ := he
    obtain ⟨e', k1, k2, k3, k4, k5, k6⟩ := encryptCompactBallot_code G C S _ _ _ _ _ _ _ _ _ _ he
    exact ⟨rfl, k3, e', k1, k2, k4, k5, k6⟩
  · next r' w1 hr' he =>
    simp only [Prod.mk.injEq] at h
    obtain ⟨rfl, rfl, rfl⟩ := h
    refine ⟨rfl, rfl, rfl, ?_, fun _ => rfl⟩
    rintro e rfl
    exact (hr' e rfl).elim

/-- C37: the ballots a mediator hands out in any history of calls form one chain, which starts where
the mediator stands and ends where it stands afterwards; calls that fail leave no gap. -/
theorem C37_run (md : Mediator) (calls : List (Call × World)) :
    ∃ links, List.Forall₂ Output.Is (md.run G C S calls).1 links ∧
      Chained G C (md.seed G C) links ∧
      (md.run G C S calls).2.seed G C = endCode (md.seed G C) links := by
  induction calls generalizing md with
  | nil => exact ⟨[], .nil, trivial, rfl⟩
  | cons call calls ih =>
    obtain ⟨call, w⟩ := call
    cases call with
    | encrypt b verify =>
      unfold Mediator.run
      obtain ⟨r, md', w', hr⟩ : ∃ r md' w', md.encrypt G C S b verify w = (r, md', w') := ⟨_, _, _, rfl⟩
      obtain ⟨-, -, -, h4, h5⟩ := encrypt_step G C S _ _ _ _ _ _ _ hr
      rw [hr]
      cases r with
      | ok e =>
        obtain ⟨k1, k2, k3⟩ := h4 e rfl
        obtain ⟨links, j1, j2, j3⟩ := ih md'
        refine ⟨e.link :: links, .cons rfl j1, ⟨k1, k3, ?_⟩, ?_⟩
        · change Chained G C e.ballotCode links
          rw [← k2]; exact j2
        · change _ = endCode e.ballotCode links
          rw [← k2]; exact j3
      | throw x =>
        obtain ⟨links, j1, j2, j3⟩ := ih md'
        rw [h5 (by simp)] at j2 j3
        exact ⟨links, j1, j2, j3⟩
      | ub => exact ⟨[], .nil, trivial, h5 (by simp)⟩
    | compact b verify =>
      unfold Mediator.run
      obtain ⟨r, md', w', hr⟩ : ∃ r md' w', md.compactEncrypt G C S b verify w = (r, md', w') :=
        ⟨_, _, _, rfl⟩
      obtain ⟨-, -, -, h4, h5⟩ := compactEncrypt_step G C S _ _ _ _ _ _ _ hr
      rw [hr]
      cases r with
      | ok c =>
        obtain ⟨k2, k1, e, e1, e2, e3, e4, k3⟩ := h4 c rfl
        obtain ⟨links, j1, j2, j3⟩ := ih md'
        refine ⟨e.link :: links, .cons ⟨e, rfl, e1, by rw [k1, ← e2]; rfl, e3, e4⟩ j1, ⟨e2, k3, ?_⟩, ?_⟩
        · change Chained G C e.ballotCode links
          rw [← e4, ← k2]; exact j2
        · change _ = endCode e.ballotCode links
          rw [← e4, ← k2]; exact j3
      | throw x =>
        obtain ⟨links, j1, j2, j3⟩ := ih md'
        rw [h5 (by simp)] at j2 j3
        exact ⟨links, j1, j2, j3⟩
      | ub => exact ⟨[], .nil, trivial, h5 (by simp)⟩

/-- C37: the chain of a new mediator starts with the hash of its device. -/
theorem C37_chain (m : IManifest) (ctx : Context) (d : Device) (md : Mediator)
    (h : Mediator.make m ctx d = .ok md) (calls : List (Call × World)) :
    ∃ links, List.Forall₂ Output.Is (md.run G C S calls).1 links ∧
      Chained G C (hashElems G C [.u64 d.deviceUuid, .u64 d.sessionUuid, .u64 d.launchCode,
        .str d.location]) links := by
  have hs : md.seed G C = hashElems G C [.u64 d.deviceUuid, .u64 d.sessionUuid, .u64 d.launchCode,
      .str d.location] := by
    unfold Mediator.make at h
    split at h
    · simp at h
    · simp only [Res.ok.injEq] at h
      subst h
      rfl
  obtain ⟨links, h1, h2, -⟩ := C37_run G C S md calls
  rw [hs] at h2
  exact ⟨links, h1, h2⟩

/-! ## Binding -/

theorem chained_append (start : ℕ) (l : List Link) (x : Link) :
    Chained G C start (l ++ [x]) ↔ Chained G C start l ∧ x.seed = endCode start l ∧
      x.code = hashElems G C [.q (endCode start l), .u64 x.timestamp, .q x.hash] := by
  induction l generalizing start with
  | nil => simp [Chained, endCode]
  | cons y l ih =>
    simp only [List.cons_append, Chained, endCode, ih]
    tauto

theorem endCode_append (start : ℕ) (l : List Link) (x : Link) : endCode start (l ++ [x]) = x.code := by
  induction l generalizing start with
  | nil => rfl
  | cons y l ih => exact ih _

theorem span_delim (s t u v : List Char) (hs : '|' ∉ s) (ht : '|' ∉ t)
    (h : s ++ '|' :: u = t ++ '|' :: v) : s = t ∧ u = v := by
  induction s generalizing t with
  | nil =>
    cases t with
    | nil => simpa using h
    | cons c t => simp only [List.nil_append, List.cons_append, List.cons.injEq] at h; simp [← h.1] at ht
  | cons c s ih =>
    cases t with
    | nil => simp only [List.nil_append, List.cons_append, List.cons.injEq] at h; simp [h.1] at hs
    | cons c' t =>
      simp only [List.cons_append, List.cons.injEq] at h
      obtain ⟨h1, h2⟩ := ih t (by simp at hs; exact hs.2) (by simp at ht; exact ht.2) h.2
      exact ⟨by rw [h.1, h1], h2⟩

/-- A device text and a code text are never equal, whatever the location. -/
theorem device_ne_code (d : Device) (x : Link) :
    hashInput ([HElem.u64 d.deviceUuid, .u64 d.sessionUuid, .u64 d.launchCode, .str d.location].map
      (HElem.render G C)) ≠
    hashInput ([HElem.q x.seed, .u64 x.timestamp, .q x.hash].map (HElem.render G C)) := by
  intro h
  have hx : ∀ n, '|' ∉ (HElem.u64 n).render G C := fun n => render_u64 n
  have hq : ∀ n, '|' ∉ (HElem.q n).render G C := fun n => (toHexQ_no_delim n).1
  simp only [hashInput, List.map_cons, List.map_nil, List.flatMap_cons, List.flatMap_nil,
    List.append_nil, List.append_assoc, List.cons_append, List.nil_append, List.cons.injEq, true_and] at h
  obtain ⟨-, h⟩ := span_delim _ _ _ _ (hx _) (hq _) h
  obtain ⟨-, h⟩ := span_delim _ _ _ _ (hx _) (hx _) h
  obtain ⟨-, h⟩ := span_delim _ _ _ _ (hx _) (hq _) h
  simp at h

/-- The text of a device determines it, except that no location and the location "null" are the same. -/
theorem device_inj (d d' : Device) (hd : d.location ≠ nullString) (hd' : d'.location ≠ nullString)
    (h : hashInput ([HElem.u64 d.deviceUuid, .u64 d.sessionUuid, .u64 d.launchCode, .str d.location].map
      (HElem.render G C)) =
    hashInput ([HElem.u64 d'.deviceUuid, .u64 d'.sessionUuid, .u64 d'.launchCode, .str d'.location].map
      (HElem.render G C))) : d = d' := by
  have hx : ∀ n, '|' ∉ (HElem.u64 n).render G C := fun n => render_u64 n
  have hi : ∀ m n : ℕ, (HElem.u64 m).render G C = (HElem.u64 n).render G C → m = n := by
    intro m n h
    have := atom_render_inj (.u64 m) (.u64 n) trivial trivial trivial h
    simpa using this
  simp only [hashInput, List.map_cons, List.map_nil, List.flatMap_cons, List.flatMap_nil,
    List.append_nil, List.append_assoc, List.cons_append, List.nil_append, List.cons.injEq, true_and] at h
  obtain ⟨h1, h⟩ := span_delim _ _ _ _ (hx _) (hx _) h
  obtain ⟨h2, h⟩ := span_delim _ _ _ _ (hx _) (hx _) h
  obtain ⟨h3, h⟩ := span_delim _ _ _ _ (hx _) (hx _) h
  have h4 := List.append_cancel_right h
  have h5 : d.location = d'.location := by
    change (if d.location.isEmpty then nullString else d.location) =
      (if d'.location.isEmpty then nullString else d'.location) at h4
    cases e : d.location with
    | nil =>
      cases e' : d'.location with
      | nil => rfl
      | cons c l => rw [e, e'] at h4; exact absurd (by simpa using h4.symm) (e' ▸ hd')
    | cons c l =>
      cases e' : d'.location with
      | nil => rw [e, e'] at h4; exact absurd (by simpa using h4) (e ▸ hd)
      | cons c' l' => rw [e, e'] at h4; simpa using h4
  cases d; cases d'
  simp only [Device.mk.injEq]
  exact ⟨hi _ _ h1, hi _ _ h2, hi _ _ h3, h5⟩

theorem hashElems_cons (x : HElem) (xs : List HElem) :
    hashElems G C (x :: xs) = digestQ G C (hashInput ((x :: xs).map (HElem.render G C))) := by
  simp only [hashElems, List.isEmpty_cons, Bool.false_eq_true, if_false]

/-- C37: two chains (of any devices and lengths) that end in the same code are equal, device and all
ballots, unless two of the strings hashed collide.  Hence changing, removing, inserting or reordering
ballots changes every later code. -/
theorem C37_binding (hG : G.Valid) (d d' : Device) (l l' : List Link)
    (hd : d.location ≠ nullString) (hd' : d'.location ≠ nullString)
    (hl : ∀ x ∈ l, x.hash < 2 ^ 256) (hl' : ∀ x ∈ l', x.hash < 2 ^ 256)
    (hc : Chained G C (d.hash G C) l) (hc' : Chained G C (d'.hash G C) l')
    (hn : NoCollision G C (chainQueries G C d l ++ chainQueries G C d' l'))
    (h : endCode (d.hash G C) l = endCode (d'.hash G C) l') : d = d' ∧ l = l' := by
  have hend : ∀ (d : Device) (l : List Link), Chained G C (d.hash G C) l →
      endCode (d.hash G C) l < 2 ^ 256 := by
    intro d l hc
    rcases List.eq_nil_or_concat l with rfl | ⟨l, x, rfl⟩
    · unfold endCode Device.hash hashForDevice
      exact hashElems_lt256 hG _
    · rw [List.concat_eq_append] at hc ⊢
      rw [endCode_append]
      rw [((chained_append G C _ _ _).1 hc).2.2]
      exact hashElems_lt256 hG _
  induction l using List.reverseRecOn generalizing l' with
  | nil =>
    rcases List.eq_nil_or_concat l' with rfl | ⟨l', x, rfl⟩
    · refine ⟨device_inj G C d d' hd hd' ?_, rfl⟩
      refine hn _ (by simp [chainQueries]) _ (by simp [chainQueries]) ?_
      rw [← hashElems_cons, ← hashElems_cons]
      exact h
    · rw [List.concat_eq_append] at *
      exfalso
      rw [endCode_append, ((chained_append G C _ _ _).1 hc').2.2] at h
      refine device_ne_code G C d x (hn _ (by simp [chainQueries]) _ (by simp [chainQueries]) ?_)
      rw [← hashElems_cons, ← hashElems_cons]
      rw [((chained_append G C _ _ _).1 hc').2.1]
      exact h
  | append_singleton l x ih =>
    rcases List.eq_nil_or_concat l' with rfl | ⟨l', x', rfl⟩
    · exfalso
      rw [endCode_append, ((chained_append G C _ _ _).1 hc).2.2] at h
      refine device_ne_code G C d' x (hn _ (by simp [chainQueries]) _ (by simp [chainQueries]) ?_)
      rw [← hashElems_cons, ← hashElems_cons]
      rw [((chained_append G C _ _ _).1 hc).2.1]
      exact h.symm
    · rw [List.concat_eq_append] at *
      obtain ⟨k1, k2, k3⟩ := (chained_append G C _ _ _).1 hc
      obtain ⟨j1, j2, j3⟩ := (chained_append G C _ _ _).1 hc'
      have hcode := h
      rw [endCode_append, endCode_append] at hcode
      have h0 := hcode
      rw [k3, j3, ← k2, ← j2] at h0
      have hin := hn (hashInput ([HElem.q x.seed, .u64 x.timestamp, .q x.hash].map (HElem.render G C)))
        (by simp [chainQueries]) (hashInput ([HElem.q x'.seed, .u64 x'.timestamp, .q x'.hash].map
          (HElem.render G C))) (by simp [chainQueries]) (by
        rw [← hashElems_cons, ← hashElems_cons]; exact h0)
      have hat : [HAtom.q x.seed, .u64 x.timestamp, .q x.hash] =
          [HAtom.q x'.seed, .u64 x'.timestamp, .q x'.hash] := by
        refine C26_encoding_injective_partial _ _ ?_ ?_ ?_ hin
        · intro a ha
          simp only [List.mem_cons, List.not_mem_nil, or_false] at ha
          rcases ha with rfl | rfl | rfl
          · change x.seed < _; rw [k2]; exact hend d l k1
          · trivial
          · exact hl x (by simp)
        · intro a ha
          simp only [List.mem_cons, List.not_mem_nil, or_false] at ha
          rcases ha with rfl | rfl | rfl
          · change x'.seed < _; rw [j2]; exact hend d' l' j1
          · trivial
          · exact hl' x' (by simp)
        · exact .cons trivial (.cons trivial (.cons trivial .nil))
      simp only [List.cons.injEq, HAtom.q.injEq, HAtom.u64.injEq, and_true] at hat
      have hend' : endCode (d.hash G C) l = endCode (d'.hash G C) l' := by rw [← k2, ← j2]; exact hat.1
      obtain ⟨i1, i2⟩ := ih l' (fun y hy => hl y (by simp [hy])) (fun y hy => hl' y (by simp [hy])) k1 j1
        (fun s hs t ht => hn s (by
            simp only [chainQueries, List.map_append, List.mem_append, List.mem_cons] at hs ⊢; tauto) t (by
            simp only [chainQueries, List.map_append, List.mem_append, List.mem_cons] at ht ⊢; tauto)) hend'
      refine ⟨i1, ?_⟩
      rw [i2]
      cases x; cases x'
      simp only at hat hcode
      simp [hat.1, hat.2.1, hat.2.2, hcode]

/-- C37: the hash of a device does not distinguish no location from the location "null". -/
theorem C37_location_null (u s c : ℕ) :
    (⟨u, s, c, []⟩ : Device).hash G C = (⟨u, s, c, nullString⟩ : Device).hash G C := rfl

/-- C37: the hashes in a chain of ballots are below `2^256`, as `C37_binding` asks. -/
theorem C37_hash_bound (hG : G.Valid) (b : PBallot) (m : IManifest) (ctx : Context) (seed : ℕ)
    (nonce : Option ℕ) (timestamp : ℕ) (verify : Bool) (w w' : World) (e : CBallot)
    (h : encryptBallot G C S b m ctx seed nonce timestamp verify w = (.ok e, w')) :
    e.cryptoHash < 2 ^ 256 := by
  rw [(encryptBallot_code G C S _ _ _ _ _ _ _ _ _ _ h).2.2.2]
  exact hashElems_lt256 hG _

/-! ## C40 -/

/-- C40: a mediator can be made exactly if the manifest hashes agree. -/
theorem C40_mediator_iff (m : IManifest) (ctx : Context) (d : Device) (hm : m.manifestHash < 2 ^ 256)
    (hc : ctx.manifestHash < 2 ^ 256) :
    (Mediator.make m ctx d = .ok ⟨m, ctx, d, none⟩ ↔ m.manifestHash = ctx.manifestHash) ∧
    (Mediator.make m ctx d = .throw .invalidArgument ↔ m.manifestHash ≠ ctx.manifestHash) := by
  unfold Mediator.make
  have : toHexQ m.manifestHash = toHexQ ctx.manifestHash ↔ m.manifestHash = ctx.manifestHash :=
    ⟨toHexQ_inj _ _ hm hc, fun h => by rw [h]⟩
  by_cases h : m.manifestHash = ctx.manifestHash
  · rw [if_neg (by rw [ne_eq, this]; exact fun k => k h)]
    simp [h]
  · rw [if_pos (by rw [ne_eq, this]; exact h)]
    simp [h]

theorem run_manifest (md : Mediator) (calls : List (Call × World)) :
    (∀ e, Output.full e ∈ (md.run G C S calls).1 → e.manifestHash = md.manifest.manifestHash ∧
      e.cryptoHash = hashElems G C (.str e.objectId :: .q md.manifest.manifestHash ::
        e.contests.map (fun c => .q c.cryptoHash))) ∧
    (md.run G C S calls).2.manifest = md.manifest ∧ (md.run G C S calls).2.context = md.context := by
  induction calls generalizing md with
  | nil => simp [Mediator.run]
  | cons call calls ih =>
    obtain ⟨call, w⟩ := call
    cases call with
    | encrypt b verify =>
      unfold Mediator.run
      obtain ⟨r, md', w', hr⟩ : ∃ r md' w', md.encrypt G C S b verify w = (r, md', w') := ⟨_, _, _, rfl⟩
      obtain ⟨h1, h2, -⟩ := encrypt_step G C S _ _ _ _ _ _ _ hr
      have ih' := ih md'
      rw [h1, h2] at ih'
      rw [hr]
      cases r with
      | ok e =>
        refine ⟨fun e' he' => ?_, ih'.2⟩
        rcases List.mem_cons.1 he' with he' | he'
        · obtain rfl : e' = e := by simpa using he'
          unfold Mediator.encrypt at hr
          dsimp only at hr
          split at hr
          · next e1 w1 he =>
            simp only [Prod.mk.injEq, Res.ok.injEq] at hr
            obtain ⟨rfl, rfl, rfl⟩ := hr
            simp only [M.bind_eq_ok, M.now, Prod.mk.injEq] at he
            obtain ⟨t, w2, ⟨ht, rfl⟩, he⟩ := he
            obtain ⟨-, k2, -, k4, k5⟩ := encryptBallot_facts G C S _ _ _ _ _ _ _ _ _ _ he
            exact ⟨k5, by rw [k4, k2]⟩
          · next r' w1 hr' he =>
            simp only [Prod.mk.injEq] at hr
            exact (hr' e' hr.1).elim
        · exact ih'.1 e' he'
      | throw x => exact ih'
      | ub => exact ⟨by simp, h1, h2⟩
    | compact b verify =>
      unfold Mediator.run
      obtain ⟨r, md', w', hr⟩ : ∃ r md' w', md.compactEncrypt G C S b verify w = (r, md', w') :=
        ⟨_, _, _, rfl⟩
      obtain ⟨h1, h2, -⟩ := compactEncrypt_step G C S _ _ _ _ _ _ _ hr
      have ih' := ih md'
      rw [h1, h2] at ih'
      rw [hr]
      cases r with
      | ok c =>
        refine ⟨fun e' he' => ?_, ih'.2⟩
        rcases List.mem_cons.1 he' with he' | he'
        · simp at he'
        · exact ih'.1 e' he'
      | throw x => exact ih'
      | ub => exact ⟨by simp, h1, h2⟩

/-- C40: every ballot a mediator hands out, in any history of calls, carries the manifest hash of the
context, and its own hash covers it. -/
theorem C40_ballot_manifest (m : IManifest) (ctx : Context) (d : Device) (md : Mediator)
    (hm : m.manifestHash < 2 ^ 256) (hc : ctx.manifestHash < 2 ^ 256)
    (h : Mediator.make m ctx d = .ok md) (calls : List (Call × World)) (e : CBallot)
    (he : Output.full e ∈ (md.run G C S calls).1) :
    e.manifestHash = ctx.manifestHash ∧
      e.cryptoHash = hashElems G C (.str e.objectId :: .q ctx.manifestHash ::
        e.contests.map (fun c => .q c.cryptoHash)) := by
  have := C40_mediator_iff m ctx d hm hc
  have hk := (run_manifest G C S md calls).1 e he
  by_cases hh : m.manifestHash = ctx.manifestHash
  · rw [this.1.2 hh, Res.ok.injEq] at h
    subst h
    rw [← hh]
    exact hk
  · rw [this.2.2 hh] at h
    simp at h

theorem baseHash_lt (hG : G.Valid) (n k K c m : ℕ) : (Context.make G C n k K c m).baseHash < 2 ^ 256 := by
  unfold Context.make
  dsimp only
  exact hashElems_lt256 hG _

/-- C40: two contexts with the same extended hash agree on guardians, quorum, manifest hash and
commitment hash, unless the hash function collides on the strings hashed. -/
theorem C40_context_binding (hG : G.Valid) (hg : G.g < 2 ^ 4096) (n k K c m n' k' K' c' m' : ℕ)
    (hc : c < 2 ^ 256) (hm : m < 2 ^ 256) (hc' : c' < 2 ^ 256) (hm' : m' < 2 ^ 256)
    (hn : NoCollision G C (
      hashQueries G C [.q (Context.make G C n k K c m).baseHash, .q c] ++
      hashQueries G C [.q (Context.make G C n' k' K' c' m').baseHash, .q c'] ++
      (hashQueries G C [.p G.p, .q G.q, .p G.g, .u64 n, .u64 k, .q m] ++
      hashQueries G C [.p G.p, .q G.q, .p G.g, .u64 n', .u64 k', .q m'])))
    (h : (Context.make G C n k K c m).extHash = (Context.make G C n' k' K' c' m').extHash) :
    n = n' ∧ k = k' ∧ m = m' ∧ c = c' := by
  have h1 := C26_hash_binding_partial G C hG
    [.q (Context.make G C n k K c m).baseHash, .q c]
    [.q (Context.make G C n' k' K' c' m').baseHash, .q c'] ?_ ?_
    (.cons trivial (.cons trivial .nil))
    (fun s hs t ht => hn s (List.mem_append_left _ hs) t (List.mem_append_left _ ht)) h
  · simp only [List.cons.injEq, HElem.atom.injEq, HAtom.q.injEq, and_true] at h1
    obtain ⟨hb, rfl⟩ := h1
    have h2 := C26_hash_binding_partial G C hG
      [.p G.p, .q G.q, .p G.g, .u64 n, .u64 k, .q m] [.p G.p, .q G.q, .p G.g, .u64 n', .u64 k', .q m']
      ?_ ?_ (.cons trivial (.cons trivial (.cons trivial (.cons trivial (.cons trivial
        (.cons trivial .nil))))))
      (fun s hs t ht => hn s (List.mem_append_right _ hs) t (List.mem_append_right _ ht)) hb
    · simp only [List.cons.injEq, HElem.atom.injEq, HAtom.q.injEq, HAtom.u64.injEq, and_true, true_and] at h2
      exact ⟨h2.1, h2.2.1, h2.2.2, rfl⟩
    · intro x hx
      simp only [List.mem_cons, List.not_mem_nil, or_false] at hx
      rcases hx with rfl | rfl | rfl | rfl | rfl | rfl
      exacts [hG.p_lt, hG.q_lt, hg, trivial, trivial, hm]
    · intro x hx
      simp only [List.mem_cons, List.not_mem_nil, or_false] at hx
      rcases hx with rfl | rfl | rfl | rfl | rfl | rfl
      exacts [hG.p_lt, hG.q_lt, hg, trivial, trivial, hm']
  · intro x hx
    simp only [List.mem_cons, List.not_mem_nil, or_false] at hx
    rcases hx with rfl | rfl
    · exact baseHash_lt G C hG ..
    · exact hc
  · intro x hx
    simp only [List.mem_cons, List.not_mem_nil, or_false] at hx
    rcases hx with rfl | rfl
    · exact baseHash_lt G C hG ..
    · exact hc'

/-- C40: the text that is hashed for the base hash determines the group parameters as well. -/
theorem C40_base_text (p q g n k m p' q' g' n' k' m' : ℕ) (hp : p < 2 ^ 4096) (hq : q < 2 ^ 256)
    (hg : g < 2 ^ 4096) (hm : m < 2 ^ 256) (hp' : p' < 2 ^ 4096) (hq' : q' < 2 ^ 256)
    (hg' : g' < 2 ^ 4096) (hm' : m' < 2 ^ 256)
    (h : hashInput ([HElem.p p, .q q, .p g, .u64 n, .u64 k, .q m].map (HElem.render G C)) =
      hashInput ([HElem.p p', .q q', .p g', .u64 n', .u64 k', .q m'].map (HElem.render G C))) :
    p = p' ∧ q = q' ∧ g = g' ∧ n = n' ∧ k = k' ∧ m = m' := by
  have := C26_encoding_injective_partial [.p p, .q q, .p g, .u64 n, .u64 k, .q m]
    [.p p', .q q', .p g', .u64 n', .u64 k', .q m'] ?_ ?_
    (.cons trivial (.cons trivial (.cons trivial (.cons trivial (.cons trivial (.cons trivial .nil)))))) h
  · simpa only [List.cons.injEq, HAtom.p.injEq, HAtom.q.injEq, HAtom.u64.injEq, and_true] using this
  · intro x hx
    simp only [List.mem_cons, List.not_mem_nil, or_false] at hx
    rcases hx with rfl | rfl | rfl | rfl | rfl | rfl
    exacts [hp, hq, hg, trivial, trivial, hm]
  · intro x hx
    simp only [List.mem_cons, List.not_mem_nil, or_false] at hx
    rcases hx with rfl | rfl | rfl | rfl | rfl | rfl
    exacts [hp', hq', hg', trivial, trivial, hm']

/-- C40: neither hash of a context depends on the election key. -/
theorem C40_key_not_covered (n k K K' c m : ℕ) :
    (Context.make G C n k K c m).baseHash = (Context.make G C n k K' c m).baseHash ∧
    (Context.make G C n k K c m).extHash = (Context.make G C n k K' c m).extHash := ⟨rfl, rfl⟩

/-! ## Examples -/

def exampleDevice : Device := ⟨1, 2, 3, "polling place".toList⟩

/-- A mediator that encrypts a ballot, refuses one of an unknown style and encrypts another one. -/
example (S : StdSort) (h : ℕ) (K : ℕ) (hK : Residue .std K) :
    ∃ md, Mediator.make (exampleIM h) (exampleContext K h) exampleDevice = .ok md ∧
      (md.run .std (constCrypto 5) S [(.encrypt exampleBallot false, plainWorld),
        (.encrypt { exampleBallot with styleId := [] } false, plainWorld),
        (.encrypt exampleBallot false, plainWorld)]).1.length = 2 := by
  refine ⟨⟨exampleIM h, exampleContext K h, exampleDevice, none⟩, ?_, ?_⟩
  · unfold Mediator.make
    rw [if_neg]
    exact fun k => k rfl
  have ok : ∀ s : Option ℕ, ∃ e s' w', (⟨exampleIM h, exampleContext K h, exampleDevice, s⟩ : Mediator).encrypt
      .std (constCrypto 5) S exampleBallot false plainWorld =
      (.ok e, ⟨exampleIM h, exampleContext K h, exampleDevice, s'⟩, w') := by
    intro s
    obtain ⟨w1, hnow, hw1⟩ : ∃ w1, M.now plainWorld = (.ok 1000, w1) ∧ w1.Ok .std K :=
      ⟨_, rfl, (plainWorld_ok .std std_q_gt7 K).clock _⟩
    obtain ⟨e, w2, he⟩ := encryptBallot_example S K hK h ((⟨exampleIM h, exampleContext K h, exampleDevice,
      s⟩ : Mediator).seed .std (constCrypto 5)) 1000 none w1 hw1
    unfold Mediator.encrypt
    dsimp only
    rw [M.bind_apply_ok M.now _ _ _ _ hnow, he]
    exact ⟨_, _, _, rfl⟩
  have bad : ∀ s : Option ℕ, ∃ e s' w', (⟨exampleIM h, exampleContext K h, exampleDevice, s⟩ : Mediator).encrypt
      .std (constCrypto 5) S { exampleBallot with styleId := [] } false plainWorld =
      (.throw e, ⟨exampleIM h, exampleContext K h, exampleDevice, s'⟩, w') := by
    intro s
    obtain ⟨w1, hnow⟩ : ∃ w1, M.now plainWorld = (.ok 1000, w1) := ⟨_, rfl⟩
    unfold Mediator.encrypt
    dsimp only
    rw [M.bind_apply_ok M.now _ _ _ _ hnow, C35_ballot_unknown_style]
    · exact ⟨_, _, _, rfl⟩
    · change ∀ s ∈ exampleManifest.styles, s.objectId ≠ []
      decide +kernel
  obtain ⟨e1, s1, w1, h1⟩ := ok none
  obtain ⟨e2, s2, w2, h2⟩ := bad s1
  obtain ⟨e3, s3, w3, h3⟩ := ok s2
  simp only [Mediator.run, h1, h2, h3]
  rfl

/-- The hypotheses of `C37_binding` are met by a chain of two ballots. -/
def exampleLinks (G : Params) (C : Crypto) : List Link :=
  let s := exampleDevice.hash G C
  let c := hashElems G C [.q s, .u64 1000, .q 77]
  [⟨s, 1000, 77, c⟩, ⟨c, 1001, 78, hashElems G C [.q c, .u64 1001, .q 78]⟩]

theorem exampleLinks_chained (G : Params) (C : Crypto) :
    Chained G C (exampleDevice.hash G C) (exampleLinks G C) := by
  unfold exampleLinks
  exact ⟨rfl, rfl, rfl, rfl, trivial⟩

example : exampleDevice.location ≠ nullString ∧ (∀ x ∈ exampleLinks .test demoCrypto, x.hash < 2 ^ 256) ∧
    Chained .test demoCrypto (exampleDevice.hash .test demoCrypto) (exampleLinks .test demoCrypto) ∧
    NoCollision .test demoCrypto (chainQueries .test demoCrypto exampleDevice (exampleLinks .test demoCrypto)) := by
  refine ⟨by decide +kernel, by decide +kernel, exampleLinks_chained _ _, ?_⟩
  unfold NoCollision
  decide +kernel


/-- The hypothesis of `C40_context_binding` on the hash function is met by two contexts that differ in
the number of guardians. -/
example : NoCollision .test demoCrypto (
      hashQueries .test demoCrypto [.q (Context.make .test demoCrypto 5 3 9 8 7).baseHash, .q 8] ++
      hashQueries .test demoCrypto [.q (Context.make .test demoCrypto 6 3 9 8 7).baseHash, .q 8] ++
      (hashQueries .test demoCrypto [.p Params.test.p, .q Params.test.q, .p Params.test.g, .u64 5, .u64 3, .q 7] ++
      hashQueries .test demoCrypto [.p Params.test.p, .q Params.test.q, .p Params.test.g, .u64 6, .u64 3, .q 7])) := by
  unfold NoCollision
  decide +kernel

end EG
