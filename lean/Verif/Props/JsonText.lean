import Verif.Lemmas.JsonText
import Verif.Props.Serialize

/-!
# Which texts are read, and as what

C94.
-/

namespace EG

open Spec.JsonText

/-! ## C94: texts -/

/-- C94: a text is parsed exactly if it is a JSON text, and gives the document that the text denotes. -/
theorem C94_text (t : Str) (j : Json) : Json.parse t = .ok j ↔ Text t j := parse_iff t j

/-- C94: any other text is refused with an exception, whatever class is read. -/
theorem C94_refused {α : Type} (ofDoc : Json → Res α) (t : Str) (h : ¬∃ j, Text t j) :
    readText ofDoc t = .throw .json := by
  have h1 : Json.parse t = .throw .json := by
    cases hp : Json.parse t with
    | ok j => exact absurd ⟨j, (parse_iff t j).1 hp⟩ h
    | throw e =>
      unfold Json.parse at hp
      split at hp
      · split at hp
        · cases hp
        · rw [hp]
      · rw [hp]
    | ub =>
      unfold Json.parse at hp
      split at hp
      · split at hp <;> cases hp
      · cases hp
  rw [readText, h1]
  rfl

/-- C94: no text denotes two documents. -/
theorem C94_unambiguous (t : Str) (j k : Json) (hj : Text t j) (hk : Text t k) : j = k := by
  have h := (parse_iff t j).2 hj
  rw [(parse_iff t k).2 hk] at h
  exact (Res.ok.inj h).symm

/-- C94: what a class reads depends on nothing but the document the text denotes. -/
theorem C94_read {α : Type} (ofDoc : Json → Res α) (t : Str) (j : Json) (h : Text t j) :
    readText ofDoc t = ofDoc j := by
  rw [readText, (parse_iff t j).2 h]
  rfl

theorem chars_plain (s : Str) (h : ∀ c ∈ s, 32 ≤ c.toNat ∧ c ≠ '"' ∧ c ≠ '\\') : Chars s s := by
  induction s with
  | nil => exact .nil
  | cons c s ih =>
    obtain ⟨h1, h2, h3⟩ := h c List.mem_cons_self
    exact .plain h1 h2 h3 (ih (fun x hx => h x (List.mem_cons_of_mem _ hx)))

/-- Whether a text is read as a document with the given text of its own. -/
def readsAs (t d : Str) : Bool :=
  match Json.parse t with
  | .ok j => decide (j.dump = d)
  | _ => false

/-- Whether a text is refused. -/
def refuses (t : Str) : Bool :=
  match Json.parse t with
  | .throw _ => true
  | _ => false

theorem readsAs_text {t d : Str} (h : readsAs t d = true) : ∃ j, Text t j ∧ j.dump = d := by
  unfold readsAs at h
  split at h
  · rename_i j hj
    exact ⟨j, (parse_iff t j).1 hj, of_decide_eq_true h⟩
  · cases h

theorem refuses_text {t : Str} (h : refuses t = true) : ¬∃ j, Text t j := by
  rintro ⟨j, hj⟩
  rw [refuses, (parse_iff t j).2 hj] at h
  cases h

/-- Texts with white space, a repeated key, a surrogate pair and a byte order mark; and texts that are refused. -/
example : (∃ j, Text " {\"a\" : 1, \"b\":3,\"a\":[ -2,null ] }\n".toList j ∧
      j.dump = "{\"a\":[-2,null],\"b\":3}".toList) ∧
    (∃ j, Text (Char.ofNat 0xFEFF :: "\"\\ud83d\\uDE00\\/\"".toList) j ∧
      j.dump = ['"', Char.ofNat 0x1F600, '/', '"']) ∧
    (¬∃ j, Text "[1,]".toList j) ∧ (¬∃ j, Text "01".toList j) ∧ (¬∃ j, Text "\"\\ud83d\"".toList j) :=
  ⟨readsAs_text (by decide +kernel), readsAs_text (by decide +kernel), refuses_text (by decide +kernel),
    refuses_text (by decide +kernel), refuses_text (by decide +kernel)⟩

/-! ## C94: numbers in a ballot -/

/-- A number that is a double is its own nearest double. -/
theorem nearest_self {x : ℚ} (h : Double x) : Nearest x x := by
  refine ⟨h, fun w _ => ⟨by simp, fun hne he => absurd ?_ hne⟩⟩
  rw [sub_self, abs_zero, abs_eq_zero, sub_eq_zero] at he
  exact he.symm

/-- The text of a ballot with one selection, whose vote is the given literal. -/
def ballotText (literal : Str) : Str :=
  "{\"object_id\":\"b\",\"style_id\":\"s\",\"contests\":[{\"object_id\":\"c\",\"ballot_selections\":[{\"object_id\":\"x\",\"vote\":".toList ++
    (literal ++ "}]}]}".toList)

/-- The ballot with one selection. -/
def ballotWith (vote : ℕ) : PBallot :=
  { objectId := key "b", styleId := key "s",
    contests := [{ objectId := key "c",
                   selections := [{ objectId := key "x", vote, isPlaceholder := false, writeIn := [] }] }] }

theorem value_object {t : Str} {l : List (Str × Json)} (h : Members t l) :
    Value ('{' :: (t ++ ['}'])) (Json.object l) := .object h (isMap_mapOf l)

theorem ballot_text {literal : Str} {j : Json} (h : Number literal j) :
    Text (ballotText literal) (.object [(key "object_id", .str (key "b")), (key "style_id", .str (key "s")),
      (key "contests", .arr [.object [(key "object_id", .str (key "c")),
        (key "ballot_selections", .arr [.object [(key "object_id", .str (key "x")), (key "vote", j)]])]])]) := by
  have w := ws_nil
  have sel := value_object (.more w (chars_plain (key "object_id") (by decide +kernel)) w w
    (.string (chars_plain (key "x") (by decide +kernel))) w
    (.one w (chars_plain (key "vote") (by decide +kernel)) w w (.number h) w))
  have sels := Value.array (.one w sel w)
  have con := value_object (.more w (chars_plain (key "object_id") (by decide +kernel)) w w
    (.string (chars_plain (key "c") (by decide +kernel))) w
    (.one w (chars_plain (key "ballot_selections") (by decide +kernel)) w w sels w))
  have cons := Value.array (.one w con w)
  have bal := value_object (.more w (chars_plain (key "object_id") (by decide +kernel)) w w
    (.string (chars_plain (key "b") (by decide +kernel))) w
    (.more w (chars_plain (key "style_id") (by decide +kernel)) w w
    (.string (chars_plain (key "s") (by decide +kernel))) w
    (.one w (chars_plain (key "contests") (by decide +kernel)) w w cons w)))
  refine ⟨[], [], _, [], [], ?_, Or.inl rfl, w, bal, w, Or.inl rfl⟩
  have e1 : "{\"object_id\":\"b\",\"style_id\":\"s\",\"contests\":[{\"object_id\":\"c\",\"ballot_selections\":[{\"object_id\":\"x\",\"vote\":".toList =
      '{' :: '"' :: (key "object_id" ++ '"' :: ':' :: '"' :: (key "b" ++ '"' :: ',' :: '"' :: (key "style_id" ++
        '"' :: ':' :: '"' :: (key "s" ++ '"' :: ',' :: '"' :: (key "contests" ++ '"' :: ':' :: '[' :: '{' :: '"' ::
        (key "object_id" ++ '"' :: ':' :: '"' :: (key "c" ++ '"' :: ',' :: '"' :: (key "ballot_selections" ++
        '"' :: ':' :: '[' :: '{' :: '"' :: (key "object_id" ++ '"' :: ':' :: '"' :: (key "x" ++ '"' :: ',' :: '"' ::
        (key "vote" ++ ['"', ':']))))))))))) := by
    decide +kernel
  have e2 : "}]}]}".toList = ['}', ']', '}', ']', '}'] := by decide +kernel
  refine (congrArg₂ (fun a b => a ++ (literal ++ b)) e1 e2).trans ?_
  simp only [List.append_assoc, List.cons_append, List.nil_append]

theorem ballot_read {literal : Str} {j : Json} (h : Number literal j) :
    readText PBallot.ofDoc (ballotText literal) = j.asNat.bind (fun v => .ok (ballotWith v)) := by
  rw [C94_read _ _ _ (ballot_text h)]
  simp [PBallot.ofDoc, PContest.ofDoc, PSelection.ofDoc, Json.strAt, Json.natAt, Json.at_eq (Json.isObj_object _),
    Json.optWith, Json.opt_eq, Json.get_object, Json.asStr, key_inj, Json.items, mapRes]
  cases j.asNat <;> rfl

theorem digits_unique {t : Str} {n m : ℕ} (h : Digits t n) (h' : Digits t m) : n = m := by
  rw [digits_iff] at h h'
  rw [h.2, h'.2]

/-- C94: a vote written as an integer from 0 to 2^64 - 1 is read as it is. -/
theorem C94_vote_partial (t : Str) (n : ℕ) (ht : IntPart t n) (hn : n < 2 ^ 64) :
    readText PBallot.ofDoc (ballotText t) = .ok (ballotWith n) := by
  rw [ballot_read (j := .num n)]
  · rfl
  · refine ⟨[], t, [], [], [], n, n, 0, by simp, Or.inl rfl, ht, Or.inl ⟨rfl, rfl⟩, ?_, Or.inl ⟨rfl, rfl⟩, ?_⟩
    · rw [List.append_nil]; exact ht.1
    · rw [if_pos ⟨rfl, rfl, rfl, hn⟩]

/-- C94: a negative vote is not refused: -n is read as 2^64 - n votes. -/
theorem C94_vote_negative_violated (t : Str) (n : ℕ) (ht : IntPart t n) (h0 : 0 < n) (hn : n ≤ 2 ^ 63) :
    readText PBallot.ofDoc (ballotText ('-' :: t)) = .ok (ballotWith (2 ^ 64 - n)) := by
  rw [ballot_read (j := .int n)]
  · have : (2 ^ 64 - n % 2 ^ 64) % 2 ^ 64 = 2 ^ 64 - n := by omega
    show Res.bind (.ok ((2 ^ 64 - n % 2 ^ 64) % 2 ^ 64)) _ = _
    rw [this]
    rfl
  · refine ⟨['-'], t, [], [], [], n, n, 0, by simp, Or.inr rfl, ht, Or.inl ⟨rfl, rfl⟩, ?_, Or.inl ⟨rfl, rfl⟩, ?_⟩
    · rw [List.append_nil]; exact ht.1
    · rw [if_neg (by simp), if_pos ⟨rfl, rfl, rfl, hn⟩]

/-- C94: a vote with a fraction is not refused: n.5 is read as n. -/
theorem C94_vote_fraction_violated (t : Str) (n : ℕ) (ht : IntPart t n) (hn : n < 2 ^ 52) :
    readText PBallot.ofDoc (ballotText (t ++ ['.', '5'])) = .ok (ballotWith n) := by
  have hfl : ⌊(n : ℚ) + 1 / 2⌋ = n := by
    rw [Int.floor_eq_iff]
    constructor
    · push_cast; linarith
    · push_cast; linarith
  have hnq : (n : ℚ) < 2 ^ 52 := by exact_mod_cast hn
  have h0 : (0 : ℚ) ≤ n := by positivity
  rw [ballot_read (j := .float (n + 1 / 2))]
  · show Res.bind (if _ then _ else _) _ = _
    rw [if_pos ⟨by linarith, by linarith⟩, hfl]
    rfl
  · refine ⟨[], t, ['.', '5'], ['5'], [], n, 10 * n + 5, 0, by simp, Or.inl rfl, ht, Or.inr ⟨rfl, by simp⟩,
      .snoc ht.1 rfl, Or.inl ⟨rfl, rfl⟩, ?_⟩
    rw [if_neg (by simp), if_neg (by simp)]
    refine ⟨n + 1 / 2, ?_, ?_, rfl⟩
    swap
    · rw [abs_of_nonneg (by linarith)]
      have : (2 : ℚ) ^ 53 ≤ 2 ^ 1024 := pow_le_pow_right₀ (by norm_num) (by norm_num)
      refine lt_of_lt_of_le ?_ this
      linarith
    have hx : (if ([] : Str) = [] then 1 else -1) * (((10 * n + 5 : ℕ) : ℚ) * 10 ^ ((0 : ℤ) - (['5'].length : ℕ))) =
        n + 1 / 2 := by
      rw [if_pos rfl]
      push_cast
      norm_num
      ring
    rw [hx]
    refine nearest_self ⟨2 * n + 1, -1, ?_, ?_, by norm_num⟩
    · push_cast
      norm_num
      ring
    · rw [abs_of_nonneg (by positivity)]
      omega

/-- C94: a vote of 2^64 or more is not refused: the conversion is undefined. -/
theorem C94_vote_large_violated (t : Str) (n : ℕ) (ht : IntPart t n) (h0 : 2 ^ 64 ≤ n) (hn : n < 2 ^ 1023) :
    readText PBallot.ofDoc (ballotText t) = .ub := by
  have hq : (2 : ℚ) ^ 64 ≤ n := by exact_mod_cast h0
  have hq' : (n : ℚ) < 2 ^ 1023 := by exact_mod_cast hn
  have hnear := roundDouble_nearest n
  obtain ⟨v, hv⟩ : ∃ v, v = roundDouble n := ⟨_, rfl⟩
  rw [← hv] at hnear
  have h1 := (hnear.2 (2 ^ 64) ⟨1, 64, by norm_num, by norm_num, by norm_num⟩).1
  have h2 := (hnear.2 0 ⟨0, 0, by norm_num, by norm_num, by norm_num⟩).1
  rw [sub_zero, abs_of_nonneg (show (0 : ℚ) ≤ n by positivity)] at h2
  rw [abs_of_nonneg (show (0 : ℚ) ≤ (n : ℚ) - 2 ^ 64 by linarith)] at h1
  have h3 := abs_le.1 h1
  have h4 := abs_le.1 h2
  rw [ballot_read (j := .float v)]
  · show Res.bind (if _ then _ else _) _ = _
    rw [if_neg (fun h => by linarith [h.2, h3.2])]
    rfl
  · refine ⟨[], t, [], [], [], n, n, 0, by simp, Or.inl rfl, ht, Or.inl ⟨rfl, rfl⟩, ?_, Or.inl ⟨rfl, rfl⟩, ?_⟩
    · rw [List.append_nil]; exact ht.1
    · rw [if_neg (fun h => by omega), if_neg (fun h => by cases h.2.2.1)]
      refine ⟨v, ?_, ?_, rfl⟩
      · have hx : (if ([] : Str) = [] then 1 else -1) * ((n : ℚ) * 10 ^ ((0 : ℤ) - (([] : Str).length : ℕ))) = n := by
          rw [if_pos rfl]
          simp
        rw [hx]
        exact hnear
      · rw [abs_of_nonneg (by linarith [h3.2])]
        have : (2 : ℚ) ^ 1024 = 2 * 2 ^ 1023 := by rw [pow_succ]; ring
        rw [this]
        linarith [h4.1]

/-- The literals 1, 12 and 18446744073709551616. -/
example : IntPart "1".toList 1 ∧ IntPart "12".toList 12 ∧ IntPart "18446744073709551616".toList (2 ^ 64) := by
  refine ⟨⟨(digits_iff _ _).2 ⟨by decide +kernel, by decide +kernel⟩, by decide +kernel, by decide +kernel⟩,
    ⟨(digits_iff _ _).2 ⟨by decide +kernel, by decide +kernel⟩, by decide +kernel, by decide +kernel⟩,
    ⟨(digits_iff _ _).2 ⟨by decide +kernel, by decide +kernel⟩, by decide +kernel, by decide +kernel⟩⟩

/-! ## C94: texts that are not what they seem -/

/-- C94: nothing behind a NUL character is looked at, so that texts with anything appended are not refused. -/
theorem C94_nul_violated {α : Type} (ofDoc : Json → Res α) (t : Str) (j : Json) (h : Text t j) (rest : Str) :
    readText ofDoc (t ++ Char.ofNat 0 :: rest) = readText ofDoc t := by
  rw [C94_read ofDoc t j h]
  obtain ⟨bom, a, v, b, r, rfl, h2, h3, h4, h5, h6⟩ := h
  refine C94_read ofDoc _ j ⟨bom, a, v, b, r ++ Char.ofNat 0 :: rest, by simp, h2, h3, h4, h5, Or.inr ?_⟩
  rcases h6 with rfl | h6
  · rfl
  · cases r with
    | nil => cases h6
    | cons c r => exact h6

/-- C94: the text `null` is refused with an exception by ballots, devices and contexts, and so is an object without
members. -/
theorem C94_empty (G : Params) (t : Str) (j : Json) (h : Text t j) (hj : j = .null ∨ j = .obj []) :
    readText PBallot.ofDoc t = .throw .json ∧ readText CompactPlain.ofDoc t = .throw .json ∧
      readText Device.ofDoc t = .throw .json ∧ readText (Context.ofDoc G) t = .throw .json ∧
      readText (CBallot.ofDoc G) t = .throw .json ∧ readText (SBallot.ofDoc G) t = .throw .json := by
  rw [C94_read _ t j h, C94_read _ t j h, C94_read _ t j h, C94_read _ t j h, C94_read _ t j h, C94_read _ t j h]
  rcases hj with rfl | rfl <;> exact ⟨rfl, rfl, rfl, rfl, rfl, rfl⟩

/-! ## C61: contexts of earlier versions -/

/-- C61: a context without a configuration is read as one that allows overvotes, with the default number of
ballots. -/
theorem C61_context_default {G : Params} (hG : G.Valid) (c : Context) (hc : c.Readable G) :
    ∃ e, readText (Context.ofDoc G) (Json.object [(key "crypto_base_hash", .str (toHexQ c.baseHash)),
        (key "crypto_extended_base_hash", .str (toHexQ c.extHash)),
        (key "commitment_hash", .str (toHexQ c.commitmentHash)), (key "manifest_hash", .str (toHexQ c.manifestHash)),
        (key "elgamal_public_key", .str (toHexP c.pub)), (key "number_of_guardians", .num c.numberOfGuardians),
        (key "quorum", .num c.quorum)]).dump = .ok (c, e) ∧
      e.allowOvervotes = true ∧ e.maxBallots = 1000000 ∧ e.extendedData = [] := by
  refine ⟨⟨true, 1000000, []⟩, ?_, rfl, rfl, rfl⟩
  rw [readText_dump]
  · simp [Context.ofDoc, Json.strAt, Json.natAt, Json.at_eq (Json.isObj_object _), Json.optWith, Json.opt_eq,
      Json.get_object, Json.asNat, Json.asStr, key_inj, hexQ_read hG hc.commitment, hexQ_read hG hc.manifest,
      hexQ_read hG hc.base, hexQ_read hG hc.ext, hexP_read hG hc.pub, defaultMaxBallots]
  · refine Json.wf_object ?_
    intro e he
    simp only [List.mem_cons, List.not_mem_nil, or_false] at he
    rcases he with rfl | rfl | rfl | rfl | rfl | rfl | rfl
    · trivial
    · trivial
    · trivial
    · trivial
    · trivial
    · exact hc.guardians
    · exact hc.quorum

end EG
