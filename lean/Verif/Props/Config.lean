import Verif.Model.EncryptConfig
import Verif.Props.Mediator
import Verif.Props.ContextMake

/-!
# C100: the limits of the configuration are kept
-/

namespace EG

/-- A ballot with marks for both candidates of a contest in which one is elected. -/
def overvotedBallot : PBallot :=
  { objectId := "ballot".toList, styleId := "style".toList
    contests := [⟨"c".toList, [⟨"s1".toList, 1, false, []⟩, ⟨"s2".toList, 1, false, []⟩]⟩] }

theorem overvoted_encrypts (S : StdSort) (K : ℕ) (hK : Residue .std K) (h ch t : ℕ) (nonce : Option ℕ) (w : World)
    (hw : w.Ok .std K) :
    ∃ e w', encryptBallot .std (constCrypto 5) S overvotedBallot (exampleIM h) (exampleContext K h) ch nonce t false w =
      (.ok e, w') := by
  refine C35_ballot_total .std (constCrypto 5) S C54_std_valid (exampleContext K h) overvotedBallot
    (exampleIM h) ch nonce t w [exampleContestP2, exampleContestP]
    hK hw
    (exampleIM_contests S h) exampleIM_good.1 (by simp) (by decide +kernel) (by decide +kernel)
    (by decide +kernel) (fun _ => addModQ .std (5 % 2 ^ 256) 0) ?_ ?_
  · intro d hd
    refine exampleContest_hash d ?_ ?_ <;>
      (rcases List.mem_cons.1 hd with rfl | hd
       · rfl
       · rw [List.mem_singleton.1 hd]; rfl)
  · intro d _ sd _
    rw [selectionNonce, hashElems_const]
    exact std_const5

/-- A context that does not allow overvotes does not keep an overvoted ballot from being encrypted. -/
theorem C100_overvotes_violated (S : StdSort) (max : ℕ) :
    ∃ (C : Crypto) (c : FullContext) (m : IManifest) (b : PBallot) (d : ContestDescP) (p : PContest) (w w' : World)
      (e : CBallot), c.config = ⟨false, max⟩ ∧ d ∈ m.contests ∧ p ∈ b.contests ∧ p.objectId = d.desc.objectId ∧
      p.Overvoted d.desc.numberElected d.desc.votesAllowed ∧
      c.encryptBallot .std C S b m 1 none 1000 false w = (.ok e, w') := by
  have hK : Residue .std (gPowP .std 2) := residue_gPowP C54_std_valid 2 (by norm_num)
  obtain ⟨e, w', he⟩ := overvoted_encrypts S _ hK 7 1 1000 none plainWorld (plainWorld_ok _ std_q_gt7 _)
  refine ⟨constCrypto 5, ⟨exampleContext (gPowP .std 2) 7, ⟨false, max⟩, []⟩, exampleIM 7, overvotedBallot, exampleContestP,
    ⟨"c".toList, [⟨"s1".toList, 1, false, []⟩, ⟨"s2".toList, 1, false, []⟩]⟩, plainWorld, w', e, rfl, ?_, ?_, ?_, ?_, he⟩
  · simp [exampleIM]
  · simp [overvotedBallot]
  · rfl
  · left
    decide +kernel

/-- A mediator encrypts any number of ballots, whatever the most the context allows. -/
theorem C100_max_ballots_violated (S : StdSort) (allow : Bool) (n : ℕ) :
    ∃ (C : Crypto) (c : FullContext) (m : IManifest) (d : Device) (md : Mediator) (calls : List (Call × World)),
      c.config = ⟨allow, 0⟩ ∧ c.mediator m d = .ok md ∧ (md.run .std C S calls).1.length = n := by
  have hK : Residue .std (gPowP .std 2) := residue_gPowP C54_std_valid 2 (by norm_num)
  refine ⟨constCrypto 5, ⟨exampleContext (gPowP .std 2) 7, ⟨allow, 0⟩, []⟩, exampleIM 7, exampleDevice,
    ⟨exampleIM 7, exampleContext (gPowP .std 2) 7, exampleDevice, none⟩,
    List.replicate n (.encrypt exampleBallot false, plainWorld), rfl, ?_, ?_⟩
  · unfold FullContext.mediator Mediator.make
    rw [if_neg]
    exact fun k => k rfl
  have ok : ∀ s : Option ℕ, ∃ e s' w', (⟨exampleIM 7, exampleContext (gPowP .std 2) 7, exampleDevice, s⟩ : Mediator).encrypt
      .std (constCrypto 5) S exampleBallot false plainWorld =
      (.ok e, ⟨exampleIM 7, exampleContext (gPowP .std 2) 7, exampleDevice, s'⟩, w') := by
    intro s
    obtain ⟨w1, hnow, hw1⟩ : ∃ w1, M.now plainWorld = (.ok 1000, w1) ∧ w1.Ok .std (gPowP .std 2) :=
      ⟨_, rfl, (plainWorld_ok .std std_q_gt7 _).clock _⟩
    obtain ⟨e, w2, he⟩ := encryptBallot_example S _ hK 7 ((⟨exampleIM 7, exampleContext (gPowP .std 2) 7, exampleDevice,
      s⟩ : Mediator).seed .std (constCrypto 5)) 1000 none w1 hw1
    unfold Mediator.encrypt
    dsimp only
    rw [M.bind_apply_ok M.now _ _ _ _ hnow, he]
    exact ⟨_, _, _, rfl⟩
  have gen : ∀ (n : ℕ) (s : Option ℕ), ((⟨exampleIM 7, exampleContext (gPowP .std 2) 7, exampleDevice, s⟩ : Mediator).run
      .std (constCrypto 5) S (List.replicate n (.encrypt exampleBallot false, plainWorld))).1.length = n := by
    intro n
    induction n with
    | zero => intro s; rfl
    | succ n ih =>
      intro s
      obtain ⟨e, s', w', h⟩ := ok s
      rw [List.replicate_succ, Mediator.run, h]
      dsimp only
      rw [List.length_cons, ih]
  exact gen n none

end EG
