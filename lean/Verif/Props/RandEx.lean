import Verif.Props.RandBstp
import Verif.Props.BstpEx
/-!
# C134: witnesses

The roots taken for the scores are of 0 and 1 only, so `ratMath` is as good as the real root.
-/
set_option linter.unusedSectionVars false
namespace Sureal.Props
open Sureal Spec Mock Routine

/-- noise for two videos and four observers, raised by `c` -/
def exRaised (c : ℚ) (i : ℕ) : ℚ := ([-1, 1, -1, 1, 1, -1, 1, -1].getD i 0) + c

/-- A generator that counts: the third reading of a fresh one gives numbers that are higher by four.  The panels are the observers 0, 1, 0, 1. -/
def exGen : Gen ℕ ℚ :=
  { seed := fun k => 100 + k.toNat
    normal := fun s => exRaised (if s = 2 then 4 else 0)
    logistic := fun _ => exRaised 0
    uniform := fun _ _ => 1
    choice := fun _ n => if n = 4 then [0, 1, 0, 1] else []
    afterNormal := fun s _ => s + 1
    afterLogistic := fun s _ => s + 1
    afterUniform := fun s _ => s + 1
    afterChoice := fun s _ => s }

/-- the true values: the scores are 2 and 6 -/
def exRandTruth : SynthKw ℚ := synthKw [2, 6] [0, 0, 0, 0] [1, 1, 1, 1] [0] [0] none

/-- one panel, and intervals for the scores only -/
def exKw : Bstp.Kw := { nBootstrap := some (1 : ℕ), boostrapDisVideos := some false }

attribute [local instance] ratMath in
/-- estimates from votes without, intervals from votes with the raise `c` -/
theorem exThree (c : ℚ) (hc : c = 0 ∨ c = 4) : ∃ rd rd3 out, syntheticReader (exBstp 0 1) exRandTruth (exRaised 0) = .ok rd ∧
    syntheticReader (exBstp 0 1) exRandTruth (exRaised c) = .ok rd3 ∧
    Bstp.runThree .default (fun i n => exGen.choice (exGen.seed i) n) 4 rd rd rd3 {} exKw = .ok out ∧
    out.res.qualityScores = exFin [2, 6] ∧ out.res.qualityScoresCi95 = some (exFin [-c, -c], exFin [c, c]) ∧
    out.biasCi95 = none ∧ out.inconsistencyCi95 = none := by
  obtain ⟨rd, h0, k0⟩ := okWith_elim (x := syntheticReader (exBstp 0 1) exRandTruth (exRaised 0))
    (P := fun rd => decide (Mle.onceFull .default rd (Bstp.unforced {}) =
      some ⟨exFin [2, 6], exFin [0, 0, 0, 0], exFin [9/10, 9/10, 9/10, 9/10]⟩)) (by decide +kernel)
  have h3 : okWith (syntheticReader (exBstp 0 1) exRandTruth (exRaised c)) (fun rd3 => okWith (toDataset rd3) fun d =>
      decide (Bstp.mapOpt (fun i => Bstp.subjOnce .default d (Bstp.unforced {}) (exFin [0, 0, 0, 0])
        (exGen.choice (exGen.seed (i : ℕ)) 4)) (List.range 1) = some [exFin [2 + c, 6 + c]])) = true := by
    rcases hc with rfl | rfl <;> decide +kernel
  have hci : Bstp.interval (exFin [2, 6]) [exFin [2 + c, 6 + c]] = .ok (exFin [-c, -c], exFin [c, c]) := by
    rcases hc with rfl | rfl <;> decide +kernel
  obtain ⟨rd3, h1, k1⟩ := okWith_elim h3
  obtain ⟨d, h2, k2⟩ := okWith_elim k1
  obtain ⟨out, o1, o2, o3, o4, o5⟩ := runThree_of_once (choice := fun i n => exGen.choice (exGen.seed i) n) (nSubj := 4) (o := {}) rfl rfl rfl
    one_ne_zero (of_decide_eq_true k0) h2 (of_decide_eq_true k2) hci
  refine ⟨rd, rd3, out, h0, h1, o1, ?_, o3, o4, o5⟩
  rw [o2]
  decide +kernel

attribute [local instance] ratMath in
/-- the two models of the examples -/
def exRandModels : List (String × ModelSt ℕ String ℚ) :=
  [("MLE_BSTP", bootstrapped exGen .default {} exKw), ("MOS", (Modelled.once exMos).st)]

attribute [local instance] ratMath in
theorem exValidate (seed : Option Int) (s : ℕ) (c : ℚ) (hc : c = 0 ∨ c = 4) (n0 : exGen.normal (exGen.reseed seed s) = exRaised 0)
    (n1 : exGen.normal (exGen.reseed seed (exGen.reseed seed s + 1)) = exRaised 0)
    (n2 : exGen.normal (exGen.reseed seed (exGen.reseed seed (exGen.reseed seed s + 1) + 1)) = exRaised c)
    (n3 : exGen.normal (exGen.reseed seed 100) = exRaised 0) :
    ∃ res ch, validateSt exGen .normal seed exRandModels (.ok (exBstp 0 1)) exRandTruth none false s = .ok res ∧
      res.1.results.lookup "MLE_BSTP" = some ch ∧ ch.fit.res.qualityScores = exFin [2, 6] ∧
      ch.fit.res.qualityScoresCi95 = some (exFin [-c, -c], exFin [c, c]) ∧ (c = 4 → ch.qualityPerc = some (.fin 0)) := by
  obtain ⟨rd, rd3, out, h0, h3, hrun, hq, hci, hb, hi⟩ := exThree c hc
  obtain ⟨fit, hfit⟩ : ∃ fit, exMos rd = .ok fit := by
    obtain ⟨rd', h, hk⟩ := okWith_elim (x := syntheticReader (exBstp 0 1) exRandTruth (exRaised 0)) (P := fun rd => okWith (exMos rd) fun _ => true)
      (by decide +kernel)
    rw [h0] at h
    cases h
    obtain ⟨fit, hf, -⟩ := okWith_elim hk
    exact ⟨fit, hf⟩
  have hfit' : fit.res.qualityScoresCi95 = none ∧ fit.biasCi95 = none ∧ fit.inconsistencyCi95 = none := by
    unfold exMos at hfit
    split at hfit
    · cases hfit
    · cases hfit
      exact ⟨rfl, rfl, rfl⟩
  have hread : ∀ (x : ℕ) (z : ℕ → ℚ) (r : Reader String ℚ), exGen.normal (exGen.reseed seed x) = z →
      syntheticReader (exBstp 0 1) exRandTruth z = .ok r → synthRead exGen .normal seed (exBstp 0 1) exRandTruth x = .ok (r, exGen.reseed seed x + 1) := by
    intro x z r hz hr
    unfold synthRead
    dsimp only
    rw [hz, hr]
    rfl
  have r0 := hread _ _ _ n0 h0
  have r1 := hread _ _ _ n1 h0
  have r2 := hread _ _ _ n2 h3
  have r3 := hread _ _ _ n3 h0
  have hsrc : source exGen .normal seed (exBstp 0 1) exRandTruth none s =
      .ok (⟨synthRead exGen .normal seed (exBstp 0 1) exRandTruth, .ok 4⟩, s) := by
    unfold source
    rw [r0]
    rfl
  have hperc : ∃ v, percentage exRandTruth.quality (some (exFin [2, 6])) (some [exFin [-c, -c], exFin [c, c]]) none = .ok v ∧
      (c = 4 → v = some (.fin 0)) := by
    rcases hc with rfl | rfl
    · obtain ⟨v, hv, -⟩ := okWith_elim (x := percentage exRandTruth.quality (some (exFin [2, 6])) (some [exFin [-0, -0], exFin [0, 0]]) none)
        (P := fun _ => true) (by decide +kernel)
      exact ⟨v, hv, by intro h; norm_num at h⟩
    · exact ⟨some (.fin 0), by decide +kernel, fun _ => rfl⟩
  obtain ⟨v, hv, hv4⟩ := hperc
  have hst : Bstp.stateAfter exGen 4 rd3.disVideos.length exKw (exGen.reseed seed (exGen.reseed seed (exGen.reseed seed s + 1) + 1) + 1) = 100 := rfl
  have hboot : bootstrapped exGen .default {} exKw ⟨synthRead exGen .normal seed (exBstp 0 1) exRandTruth, .ok 4⟩ s =
      .ok ({ res := out.res, biasCi95 := none, inconsistencyCi95 := none }, 100) := by
    unfold bootstrapped
    dsimp only
    rw [r0]
    dsimp only
    rw [r1]
    dsimp only
    rw [r2]
    dsimp only
    rw [hrun]
    dsimp only
    rw [hb, hi, hst]
    rfl
  have hmos : (Modelled.once exMos).st ⟨synthRead exGen .normal seed (exBstp 0 1) exRandTruth, .ok 4⟩ 100 =
      .ok (fit, exGen.reseed seed 100 + 1) := by
    have hn : (VoteSource.nth ⟨synthRead exGen .normal seed (exBstp 0 1) exRandTruth, .ok 4⟩ 0 100).map Prod.fst = .ok rd := by
      unfold VoteSource.nth
      dsimp only
      rw [r3]
      rfl
    have hk : VoteSource.skip ⟨synthRead exGen .normal seed (exBstp 0 1) exRandTruth, .ok 4⟩ 1 100 = .ok (exGen.reseed seed 100 + 1) := by
      unfold VoteSource.skip
      dsimp only
      rw [r3]
      rfl
    unfold Modelled.st Modelled.once
    dsimp only
    rw [hn]
    dsimp only
    rw [hfit]
    dsimp only
    rw [hk]
  have hall : fitAllSt ⟨synthRead exGen .normal seed (exBstp 0 1) exRandTruth, .ok 4⟩ exRandModels s =
      .ok ([("MLE_BSTP", { res := out.res, biasCi95 := none, inconsistencyCi95 := none }), ("MOS", fit)], exGen.reseed seed 100 + 1) := by
    unfold exRandModels fitAllSt
    rw [hboot]
    dsimp only
    unfold fitAllSt
    rw [hmos]
    rfl
  have hbp : percentage exRandTruth.bias out.res.observerBias none none = .ok none := by
    unfold percentage; split <;> first | rfl | simp_all
  have hip : percentage exRandTruth.inconsistency out.res.observerInconsistency none none = .ok none := by
    unfold percentage; split <;> first | rfl | simp_all
  have hnone : ∀ t e : Option (List (Fl ℚ)), percentage t e none none = .ok none := by
    intro t e; unfold percentage; split <;> first | rfl | simp_all
  have hcheck : checkAll exRandTruth [("MLE_BSTP", ({ res := out.res, biasCi95 := none, inconsistencyCi95 := none } : Fit String ℚ)), ("MOS", fit)]
      [("MLE_BSTP", { fit := { res := out.res, biasCi95 := none, inconsistencyCi95 := none } }), ("MOS", { fit := fit })] =
      .ok [("MLE_BSTP", { fit := { res := out.res, biasCi95 := none, inconsistencyCi95 := none }, qualityPerc := v }), ("MOS", { fit := fit })] := by
    unfold checkAll checkOne
    rw [List.lookup_cons_self]
    dsimp only
    rw [hq, hci]
    dsimp only [Option.map]
    rw [hv]
    dsimp only
    rw [hnone, hnone]
    dsimp only
    unfold checkAll checkOne
    rw [show List.lookup "MOS" (setKey "MLE_BSTP" _ [("MLE_BSTP", _), ("MOS", _)]) = some ({ fit := fit } : Checked String ℚ) from rfl]
    dsimp only
    rw [hfit'.1, hfit'.2.1, hfit'.2.2]
    dsimp only [Option.map]
    rw [hnone, hnone, hnone]
    rfl
  refine ⟨(⟨none, [("MLE_BSTP", { fit := { res := out.res, biasCi95 := none, inconsistencyCi95 := none }, qualityPerc := v }), ("MOS", { fit := fit })]⟩,
    exGen.reseed seed 100 + 1), { fit := { res := out.res, biasCi95 := none, inconsistencyCi95 := none }, qualityPerc := v }, ?_,
    List.lookup_cons_self, hq, hci, hv4⟩
  unfold validateSt
  rw [if_pos (by decide)]
  dsimp only
  rw [hsrc]
  dsimp only
  unfold writtenSt
  rw [if_neg (by decide)]
  dsimp only
  rw [hall]
  dsimp only
  rw [show List.foldl (fun acc p => setKey p.1 ({ fit := p.2 } : Checked String ℚ) acc) []
    [("MLE_BSTP", ({ res := out.res, biasCi95 := none, inconsistencyCi95 := none } : Fit String ℚ)), ("MOS", fit)] =
    [("MLE_BSTP", { fit := { res := out.res, biasCi95 := none, inconsistencyCi95 := none } }), ("MOS", { fit := fit })] from rfl, hcheck]

attribute [local instance] ratMath in
/-- **C134, refuted without a seed.** The estimates and the intervals around them come from different votes.  Here the estimated scores are the true ones,
and the votes from which they come are as dispersed as those for the intervals; but the lower width of each interval is negative, no interval
contains its estimate, and the validation reports that no true score lies in its interval. -/
theorem C134_refuted_votes : ∃ (res : Validation String ℚ × ℕ) (ch : Checked String ℚ),
    validateSt exGen .normal none exRandModels (.ok (exBstp 0 1)) exRandTruth none false 0 = .ok res ∧
    res.1.results.lookup "MLE_BSTP" = some ch ∧ some ch.fit.res.qualityScores = exRandTruth.quality ∧
    ch.fit.res.qualityScoresCi95 = some ([.fin (-4), .fin (-4)], [.fin 4, .fin 4]) ∧ ch.qualityPerc = some (.fin 0) := by
  obtain ⟨res, ch, h1, h2, h3, h4, h5⟩ := exValidate none 0 4 (Or.inr rfl) rfl rfl rfl rfl
  exact ⟨res, ch, h1, h2, by rw [h3]; rfl, h4, h5 rfl⟩

attribute [local instance] ratMath in
/-- `C134_forgets` applies to validations from two states in which the first model gets different intervals -/
example : ∃ (res res' : Validation String ℚ × ℕ) (ch ch' : Checked String ℚ),
    validateSt exGen .normal none exRandModels (.ok (exBstp 0 1)) exRandTruth none false 0 = .ok res ∧
    validateSt exGen .normal none exRandModels (.ok (exBstp 0 1)) exRandTruth none false 10 = .ok res' ∧
    res.1.results.lookup "MLE_BSTP" = some ch ∧ res'.1.results.lookup "MLE_BSTP" = some ch' ∧
    ch.fit.res.qualityScoresCi95 ≠ ch'.fit.res.qualityScoresCi95 ∧
    res.1.results.lookup "MOS" = res'.1.results.lookup "MOS" := by
  obtain ⟨res, ch, h1, h2, h3, h4, h5⟩ := exValidate none 0 4 (Or.inr rfl) rfl rfl rfl rfl
  obtain ⟨res', ch', k1, k2, k3, k4, k5⟩ := exValidate none 10 0 (Or.inl rfl) rfl rfl rfl rfl
  refine ⟨res, res', ch, ch', h1, k1, h2, k2, by rw [h4, k4]; decide +kernel, ?_⟩
  exact (C134_forgets (before := []) h1 k1 (Or.inl (by decide)) (by decide)).2 "MOS" (by decide)

attribute [local instance] ratMath in
/-- `C134_seeded_partial` applies -/
example : ∃ (res : Validation String ℚ × ℕ) (synth : Dataset String ℚ) (out : Bstp.Out String ℚ) (c : Checked String ℚ),
    validateSt exGen .normal (some 5) exRandModels (.ok (exBstp 0 1)) exRandTruth none false 0 = .ok res ∧
    Bstp.run .default (fun i n => exGen.choice (exGen.seed i) n) synth {} exKw = .ok out ∧
    res.1.results.lookup "MLE_BSTP" = some c ∧ out.res.qualityScores = c.fit.res.qualityScores ∧
    out.res.qualityScoresCi95 = c.fit.res.qualityScoresCi95 := by
  obtain ⟨res, ch, h1, h2, h3, h4, h5⟩ := exValidate (some 5) 0 0 (Or.inl rfl) rfl rfl rfl rfl
  obtain ⟨src, s1, rd, synth, out, obs, c, -, -, -, k1, k2, k3, -⟩ := C134_seeded_partial (before := []) h1 (by decide) (Or.inl rfl) (by decide)
  exact ⟨res, synth, out, c, h1, k1, k2, by rw [k3], by rw [k3]⟩

attribute [local instance] ratMath in
/-- `C134_refines` on models that complete -/
example : ∃ w : Rand ℚ, w.noise 0 = exRaised 0 ∧
    okWith (validate .normal w none [("MOS", .once exMos)] (.ok (exBstp 0 1)) exRandTruth none true) (fun _ => true) = true := by
  obtain ⟨w, h1, -, -, h4⟩ := C134_refines (κ := String) exGen .normal none (.ok (exBstp 0 1)) exRandTruth none 0
  refine ⟨w, h1, ?_⟩
  have hk : okWith (validateSt exGen .normal none [("MOS", (Modelled.once exMos).st)] (.ok (exBstp 0 1)) exRandTruth none true 0) (fun _ => true) = true := by
    decide +kernel
  obtain ⟨res, hres, -⟩ := okWith_elim hk
  have := h4 true [("MOS", .once exMos)]
  rw [show (none : Option Int).map some = none from rfl] at this
  rw [← this]
  simp only [List.map_cons, List.map_nil]
  rw [hres]
  rfl

/-- a generator whose state is the number of draws made so far -/
def exStream : Gen ℕ ℚ :=
  { exGen with normal := fun s k => ((s + k : ℕ) : ℚ), afterNormal := fun s n => s + n }

attribute [local instance] ratMath in
/-- `C134_successive` applies: four observers and two videos take 16 draws -/
example : ∃ r r2, synthRead exStream .normal none (exBstp 0 1) exRandTruth 0 = .ok r ∧ synthRead exStream .normal none (exBstp 0 1) exRandTruth r.2 = .ok r2 ∧
    syntheticReader (exBstp 0 1) exRandTruth (fun k => exStream.normal 0 (16 + k)) = .ok r2.1 := by
  have hk : okWith (synthRead exStream .normal none (exBstp 0 1) exRandTruth 0) (fun r =>
      okWith (synthRead exStream .normal none (exBstp 0 1) exRandTruth r.2) fun _ => true) = true := by decide +kernel
  obtain ⟨r, h, hk⟩ := okWith_elim hk
  obtain ⟨r2, h2, -⟩ := okWith_elim hk
  refine ⟨r, r2, h, h2, (C134_successive (b := exFin [0, 0, 0, 0]) (N := 16) (fun s n k => ?_) rfl (by decide) h h2).2.1⟩
  show ((s + n + k : ℕ) : ℚ) = ((s + (n + k) : ℕ) : ℚ)
  rw [Nat.add_assoc]

end Sureal.Props
