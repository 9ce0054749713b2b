import Verif.Props.Readings
import Verif.Props.CiReport
/-!
# The script that checks confidence intervals, with the maximum likelihood model (C135)
-/
set_option linter.unusedSectionVars false
namespace Sureal.Props
open Sureal Spec Mock Routine CiScript
variable {κ σ : Type} [LinearOrder κ]

/-- two rows with `n` entries -/
def TwoRows (n : ℕ) (c : Option (List (List (Fl ℝ)))) : Prop := ∃ l u, c = some [l, u] ∧ l.length = n ∧ u.length = n

/-- scores for `E` videos, biases and inconsistencies for `S` observers, each with a confidence interval -/
structure Sized (E S : ℕ) (f : Fit κ ℝ) : Prop where
  scores : f.res.qualityScores.length = E
  scoresCi : ∃ l u, f.res.qualityScoresCi95 = some (l, u) ∧ l.length = E ∧ u.length = E
  biases : ∃ b, f.res.observerBias = some b ∧ b.length = S
  biasesCi : TwoRows S f.biasCi95
  inconsistencies : ∃ v, f.res.observerInconsistency = some v ∧ v.length = S
  inconsistenciesCi : TwoRows S f.inconsistencyCi95

/-- what is assumed of a model: on votes of 30 observers on 79 videos it gives estimates of the right sizes -/
def SizedModel (d : Dataset κ ℝ) (m : Reader κ ℝ → Py (Fit κ ℝ)) : Prop :=
  ∀ rd arr, rd.dataset = d → rd.scores = .ok arr → arr.E = 79 → arr.S = 30 → arr.R = 1 → ∃ fit, m rd = .ok fit ∧ Sized 79 30 fit

/-- a class of type 'MLE_CO' that reads the votes once and draws nothing -/
def mlecoClass (m : Reader κ ℝ → Py (Fit κ ℝ)) : ModelClass σ κ ℝ :=
  ⟨"MaximumLikelihoodEstimationModelContentOblivious", "MLE_CO", fun _ => (Modelled.once m).st⟩

theorem percentage_two {n : ℕ} (hn : 0 < n) {x y : List (Fl ℝ)} {c : Option (List (List (Fl ℝ)))} (hx : x.length = n) (hy : y.length = n)
    (hc : TwoRows n c) (old : Option (Fl ℝ)) : ∃ v, percentage (some x) (some y) c old = .ok (some v) := by
  obtain ⟨l, u, rfl, hl, hu⟩ := hc
  obtain ⟨v, hv⟩ := ciPercentage_ok (xs := x) (ys := y) (l := l) (u := u) (hx.trans hy.symm) (hl.trans hy.symm) (hu.trans hy.symm) (by omega)
  refine ⟨v, ?_⟩
  unfold percentage
  dsimp only
  rw [hv]

/-- such a model is validated on all true values of the right sizes, and there are three percentages -/
theorem sized_validates {d : Dataset κ ℝ} (hd : Nflx d) {m : Reader κ ℝ → Py (Fit κ ℝ)} (hm : SizedModel d m) {q b sg mu dl : List ℝ}
    (hq : q.length = 79) (hb : b.length = 30) (hsg : sg.length = 30) (hmu : mu.length = 9) (hdl : dl.length = 9) (w : Rand ℝ) :
    ∃ out c x y z, validate .normal w none [("MLE_CO", .once m)] (.ok d) (synthKw q b sg mu dl none) none false = .ok out ∧
      out.results.lookup "MLE_CO" = some c ∧ c.qualityPerc = some x ∧ c.biasPerc = some y ∧ c.inconsistencyPerc = some z := by
  obtain ⟨rd, hraw⟩ := hd.raw
  obtain ⟨rd', arr, r1, r2, -, -, r3, r4, r5, r6, -⟩ := C54_model d rd hraw (w.noiseAt .normal none 0) q b sg mu dl none
    (hq.trans hd.videos.symm) (hsg.trans hb.symm) (hmu.trans hd.refs.symm) (hdl.trans hmu.symm) (by simp) hd.contents
  have hread : readerAt .normal w none d (synthKw q b sg mu dl none) none 0 = .ok rd' := r1
  obtain ⟨fit, hfit, hs⟩ := hm rd' arr r2 r3 (r4.trans hd.videos) (r5.trans hb) r6
  obtain ⟨l, u, hci, hl, hu⟩ := hs.scoresCi
  obtain ⟨fb, hfb, hfbl⟩ := hs.biases
  obtain ⟨fv, hfv, hfvl⟩ := hs.inconsistencies
  obtain ⟨x, hx⟩ := percentage_two (n := 79) (by norm_num) (x := q.map Fl.fin) (y := fit.res.qualityScores)
    (c := fit.res.qualityScoresCi95.map fun p => [p.1, p.2]) (by simp [hq]) hs.scores ⟨l, u, by rw [hci]; rfl, hl, hu⟩ none
  obtain ⟨y, hy⟩ := percentage_two (n := 30) (by norm_num) (x := b.map Fl.fin) (y := fb) (by simp [hb]) hfbl hs.biasesCi none
  obtain ⟨z, hz⟩ := percentage_two (n := 30) (by norm_num) (x := sg.map Fl.fin) (y := fv) (by simp [hsg]) hfvl hs.inconsistenciesCi none
  refine ⟨⟨none, [("MLE_CO", { fit := fit, qualityPerc := some x, biasPerc := some y, inconsistencyPerc := some z })]⟩, _, x, y, z, ?_,
    List.lookup_cons_self, rfl, rfl, rfl⟩
  unfold validate
  rw [if_pos (Option.all_none (p := fun p : Fl ℝ => Fl.le 0 p && Fl.lt p 1))]
  dsimp only
  rw [hread]
  dsimp only
  unfold writtenDataset
  rw [if_neg (by simp)]
  dsimp only
  unfold fitAll
  unfold Modelled.once
  dsimp only
  rw [if_neg (by simp), Nat.zero_add, hread]
  dsimp only
  rw [hfit]
  dsimp only [fitAll, List.foldl_cons, List.foldl_nil, setKey, checkAll, checkOne]
  rw [List.lookup_cons_self]
  dsimp only
  have e1 : (synthKw q b sg mu dl none).quality = some (q.map Fl.fin) := rfl
  have e2 : (synthKw q b sg mu dl none).bias = some (b.map Fl.fin) := rfl
  have e3 : (synthKw q b sg mu dl none).inconsistency = some (sg.map Fl.fin) := rfl
  rw [e1, hx]
  dsimp only
  rw [e2, hfb, hy]
  dsimp only
  rw [e3, hfv, hz]
  rfl

/-- a call of the wrapper in the mode 'observer_only' -/
theorem mleco_wrapper {g : Gen σ ℝ} (hu : UnitDraws g) {d : Dataset κ ℝ} (hd : Nflx d) {m : Reader κ ℝ → Py (Fit κ ℝ)} (hm : SizedModel d m) (k : ℤ) (s : σ) :
    ∃ res c x y z, wrapper g (.ok d) [mlecoClass m] { seed := some k, truth := .str "observer_only" } s = .ok res ∧
      res.1.validation.results.lookup "MLE_CO" = some c ∧ c.qualityPerc = some x ∧ c.biasPerc = some y ∧ c.inconsistencyPerc = some z := by
  have hdo := drawObserver_eq hu (g.seed k)
  set b0 : List ℝ := (List.range 30).map fun i => g.normal (g.afterUniform (g.seed k) 79) i with hb0
  set sg : List ℝ := unitFrom g 30 (g.afterNormal (g.afterUniform (g.seed k) 79) 30) with hsg
  set b : List ℝ := b0.map fun x => x - mean b0 with hb
  set kw := synthKw (scoresFrom g (g.seed k)) b sg (List.replicate 9 0) (List.replicate 9 0) none with hkw
  obtain ⟨w, -, -, -, hval⟩ := C134_refines (κ := κ) g .normal none (.ok d) kw none (drawObserver g (g.seed k)).2
  obtain ⟨out, c, x, y, z, hout, h1, h2, h3, h4⟩ := sized_validates hd hm (q := scoresFrom g (g.seed k)) (b := b) (sg := sg) (mu := List.replicate 9 0)
    (dl := List.replicate 9 0) (by simp [scoresFrom]) (by simp [hb, hb0]) (by simp [hsg, unitFrom]) (by simp) (by simp) w
  have hv : (validateSt g .normal none [("MLE_CO", (Modelled.once m).st)] (.ok d) kw none false (drawObserver g (g.seed k)).2).map Prod.fst = .ok out :=
    (hval false [("MLE_CO", .once m)]).trans hout
  cases hx : validateSt g .normal none [("MLE_CO", (Modelled.once m).st)] (.ok d) kw none false (drawObserver g (g.seed k)).2 with
  | error e => rw [hx] at hv; cases hv
  | ok p =>
    rw [hx] at hv
    have hvo : p.1 = out := Except.ok.inj hv
    refine ⟨(⟨⟨kw, none, none⟩, p.1⟩, p.2), c, x, y, z, ?_, by rw [hvo]; exact h1, h2, h3, h4⟩
    unfold wrapper
    dsimp only [Option.getD_some, Option.isNone]
    rw [if_pos (by rfl)]
    have hch : chooseTruth g (.str "observer_only") (g.seed k) = .ok (⟨(drawObserver g (g.seed k)).1, none, none⟩, (drawObserver g (g.seed k)).2) := by
      unfold chooseTruth
      dsimp only
      rw [if_neg (by decide), if_pos rfl]
    rw [hch]
    dsimp only
    have hcen : centreTruth true (⟨(drawObserver g (g.seed k)).1, none, none⟩ : Truth ℝ) = .ok ⟨kw, none, none⟩ := by
      rw [centreTruth_fin (t := ⟨(drawObserver g (g.seed k)).1, none, none⟩) (b := b0) (by rw [hdo]; rfl) (by simp [hb0, List.range_succ]), hdo]
      rfl
    have hcen' : centreTruth ((none : Option Bool).getD true) (⟨(drawObserver g (g.seed k)).1, none, none⟩ : Truth ℝ) = .ok ⟨kw, none, none⟩ := hcen
    rw [hcen']
    dsimp only
    have h1' : validateSt g .normal none (List.map (fun c : ModelClass σ κ ℝ => (c.type, c.run none)) [mlecoClass m]) (.ok d) kw none false
        (drawObserver g (g.seed k)).2 = .ok p := hx
    rw [h1']

theorem report_fwd {ty : String} {field : Checked κ ℝ → Option (Fl ℝ)} {rs : List (Ret κ ℝ)}
    (h : ∀ r ∈ rs, ∃ c x, r.validation.results.lookup ty = some c ∧ field c = some x) : ∃ r, report ty field rs = .ok r := by
  have hm : ∃ l, mapPy (readPerc ty field) rs = .ok l := by
    induction rs with
    | nil => exact ⟨[], rfl⟩
    | cons r rs ih =>
      obtain ⟨c, x, h1, h2⟩ := h r List.mem_cons_self
      obtain ⟨l, hl⟩ := ih fun r' hr' => h r' (List.mem_cons_of_mem _ hr')
      refine ⟨x :: l, ?_⟩
      unfold mapPy
      unfold readPerc
      rw [h1]
      dsimp only
      rw [h2]
      dsimp only
      have hl' : mapPy (readPerc ty field) rs = .ok l := hl
      unfold readPerc at hl'
      rw [hl']
  obtain ⟨l, hl⟩ := hm
  unfold report
  rw [hl]
  exact ⟨_, rfl⟩

/-- **C135, the part for the maximum likelihood model runs.** On every dataset with 79 videos of 9 contents the script goes through the ten seeds and
prints the three kinds of percentages, for every model of type 'MLE_CO' whose estimates and confidence intervals have the right sizes. -/
theorem C135_mleco_runs {g : Gen σ ℝ} (hu : UnitDraws g) {d : Dataset κ ℝ} (hd : Nflx d) {m : Reader κ ℝ → Py (Fit κ ℝ)} (hm : SizedModel d m) (s : σ) :
    ∃ r s', runMleco g (.ok d) (mlecoClass m) s = .ok (r, s') := by
  obtain ⟨rets, hrets⟩ := overSeeds_fwd (g := g) (dataset := .ok d) (classes := [mlecoClass m]) (mode := "observer_only") (ks := seeds) (s := s)
    fun k hk s => ⟨_, (mleco_wrapper hu hd hm k s).choose_spec.choose_spec.choose_spec.choose_spec.choose_spec.1⟩
  have hiso := C135_isolated hrets
  have hall : ∀ r ∈ rets.1, ∃ c x y z, r.validation.results.lookup "MLE_CO" = some c ∧ c.qualityPerc = some x ∧ c.biasPerc = some y ∧
      c.inconsistencyPerc = some z := by
    intro r hr
    obtain ⟨i, hi, rfl⟩ := List.mem_iff_getElem.mp hr
    have hi' : i < seeds.length := by rw [hiso.length_eq]; exact hi
    have e := hiso.get hi' hi
    simp only [List.get_eq_getElem] at e
    obtain ⟨s'', h1⟩ := e s
    obtain ⟨res, c, x, y, z, h2, h3, h4⟩ := mleco_wrapper hu hd hm seeds[i] s
    rw [h2] at h1
    cases h1
    exact ⟨c, x, y, z, h3, h4⟩
  obtain ⟨a, ha⟩ := report_fwd (ty := "MLE_CO") (field := Checked.qualityPerc) (rs := rets.1) fun r hr => by
    obtain ⟨c, x, y, z, h1, h2, -⟩ := hall r hr; exact ⟨c, x, h1, h2⟩
  obtain ⟨b, hb⟩ := report_fwd (ty := "MLE_CO") (field := Checked.biasPerc) (rs := rets.1) fun r hr => by
    obtain ⟨c, x, y, z, h1, -, h2, -⟩ := hall r hr; exact ⟨c, y, h1, h2⟩
  obtain ⟨v, hv⟩ := report_fwd (ty := "MLE_CO") (field := Checked.inconsistencyPerc) (rs := rets.1) fun r hr => by
    obtain ⟨c, x, y, z, h1, -, -, h2⟩ := hall r hr; exact ⟨c, z, h1, h2⟩
  refine ⟨(a, b, v), rets.2, ?_⟩
  unfold runMleco
  rw [hrets]
  dsimp only
  rw [ha]
  dsimp only
  rw [hb]
  dsimp only
  rw [hv]

/-- a fit of the right sizes -/
noncomputable def sizedFit : Fit String ℝ :=
  { res := { qualityScores := List.replicate 79 3, qualityScoresCi95 := some (List.replicate 79 1, List.replicate 79 1)
             observerBias := some (List.replicate 30 0), observerInconsistency := some (List.replicate 30 1) }
    biasCi95 := some [List.replicate 30 1, List.replicate 30 1], inconsistencyCi95 := some [List.replicate 30 1, List.replicate 30 1] }

/-- C135_mleco_runs, C135_report_mleco -/
example (z : ℕ → ℕ → ℝ) : ∃ r s', runMleco (ciGen z) (.ok exNflx) (mlecoClass fun _ => .ok sizedFit) 0 = .ok (r, s') ∧ r.2.2.perSeed.length = 10 := by
  obtain ⟨r, s', h⟩ := C135_mleco_runs (ciGen_unit z) exNflx_ok (m := fun _ => .ok sizedFit) (fun _ _ _ _ _ _ _ => ⟨_, rfl,
    ⟨by simp [sizedFit], ⟨_, _, rfl, by simp, by simp⟩, ⟨_, rfl, by simp⟩, ⟨_, _, rfl, by simp, by simp⟩, ⟨_, rfl, by simp⟩,
      ⟨_, _, rfl, by simp, by simp⟩⟩⟩) 0
  exact ⟨r, s', h, (C135_report_mleco h).2.2.1⟩

end Sureal.Props
