import Verif.Lemmas.PcRandomLaw
import Verif.Props.Pc
import Mathlib.Probability.HasLawExists
/-!
# C87: the random settings of the conversion to paired comparisons act with the stated probabilities
-/
set_option linter.unusedSectionVars false
namespace Sureal.Props
open Sureal Spec Conv Pc MeasureTheory ProbabilityTheory
variable {Ω : Type} [MeasurableSpace Ω] {μ : Measure Ω}

/-- independent draws have the law of a stream -/
theorem draws_law [IsProbabilityMeasure μ] {U G : ℕ → Ω → ℝ} (h : RandomDraws μ U G) {S : Set Str} (hS : MeasurableSet S) :
    μ.real {ω | (fun n => (U n ω, G n ω)) ∈ S} = strLaw.real S := by
  have hm : Measurable fun ω n => (U n ω, G n ω) := by
    rw [measurable_pi_iff]
    intro n
    exact (h.measU n).prodMk (h.measG n)
  have := h.indep.map_fun_eq_infinitePi_map (fun n => (h.measU n).prodMk (h.measG n))
  simp only [h.law] at this
  have h2 : strLaw = Measure.map (fun ω n => (U n ω, G n ω)) μ := this.symm
  rw [Measure.real, Measure.real, h2, Measure.map_apply hm hS]
  rfl

/-- what the videos record about a pair when the comparison makes these assignments -/
theorem records {j : Job String ℝ} (hlt : j.y.asset < j.x.asset) {s : String} {a b : Int} (hb : Between j s a b) :
    (j.subj = s ∧ j.x.asset = a ∧ j.y.asset = b ∧
      lastFor s a b [winX j] = some (.one (.fin 1)) ∧ lastFor s b a [winX j] = none ∧
      lastFor s a b [winY j] = none ∧ lastFor s b a [winY j] = some (.one (.fin 1)) ∧
      lastFor s a b (halves j) = some (.one (.fin (1 / 2))) ∧ lastFor s b a (halves j) = some (.one (.fin (1 / 2)))) ∨
    (j.subj = s ∧ j.x.asset = b ∧ j.y.asset = a ∧
      lastFor s b a [winX j] = some (.one (.fin 1)) ∧ lastFor s a b [winX j] = none ∧
      lastFor s b a [winY j] = none ∧ lastFor s a b [winY j] = some (.one (.fin 1)) ∧
      lastFor s b a (halves j) = some (.one (.fin (1 / 2))) ∧ lastFor s a b (halves j) = some (.one (.fin (1 / 2)))) := by
  have hd : (Fl.dec 1 2 : Fl ℝ) = .fin (1 / 2) := by simp [Fl.dec]
  have h1 := lastFor_winX j hlt
  have h2 := lastFor_winY j hlt
  have h3 := lastFor_split j hlt (Fl.dec 1 2)
  change lastFor _ _ _ (halves j) = _ ∧ lastFor _ _ _ (halves j) = _ at h3
  rw [hd] at h3
  obtain ⟨rfl, ⟨rfl, rfl⟩ | ⟨rfl, rfl⟩⟩ := hb
  · exact .inl ⟨rfl, rfl, rfl, h1.1, h1.2, h2.1, h2.2, h3.1, h3.2⟩
  · exact .inr ⟨rfl, rfl, rfl, h1.1, h1.2, h2.1, h2.2, h3.1, h3.2⟩

theorem drawProb_comm (q c σ : ℝ) (coin : Bool) (x y : ℝ) : drawProb q c σ coin x y = drawProb q c σ coin y x := by
  unfold drawProb
  simp only [eq_comm (a := x)]

/-- **C87.** A dataset of numbers in dictionary style is converted with one sampling rate `q ≤ 1`, one coin-toss rate `c` and one
noise level `σ` for all pairs (by default 1, 0, 0), any tie-break method and any restriction to contents, with independent
random draws.  Consider a comparable pair of assets that a subject scored `x` and `y`.  Then the first is recorded to win
with probability `q (c/2 + (1 - c) p)`, `p` the probability that its score with noise is higher; the same holds for the
second; they share the point with probability `q (1 - c)` if the scores are equal, there is no noise, and ties are
split, else never; and nothing is recorded with probability `1 - q`. -/
theorem C87_probabilities [IsProbabilityMeasure μ] (U G : ℕ → Ω → ℝ) (hdraws : RandomDraws μ U G)
    (d : Dataset String ℝ) (rd : Reader String ℝ) (hacc : rawReader d = .ok rd)
    (hdict : ∀ dv ∈ d.disVideos, DictStyle dv)
    (hone : ∀ dv ∈ d.disVideos, ∀ v ∈ entries dv, ∃ x : ℝ, v = .one (.fin x)) (hrep : NoRepeat d.disVideos)
    (pk : PrepareKw) (pt tb : Option String) (sr cr nl : Option (Fl ℝ)) (fuel : ℕ)
    (hpt : pt = none ∨ pt = some "within_subject_within_content" ∨ pt = some "within_subject")
    (htb : tb = none ∨ tb = some "even_split" ∨ tb = some "coin_toss")
    (q c σ : ℝ) (hsr : sr = some (.fin q) ∨ (sr = none ∧ q = 1)) (hcr : cr = some (.fin c) ∨ (cr = none ∧ c = 0))
    (hnl : nl = some (.fin σ) ∨ (nl = none ∧ σ = 0))
    (hq0 : 0 ≤ q) (hq1 : q ≤ 1) (hc0 : 0 ≤ c) (hc1 : c ≤ 1) (hσ : 0 ≤ σ)
    (i k : ℕ) (va vb : DisVideo String ℝ) (hi : d.disVideos[i]? = some va) (hk : d.disVideos[k]? = some vb)
    (hli : LastWithId d.disVideos i) (hlk : LastWithId d.disVideos k) (hab : va.assetId ≠ vb.assetId)
    (s : String) (x y : ℝ) (cx cy : Int)
    (hx : ratingOf d.disVideos s va.assetId = some (.one (.fin x), cx))
    (hy : ratingOf d.disVideos s vb.assetId = some (.one (.fin y), cy))
    (hcont : pt ≠ some "within_subject" → cx = cy) :
    let kw : PcKw ℝ := { toPrepareKw := pk, pcType := pt, tiebreak := tb, samplingRate := sr, cointossRate := cr, noiseLevel := nl }
    let coin : Bool := decide (tb = some "coin_toss")
    let outcome := fun (r r' : Option (Vote ℝ)) => μ.real {ω | ∃ src new,
      toPc rd kw ⟨fun n => U n ω, fun n => G n ω⟩ (fuel + 1) = .ok (src, new) ∧
      recordOf new i s vb.assetId = r ∧ recordOf new k s va.assetId = r'}
    outcome (some (.one (.fin 1))) none = winProb q c σ coin x y ∧
    outcome none (some (.one (.fin 1))) = winProb q c σ coin y x ∧
    outcome (some (.one (.fin (1 / 2)))) (some (.one (.fin (1 / 2)))) = drawProb q c σ coin x y ∧
    outcome none none = 1 - q := by
  intro kw coin outcome
  have hsimple : Simple kw q c σ := ⟨hsr.imp_right fun h => ⟨h.1, rfl, h.2⟩, hcr.imp_right fun h => ⟨h.1, rfl, h.2⟩,
    hnl.imp_right fun h => ⟨h.1, rfl, h.2⟩, rfl⟩
  have hcoin : coin = !(kw.tie == "even_split") := by
    rcases htb with h | h | h <;> simp [coin, kw, PcKw.tie, h]
  have hkw : kwOk kw d.disVideos.length = true := by
    rw [kwOk_iff]
    refine ⟨?_, ?_, ?_, ?_, ?_, ?_⟩
    · rcases hpt with h | h | h <;> simp [kw, PcKw.type, h]
    · rcases htb with h | h | h <;> simp [kw, PcKw.tie, h]
    · rw [settingOk_iff]; rcases hsr with h | ⟨h, -⟩ <;> simp [kw, h, Fl.le_fin, Fl.zero_def, hq0]
    · rw [settingOk_iff]; rcases hcr with h | ⟨h, -⟩ <;> simp [kw, h, Fl.le_fin, Fl.zero_def, Fl.one_def, hc0, hc1]
    · rw [settingOk_iff]; rcases hnl with h | ⟨h, -⟩ <;> simp [kw, h, Fl.le_fin, Fl.zero_def, hσ]
    · rw [settingOk_iff]; simp [kw]
  obtain ⟨e1, e2, hne, dvs, hdv, hds, hlen, -⟩ := dictVideos_ok hacc (.inl hdict)
  rw [dictVideos_dict hne hdict] at hdv
  cases hdv
  obtain ⟨m, hm, -⟩ := subjRatings_ok hdict hrep
  obtain ⟨-, t⟩ := tableOf hdict hm
  have hnum : ∀ {s : String} {r : Rating ℝ}, r ∈ ratings d.disVideos s → ∃ x : ℝ, r.score = .one (.fin x) := by
    intro s r hr
    obtain ⟨dv, hdv', -, hs⟩ := mem_ratings hr
    exact hone dv hdv' _ hs
  -- every comparison returns and has a law
  have hok : ∀ j ∈ jobs m, ∀ dr n, ∃ r, runJob kw dr (fuel + 1) j n = .ok r := by
    intro j hj dr n
    obtain ⟨hji, hji2⟩ := job_idx t hj
    obtain ⟨hjx, hjy, -⟩ := t.job hj
    have hjok : JobOk kw d.disVideos.length j :=
      ⟨hji, hji2, .inl (hnum hjx |>.imp' _ fun _ h => h), .inl (hnum hjy |>.imp' _ fun _ h => h), fun h => absurd rfl h,
        fun h => absurd rfl h⟩
    have ht := trial_ok hkw dr hjok
    have hone : OneRate kw q := hsimple.sampling
    obtain ⟨r, hr, hrq⟩ := hone.job j
    unfold runJob
    split
    · exact ⟨_, rfl⟩
    · rw [hr]
      dsimp only
      rw [hrq]
      refine sample_ok ht (fuel + 1) q n ?_
      push_cast
      have : (0 : ℝ) ≤ fuel := Nat.cast_nonneg _
      linarith
  have hlaw : ∀ j ∈ jobs m, ∃ a b t e, Law j (fun v => runJob kw (drOf v) (fuel + 1) j 0) a b t e := by
    intro j hj
    obtain ⟨hjx, hjy, -⟩ := t.job hj
    obtain ⟨x', hx'⟩ := hnum hjx
    obtain ⟨y', hy'⟩ := hnum hjy
    by_cases hex : kw.type = "within_subject_within_content" → j.x.content = j.y.content
    · exact ⟨_, _, _, _, runJob_law hsimple hq0 hq1 hc0 hc1 hx' hy' hcoin fuel hex⟩
    · rw [Classical.not_imp] at hex
      exact ⟨_, _, _, _, runJob_excluded fuel hex.1 hex.2⟩
  -- the comparison concerned
  have hwithin : withinContent kw = true → cx = cy := by
    intro h
    rw [withinContent_iff] at h
    apply hcont
    rintro rfl
    simp [kw, PcKw.type] at h
  obtain ⟨j, hj, hbet, hcj⟩ := comparable_job t (within := withinContent kw) (s := s) (a := va.assetId) (b := vb.assetId)
    ⟨hab, _, cx, _, cy, hx, hy, hwithin⟩
  have hlt := (t.job hj).2.2
  obtain ⟨l1, l2, hsplit⟩ := List.append_of_mem hj
  have hnd : (jobs m).Pairwise fun j j' => j ≠ j' := t.pairwise.imp fun h e => h (by rw [e])
  rw [hsplit, List.pairwise_append, List.pairwise_cons] at hnd
  have hn1 : ∀ j' ∈ l1, j' ≠ j := fun j' hj' => hnd.2.2 j' hj' j (by simp)
  have hn2 : ∀ j' ∈ l2, j' ≠ j := fun j' hj' => (hnd.2.1.1 j' hj').symm
  have hl1 : ∀ j' ∈ l1, j' ∈ jobs m := fun j' hj' => by rw [hsplit]; simp [hj']
  -- what is recorded in a run
  have hrun : ∀ (dr : Draws ℝ) (r r' : Option (Vote ℝ)), (∃ src new, toPc rd kw dr (fuel + 1) = .ok (src, new) ∧
      recordOf new i s vb.assetId = r ∧ recordOf new k s va.assetId = r') ↔
      ∃ n w, runJob kw dr (fuel + 1) j (endOf kw (fuel + 1) l1 dr 0) = .ok (n, w) ∧
        (lastFor s va.assetId vb.assetId w = r ∧ lastFor s vb.assetId va.assetId w = r') := by
    intro dr r r'
    obtain ⟨ws, hws⟩ := runJobs_ok (fun j hj n => hok j hj dr n) 0
    obtain ⟨src, new, hpc⟩ := toPc_of (rd := rd) (by rw [e2]; exact hkw) (by rw [e2]; exact dictVideos_dict hne hdict) hm hws
    obtain ⟨-, dvs', m', ws', h1, h2, h3, -, -, -, hnew⟩ := toPc_inv hpc
    rw [e2, dictVideos_dict hne hdict] at h1
    cases h1
    rw [hm] at h2
    cases h2
    rw [hws] at h3
    cases h3
    rw [hsplit] at hws
    obtain ⟨wss, hf, hflat⟩ := runJobs_at hn1 hn2 hws
    rw [← hsplit] at hf
    have hpair := flat_pair_of (fun j w (h : Ran kw dr (fuel + 1) j w ∧ _) => (runJob_outcomes h.1).1) t hf s va.assetId vb.assetId
    rw [← hflat] at hpair
    obtain ⟨w, ⟨n', hw⟩, hfil⟩ : ∃ w, (∃ n', runJob kw dr (fuel + 1) j (endOf kw (fuel + 1) l1 dr 0) = .ok (n', w)) ∧
        ws.filter (onPair s va.assetId vb.assetId) = w.filter (onPair s va.assetId vb.assetId) := by
      rcases hpair with ⟨j', hj', w, hb', hr', hw'⟩ | ⟨hno, -⟩
      · have : j' = j := between_unique t hj' hj hb' hbet
        exact ⟨w, hr'.2 this, hw'⟩
      · exact absurd hbet (hno j hj)
    have ha1 : lastFor s va.assetId vb.assetId ws = lastFor s va.assetId vb.assetId w := by
      rw [(lastFor_pair s _ _ ws).1, (lastFor_pair s _ _ w).1, hfil]
    have ha2 : lastFor s vb.assetId va.assetId ws = lastFor s vb.assetId va.assetId w := by
      rw [(lastFor_pair s _ _ ws).2, (lastFor_pair s _ _ w).2, hfil]
    have hrec : ∀ {i : ℕ} {v : DisVideo String ℝ}, d.disVideos[i]? = some v → LastWithId d.disVideos i → ∀ b,
        recordOf new i s b = lastFor s v.assetId b ws := by
      intro i v hi hl b
      have : new.disVideos[i]? = some (pcVideo v (dictAt d.disVideos ws i)) := by
        rw [hnew, List.getElem?_mapIdx, hi]; rfl
      unfold recordOf
      rw [this]
      exact dictAt_last (videoIdx_of_last hl hi) ws s b
    constructor
    · rintro ⟨src', new', hpc', h1, h2⟩
      rw [hpc] at hpc'
      cases hpc'
      rw [hrec hi hli, ha1] at h1
      rw [hrec hk hlk, ha2] at h2
      exact ⟨n', w, hw, h1, h2⟩
    · rintro ⟨n2, w2, hw2, h1, h2⟩
      rw [hw] at hw2
      cases hw2
      exact ⟨src, new, hpc, by rw [hrec hi hli, ha1, h1], by rw [hrec hk hlk, ha2, h2]⟩
  -- the scores of the comparison
  have hone' : ∀ (s : String) (r : Rating ℝ) (a : Int) (v : Vote ℝ) (c : Int), r ∈ ratings d.disVideos s → r.asset = a →
      ratingOf d.disVideos s a = some (v, c) → r.score = v := by
    intro s r a v c hr ha hrat
    obtain ⟨ra, rs, rc⟩ := r
    cases ha
    have := (ratingOf_iff (t.once s)).mpr hr
    rw [hrat] at this
    cases this
    rfl
  have hcj' : kw.type = "within_subject_within_content" → j.x.content = j.y.content := fun h => hcj ((withinContent_iff kw).mpr h)
  have hout : ∀ r r', outcome r r' = strLaw.real {v | ∃ n w, runJob kw (drOf v) (fuel + 1) j (endOf kw (fuel + 1) l1 (drOf v) 0) =
      .ok (n, w) ∧ (lastFor s va.assetId vb.assetId w = r ∧ lastFor s vb.assetId va.assetId w = r')} := by
    intro r r'
    obtain ⟨a, b, t', e, hL⟩ := hlaw j hj
    rw [← draws_law hdraws (Law.after (fun j' hj' => hlaw j' (hl1 j' hj')) (fun j' hj' => hok j' (hl1 j' hj')) hL
      (fun w => lastFor s va.assetId vb.assetId w = r ∧ lastFor s vb.assetId va.assetId w = r')).1]
    simp only [outcome]
    congr 1
    ext ω
    exact hrun _ r r'
  have h12 : ¬ ((1 : ℝ) = 1 / 2) := by norm_num
  have h21 : ¬ ((1 / 2 : ℝ) = 1) := by norm_num
  have hnil : ∀ a b, lastFor s a b ([] : List (Write String ℝ)) = none := fun a b => rfl
  rcases records hlt hbet with ⟨hs, hxa, hyb, r1, r2, r3, r4, r5, r6⟩ | ⟨hs, hxb, hya, r1, r2, r3, r4, r5, r6⟩
  · have hjx := hone' s j.x _ _ _ (hs ▸ (t.job hj).1) hxa hx
    have hjy := hone' s j.y _ _ _ (hs ▸ (t.job hj).2.1) hyb hy
    have hL := runJob_law hsimple hq0 hq1 hc0 hc1 hjx hjy hcoin fuel hcj'
    simp only [hout, (Law.after (fun j' hj' => hlaw j' (hl1 j' hj')) (fun j' hj' => hok j' (hl1 j' hj')) hL
      (fun w => lastFor s va.assetId vb.assetId w = _ ∧ lastFor s vb.assetId va.assetId w = _)).2, r1, r2, r3, r4, r5, r6, hnil]
    refine ⟨?_, ?_, ?_, ?_⟩ <;> simp [ind]
  · have hjx := hone' s j.x _ _ _ (hs ▸ (t.job hj).1) hxb hy
    have hjy := hone' s j.y _ _ _ (hs ▸ (t.job hj).2.1) hya hx
    have hL := runJob_law hsimple hq0 hq1 hc0 hc1 hjx hjy hcoin fuel hcj'
    simp only [hout, (Law.after (fun j' hj' => hlaw j' (hl1 j' hj')) (fun j' hj' => hok j' (hl1 j' hj')) hL
      (fun w => lastFor s va.assetId vb.assetId w = _ ∧ lastFor s vb.assetId va.assetId w = _)).2, r1, r2, r3, r4, r5, r6, hnil]
    refine ⟨?_, ?_, ?_, ?_⟩ <;> simp [ind]
    exact drawProb_comm _ _ _ _ _ _

/-- there are such draws -/
theorem exists_draws : ∃ (Ω : Type) (_ : MeasurableSpace Ω) (μ : Measure Ω) (U G : ℕ → Ω → ℝ),
    IsProbabilityMeasure μ ∧ RandomDraws μ U G := by
  obtain ⟨Ω, hΩ, P, X, hm, hl, hi, hP⟩ := exists_iid ℕ (uniform01.prod normal01)
  exact ⟨Ω, hΩ, P, fun n ω => (X n ω).1, fun n ω => (X n ω).2, hP, fun n => (hm n).fst, fun n => (hm n).snd,
    fun n => (hl n).map_eq, hi⟩

/-- two videos of one content, scored 5 and 3 by Ann; Bob scored only the second -/
noncomputable def pcReal : Dataset String ℝ :=
  { refVideos := [⟨7, "r", []⟩], refScore := none, datasetName := none, attrs := [],
    disVideos := [⟨7, 0, "a", some (.dict [("Ann", .one (.fin 5))]), none, none, []⟩,
      ⟨7, 1, "b", some (.dict [("Ann", .one (.fin 3)), ("Bob", .one (.fin 4))]), none, none, []⟩] }

/-- C87 applies to it: with a sampling rate of 1/2 and a coin-toss rate of 1/5, Ann's preference of the first video is recorded
with probability 9/20, the opposite with probability 1/20 -/
example : ∃ (Ω : Type) (_ : MeasurableSpace Ω) (μ : Measure Ω) (U G : ℕ → Ω → ℝ) (rd : Reader String ℝ),
    rawReader pcReal = .ok rd ∧
    μ.real {ω | ∃ src new, toPc rd { samplingRate := some (.fin (1 / 2)), cointossRate := some (.fin (1 / 5)) }
      ⟨fun n => U n ω, fun n => G n ω⟩ 1 = .ok (src, new) ∧
      recordOf new 0 "Ann" 1 = some (.one (.fin 1)) ∧ recordOf new 1 "Ann" 0 = none} = 9 / 20 ∧
    μ.real {ω | ∃ src new, toPc rd { samplingRate := some (.fin (1 / 2)), cointossRate := some (.fin (1 / 5)) }
      ⟨fun n => U n ω, fun n => G n ω⟩ 1 = .ok (src, new) ∧
      recordOf new 0 "Ann" 1 = none ∧ recordOf new 1 "Ann" 0 = some (.one (.fin 1))} = 1 / 20 := by
  obtain ⟨Ω, hΩ, μ, U, G, hμ, hd⟩ := exists_draws
  obtain ⟨rd, hrd⟩ : ∃ rd, rawReader pcReal = .ok rd := ⟨_, rfl⟩
  have hl : ∀ i < 2, LastWithId pcReal.disVideos i := by
    intro i hi
    obtain rfl | rfl : i = 0 ∨ i = 1 := by omega
    · refine ⟨_, rfl, fun j v' hj hv => ?_⟩
      obtain ⟨hj', hv⟩ := List.getElem?_eq_some_iff.mp hv
      have h2 : pcReal.disVideos.length = 2 := rfl
      obtain rfl : j = 1 := by omega
      subst hv
      simp [pcReal]
    · refine ⟨_, rfl, fun j v' hj hv => ?_⟩
      obtain ⟨hj', hv⟩ := List.getElem?_eq_some_iff.mp hv
      have h2 : pcReal.disVideos.length = 2 := rfl
      omega
  have h := C87_probabilities U G hd pcReal rd hrd
    (by
      intro dv hdv
      simp only [pcReal, List.mem_cons, List.not_mem_nil, or_false] at hdv
      rcases hdv with rfl | rfl <;> exact ⟨_, rfl, by decide⟩)
    (by
      intro dv hdv v hv
      simp only [pcReal, List.mem_cons, List.not_mem_nil, or_false] at hdv
      rcases hdv with rfl | rfl <;> simp [entries] at hv
      · exact ⟨5, hv⟩
      · rcases hv with rfl | rfl <;> exact ⟨_, rfl⟩)
    (by
      intro s
      have : ((pcReal.disVideos.filter fun v => (entryOf v s).isSome).map (·.assetId)).Sublist
          (pcReal.disVideos.map (·.assetId)) := List.filter_sublist.map _
      exact this.nodup (by simp [pcReal]))
    {} none none (some (.fin (1 / 2))) (some (.fin (1 / 5))) none 0 (.inl rfl) (.inl rfl) (1 / 2) (1 / 5) 0 (.inl rfl) (.inl rfl)
    (.inr ⟨rfl, rfl⟩) (by norm_num) (by norm_num) (by norm_num) (by norm_num) le_rfl 0 1 _ _ rfl rfl (hl 0 (by omega)) (hl 1 (by omega))
    (by simp) "Ann" 5 3 7 7 rfl rfl (fun _ => rfl)
  refine ⟨Ω, hΩ, μ, U, G, rd, hrd, ?_, ?_⟩
  · refine h.1.trans ?_
    norm_num [winProb, scoreWins]
  · refine h.2.1.trans ?_
    norm_num [winProb, scoreWins]

end Sureal.Props
