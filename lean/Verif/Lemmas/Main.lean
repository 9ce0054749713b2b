import Verif.Model.Main
import Verif.Spec.Main
import Verif.Props.Format
import Verif.Props.RunModels
import Verif.Props.Ap
import Verif.Props.Lookup
import Verif.Props.Reader
import Verif.Lemmas.Mock
/-! Helper lemmas about the command line program. -/
set_option linter.unusedSectionVars false
namespace Sureal.Main
open Sureal Spec Routine Format Props
variable {κ : Type} [LinearOrder κ]

/-! ### classes -/

/-- classes for opinion scores that the program knows -/
def Usable (c : ModelClass) : Prop := inMro .PairedCompSubjectiveModel c = false ∧ c.module ≠ .experimental

instance (c : ModelClass) : Decidable (Usable c) := inferInstanceAs (Decidable (_ ∧ _))

/-- what the program finds -/
theorem known_find (c : ModelClass) (t : String) (h : c.ownType = some t) (hm : c.module ≠ .experimental) :
    known.find .SubjectiveModel t = .ok c := by
  revert h
  cases c <;> intro h <;> first | exact absurd rfl hm | (cases h; rfl) | cases h

/-- looking up the TYPEs of classes -/
theorem findAll_types {ts : List String} {cs : List ModelClass} (h : List.Forall₂ (fun t c => c.ownType = some t) ts cs)
    (hm : ∀ c ∈ cs, c.module ≠ .experimental) : known.findAll .SubjectiveModel ts = .ok cs := by
  unfold Classes.findAll
  rw [mapPy_eq_ok_iff]
  induction h with
  | nil => exact .nil
  | cons h _ ih => exact .cons (known_find _ _ h (hm _ List.mem_cons_self)) (ih fun c hc => hm c (List.mem_cons_of_mem _ hc))

/-- every class that can be found is below `SubjectiveModel` -/
theorem inMro_subj (c : ModelClass) : inMro .SubjectiveModel c = true := by
  cases c <;> decide +kernel

/-! ### reading -/

/-- what the reader of a readable dataset holds -/
theorem reads {d : Dataset κ ℝ} (h : Readable d) :
    ∃ rd a, rawReader d = .ok rd ∧ rd.disVideos = d.disVideos ∧ rd.scores = .ok a ∧ a.E = d.disVideos.length ∧ CleanVotes a ∧
      (∀ (e : Fin a.E) (dv : DisVideo κ ℝ), d.disVideos[e.val]? = some dv → (present (videoCells a.get e)).Perm (numbersOf dv)) ∧
      ((∃ obs, rd.observers = .ok obs ∧ obs.length = a.S) ∨ rd.observers = .error .assertion) := by
  have hass := (C01_accepts_iff_wellFormed d).mpr h.wf
  obtain ⟨a, ha, hE, hp⟩ := C06_no_vote_lost d hass h.style h.single
  refine ⟨_, a, by unfold rawReader; rw [hass], rfl, ha, hE, ?_, ?_, ?_⟩
  · intro j i r
    by_cases hn : a.get j i r = .nan
    · exact Or.inl hn
    · have hj : j.val < d.disVideos.length := by rw [← hE]; exact j.isLt
      have hdv := List.getElem?_eq_getElem hj
      have hm : a.get j i r ∈ dropNan (videoCells a.get j) := by
        unfold dropNan
        rw [List.mem_filter]
        refine ⟨(mem_videoCells a.get j _).mpr ⟨i, r, rfl⟩, ?_⟩
        cases hx : a.get j i r with
        | nan => exact absurd hx hn
        | _ => rfl
      have := (hp j _ hdv).mem_iff.mp hm
      exact h.clean _ (List.getElem_mem hj) _ (List.mem_filter.mp this).1
  · intro e dv hdv
    exact present_congr_dropNan (hp e dv hdv)
  · rcases h.style with hs | hd
    · right
      show listObservers d.disVideos = _
      cases hl : d.disVideos with
      | nil => exact absurd hl h.wf.diss
      | cons d0 rest =>
        obtain ⟨t, l, h0⟩ := hs d0 (by rw [hl]; simp)
        unfold listObservers mapPy osDict
        rw [h0]
    · left
      obtain ⟨obs, a', ho, ha', -, hS, -⟩ := (C04_dict_cells d hass hd).1 h.single
      rw [ha] at ha'
      cases ha'
      exact ⟨obs, ho, hS.symm⟩

/-! ### sizes -/

/-- the lists of a result have the lengths they should have for `n` videos and `S` observers, and there are no contents -/
structure Fits (n S : ℕ) (r : Result κ ℝ) : Prop where
  scores : r.qualityScores.length = n
  std : ∀ l, r.qualityScoresStd = some l → l.length = n
  ci : ∀ p, r.qualityScoresCi95 = some p → p.1.length = n ∧ p.2.length = n
  bias : ∀ l, r.observerBias = some l → l.length = S
  biasStd : ∀ l, r.observerBiasStd = some l → l.length = S
  inc : ∀ l, r.observerInconsistency = some l → l.length = S
  incStd : ∀ l, r.observerInconsistencyStd = some l → l.length = S
  smean : ∀ l, r.observerScoresMean = some l → l.length = S
  sstd : ∀ l, r.observerScoresStd = some l → l.length = S
  raw : ∀ x v sd, r.rawScores = some x → r.observerInconsistency = some v → r.observerInconsistencyStd = some sd → x.S = S
  content : r.contentAmbiguity = none
  named : ∀ obs, r.observers = some obs → obs.length = S

theorem Fits.cast {m n S : ℕ} {r : Result κ ℝ} (h : m = n) (hf : Fits m S r) : Fits n S r := h ▸ hf

theorem map_seq_len {o : Option (List (Fl ℝ))} {n : ℕ} (h : ∀ l, o = some l → l.length = n) {v : Val (Fl ℝ)}
    (hv : o.map Val.seq = some v) : HasLen v n := by
  cases o with
  | none => cases hv
  | some l => cases hv; exact Or.inl ⟨l, rfl, h l rfl⟩

theorem map_half_len {o : Option (List (Fl ℝ))} {n : ℕ} (h : ∀ l, o = some l → l.length = n) {v : Val (Fl ℝ)}
    (hv : o.map halfWidths = some v) : HasBounds v n := by
  cases o with
  | none => cases hv
  | some l => cases hv; exact ⟨_, _, rfl, by simp [h l rfl]⟩

theorem wellSized (ppf : Fl ℝ → ℕ → Fl ℝ) {n S : ℕ} {r : Result κ ℝ} (h : Fits n S r) {names : List String} (hn : names.length = n)
    (st : Option (RecStats ℝ)) (refs : List (ℤ × Option (String ⊕ κ))) : WellSized refs (resOf ppf ⟨r, names, st⟩) := by
  have hlen : (names.map (Sum.inl : String → String ⊕ κ)).length = n := by simp [hn]
  refine ⟨⟨.seq r.qualityScores, _, rfl, rfl, Or.inl ⟨_, rfl, by rw [hlen]; exact h.scores⟩, ?_, ?_⟩, ?_, ?_⟩
  · intro k hk v hv
    rw [List.mem_singleton] at hk
    subst hk
    rw [hlen]
    exact map_seq_len h.std hv
  · intro k hk v hv
    rw [List.mem_singleton] at hk
    subst hk
    rw [hlen]
    change r.qualityScoresCi95.map bounds = some v at hv
    cases hc : r.qualityScoresCi95 with
    | none => rw [hc] at hv; cases hv
    | some p =>
      rw [hc] at hv; cases hv
      obtain ⟨h1, h2⟩ := h.ci p hc
      exact ⟨_, _, rfl, by rw [h1, h2, min_self]⟩
  · intro b hb
    refine ⟨S, map_seq_len h.bias hb, ?_, ?_, ?_⟩
    · intro obs ho
      change r.observers.map (·.map Sum.inr) = some obs at ho
      cases hc : r.observers with
      | none => rw [hc] at ho; cases ho
      | some o => rw [hc] at ho; cases ho; rw [List.length_map]; exact h.named o hc
    · intro k hk v hv
      simp only [List.mem_cons, List.not_mem_nil, or_false] at hk
      rcases hk with rfl | rfl | rfl | rfl | rfl
      · exact map_seq_len h.biasStd hv
      · exact map_seq_len h.inc hv
      · exact map_seq_len h.incStd hv
      · exact map_seq_len h.smean hv
      · exact map_seq_len h.sstd hv
    · intro k hk v hv
      simp only [List.mem_cons, List.not_mem_nil, or_false] at hk
      rcases hk with rfl | rfl
      · exact map_half_len h.biasStd hv
      · change inconsistencyBounds ppf r = some v at hv
        unfold inconsistencyBounds at hv
        split at hv
        · rename_i x w sd hx hw hs
          cases hv
          have := h.raw x w sd hx hw hs
          refine ⟨_, _, rfl, ?_⟩
          unfold ObsCi.inconsistencyCi95
          rw [List.length_ofFn, List.length_ofFn, min_self, this]
        · cases hv
  · intro c hc
    change r.contentAmbiguity.map Val.seq = some c at hc
    rw [h.content] at hc
    cases hc

/-! ### the statistics of the runs -/

/-- number of votes in an array -/
def votesIn (x : Arr3D (Fl ℝ)) : List ℝ := (List.finRange x.E).flatMap fun e => present (videoCells x.get e)

/-- the statistics of the mean opinion scores -/
theorem recStats_mos (x : Arr3D (Fl ℝ)) (hc : CleanVotes x) :
    recStats x { x with get := fun e _ _ => meanAlongS x.get e } =
      if 2 ≤ (votesIn x).length then .ok (statsOf (bothPresent x.get fun e _ _ => meanAlongS x.get e)) else .error .value := by
  have hmos : ∀ e, meanAlongS x.get e = meanOrNan (videoCells x.get e) := fun e => meanAlongS_spec x.get e (hc e)
  have hclean : ∀ e, NumOrNan (meanAlongS x.get e) := fun e => by rw [hmos]; exact meanOrNan_clean _
  have hst := recStats_eq x.get (fun e _ _ => meanAlongS x.get e) hc (fun e _ _ => hclean e)
  have hlen : (bothPresent x.get fun e _ _ => meanAlongS x.get e).length = (votesIn x).length := by
    rw [bothPresent_video x.get hc _ (fun e => mean (present (videoCells x.get e)))]
    · unfold votesIn
      rw [List.length_flatMap, List.length_flatMap]
      congr 1
      refine List.map_congr_left fun e _ => ?_
      simp
    · intro e he
      rw [hmos]
      unfold meanOrNan
      cases hp : present (videoCells x.get e) with
      | nil => exact absurd hp he
      | cons x l => rfl
  rw [hlen] at hst
  exact hst

/-! ### counting votes -/

/-- 1 for a number, 0 for a missing vote -/
def one? (x : Fl ℝ) : ℕ := if x.val?.isSome then 1 else 0

theorem present_length (l : List (Fl ℝ)) : (present l).length = (l.map one?).sum := by
  unfold present one?
  induction l with
  | nil => rfl
  | cons x l ih =>
    rw [List.filterMap_cons, List.map_cons, List.sum_cons, ← ih]
    cases hx : x.val? with
    | none => simp
    | some v => simp; omega

theorem sum_flatten_ofFn_nat {n m : ℕ} (f : Fin n → Fin m → Fl ℝ) :
    (((List.ofFn fun i => List.ofFn fun j => f i j).flatten).map one?).sum = ∑ i, ∑ j, one? (f i j) := by
  rw [List.map_flatten, List.sum_flatten, List.map_map, List.map_ofFn, List.sum_ofFn]
  refine Finset.sum_congr rfl fun i _ => ?_
  simp only [Function.comp_apply, List.map_ofFn, List.sum_ofFn]

theorem videoVotes_length {E S R : ℕ} (a : Arr3 (Fl ℝ) E S R) (e : Fin E) : (present (videoCells a e)).length = ∑ s, ∑ r, one? (a e s r) := by
  rw [present_length]; exact sum_flatten_ofFn_nat _

theorem observerVotes_length {E S R : ℕ} (a : Arr3 (Fl ℝ) E S R) (s : Fin S) : (present (observerCells a s)).length = ∑ e, ∑ r, one? (a e s r) := by
  rw [present_length]; exact sum_flatten_ofFn_nat _

theorem votesIn_length (x : Arr3D (Fl ℝ)) : (votesIn x).length = ∑ e, ∑ s, ∑ r, one? (x.get e s r) := by
  unfold votesIn
  rw [List.length_flatMap, ← List.ofFn_eq_map, List.sum_ofFn]
  exact Finset.sum_congr rfl fun e _ => videoVotes_length _ _

/-- an array has all votes of each of its observers -/
theorem votesIn_ge (x : Arr3D (Fl ℝ)) (s : Fin x.S) : (present (observerCells x.get s)).length ≤ (votesIn x).length := by
  rw [observerVotes_length, votesIn_length]
  refine Finset.sum_le_sum fun e _ => ?_
  exact Finset.single_le_sum (f := fun s => ∑ r, one? (x.get e s r)) (fun _ _ => Nat.zero_le _) (Finset.mem_univ s)

/-- rejection keeps somebody, with all votes -/
theorem kurtosis_keeps {E S R : ℕ} (x : Arr3 (Fl ℝ) E S R) (hS : 0 < S) (hc : ∀ e s r, NumOrNan (x e s r)) (n : ℕ)
    (h : ∀ s, n ≤ (present (observerCells x s)).length) :
    (kurtosisReject x).1.E = E ∧ CleanVotes (kurtosisReject x).1 ∧ n ≤ (votesIn (kurtosisReject x).1).length := by
  have key : ∀ rej : Fin S → Bool, 0 < (splitObservers rej).1.length := by
    intro rej
    unfold splitObservers
    dsimp only
    split
    · rw [List.length_append]; omega
    · rename_i hne
      by_contra h0
      have h0' : ((List.finRange S).filter fun s => !rej s) = [] := List.length_eq_zero_iff.mp (Nat.eq_zero_of_not_pos h0)
      apply hne
      rw [List.filter_eq_nil_iff] at h0'
      have : (List.finRange S).filter rej = List.finRange S := by
        rw [List.filter_eq_self]
        intro s hs
        have := h0' s hs
        simpa using this
      rw [this, List.length_finRange]
  refine ⟨rfl, fun e s r => hc _ _ _, ?_⟩
  unfold kurtosisReject
  dsimp only
  generalize hl : (splitObservers _).1 = cols
  have hcols : 0 < cols.length := by rw [← hl]; exact key _
  refine le_trans ?_ (votesIn_ge ⟨E, cols.length, R, selectCols x cols⟩ ⟨0, hcols⟩)
  refine le_trans (h (cols.get ⟨0, hcols⟩)) (le_of_eq ?_)
  rfl

/-- removing the biases leaves votes where they are -/
theorem bias_keeps {E S R : ℕ} (x : Arr3 (Fl ℝ) E S R) (hc : ∀ e s r, NumOrNan (x e s r)) (s : Fin S) :
    (∀ e r, NumOrNan (biasArr x e s r)) ∧ (present (observerCells (biasArr x) s)).length = (present (observerCells x s)).length := by
  have hmos : ∀ e, meanAlongS x e = meanOrNan (videoCells x e) := fun e => meanAlongS_spec x e (hc e)
  have hsub : ∀ e r, NumOrNan (x e s r - meanAlongS x e) := by
    intro e r
    rw [hmos]
    rcases hc e s r with h | ⟨v, h⟩ <;> rcases meanOrNan_clean (videoCells x e) with h' | ⟨w, h'⟩ <;> rw [h, h']
    · exact Or.inl rfl
    · exact Or.inl rfl
    · exact Or.inl rfl
    · exact Or.inr ⟨_, rfl⟩
  have hb : biasEstimate x s = meanOrNan (observerCells (fun e s r => x e s r - meanAlongS x e) s) :=
    meanAlongE_spec _ s hsub
  have hclean : NumOrNan (biasEstimate x s) := by rw [hb]; exact meanOrNan_clean _
  have hfin : ∀ e r v, x e s r = .fin v → ∃ b, biasEstimate x s = .fin b := by
    intro e r v hv
    rw [hb]
    unfold meanOrNan
    split
    · rename_i h0
      exfalso
      have hw : ∃ w, x e s r - meanAlongS x e = .fin w := by
        rw [hmos, hv]
        unfold meanOrNan
        split
        · rename_i h1
          have : v ∈ present (videoCells x e) := by
            unfold present
            rw [List.mem_filterMap]
            exact ⟨.fin v, (mem_videoCells x e _).mpr ⟨s, r, hv⟩, rfl⟩
          rw [h1] at this
          cases this
        · exact ⟨_, rfl⟩
      obtain ⟨w, hw⟩ := hw
      have : w ∈ present (observerCells (fun e s r => x e s r - meanAlongS x e) s) := by
        unfold present
        rw [List.mem_filterMap]
        exact ⟨.fin w, (mem_observerCells _ s _).mpr ⟨e, r, hw⟩, rfl⟩
      rw [h0] at this
      cases this
    · exact ⟨_, rfl⟩
  have hcell : ∀ e r, NumOrNan (biasArr x e s r) ∧ one? (biasArr x e s r) = one? (x e s r) := by
    intro e r
    show NumOrNan (x e s r - biasEstimate x s) ∧ one? (x e s r - biasEstimate x s) = _
    rcases hc e s r with h | ⟨v, h⟩
    · rw [h]; exact ⟨Or.inl rfl, rfl⟩
    · obtain ⟨b, hb'⟩ := hfin e r v h
      rw [h, hb']
      exact ⟨Or.inr ⟨_, rfl⟩, rfl⟩
  refine ⟨fun e r => (hcell e r).1, ?_⟩
  rw [observerVotes_length, observerVotes_length]
  exact Finset.sum_congr rfl fun e _ => Finset.sum_congr rfl fun r _ => (hcell e r).2

/-! ### the documented models -/

/-- the observers a result names -/
def namesOf (rd : Reader κ ℝ) : Option (List κ) :=
  match rd.observers with
  | .ok l => some l
  | _ => none

/-- observers are known with their number, or are not known -/
def Named (rd : Reader κ ℝ) (S : ℕ) : Prop := (∃ obs, rd.observers = .ok obs ∧ obs.length = S) ∨ rd.observers = .error .assertion

theorem namesOf_length {rd : Reader κ ℝ} {S : ℕ} (h : Named rd S) : ∀ obs, namesOf rd = some obs → obs.length = S := by
  intro obs ho
  unfold namesOf at ho
  rcases h with ⟨o, h1, h2⟩ | h1 <;> rw [h1] at ho
  · cases ho; exact h2
  · cases ho

/-- `run_modeling` without final transforms -/
theorem runModeling_named {rd : Reader κ ℝ} {S : ℕ} (h : Named rd S) (run : Reader κ ℝ → Opts ℝ → Py (Result κ ℝ)) (o : Opts ℝ)
    (h1 : o.normalizeFinal = none) (h2 : o.transformFinal = none) {res : Result κ ℝ} (hr : run rd o = .ok res) (hn : res.observers = none) :
    runModeling run rd o = .ok { res with observers := namesOf rd } := by
  have hp : ∀ q, postprocessScores o q = q := by
    intro q
    unfold postprocessScores
    rw [h1, h2]
    rfl
  unfold runModeling namesOf
  rw [hr]
  rcases h with ⟨obs, ho, -⟩ | ho <;> rw [ho] <;> dsimp only <;> rw [hp]
  rw [← hn]

/-- a class runs to the end and its result can be put into the output -/
def Good (other : ModelClass → Reader κ ℝ → Py (Result κ ℝ)) (rd : Reader κ ℝ) (n S : ℕ) (c : ModelClass) (r : Result κ ℝ) : Prop :=
  runClass other c rd = .ok r ∧ (∃ st, report rd r = .ok ⟨r, rd.disVideos.map (·.path), st⟩) ∧ Fits n S r ∧ r.observers = namesOf rd

theorem report_ok {rd : Reader κ ℝ} {r : Result κ ℝ} {raw rec : Arr3D (Fl ℝ)} {st : RecStats ℝ} (h1 : r.rawScores = some raw)
    (h2 : r.reconstructions = some rec) (h3 : recStats raw rec = .ok st) : report rd r = .ok ⟨r, rd.disVideos.map (·.path), some st⟩ := by
  unfold report
  rw [h1, h2]
  dsimp only
  rw [h3]

theorem report_err {rd : Reader κ ℝ} {r : Result κ ℝ} {raw rec : Arr3D (Fl ℝ)} {e : PyErr} (h1 : r.rawScores = some raw)
    (h2 : r.reconstructions = some rec) (h3 : recStats raw rec = .error e) : report rd r = .error e := by
  unfold report
  rw [h1, h2]
  dsimp only
  rw [h3]

/-- a result of the MOS family -/
theorem mos_fits {n S : ℕ} {r : Result κ ℝ} {f g h h' : Fin n → Fl ℝ} (h1 : r.qualityScores = List.ofFn f) (h2 : r.qualityScoresStd = some (List.ofFn g))
    (h3 : r.qualityScoresCi95 = some (List.ofFn h, List.ofFn h')) (h4 : ∀ l, r.observerBias = some l → l.length = S) (h5 : r.observerBiasStd = none)
    (h6 : r.observerInconsistency = none) (h7 : r.observerInconsistencyStd = none) (h8 : r.observerScoresMean = none) (h9 : r.observerScoresStd = none)
    (h10 : r.contentAmbiguity = none) (h11 : ∀ l, r.observers = some l → l.length = S) : Fits n S r where
  scores := by rw [h1]; simp
  std := by intro l hl; rw [h2] at hl; cases hl; simp
  ci := by intro l hl; rw [h3] at hl; cases hl; simp
  bias := h4
  biasStd := by intro l hl; rw [h5] at hl; cases hl
  inc := by intro l hl; rw [h6] at hl; cases hl
  incStd := by intro l hl; rw [h7] at hl; cases hl
  smean := by intro l hl; rw [h8] at hl; cases hl
  sstd := by intro l hl; rw [h9] at hl; cases hl
  raw := by intro x v sd _ hl; rw [h6] at hl; cases hl
  content := h10
  named := h11

section
variable (other : ModelClass → Reader κ ℝ → Py (Result κ ℝ)) {rd : Reader κ ℝ} {a : Arr3D (Fl ℝ)}

/-- the result of MOS -/
noncomputable def mosResult (rd : Reader κ ℝ) (a : Arr3D (Fl ℝ)) : Result κ ℝ :=
  { (mosAndStats (fun E _ _ => E * 2) a a : Result κ ℝ) with observers := namesOf rd }

theorem mos_run (ha : rd.scores = .ok a) (hob : Named rd a.S) : runMOS rd {} = .ok (mosResult rd a) := by
  refine runModeling_named hob mosRunModeling {} rfl rfl (res := mosAndStats (fun E _ _ => E * 2) a a) ?_ rfl
  unfold mosRunModeling
  rw [show preprocess rd {} = .ok { arr := a, orig := a } by unfold preprocess; rw [ha]; rfl]
  rfl

theorem mos_good (ha : rd.scores = .ok a) (hc : CleanVotes a) (hob : Named rd a.S) (h2 : 2 ≤ (votesIn a).length) :
    Good other rd a.E a.S .MosModel (mosResult rd a) := by
  refine ⟨mos_run ha hob, ⟨_, report_ok rfl rfl ((recStats_mos a hc).trans (if_pos h2))⟩, ?_, rfl⟩
  exact mos_fits rfl rfl rfl (by rintro l h; cases h) rfl rfl rfl rfl rfl rfl (namesOf_length hob)

theorem mos_bad (ha : rd.scores = .ok a) (hc : CleanVotes a) (hob : Named rd a.S) (h2 : (votesIn a).length < 2) :
    report rd (mosResult rd a) = .error .value :=
  report_err rfl rfl ((recStats_mos a hc).trans (if_neg (by omega)))

theorem bt500_good (ha : rd.scores = .ok a) (hc : CleanVotes a) (hob : Named rd a.S) (hS : 0 < a.S)
    (h2 : ∀ s, 2 ≤ (present (observerCells a.get s)).length) : ∃ r, Good other rd a.E a.S .BT500Model r := by
  obtain ⟨kE, k1, k2⟩ := kurtosis_keeps a.get hS hc 2 h2
  have hp := preprocess_kurtosis ha
  generalize kurtosisReject a.get = kr at kE k1 k2 hp
  refine ⟨{ (mosAndStats (fun E _ _ => E * 2) kr.1 a : Result κ ℝ).withRejection (some kr.2) with
    observers := namesOf rd }, ?_, ⟨_, report_ok rfl rfl ((recStats_mos _ k1).trans (if_pos k2))⟩, ?_, rfl⟩
  · refine runModeling_named hob mosRunModeling { subjectRejection := yes } rfl rfl ?_ rfl
    unfold mosRunModeling
    rw [hp]
  · refine Fits.cast kE ?_
    exact mos_fits rfl rfl rfl (by rintro l h; cases h) rfl rfl rfl rfl rfl rfl (namesOf_length hob)

theorem p913_good (ha : rd.scores = .ok a) (hc : CleanVotes a) (hob : Named rd a.S) (hS : 0 < a.S)
    (h2 : ∀ s, 2 ≤ (present (observerCells a.get s)).length) : ∃ r, Good other rd a.E a.S .P913124Model r := by
  obtain ⟨kE, k1, k2⟩ := kurtosis_keeps (biasArr a.get) hS (fun e s r => (bias_keeps a.get hc s).1 e r) 2
    (fun s => by rw [(bias_keeps a.get hc s).2]; exact h2 s)
  have hp : preprocess rd { biasOffset := yes, subjectRejection := yes } = .ok
      { arr := (kurtosisReject (biasArr a.get)).1, orig := a, bias := some (List.ofFn (biasEstimate a.get)),
        rejection := some (kurtosisReject (biasArr a.get)).2 } := by unfold preprocess; rw [ha]; rfl
  generalize kurtosisReject (biasArr a.get) = kr at kE k1 k2 hp
  refine ⟨{ ({ (mosAndStats (fun E S R => E * 2 + S * R) kr.1 a : Result κ ℝ) with
      observerBias := some (List.ofFn (biasEstimate a.get)) }.withRejection (some kr.2)) with
    observers := namesOf rd }, ?_, ⟨_, report_ok rfl rfl ((recStats_mos _ k1).trans (if_pos k2))⟩, ?_, rfl⟩
  · refine runModeling_named hob biasremvRunModeling { biasOffset := yes, subjectRejection := yes } rfl rfl ?_ rfl
    unfold biasremvRunModeling
    rw [hp]
  · refine Fits.cast kE ?_
    refine mos_fits rfl rfl rfl ?_ rfl rfl rfl rfl rfl rfl (namesOf_length hob)
    intro l h
    change some (List.ofFn (biasEstimate a.get)) = some l at h
    cases h
    exact List.length_ofFn

theorem p910_good (ha : rd.scores = .ok a) (hc : CleanVotes a) (hob : Named rd a.S) (hv : EveryVideoRated a) (ho : EveryObserverVoted a)
    (h2 : 2 ≤ (votesIn a).length) : ∃ r, Good other rd a.E a.S .P910AnnexEModel r := by
  have harm : ObserversHarmless rd := by
    rcases hob with ⟨o, h, -⟩ | h
    · exact Or.inl ⟨o, h⟩
    · exact Or.inr (Or.inl h)
  obtain ⟨res, hr⟩ := (C27_succeeds_iff Ap.sStdAlt rd harm a ha hc none).1 hv
  obtain ⟨p, f, hp, hf, hres⟩ := ap_run hr
  have hpre : preprocess rd { forceSubjbiasZeromean := none } = .ok { arr := a, orig := a } := preprocess_zeromean ha none
  rw [hpre] at hp
  cases hp
  have hraw : res.rawScores = some a := by rw [hres]; rfl
  obtain ⟨q, q0, b, b0, res0, -, -, -, hrec, -⟩ := C26_zero_mean_bias_partial Ap.sStdAlt rd { forceSubjbiasZeromean := none } rfl rfl (by simp)
    res hr a hraw hc ho
  have hobs : res.observers = namesOf rd := by
    have hr' := hr
    unfold runAPWith runModeling at hr'
    unfold namesOf
    split at hr'
    · cases hr'
    · rename_i res1 hres1
      have hn : res1.observers = none := by
        unfold Ap.runModelingWith at hres1
        rw [hpre] at hres1
        simp only [hf] at hres1
        cases hres1
        rfl
      rcases hob with ⟨o, h, -⟩ | h <;> rw [h] at hr' <;> cases hr'
      · rw [h]
      · rw [h]; exact hn
  have hst := recStats_eq a.get (fun j i _ => Fl.fin (q j + b i)) hc (fun _ _ _ => Or.inr ⟨_, rfl⟩)
  have hlen : (bothPresent a.get fun j i _ => Fl.fin (q j + b i)).length = (votesIn a).length := by
    unfold bothPresent allCells votesIn
    rw [List.filterMap_flatMap, List.length_flatMap, List.length_flatMap]
    congr 1
    refine List.map_congr_left fun e _ => ?_
    rw [videoCells_eq, List.filterMap_flatMap]
    unfold present
    rw [List.filterMap_flatMap, List.length_flatMap, List.length_flatMap]
    congr 1
    refine List.map_congr_left fun s _ => ?_
    rw [List.filterMap_map, List.filterMap_map]
    have : ∀ l : List (Fin a.R), (l.filterMap ((fun c : Fin a.E × Fin a.S × Fin a.R => match a.get c.1 c.2.1 c.2.2, Fl.fin (q c.1 + b c.2.1) with
        | .fin x, .fin y => some (x, y)
        | _, _ => none) ∘ fun r => (e, s, r))).length = (l.filterMap (Fl.val? ∘ fun r => a.get e s r)).length := by
      intro l
      induction l with
      | nil => rfl
      | cons r l ih =>
        rw [List.filterMap_cons, List.filterMap_cons]
        simp only [Function.comp_apply] at ih ⊢
        rcases hc e s r with h | ⟨v, h⟩ <;> rw [h] <;> simp only [Fl.val?, List.length_cons, ih]
    exact this _
  rw [hlen, if_pos h2] at hst
  refine ⟨res, hr, ⟨_, report_ok hraw hrec hst⟩, ?_, hobs⟩
  have hn := namesOf_length hob
  rw [← hobs] at hn
  rw [hres] at hn ⊢
  exact
    { scores := by simp [postprocessScores, Flag.isFalse]
      std := by rintro l h; cases h; simp
      ci := by rintro l h; cases h; simp
      bias := by rintro l h; cases h; simp
      biasStd := by rintro l h; cases h; simp
      inc := by rintro l h; cases h; simp
      incStd := by rintro l h; cases h; simp
      smean := by rintro l h; cases h; simp
      sstd := by rintro l h; cases h; simp
      raw := by rintro x v sd h h' h''; cases h; rfl
      content := rfl
      named := hn }

end

/-! ### the whole program -/

theorem py_ne_json {l l' : List Char} : l ++ ".py".toList ≠ l' ++ ".json".toList := by
  intro h
  have := congrArg (fun x : List Char => x.reverse.head?) h
  simp at this

theorem loads_read {path : List Char} {readPy readJson : Py (Dataset κ ℝ)} {d : Dataset κ ℝ} (h : Loads path readPy readJson d) :
    (if ['.', 'p', 'y'].isSuffixOf path then readPy
      else if ['.', 'j', 's', 'o', 'n'].isSuffixOf path then readJson else .error .assertion) = .ok d ∧
    (if ['.', 'p', 'y'].isSuffixOf path then readPy else readJson) = .ok d := by
  rcases h with ⟨⟨l, rfl⟩, h⟩ | ⟨⟨l, rfl⟩, h⟩
  · have : ['.', 'p', 'y'].isSuffixOf (l ++ ".py".toList) = true := List.isSuffixOf_iff_suffix.mpr ⟨l, rfl⟩
    rw [if_pos this, if_pos this]
    exact ⟨h, h⟩
  · have h1 : ¬ ['.', 'p', 'y'].isSuffixOf (l ++ ".json".toList) = true := by
      intro hs
      obtain ⟨l', hl'⟩ := List.isSuffixOf_iff_suffix.mp hs
      exact py_ne_json hl'
    have h2 : ['.', 'j', 's', 'o', 'n'].isSuffixOf (l ++ ".json".toList) = true := List.isSuffixOf_iff_suffix.mpr ⟨l, rfl⟩
    rw [if_neg h1, if_pos h2, if_neg h1]
    exact ⟨h, h⟩

variable (ppf : Fl ℝ → ℕ → Fl ℝ) (other : ModelClass → Reader κ ℝ → Py (Result κ ℝ))
  (pc : List ModelClass → Py (Output (String ⊕ κ) (Fl ℝ)))

/-- the program for models of raw scores -/
theorem main_raw {path : List Char} {readPy readJson : Py (Dataset κ ℝ)} {models : List String} {cs : List ModelClass}
    (h1 : List.Forall₂ (fun t c => c.ownType = some t) models cs) (hne : cs ≠ []) (h2 : ∀ c ∈ cs, Usable c) :
    main ppf other pc path readPy readJson models = runAll ppf other path readPy readJson cs := by
  unfold main
  rw [findAll_types h1 fun c hc => (h2 c hc).2]
  dsimp only
  rw [((C78_reader (inMro .SubjectiveModel) (inMro .PairedCompSubjectiveModel) cs (fun c _ => inMro_subj c)).1).mpr ⟨hne, fun c hc => (h2 c hc).1⟩]

theorem types_eq {models : List String} {cs : List ModelClass} (h : List.Forall₂ (fun t c => c.ownType = some t) models cs) :
    (cs.map fun c => (ModelClass.hierarchy.type c).getD "") = models := by
  induction h with
  | nil => rfl
  | cons h _ ih =>
    rw [List.map_cons, ih]
    congr 1
    show (ModelClass.ownType _).getD "" = _
    rw [h]
    rfl

/-- the runs and the reports, given what each class does -/
theorem runAll_good {path : List Char} {readPy readJson : Py (Dataset κ ℝ)} {d : Dataset κ ℝ} {rd : Reader κ ℝ} {n S : ℕ} {cs : List ModelClass}
    (hl : Loads path readPy readJson d) (hrd : rawReader d = .ok rd) (hg : ∀ c ∈ cs, ∃ r, Good other rd n S c r) :
    ∃ reports, List.Forall₂ (fun c rep => Good other rd n S c rep.result ∧ rep.disVideoNames = rd.disVideos.map (·.path)) cs reports ∧
      runAll ppf other path readPy readJson cs =
        format observerName (refsOf d) (cs.map fun c => (ModelClass.hierarchy.type c).getD "") (reports.map (resOf ppf)) := by
  obtain ⟨l1, l2⟩ := loads_read hl
  have key : ∃ rs reports, mapPy (fun m => m rd) (cs.map (runClass other)) = .ok rs ∧ mapPy (report rd) rs = .ok reports ∧
      List.Forall₂ (fun c rep => Good other rd n S c rep.result ∧ rep.disVideoNames = rd.disVideos.map (·.path)) cs reports := by
    clear l1 l2 hl
    induction cs with
    | nil => exact ⟨[], [], rfl, rfl, .nil⟩
    | cons c cs ih =>
      obtain ⟨rs, reports, h1, h2, h3⟩ := ih fun c hc => hg c (List.mem_cons_of_mem _ hc)
      obtain ⟨r, h4⟩ := hg c (by simp)
      obtain ⟨st, h5⟩ := h4.2.1
      refine ⟨r :: rs, ⟨r, rd.disVideos.map (·.path), st⟩ :: reports, ?_, ?_, .cons ⟨h4, rfl⟩ h3⟩
      · rw [List.map_cons, mapPy, h4.1, h1]
      · rw [mapPy, h5, h2]
  obtain ⟨rs, reports, h1, h2, h3⟩ := key
  refine ⟨reports, h3, ?_⟩
  unfold runAll run
  dsimp only
  rw [l1]
  dsimp only
  rw [hrd]
  dsimp only
  rw [h1]
  dsimp only
  rw [h2]
  dsimp only
  rw [l2]

/-- good results can be put together -/
theorem format_good {d : Dataset κ ℝ} {rd : Reader κ ℝ} {S : ℕ} {cs : List ModelClass} {reports : List (Report κ ℝ)}
    (hg : List.Forall₂ (fun c rep => Good other rd rd.disVideos.length S c rep.result ∧ rep.disVideoNames = rd.disVideos.map (·.path)) cs reports) :
    ∃ out, format observerName (refsOf d) (cs.map fun c => (ModelClass.hierarchy.type c).getD "") (reports.map (resOf ppf)) = .ok out := by
  have hall : ∀ rep ∈ reports, (Fits rd.disVideos.length S rep.result ∧ rep.result.observers = namesOf rd) ∧
      rep.disVideoNames = rd.disVideos.map (·.path) := by
    intro rep hm
    obtain ⟨k, hk, rfl⟩ := List.getElem_of_mem hm
    have hk' : k < cs.length := by rw [hg.length_eq]; exact hk
    have := hg.get hk' hk
    simp only [List.get_eq_getElem] at this
    exact ⟨⟨this.1.2.2.1, this.1.2.2.2⟩, this.2⟩
  rw [C69_errors]
  refine ⟨by simp [hg.length_eq], ?_, ?_, ?_, ?_⟩
  · intro r hr
    obtain ⟨rep, hm, rfl⟩ := List.mem_map.mp hr
    obtain ⟨⟨h1, -⟩, h2⟩ := hall rep hm
    obtain ⟨res, names, st⟩ := rep
    exact wellSized ppf h1 (by dsimp only at h2; rw [h2, List.length_map]) st _
  · intro l hl l' hl' i x x' hx hx'
    obtain ⟨r, hr, rfl⟩ := List.mem_map.mp hl
    obtain ⟨rep, hm, rfl⟩ := List.mem_map.mp hr
    obtain ⟨r', hr', rfl⟩ := List.mem_map.mp hl'
    obtain ⟨rep', hm', rfl⟩ := List.mem_map.mp hr'
    have h1 : videoNames (resOf ppf rep) = videoNames (resOf ppf rep') := by
      show rep.disVideoNames.map Sum.inl = rep'.disVideoNames.map Sum.inl
      rw [(hall rep hm).2, (hall rep' hm').2]
    rw [h1, hx'] at hx
    exact (Option.some.inj hx).symm
  · have key : ∀ rep ∈ reports, observerNames observerName (resOf ppf rep) = [] ∨
        observerNames observerName (resOf ppf rep) = (match namesOf rd with
          | some obs => obs.map (Sum.inr : κ → String ⊕ κ)
          | none => (List.range S).map observerName) := by
      intro rep hm
      obtain ⟨⟨h1, h2⟩, -⟩ := hall rep hm
      unfold observerNames
      have hd : (resOf ppf rep).data "observer_bias" = rep.result.observerBias.map Val.seq := rfl
      have ho : (resOf ppf rep).observers = rep.result.observers.map (·.map Sum.inr) := rfl
      rw [hd, ho, h2]
      cases hb : rep.result.observerBias with
      | none => left; rfl
      | some b =>
        right
        cases hn : namesOf rd with
        | some obs => rfl
        | none =>
          show (List.range (sizeOf' (Val.seq b))).map observerName = _
          rw [show sizeOf' (Val.seq b) = b.length from rfl, h1.bias b hb]
    intro l hl l' hl' i x x' hx hx'
    obtain ⟨r, hr, rfl⟩ := List.mem_map.mp hl
    obtain ⟨rep, hm, rfl⟩ := List.mem_map.mp hr
    obtain ⟨r', hr', rfl⟩ := List.mem_map.mp hl'
    obtain ⟨rep', hm', rfl⟩ := List.mem_map.mp hr'
    rcases key rep hm with h | h
    · rw [h] at hx; simp at hx
    · rcases key rep' hm' with h' | h'
      · rw [h'] at hx'; simp at hx'
      · rw [h] at hx
        rw [h', hx] at hx'
        exact Option.some.inj hx'
  · have key : ∀ rep ∈ reports, contentNames (refsOf d) (resOf ppf rep) = [] := by
      intro rep hm
      unfold contentNames
      have hd : (resOf ppf rep).data "content_ambiguity" = rep.result.contentAmbiguity.map Val.seq := rfl
      rw [hd, (hall rep hm).1.1.content]
      rfl
    intro l hl l' hl' i x x' hx hx'
    obtain ⟨r, hr, rfl⟩ := List.mem_map.mp hl
    obtain ⟨rep, hm, rfl⟩ := List.mem_map.mp hr
    rw [key rep hm] at hx
    simp at hx

/-! ### votes of the observers in the dataset and in the array -/

theorem present_ofFn_getD (l : List (Fl ℝ)) (R : ℕ) (h : l.length ≤ R) :
    (present (List.ofFn fun r : Fin R => (l[r.val]?).getD .nan)).length = (present l).length :=
  (present_congr_dropNan (by rw [dropNan_ofFn_getD l R h])).length_eq

/-- the cells of an observer of the array are the votes of an observer of the dataset -/
def CellsOf (d : Dataset κ ℝ) (a : Arr3D (Fl ℝ)) (s : Fin a.S) (w : κ ⊕ ℕ) : Prop :=
  ∀ (e : Fin a.E) (dv : DisVideo κ ℝ), d.disVideos[e.val]? = some dv → (votesBy dv w).length ≤ a.R ∧
    ∀ r : Fin a.R, a.get e s r = ((votesBy dv w)[r.val]?).getD .nan

theorem cells_of {d : Dataset κ ℝ} (h : Readable d) {rd : Reader κ ℝ} {a : Arr3D (Fl ℝ)}
    (hrd : rawReader d = .ok rd) (ha : rd.scores = .ok a) : a.E = d.disVideos.length ∧ a.R = maxReps d.disVideos ∧
      (∀ s, ∃ w, IsObserver d w ∧ CellsOf d a s w) ∧ ∀ w, IsObserver d w → ∃ s, CellsOf d a s w := by
  have hass := (C01_accepts_iff_wellFormed d).mpr h.wf
  obtain ⟨-, rfl⟩ := Mock.rawReader_inv hrd
  change opinionScores d.disVideos = .ok a at ha
  rcases h.style with hs | hd
  · obtain ⟨a', ha', hE, hS, hR, hcell⟩ := (C03_seq_cells d hass hs).1 h.single
    rw [ha] at ha'
    cases ha'
    obtain ⟨d0, h0⟩ := List.exists_mem_of_ne_nil _ h.wf.diss
    have key : ∀ s : Fin a.S, CellsOf d a s (.inr s.val) := by
      intro s
      have hlen : ∀ dv ∈ d.disVideos, s.val < (entries dv).length := fun dv hdv => by rw [← hS dv hdv]; exact s.isLt
      intro e dv hdv
      have hmem : dv ∈ d.disVideos := List.mem_of_getElem? hdv
      obtain ⟨t, l, hos⟩ := hs dv hmem
      have hent : entries dv = l := by unfold entries; rw [hos]
      have hsl : s.val < l.length := by rw [← hent]; exact hlen dv hmem
      have hv : votesBy dv (.inr s.val) = votesOf l[s.val] := by
        unfold votesBy
        simp only [hos, List.getElem?_eq_getElem hsl, Option.map_some, Option.getD_some]
      rw [hv]
      refine ⟨?_, ?_⟩
      · rw [hR]
        exact le_maxReps hmem (by rw [hent]; exact List.getElem_mem hsl)
      · intro r
        rw [hcell e s r dv hdv]
        unfold seqVote?
        rw [hent, List.getElem?_eq_getElem hsl]
    refine ⟨hE, hR, fun s => ⟨.inr s.val, ⟨d0, h0, hs d0 h0, by rw [← hS d0 h0]; exact s.isLt⟩, key s⟩, ?_⟩
    rintro (o | s) hw
    · obtain ⟨dv, hdv, hr⟩ := hw
      obtain ⟨t, l, hos⟩ := hs dv hdv
      unfold raters at hr
      rw [hos] at hr
      cases hr
    · obtain ⟨dv, hdv, -, hlt⟩ := hw
      exact ⟨⟨s, by rw [hS dv hdv]; exact hlt⟩, key _⟩
  · obtain ⟨obs, a', ho, ha', hE, hS, hR, hcell⟩ := (C04_dict_cells d hass hd).1 h.single
    rw [ha] at ha'
    cases ha'
    obtain ⟨obs', ho', -, hmemobs⟩ := (C05_observers d.disVideos hd).1
    rw [ho] at ho'
    cases ho'
    have key : ∀ s : Fin a.S, ∀ hso : s.val < obs.length, CellsOf d a s (.inl obs[s.val]) := by
      intro s hso
      intro e dv hdv
      have hmem : dv ∈ d.disVideos := List.mem_of_getElem? hdv
      obtain ⟨dd, hos, hnd⟩ := hd dv hmem
      have hent : entries dv = dd.map Prod.snd := by unfold entries; rw [hos]
      have hlk : ∀ v, dd.lookup obs[s.val] = some v ↔ (obs[s.val], v) ∈ dd := fun v => lookup_eq_some_iff hnd
      have hvb : votesBy dv (.inl obs[s.val]) = ((dd.lookup obs[s.val]).map votesOf).getD [] := by
        unfold votesBy
        simp only [hos]
      rw [hvb]
      cases hl : dd.lookup obs[s.val] with
      | none =>
        refine ⟨by simp, fun r => ?_⟩
        rw [(hcell e s r dv _ hdv (List.getElem?_eq_getElem hso)).2]
        · simp
        · rintro ⟨x, d', v, hos', hv, -⟩
          rw [hos] at hos'
          cases hos'
          have := (hlk v).mpr hv
          rw [hl] at this
          cases this
      | some v =>
        have hv := (hlk v).mp hl
        simp only [Option.map_some, Option.getD_some]
        refine ⟨?_, fun r => ?_⟩
        · rw [hR]
          exact le_maxReps hmem (by rw [hent]; exact List.mem_map.mpr ⟨_, hv, rfl⟩)
        · cases hx : (votesOf v)[r.val]? with
          | some x =>
            exact (hcell e s r dv _ hdv (List.getElem?_eq_getElem hso)).1 x ⟨dd, v, hos, hv, hx⟩
          | none =>
            refine (hcell e s r dv _ hdv (List.getElem?_eq_getElem hso)).2 ?_
            rintro ⟨x, d', v', hos', hv', hx'⟩
            rw [hos] at hos'
            cases hos'
            have := (hlk v').mpr hv'
            rw [hl] at this
            cases this
            rw [hx] at hx'
            cases hx'
    refine ⟨hE, hR, fun s => ?_, ?_⟩
    · have hso : s.val < obs.length := by rw [← hS]; exact s.isLt
      exact ⟨.inl obs[s.val], (hmemobs _).mp (List.getElem_mem hso), key s hso⟩
    · rintro (o | s) hw
      · obtain ⟨k, hk, hok⟩ := List.getElem_of_mem ((hmemobs o).mpr hw)
        have hkS : k < a.S := by rw [hS]; exact hk
        rw [← hok]
        exact ⟨⟨k, hkS⟩, key ⟨k, hkS⟩ hk⟩
      · obtain ⟨dv, hdv, ⟨t, l, hos⟩, -⟩ := hw
        obtain ⟨dd, hos', -⟩ := hd dv hdv
        rw [hos] at hos'
        cases hos'

theorem each_voted {d : Dataset κ ℝ} (h : Readable d) {n : ℕ} (hn : EachVoted n d) {rd : Reader κ ℝ} {a : Arr3D (Fl ℝ)}
    (hrd : rawReader d = .ok rd) (ha : rd.scores = .ok a) (s : Fin a.S) : n ≤ (present (observerCells a.get s)).length := by
  obtain ⟨hE, -, hof, -⟩ := cells_of h hrd ha
  obtain ⟨w, hw, hcell⟩ := hof s
  refine (hn w hw).trans (le_of_eq ?_)
  rw [observerVotes_length]
  have hl : (d.disVideos.map fun dv => (present (votesBy dv w)).length) =
      List.ofFn fun e : Fin a.E => ∑ r, one? (a.get e s r) := by
    apply List.ext_getElem
    · simp [hE]
    · intro i h1 h2
      rw [List.length_map] at h1
      have hdv := List.getElem?_eq_getElem h1
      rw [List.getElem_map, List.getElem_ofFn]
      obtain ⟨h3, h4⟩ := hcell ⟨i, by rw [hE]; exact h1⟩ _ hdv
      rw [← present_ofFn_getD _ _ h3, present_length, List.map_ofFn, List.sum_ofFn]
      exact Finset.sum_congr rfl fun r _ => by rw [h4 r]; rfl
  rw [hl, List.sum_ofFn]

end Sureal.Main
