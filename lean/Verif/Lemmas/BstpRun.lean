import Verif.Lemmas.BstpCi
import Verif.Lemmas.Mock
import Verif.Props.Mock
/-! Runs of the bootstrapping models. -/
set_option linter.unusedSectionVars false
namespace Sureal.Bstp
open Spec Mock
variable {κ K : Type} [LinearOrder κ] [Field K] [LinearOrder K] [IsStrictOrderedRing K] [MathFn K]

theorem run_inv {mode : Mle.Mode} {choice : ℕ → ℕ → List Int} {d : Dataset κ K} {o : Mle.Opts K} {kw : Kw} {out : Out κ K}
    (h : run mode choice d o kw = .ok out) :
    ∃ rd r0 nSubj ci cis r res, rawReader d = .ok rd ∧ Mle.runModelingWith mode rd (unforced o) = .ok r0 ∧
      numObservers rd.disVideos = .ok nSubj ∧ 0 < kw.nBootstrap.getD 30 ∧
      subjectsCi mode d (unforced o) choice r0 (kw.bootstrapSubjects.getD true) nSubj (kw.nBootstrap.getD 30).toNat = .ok ci ∧
      videosCi mode d (unforced o) choice r0 (kw.boostrapDisVideos.getD true) rd.disVideos.length (kw.nBootstrap.getD 30).toNat =
        .ok cis ∧
      recentre (Ap.forced o.base) { r0 with qualityScoresCi95 := ci } = .ok r ∧
      runModeling (fun _ _ => .ok r) rd o.base = .ok res ∧ out = ⟨res, cis.1, cis.2⟩ := by
  unfold run at h
  cases hrd : rawReader d with
  | error e => rw [hrd] at h; cases h
  | ok rd =>
    rw [hrd] at h
    dsimp only at h
    cases hrm : runModelingWith mode choice d rd o kw with
    | error e => rw [hrm] at h; cases h
    | ok out0 =>
      rw [hrm] at h
      dsimp only at h
      cases hfin : runModeling (fun _ _ => .ok out0.res) rd o.base with
      | error e => rw [hfin] at h; cases h
      | ok res =>
        rw [hfin] at h
        cases h
        unfold runModelingWith at hrm
        cases h0 : Mle.runModelingWith mode rd (unforced o) with
        | error e => rw [h0] at hrm; cases hrm
        | ok r0 =>
          rw [h0] at hrm
          dsimp only at hrm
          cases hn : numObservers rd.disVideos with
          | error e => rw [hn] at hrm; cases hrm
          | ok nSubj =>
            rw [hn] at hrm
            dsimp only at hrm
            split at hrm
            case isFalse => cases hrm
            rename_i hpos
            cases hs : subjectsCi mode d (unforced o) choice r0 (kw.bootstrapSubjects.getD true) nSubj (kw.nBootstrap.getD 30).toNat with
            | error e => rw [hs] at hrm; cases hrm
            | ok ci =>
              rw [hs] at hrm
              dsimp only at hrm
              cases hv : videosCi mode d (unforced o) choice r0 (kw.boostrapDisVideos.getD true) rd.disVideos.length
                  (kw.nBootstrap.getD 30).toNat with
              | error e => rw [hv] at hrm; cases hrm
              | ok cis =>
                rw [hv] at hrm
                dsimp only at hrm
                cases hr : recentre (Ap.forced o.base) { r0 with qualityScoresCi95 := ci } with
                | error e => rw [hr] at hrm; cases hrm
                | ok r =>
                  rw [hr] at hrm
                  cases hrm
                  exact ⟨rd, r0, nSubj, ci, cis, r, res, rfl, h0, hn, hpos, hs, hv, hr, hfin, rfl⟩

theorem runModeling_const {rd : Reader κ K} {o : Opts K} {r res : Result κ K} (hob : Mle.ObsOf rd r.observers)
    (h : runModeling (fun _ _ => .ok r) rd o = .ok res) : res = { r with qualityScores := postprocessScores o r.qualityScores } := by
  unfold runModeling at h
  dsimp only at h
  rcases hob with ⟨l, hl, hr⟩ | ⟨hl, hr⟩ <;> rw [hl] at h <;> cases h
  · rw [← hr]
  · rfl

theorem numObservers_S {dvs : List (DisVideo κ K)} {a : Arr3D (Fl K)} (h : opinionScores dvs = .ok a) :
    numObservers dvs = .ok a.S := by
  unfold opinionScores at h
  cases hn : numObservers dvs with
  | error e => rw [hn] at h; cases h
  | ok n =>
    rw [hn] at h
    dsimp only at h
    unfold numObservers at hn
    unfold opinionScoresWith at h
    cases dvs with
    | nil => cases hn
    | cons d0 rest =>
      dsimp only at hn h
      cases ho : d0.os with
      | none => rw [ho] at hn; cases hn
      | some os =>
        cases os with
        | seq t l =>
          rw [ho] at hn h
          cases hn
          dsimp only at h
          repeat' split at h
          all_goals first | (cases h; rfl) | cases h
        | dict dd =>
          rw [ho] at hn h
          dsimp only at h hn
          cases hl : listObservers (d0 :: rest) with
          | error e => rw [hl] at hn; cases hn
          | ok obs =>
            rw [hl] at hn h
            cases hn
            cases hm : mapPy osDict (d0 :: rest) with
            | error e => rw [hm] at h; cases h
            | ok ds =>
              rw [hm] at h
              dsimp only at h
              split at h <;> cases h
              rfl
        | other => rw [ho] at hn; cases hn

/-- the array of a resampled panel -/
theorem select_panel {d : Dataset κ K} {rd rd' : Reader κ K} {base : Arr3D (Fl K)} {sel : List Int} (hraw : rawReader d = .ok rd)
    (hbase : rd.scores = .ok base) (hsel : IsResample base.S sel) (h : selectSubjectReader d (some sel) = .ok rd') :
    rd'.dataset = d ∧ rd'.disVideos = d.disVideos ∧ ∃ arr, rd'.scores = .ok arr ∧ arr.E = base.E ∧ arr.S = sel.length ∧ arr.R = base.R ∧
      ∀ e k r (x : Int), sel[k]? = some x → cell arr e k r = cell base e x.toNat r := by
  obtain ⟨hass, rfl⟩ := Mock.rawReader_inv hraw
  replace hbase : opinionScores d.disVideos = .ok base := hbase
  have hn := numObservers_S hbase
  unfold selectSubjectReader at h
  rw [hraw] at h
  dsimp only at h
  rw [hn] at h
  dsimp only at h
  rw [if_pos ((subjectsOk_iff _ _).mpr hsel.2)] at h
  cases h
  refine ⟨rfl, rfl, ?_⟩
  have hlt : ∀ x ∈ sel.map Int.toNat, x < base.S := by
    intro x hx
    obtain ⟨y, hy, rfl⟩ := List.mem_map.mp hx
    have := hsel.2 y hy
    omega
  obtain ⟨b, hb, e1, e2, e3, hc⟩ := pickCols_ok base hlt
  refine ⟨b, ?_, e1, by simpa using e2, e3, ?_⟩
  · dsimp only
    unfold selectedScores
    have : opinionScoresWith d.disVideos sel.length = .ok base := by
      unfold opinionScores at hbase
      rw [hn] at hbase
      rw [hsel.1]; exact hbase
    rw [this]
    exact hb
  · intro e k r x hk
    exact hc e k r x.toNat (by simp [hk])

theorem mapPy_range {β : Type} {f : ℕ → Py β} {N : ℕ} {rows : List β} (b0 : β) (h : mapPy f (List.range N) = .ok rows) :
    ∃ g : ℕ → β, rows = (List.range N).map g ∧ ∀ i, i < N → f i = .ok (g i) := by
  have hl := mapPy_length h
  rw [List.length_range] at hl
  rw [mapPy_eq_ok_iff, List.forall₂_iff_get] at h
  refine ⟨fun i => (rows[i]?).getD b0, ?_, ?_⟩
  · apply List.ext_getElem
    · simp [hl]
    · intro i h1 h2
      simp [List.getElem?_eq_getElem h1]
  · intro i hi
    have := h.2 i (by simpa using hi) (by omega)
    simp only [List.get_eq_getElem, List.getElem_range] at this
    rw [this]
    dsimp only
    rw [List.getElem?_eq_getElem (by omega)]
    rfl

/-- the finite estimates behind finite reported estimates -/
theorem finite_parts {mode : Mle.Mode} {rd : Reader κ K} {o : Mle.Opts K} {r0 r : Result κ K} (hmode : mode ≠ .subjectOblivious)
    (h0 : Mle.runModelingWith mode rd (unforced o) = .ok r0) (h : Mle.runModelingWith mode rd o = .ok r) {β x : List K}
    (hne : β ≠ [] ∨ x ≠ [])
    (hβ : r.observerBias = some (β.map Fl.fin)) (hx : r.qualityScores = x.map Fl.fin) :
    ∃ (m : K) (β0 x0 : List K), r0.observerBias = some (β0.map Fl.fin) ∧ r0.qualityScores = x0.map Fl.fin ∧
      β = β0.map (· - m) ∧ x = x0.map (· + m) ∧ (Ap.forced o.base = true → Np.mean (β0.map Fl.fin) = .fin m) ∧
      (Ap.forced o.base = false → m = 0) := by
  obtain ⟨E, S, x0, b0, m, r', -, hq0, hb0, -, hm, hr', hf, ht⟩ := unforce hmode h0
  rw [h] at hr'
  cases hr'
  cases hfo : Ap.forced o.base with
  | false =>
    have := hf hfo
    subst this
    exact ⟨0, β, x, hβ, hx, by simp, by simp, by simp, fun _ => rfl⟩
  | true =>
    obtain ⟨⟨rc, ll, aic, bic, hr⟩, -⟩ := ht hfo
    rw [hr] at hβ hx
    dsimp only at hβ hx
    rw [Option.some.injEq] at hβ
    have hmf : ∃ y, m = .fin y := by
      rcases hne with hne | hne
      · obtain ⟨y, l, rfl⟩ := List.exists_cons_of_ne_nil hne
        have : Fl.fin y ∈ (List.ofFn fun s => b0 s - m) := by rw [hβ]; simp
        rw [List.mem_ofFn] at this
        obtain ⟨s, hs⟩ := this
        obtain ⟨_, w, -, hw, -⟩ := Fl.sub_eq_fin hs
        exact ⟨w, hw⟩
      · obtain ⟨y, l, rfl⟩ := List.exists_cons_of_ne_nil hne
        have : Fl.fin y ∈ (List.ofFn fun e => x0 e + m) := by rw [hx]; simp
        rw [List.mem_ofFn] at this
        obtain ⟨s, hs⟩ := this
        obtain ⟨_, w, -, hw, -⟩ := Fl.add_eq_fin hs
        exact ⟨w, hw⟩
    obtain ⟨y, hy⟩ := hmf
    have hb : ∀ s, ∃ z, b0 s = .fin z := by
      intro s
      have : b0 s - m ∈ β.map Fl.fin := by rw [← hβ, List.mem_ofFn]; exact ⟨s, rfl⟩
      obtain ⟨z, -, hz⟩ := List.mem_map.mp this
      obtain ⟨w, _, hw, -, -⟩ := Fl.sub_eq_fin hz.symm
      exact ⟨w, hw⟩
    have hxx : ∀ e, ∃ z, x0 e = .fin z := by
      intro e
      have : x0 e + m ∈ x.map Fl.fin := by rw [← hx, List.mem_ofFn]; exact ⟨e, rfl⟩
      obtain ⟨z, -, hz⟩ := List.mem_map.mp this
      obtain ⟨w, _, hw, -, -⟩ := Fl.add_eq_fin hz.symm
      exact ⟨w, hw⟩
    choose b1 hb1 using hb
    choose x1 hx1 using hxx
    have e1 : List.ofFn b0 = (List.ofFn b1).map Fl.fin := by
      rw [List.map_ofFn]; congr 1; funext s; exact hb1 s
    have e2 : List.ofFn x0 = (List.ofFn x1).map Fl.fin := by
      rw [List.map_ofFn]; congr 1; funext s; exact hx1 s
    have hinj : Function.Injective (List.map (Fl.fin : K → Fl K)) := List.map_injective_iff.mpr (fun a b h => by simpa using h)
    refine ⟨y, List.ofFn b1, List.ofFn x1, by rw [hb0, e1], by rw [hq0, e2], ?_, ?_, fun _ => by rw [← e1, ← hm, hy],
      fun h => absurd h (by simp)⟩
    · apply hinj
      rw [← hβ, List.map_map, List.map_ofFn]
      congr 1; funext s
      rw [hb1, hy]; rfl
    · apply hinj
      rw [← hx, List.map_map, List.map_ofFn]
      congr 1; funext s
      rw [hx1, hy]; rfl

/-- moving aligned estimates along with the reference -/
theorem aligned_shift {sel : List Int} {n : ℕ} (hsel : IsResample n sel) {ref0 own0 other0 : List K} {c m M : K}
    (hn : ref0.length = n) (hown : own0.length = sel.length)
    (h : (own0.map (· - c)).sum = (sel.map fun x => (ref0[x.toNat]?).getD 0).sum) :
    Aligned sel (ref0.map (· - M)) (own0.map (· - m)) (other0.map (· + m)) ((other0.map (· + c)).map (· + M)) := by
  have hs : ∀ (l : List K) (c : K), (l.map (· - c)).sum = l.sum - l.length * c := by
    intro l c
    induction l with
    | nil => simp
    | cons x l ih => simp only [List.map_cons, List.sum_cons, ih, List.length_cons]; push_cast; ring
  have hr : (sel.map fun x => ((ref0.map (· - M))[x.toNat]?).getD 0) =
      (sel.map fun x => (ref0[x.toNat]?).getD 0).map (· - M) := by
    rw [List.map_map]
    apply List.map_congr_left
    intro x hx
    have := hsel.2 x hx
    have hlt : x.toNat < ref0.length := by omega
    simp [List.getElem?_eq_getElem hlt]
  refine ⟨c + M - m, ?_, ?_⟩
  · rw [hr, hs, hs, hs, ← h, hs]
    simp only [List.length_map, hown]
    ring
  · rw [List.map_map, List.map_map]
    apply List.map_congr_left
    intro x _
    simp only [Function.comp]; ring

end Sureal.Bstp
