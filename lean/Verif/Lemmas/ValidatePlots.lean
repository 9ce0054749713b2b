import Verif.Spec.ValidatePlots
import Verif.Props.Validate
/-! # Lemmas on the validation plots -/
set_option linter.unusedSectionVars false
namespace Sureal.Props
open Spec Mock Routine
variable {κ K : Type} [LinearOrder κ] [Field K] [LinearOrder K] [IsStrictOrderedRing K] [MathFn K]

/-- the panels whose longer list is cut off -/
def cuts : Panel → Bool
  | .quality => false
  | .qualityStd => false
  | _ => true

theorem panel_eq (strict : Bool) (o : PlotOpts) (truth : SynthKw K) (std : Option (List (Fl K))) (name : String) (fit : Fit κ K) (p : Panel) :
    panel strict o truth std name fit p = points strict o name (cuts p) (panelTruth truth std p) (panelEst fit p) (panelBars fit p) := by
  cases p <;> rfl

/-- what a drawn list of points is -/
structure IsPoints (strict : Bool) (o : PlotOpts) (name : String) (cut : Bool) (x y : List (Fl K)) (ci : Option (List (List (Fl K))))
    (q : Points K) : Prop where
  xs : q.xs = if cut then x.take (min x.length y.length) else x
  ys : q.ys = if cut then y.take (min x.length y.length) else y
  len : q.xs.length = q.ys.length
  rmse : Perf.rmse q.xs q.ys = .ok q.rmse
  bars : q.bars = if o.errorbar then ci else none
  cov : ∀ c, ci = some c → ∃ p, Ci.ciPercentage (some x) (some y) (some c) = .ok p ∧ q.perc = if o.errorbar then some p else none
  noCi : ci = none → q.perc = none
  bar : ∀ c, o.errorbar = true → ci = some c → errorbar strict q.ys c = .ok ()
  line : Routine.line q.xs = .ok q.line
  color : q.color = (o.colors.lookup name).getD "black"
  marker : q.marker = (o.markers.lookup name).getD "."

theorem evaluate_rmse (x y : List (Fl K)) : Perf.evaluate .rmse Np.mean none (x.map .num) y =
    if x.length = y.length then Perf.rmse x y else .error .assertion := by
  unfold Perf.evaluate Perf.assertArgs
  rw [List.length_map]
  split_ifs
  · dsimp only
    rw [List.map_map]
    have : (Perf.aggregate (Np.mean (K := K)) ∘ Perf.Truth.num) = id := rfl
    rw [this, List.map_id]
    rfl
  · rfl

theorem points_inv {strict : Bool} {o : PlotOpts} {name : String} {cut : Bool} {truth est : Option (List (Fl K))}
    {ci : Option (List (List (Fl K)))} {r : Option (Points K)} (h : points strict o name cut truth est ci = .ok r) :
    (r = none ∧ (truth = none ∨ est = none)) ∨
      ∃ x y q, truth = some x ∧ est = some y ∧ r = some q ∧ IsPoints strict o name cut x y ci q := by
  unfold points at h
  split at h
  · rename_i y x
    right
    split at h
    · cases h
    · rename_i perc hperc
      dsimp only at h
      split at h
      · cases h
      · rename_i rm hrm
        rw [evaluate_rmse] at hrm
        split at h
        · cases h
        · rename_i hbar
          split at h
          · cases h
          · rename_i l hl
            cases h
            by_cases hlen : (if cut then x.take (min x.length y.length) else x).length = (if cut then y.take (min x.length y.length) else y).length
            swap
            · rw [if_neg hlen] at hrm; cases hrm
            rw [if_pos hlen] at hrm
            refine ⟨x, y, _, rfl, rfl, rfl, rfl, rfl, hlen, hrm, rfl, ?_, ?_, ?_, hl, rfl, rfl⟩
            · rintro c rfl
              dsimp only at hperc
              split at hperc
              · cases hperc
              · rename_i p hp
                cases hperc
                exact ⟨p, hp, rfl⟩
            · rintro rfl
              cases hperc
              simp
            · rintro c he rfl
              rw [if_pos he] at hbar
              exact hbar
  · rename_i hn
    cases h
    left
    refine ⟨rfl, ?_⟩
    cases est with
    | none => exact .inr rfl
    | some y =>
      cases truth with
      | none => exact .inl rfl
      | some x => exact absurd rfl (hn y x rfl)

theorem panels_mem {strict : Bool} {o : PlotOpts} {truth : SynthKw K} {std : Option (List (Fl K))} {name : String} {fit : Fit κ K}
    {ps : List Panel} {d : Drawn K} (h : panels strict o truth std name fit ps = .ok d) :
    (d.map fun t => (t.1, t.2.1)) = (ps.filter fun p => p ∈ o.axes ∧ (panelTruth truth std p).isSome ∧ (panelEst fit p).isSome).map (fun p => (name, p)) ∧
    ∀ t ∈ d, t.2.1 ∈ o.axes ∧ ∃ x y, panelTruth truth std t.2.1 = some x ∧ panelEst fit t.2.1 = some y ∧
      IsPoints strict o name (cuts t.2.1) x y (panelBars fit t.2.1) t.2.2 := by
  induction ps generalizing d with
  | nil => cases h; simp
  | cons p ps ih =>
    unfold panels at h
    split at h
    · rename_i hax
      rw [panel_eq] at h
      split at h
      · cases h
      · rename_i q hq
        split at h
        · cases h
        · rename_i d' hd'
          cases h
          obtain ⟨h1, h2⟩ := ih hd'
          rcases points_inv hq with ⟨rfl, hno⟩ | ⟨x, y, q, ht, he, rfl, hp⟩
          · refine ⟨?_, by simpa using h2⟩
            simp only [Option.toList_none, List.map_nil, List.nil_append]
            rw [h1, List.filter_cons_of_neg]
            rcases hno with h | h <;> simp [h]
          · refine ⟨?_, ?_⟩
            · rw [List.map_append, h1, List.filter_cons_of_pos (by simp [hax, ht, he])]
              rfl
            · intro t htm
              rcases List.mem_append.mp htm with htm | htm
              · simp only [Option.toList_some, List.map_cons, List.map_nil, List.mem_singleton] at htm
                subst htm
                exact ⟨hax, x, y, ht, he, hp⟩
              · exact h2 t htm
    · rename_i hax
      obtain ⟨h1, h2⟩ := ih h
      refine ⟨?_, h2⟩
      rw [h1, List.filter_cons_of_neg (by simp [hax])]

/-- the panels in the order of the code -/
def order : List Panel := [.quality, .qualityStd, .bias, .inconsistency, .ambiguity]

theorem checkDraw_inv {strict : Bool} {o : PlotOpts} {truth : SynthKw K} {std : Option (List (Fl K))} {fits : List (String × Fit κ K)}
    {acc out : List (String × Checked κ K)} {d : Drawn K} (h : checkDraw strict o truth std fits acc = .ok (out, d)) :
    checkAll truth fits acc = .ok out ∧
    (d.map fun t => (t.1, t.2.1)) = fits.flatMap (fun f =>
      (order.filter fun p => p ∈ o.axes ∧ (panelTruth truth std p).isSome ∧ (panelEst f.2 p).isSome).map (fun p => (f.1, p))) ∧
    ∀ t ∈ d, t.2.1 ∈ o.axes ∧ ∃ f ∈ fits, f.1 = t.1 ∧ ∃ x y, panelTruth truth std t.2.1 = some x ∧ panelEst f.2 t.2.1 = some y ∧
      IsPoints strict o t.1 (cuts t.2.1) x y (panelBars f.2 t.2.1) t.2.2 := by
  induction fits generalizing acc d with
  | nil => cases h; exact ⟨rfl, rfl, by simp⟩
  | cons f fits ih =>
    obtain ⟨ty, fit⟩ := f
    unfold checkDraw at h
    split at h
    · cases h
    · rename_i acc' hacc
      split at h
      · cases h
      · rename_i d1 hd1
        split at h
        · cases h
        · rename_i out' ds hds
          cases h
          obtain ⟨h1, h2, h3⟩ := ih hds
          obtain ⟨g1, g2⟩ := panels_mem hd1
          refine ⟨?_, ?_, ?_⟩
          · unfold checkAll
            rw [hacc]
            exact h1
          · rw [List.map_append, h2, g1, List.flatMap_cons]
            rfl
          · intro t ht
            rcases List.mem_append.mp ht with ht | ht
            · obtain ⟨k1, x, y, k2, k3, k4⟩ := g2 t ht
              have hname : ty = t.1 := by
                have : (t.1, t.2.1) ∈ d1.map fun t => (t.1, t.2.1) := List.mem_map_of_mem ht
                rw [g1, List.mem_map] at this
                obtain ⟨p, -, hp⟩ := this
                exact congrArg Prod.fst hp
              subst hname
              exact ⟨k1, _, List.mem_cons_self, rfl, x, y, k2, k3, k4⟩
            · obtain ⟨k1, f, hf, k2⟩ := h3 t ht
              exact ⟨k1, f, List.mem_cons_of_mem _ hf, k2⟩

theorem checkDraw_none {strict : Bool} {o : PlotOpts} (ho : o.axes = []) (truth : SynthKw K) (std : Option (List (Fl K)))
    (fits : List (String × Fit κ K)) (acc : List (String × Checked κ K)) :
    checkDraw strict o truth std fits acc = match checkAll truth fits acc with
      | .error e => .error e
      | .ok out => .ok (out, []) := by
  induction fits generalizing acc with
  | nil => rfl
  | cons f fits ih =>
    obtain ⟨ty, fit⟩ := f
    unfold checkDraw checkAll
    cases checkOne truth acc ty fit with
    | error e => rfl
    | ok acc' =>
      have hp : panels strict o truth std ty fit [.quality, .qualityStd, .bias, .inconsistency, .ambiguity] = .ok [] := by
        simp [panels, ho]
      rw [hp]
      dsimp only
      rw [ih]
      cases checkAll truth fits acc' <;> rfl

theorem checkDraw_fwd {strict : Bool} {o : PlotOpts} {truth : SynthKw K} {std : Option (List (Fl K))} {fits : List (String × Fit κ K)}
    {acc out : List (String × Checked κ K)} (h : checkAll truth fits acc = .ok out)
    (hp : ∀ f ∈ fits, ∀ p ∈ o.axes, ∃ q, panel strict o truth std f.1 f.2 p = .ok q) :
    ∃ d, checkDraw strict o truth std fits acc = .ok (out, d) := by
  induction fits generalizing acc with
  | nil => cases h; exact ⟨[], rfl⟩
  | cons f fits ih =>
    obtain ⟨ty, fit⟩ := f
    unfold checkAll at h
    split at h
    · cases h
    · rename_i acc' hacc
      have key : ∀ ps, ∃ d, panels strict o truth std ty fit ps = .ok d := by
        intro ps
        induction ps with
        | nil => exact ⟨[], rfl⟩
        | cons p ps ihp =>
          obtain ⟨d, hd⟩ := ihp
          unfold panels
          split_ifs with hax
          · obtain ⟨q, hq⟩ := hp _ List.mem_cons_self p hax
            rw [hq, hd]
            exact ⟨_, rfl⟩
          · exact ⟨d, hd⟩
      obtain ⟨d, hd⟩ := key [.quality, .qualityStd, .bias, .inconsistency, .ambiguity]
      obtain ⟨ds, hds⟩ := ih h fun f hf => hp f (List.mem_cons_of_mem _ hf)
      refine ⟨d ++ ds, ?_⟩
      unfold checkDraw
      rw [hacc]
      dsimp only
      rw [hd]
      dsimp only
      rw [hds]

theorem validateDraw_inv {strict : Bool} {o : PlotOpts} {cls : SynthClass} {w : Rand K} {seed : Option (Option Int)}
    {models : List (String × Modelled κ K)} {dataset : Py (Dataset κ K)} {truth : SynthKw K} {std : Option (List (Fl K))}
    {missing : Option (Fl K)} {write : Bool} {out : Validation κ K} {d : Drawn K}
    (h : validateDraw strict o cls w seed models dataset truth std missing write = .ok (out, d)) :
    validate cls w seed models dataset truth missing write = .ok out ∧
    ∃ fits, checkDraw strict o truth std fits (fits.foldl (fun acc p => setKey p.1 ({ fit := p.2 } : Checked κ K) acc) []) = .ok (out.results, d) ∧
      fits.map (·.1) = models.map (·.1) ∧
      ((models.map (·.1)).Nodup → ∀ ty fit, (ty, fit) ∈ fits → ∃ c, out.results.lookup ty = some c ∧ c.fit = fit) := by
  have hv : validate cls w seed models dataset truth missing write = .ok out ∧
    ∃ ds fits, dataset = .ok ds ∧ fitAll (readerAt cls w seed ds truth missing) (if write then 1 else 0) models = .ok fits ∧
      checkDraw strict o truth std fits (fits.foldl (fun acc p => setKey p.1 ({ fit := p.2 } : Checked κ K) acc) []) = .ok (out.results, d) := by
    unfold validateDraw at h
    split at h
    · rename_i hm
      split at h
      · cases h
      · rename_i ds
        split at h
        · cases h
        · rename_i rd0 hrd0
          split at h
          · cases h
          · rename_i written hw
            split at h
            · cases h
            · rename_i fits hfits
              split at h
              · cases h
              · rename_i results drawn hres
                cases h
                refine ⟨?_, ds, fits, rfl, hfits, hres⟩
                unfold validate
                rw [if_pos hm]
                dsimp only
                rw [hrd0]
                dsimp only
                rw [hw]
                dsimp only
                rw [hfits]
                dsimp only
                rw [(checkDraw_inv hres).1]
    · cases h
  obtain ⟨hv, ds, fits, h1, h2, h3⟩ := hv
  refine ⟨hv, fits, h3, (fitAll_spec h2).1, ?_⟩
  obtain ⟨ds', fits', e1, e4, h5, -, h7⟩ := C98_results hv
  intro hnd ty fit hm
  have hx : fits' = fits := by
    cases h1
    cases e1
    have hl := (fitAll_spec h2).1
    refine List.ext_getElem? fun j => ?_
    cases hj : models[j]? with
    | none =>
      have : models.length ≤ j := List.getElem?_eq_none_iff.mp hj
      rw [List.getElem?_eq_none, List.getElem?_eq_none]
      · have := congrArg List.length hl; simp at this; omega
      · have := congrArg List.length e4; simp at this; omega
    | some m =>
      obtain ⟨ty, m⟩ := m
      obtain ⟨f1, g1, g2⟩ := h5 j ty m hj
      obtain ⟨f2, k1, k2⟩ := (fitAll_spec h2).2 j ty m hj
      rw [g1, k2]
      rw [g2] at k1
      cases k1
      rfl
  subst hx
  obtain ⟨c, c1, c2, -⟩ := h7 hnd ty fit hm
  exact ⟨c, c1, c2⟩

theorem validateDraw_of {strict : Bool} {o : PlotOpts} {cls : SynthClass} {w : Rand K} {seed : Option (Option Int)}
    {models : List (String × Modelled κ K)} {dataset : Py (Dataset κ K)} {truth : SynthKw K} {std : Option (List (Fl K))}
    {missing : Option (Fl K)} {write : Bool} :
    (∀ out, validate cls w seed models dataset truth missing write = .ok out →
      ∃ fits : List (String × Fit κ K), fits.map (·.1) = models.map (·.1) ∧
      checkAll truth fits (fits.foldl (fun acc p => setKey p.1 ({ fit := p.2 } : Checked κ K) acc) []) = .ok out.results ∧
      ∀ d, checkDraw strict o truth std fits (fits.foldl (fun acc p => setKey p.1 ({ fit := p.2 } : Checked κ K) acc) []) = .ok (out.results, d) →
        validateDraw strict o cls w seed models dataset truth std missing write = .ok (out, d)) := by
  intro out h
  unfold validate at h
  unfold validateDraw
  split at h
  · rename_i hm
    rw [if_pos hm]
    split at h
    · cases h
    · rename_i ds
      dsimp only
      split at h
      · cases h
      · rename_i rd0 hrd0
        split at h
        · cases h
        · rename_i written hw
          split at h
          · cases h
          · rename_i fits hfits
            split at h
            · cases h
            · rename_i results hres
              cases h
              refine ⟨fits, (fitAll_spec hfits).1, hres, ?_⟩
              intro d hd
              rw [hrd0]
              dsimp only
              rw [hw]
              dsimp only
              rw [hfits]
              dsimp only at hd ⊢
              rw [hd]
  · cases h

end Sureal.Props
