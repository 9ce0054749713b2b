import Verif.Lemmas.Ls
import Verif.Props.Ap
/-!
# C37: the least squares model
-/
set_option linter.unusedSectionVars false
namespace Sureal.Props
open Sureal Spec
variable {κ K : Type} [Field K] [LinearOrder K] [IsStrictOrderedRing K] [MathFn K]

/-- what a completed run of the MOS model says about the array after preprocessing -/
theorem runMOS_inv {rd : Reader κ K} {o : Opts K} {res : Result κ K} (h : runMOS rd o = .ok res) :
    ∃ p, preprocess rd o = .ok p ∧ res.rawScores = some p.arr ∧
      res.qualityScores = postprocessScores o (List.ofFn (meanAlongS p.arr.get)) ∧ ObserversHarmless rd := by
  unfold runMOS runModeling mosRunModeling at h
  cases hp : preprocess rd o with
  | error e => rw [hp] at h; cases h
  | ok p =>
    rw [hp] at h
    refine ⟨p, rfl, ?_⟩
    obtain ⟨pa, po, pb, pr⟩ := p
    cases pr <;>
    · dsimp only [Result.withRejection] at h
      cases hobs : rd.observers with
      | ok l =>
        rw [hobs] at h
        cases h
        exact ⟨rfl, rfl, Or.inl ⟨l, hobs⟩⟩
      | error e =>
        rw [hobs] at h
        cases e <;> dsimp only at h <;> cases h
        all_goals exact ⟨rfl, rfl, by unfold ObserversHarmless; rw [hobs]; simp⟩

/-- the least squares model on an array without repetitions -/
theorem ls_run (pinv : Pinv K) {rd : Reader κ K} {o : Opts K} {p : Prep K} (hp : preprocess rd o = .ok p)
    (ho : ObserversHarmless rd) (hrej : o.subjectRejection ≠ some (some true)) {E S : ℕ} {x : Arr2 (Fl K) E S} (hE : 0 < E)
    (hx : p.arr = ⟨E, S, 1, fun e s _ => x e s⟩) :
    ∃ res : Result κ K, runLS pinv rd o = .ok res ∧
      res.qualityScores = postprocessScores o (List.ofFn fun e : Fin E =>
        Ls.dot (pinv (Ls.design E S)) (Ls.target x (Np.nanmean (rowL x ⟨0, hE⟩))) (Fin.natAdd S e)) ∧
      res.observerBias = some (List.ofFn fun s : Fin S =>
        Ls.dot (pinv (Ls.design E S)) (Ls.target x (Np.nanmean (rowL x ⟨0, hE⟩))) (Fin.castAdd E s)) := by
  obtain ⟨pa, po, pb, pr⟩ := p
  dsimp only at hx
  subst hx
  have hrun : ∃ res0 : Result κ K, Ls.runModelingWith pinv rd o = .ok res0 ∧ res0.qualityScores = (List.ofFn fun e : Fin E =>
        Ls.dot (pinv (Ls.design E S)) (Ls.target x (Np.nanmean (rowL x ⟨0, hE⟩))) (Fin.natAdd S e)) ∧
      res0.observerBias = some (List.ofFn fun s : Fin S =>
        Ls.dot (pinv (Ls.design E S)) (Ls.target x (Np.nanmean (rowL x ⟨0, hE⟩))) (Fin.castAdd E s)) := by
    unfold Ls.runModelingWith
    rw [if_neg (by rw [isTrue_iff]; exact hrej), hp]
    dsimp only
    rw [dif_pos rfl]
    unfold Ls.solve
    rw [dif_pos hE]
    exact ⟨_, rfl, rfl, rfl⟩
  obtain ⟨res0, hrun, hq0, hb0⟩ := hrun
  unfold runLS runModeling
  rw [hrun, ← hq0, ← hb0]
  rcases ho with ⟨l, hl⟩ | hl | hl <;> rw [hl] <;> exact ⟨_, rfl, rfl, rfl⟩

/-- all votes, video by video -/
def allVotes {E S : ℕ} (x : Fin E → Fin S → K) : List K := (List.ofFn fun e => List.ofFn fun s => x e s).flatten

theorem sum_allVotes {E S : ℕ} (x : Fin E → Fin S → K) : (allVotes x).sum = ∑ e, ∑ s, x e s := by
  unfold allVotes
  rw [List.sum_flatten, List.map_ofFn, List.sum_ofFn]
  exact Finset.sum_congr rfl fun e _ => List.sum_ofFn

theorem length_allVotes {E S : ℕ} (x : Fin E → Fin S → K) : (allVotes x).length = E * S := by
  unfold allVotes
  rw [List.length_flatten, List.map_ofFn, List.sum_ofFn]
  simp

/-- **C37.** On complete data without repetitions (the array the models work on, whatever the options), the least
squares model gives exactly the quality scores of the MOS model, and the bias of an observer is the mean of the
observer's votes minus the mean of all votes. -/
theorem C37_ls_equals_mos (pinv : Pinv K) (hpinv : IsPinv (@pinv)) (rd : Reader κ K) (o : Opts K)
    (hrej : o.subjectRejection ≠ some (some true)) (E S : ℕ) (hE : 0 < E) (hS : 0 < S) (x : Fin E → Fin S → K)
    (mosRes : Result κ K) (hmos : runMOS rd o = .ok mosRes)
    (hraw : mosRes.rawScores = some ⟨E, S, 1, fun e s _ => .fin (x e s)⟩) :
    ∃ res, runLS pinv rd o = .ok res ∧ res.qualityScores = mosRes.qualityScores ∧
      res.observerBias = some (List.ofFn fun s =>
        .fin (mean (List.ofFn fun e => x e s) - mean (allVotes x))) := by
  obtain ⟨p, hp, hr, hq, ho⟩ := runMOS_inv hmos
  have hpa : p.arr = ⟨E, S, 1, fun e s _ => .fin (x e s)⟩ := Option.some.inj (hr.symm.trans hraw)
  have hE' : (E : K) ≠ 0 := by exact_mod_cast hE.ne'
  have hS' : (S : K) ≠ 0 := by exact_mod_cast hS.ne'
  obtain ⟨res, hres, hqual, hbias⟩ := ls_run (x := fun e s => .fin (x e s)) pinv hp ho hrej hE hpa
  -- the MOS
  let m : Fin E → K := fun e => (∑ s, x e s) / S
  have hmean : ∀ e, meanAlongS (R := 1) (fun e s _ => (.fin (x e s) : Fl K)) e = .fin (m e) := by
    intro e
    rw [meanAlongS_fin (R := 1) (fun e s _ => x e s) e (by omega)]
    simp [m]
  have hm0 : Np.nanmean (rowL (fun e s => (.fin (x e s) : Fl K)) ⟨0, hE⟩) = .fin (m ⟨0, hE⟩) := by
    have hl : rowL (fun e s => (.fin (x e s) : Fl K)) ⟨0, hE⟩ = (List.ofFn fun s => x ⟨0, hE⟩ s).map Fl.fin := by
      rw [List.map_ofFn]; rfl
    rw [hl, nanmean_spec (by rw [List.map_ofFn]; exact Np.clean_ofFn.mpr fun i => Or.inr ⟨_, rfl⟩), meanOrNan_map_fin]
    · unfold Spec.mean
      rw [List.sum_ofFn, List.length_ofFn]
    · intro h
      have := congrArg List.length h
      simp at this
      omega
  let g : K := (∑ e, ∑ s, x e s) / ((E : K) * S)
  let b : Fin S → K := fun s => (∑ e, x e s) / E - g
  have hbsum : ∑ s, b s = 0 := by
    simp only [b, g, Finset.sum_sub_distrib, Finset.sum_const, Finset.card_univ, Fintype.card_fin, nsmul_eq_mul]
    rw [← Finset.sum_div, Finset.sum_comm]
    field_simp
    ring
  have hmsum : ∑ e, m e = E * g := by
    simp only [m, g]
    rw [← Finset.sum_div]
    field_simp
  -- the solution of the normal equations
  let z : Fin (S + E) → K := Fin.addCases b m
  have hzb : ∀ s, z (Fin.castAdd E s) = b s := fun s => Fin.addCases_left s
  have hzq : ∀ e, z (Fin.natAdd S e) = m e := fun e => Fin.addCases_right e
  have hMP := hpinv _ _ (Ls.design (K := K) E S) fun z h => Ls.design_injective hE hS z h
  let y : Fin (E * S + 1) → K := fun i => ((Ls.target (fun e s => (.fin (x e s) : Fl K)) (.fin (m ⟨0, hE⟩)) i).val?).getD 0
  have hy : ∀ e s, y (Ls.rowOf e s) = x e s := fun e s => by simp only [y, Ls.target_row]; rfl
  have hyl : y (Fin.last _) = m ⟨0, hE⟩ := by simp only [y, Ls.target_last]; rfl
  have hty : Ls.target (fun e s => (.fin (x e s) : Fl K)) (.fin (m ⟨0, hE⟩)) = fun i => .fin (y i) := by
    funext i
    simp only [y]
    unfold Ls.target
    split <;> rfl
  have hsol := Ls.pinv_solution hE hS hMP y z (by
    intro j
    rw [Ls.sum_rows]
    simp only [Ls.mulVec_row, Ls.mulVec_last hE, hzb, hzq, hy, hyl, sub_self, mul_zero, add_zero]
    refine Fin.addCases (fun s' => ?_) (fun e' => ?_) j
    · simp only [Ls.design_row_b, ite_mul, one_mul, zero_mul, Finset.sum_ite_eq, Finset.mem_univ, if_true]
      rw [Finset.sum_sub_distrib, Finset.sum_add_distrib, hmsum]
      simp only [b, Finset.sum_const, Finset.card_univ, Fintype.card_fin, nsmul_eq_mul]
      field_simp
      ring
    · simp only [Ls.design_row_q, ite_mul, one_mul, zero_mul]
      rw [Finset.sum_eq_single e' (by
        intro e _ he
        exact Finset.sum_eq_zero fun s _ => if_neg fun h => he h.symm) (by simp)]
      simp only [if_true]
      rw [Finset.sum_sub_distrib, Finset.sum_add_distrib, hbsum]
      simp only [m, Finset.sum_const, Finset.card_univ, Fintype.card_fin, nsmul_eq_mul]
      field_simp
      ring)
  have hdot : ∀ c, Ls.dot (pinv (Ls.design E S)) (Ls.target (fun e s => (.fin (x e s) : Fl K))
      (Np.nanmean (rowL (fun e s => (.fin (x e s) : Fl K)) ⟨0, hE⟩))) c = .fin (z c) := by
    intro c
    rw [hm0, hty, Ls.dot_fin, hsol]
  refine ⟨res, hres, ?_, ?_⟩
  · rw [hqual, hq, hpa]
    congr 1
    congr 1
    funext e
    rw [hdot, hzq, hmean]
  · rw [hbias]
    congr 1
    congr 1
    funext s
    rw [hdot, hzb]
    congr 1
    unfold Spec.mean
    rw [List.sum_ofFn, List.length_ofFn, sum_allVotes, length_allVotes, Nat.cast_mul]

/-- **C37, the limits.** If a single vote is missing, every quality score and every bias of the least squares model
is NaN (NaN is multiplied into every entry of the matrix product). -/
theorem C37_ls_missing_vote (pinv : Pinv K) (rd : Reader κ K) (o : Opts K)
    (hrej : o.subjectRejection ≠ some (some true)) (hfin : o.normalizeFinal = none ∧ o.transformFinal = none)
    (E S : ℕ) (x : Fin E → Fin S → Fl K) (e : Fin E) (s : Fin S) (hx : x e s = .nan)
    (mosRes : Result κ K) (hmos : runMOS rd o = .ok mosRes)
    (hraw : mosRes.rawScores = some ⟨E, S, 1, fun e s _ => x e s⟩) :
    ∃ res, runLS pinv rd o = .ok res ∧ res.qualityScores = List.replicate E .nan ∧
      res.observerBias = some (List.replicate S .nan) := by
  obtain ⟨p, hp, hr, hq, ho⟩ := runMOS_inv hmos
  have hpa : p.arr = ⟨E, S, 1, fun e s _ => x e s⟩ := Option.some.inj (hr.symm.trans hraw)
  have hE : 0 < E := lt_of_le_of_lt (Nat.zero_le _) e.isLt
  obtain ⟨res, hres, hqual, hbias⟩ := ls_run (x := x) pinv hp ho hrej hE hpa
  have hn : ∀ c, Ls.dot (pinv (Ls.design E S)) (Ls.target x (Np.nanmean (rowL x ⟨0, hE⟩))) c = .nan := fun c =>
    Ls.dot_nan _ _ (Ls.rowOf e s) (by rw [Ls.target_row, hx]) c
  refine ⟨res, hres, ?_, ?_⟩
  · rw [hqual]
    unfold postprocessScores
    rw [hfin.1, hfin.2]
    simp only [hn, List.ofFn_const]
    rfl
  · rw [hbias]
    simp only [hn, List.ofFn_const]

/-- **C37, the limits.** Repeated votes and observer rejection are refused. -/
theorem C37_ls_refuses (pinv : Pinv K) (rd : Reader κ K) (o : Opts K) :
    (o.subjectRejection = some (some true) → runLS pinv rd o = .error .assertion) ∧
    (∀ mosRes a, runMOS rd o = .ok mosRes → mosRes.rawScores = some a → a.R ≠ 1 → runLS pinv rd o = .error .assertion) := by
  constructor
  · intro h
    unfold runLS runModeling Ls.runModelingWith
    rw [if_pos ((isTrue_iff _).mpr h)]
  · intro mosRes a hmos hraw hR
    obtain ⟨p, hp, hr, hq, ho⟩ := runMOS_inv hmos
    have hpa : p.arr = a := Option.some.inj (hr.symm.trans hraw)
    unfold runLS runModeling Ls.runModelingWith
    by_cases h : o.subjectRejection.isTrue = true
    · rw [if_pos h]
    · rw [if_neg h, hp]
      dsimp only
      rw [dif_neg (by rw [hpa]; exact hR)]

/-- the least squares model does not look at the options of the final step, so `C25_final_scores` applies to it -/
theorem ls_ignores (pinv : Pinv K) : IgnoresFinal (Ls.runModelingWith (κ := κ) pinv) := fun _ _ => rfl

/-- neither do the alternating projection solvers -/
theorem ap_ignores (sd : {J I R : Nat} → Arr3 (Fl K) J I R → Arr1 (Fl K) I → Arr1 (Fl K) J → Arr1 (Fl K) J) :
    IgnoresFinal (Ap.runModelingWith (κ := κ) sd) := fun _ _ => rfl

/-- a pseudo-inverse exists, so the hypothesis on `pinv` can be met -/
theorem isPinv_exists : ∃ pinv : Pinv K, IsPinv (@pinv) := by
  classical
  refine ⟨fun {n m} A => if h : ∀ z : Fin m → K, (∀ i, ∑ j, A i j * z j = 0) → z = 0 then
    Classical.choose (Ls.pinv_exists A h) else fun _ _ => 0, ?_⟩
  intro n m A h
  dsimp only
  rw [dif_pos h]
  exact Classical.choose_spec (Ls.pinv_exists A h)

/-- two videos, three observers, all votes in: the theorem applies -/
example : ∃ (pinv : Pinv ℝ) (mosRes res : Result String ℝ),
    runMOS (arrReader 2 3 1 fun e s _ => .fin (e.val * 2 + s.val * s.val)) {} = .ok mosRes ∧
    runLS pinv (arrReader 2 3 1 fun e s _ => .fin (e.val * 2 + s.val * s.val)) {} = .ok res ∧
    res.qualityScores = mosRes.qualityScores := by
  obtain ⟨pinv, hp⟩ := isPinv_exists (K := ℝ)
  obtain ⟨m, hm⟩ := arrReader_runs 2 3 1 fun e s _ => .fin (e.val * 2 + s.val * s.val)
  obtain ⟨p, hpre, hraw, _⟩ := runMOS_inv hm
  rw [preprocess_default (rd := arrReader 2 3 1 fun e s _ => .fin (e.val * 2 + s.val * s.val)) rfl] at hpre
  cases hpre
  obtain ⟨res, h1, h2, _⟩ := C37_ls_equals_mos pinv hp _ {} (by simp) 2 3 (by omega) (by omega) _ m hm hraw
  exact ⟨pinv, m, res, hm, h1, h2⟩

/-- with a missing vote the scores are NaN -/
example (pinv : Pinv ℝ) : ∃ res, runLS pinv (arrReader 2 2 1 exArr) {} = .ok res ∧
    res.qualityScores = List.replicate 2 .nan := by
  obtain ⟨m, hm⟩ := arrReader_runs 2 2 1 exArr
  obtain ⟨p, hpre, hraw, _⟩ := runMOS_inv hm
  rw [preprocess_default (rd := arrReader 2 2 1 exArr) rfl] at hpre
  cases hpre
  obtain ⟨res, h1, h2, _⟩ := C37_ls_missing_vote pinv _ {} (by simp) ⟨rfl, rfl⟩ 2 2 (fun e s => exArr e s 0) 1 1
    (by simp [exArr]) m hm hraw
  exact ⟨res, h1, h2⟩

end Sureal.Props
