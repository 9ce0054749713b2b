import Verif.Model.Bstp
import Verif.Spec.Bstp
import Verif.Lemmas.Mle
import Verif.Props.Mle
/-! Helper lemmas about the bootstrapping models. -/
set_option linter.unusedSectionVars false
namespace Sureal
variable {κ K : Type} [Field K] [LinearOrder K] [IsStrictOrderedRing K] [MathFn K]

namespace Fl

theorem add_eq_fin {a b : Fl K} {c : K} (h : a + b = fin c) : ∃ x y, a = fin x ∧ b = fin y ∧ x + y = c := by
  cases a <;> cases b <;> first | exact ⟨_, _, rfl, rfl, by simpa using h⟩ | cases h

theorem sub_eq_fin {a b : Fl K} {c : K} (h : a - b = fin c) : ∃ x y, a = fin x ∧ b = fin y ∧ x - y = c := by
  cases a <;> cases b <;> first | exact ⟨_, _, rfl, rfl, by simpa using h⟩ | cases h

theorem add_add_sub (x : Fl K) (b m : K) : (x + fin m) + (fin b - fin m) = x + fin b := by
  cases x <;> first | rfl | (simp)

end Fl

section dims
theorem dscoreStep_dims {rd : Reader κ K} {a b : Arr3D (Fl K)} (h : dscoreStep rd a = .ok b) : b.E = a.E ∧ b.S = a.S ∧ b.R = a.R := by
  unfold dscoreStep at h
  cases hr : rd.dataset.refScore with
  | none => rw [hr] at h; cases h
  | some x =>
    cases x with
    | none => rw [hr] at h; cases h
    | some rs =>
      rw [hr] at h
      dsimp only at h
      cases hm : refMos rd (List.ofFn (meanAlongS a.get)) with
      | error e => rw [hm] at h; cases h
      | ok rm =>
        rw [hm] at h
        dsimp only at h
        split at h
        · cases h; exact ⟨rfl, rfl, rfl⟩
        · split at h
          · cases h; exact ⟨rfl, rfl, rfl⟩
          · cases h

theorem preprocess_dims {rd : Reader κ K} {o : Opts K} {p : Prep K} (hn : ¬ o.subjectRejection.isTrue = true)
    (h : preprocess rd o = .ok p) : rd.scores = .ok p.orig ∧ p.arr.E = p.orig.E ∧ p.arr.S = p.orig.S ∧ p.arr.R = p.orig.R := by
  unfold preprocess at h
  cases hs : rd.scores with
  | error e => rw [hs] at h; cases h
  | ok a0 =>
    rw [hs] at h
    dsimp only at h
    cases hc : checkOpts o with
    | error e => rw [hc] at h; cases h
    | ok ty =>
      rw [hc] at h
      dsimp only at h
      cases hd : (if o.dscoreMode.isTrue then dscoreStep rd a0 else .ok a0 : Py (Arr3D (Fl K))) with
      | error e => rw [hd] at h; cases h
      | ok a1 =>
        rw [hd] at h
        dsimp only at h
        have h1 : a1.E = a0.E ∧ a1.S = a0.S ∧ a1.R = a0.R := by
          split at hd
          · exact dscoreStep_dims hd
          · cases hd; exact ⟨rfl, rfl, rfl⟩
        unfold rejectStep at h
        rw [if_neg hn] at h
        cases h
        refine ⟨rfl, ?_⟩
        dsimp only
        cases o.zscoreMode.isTrue <;> cases o.biasOffset.isTrue <;> exact h1

end dims

namespace Mle

/-- the observers listed in the result -/
def ObsOf (rd : Reader κ K) (obs : Option (List κ)) : Prop :=
  (∃ l, rd.observers = .ok l ∧ obs = some l) ∨ (rd.observers = .error .assertion ∧ obs = none)

theorem rm_inv {mode : Mode} {rd : Reader κ K} {o : Opts K} {r : Result κ K} (h : runModelingWith mode rd o = .ok r) :
    ∃ (p : Prep K) (C : ℕ) (m : Method) (mos : Result κ K) (cid : Fin p.arr.E → Fin C)
      (f : Fit K p.arr.E p.arr.S C) (dens : Fl K → Fl K → Fl K → Fl K → Fl K → Fl K) (obs : Option (List κ)),
      RunOf mode rd o p C m mos cid f dens ∧ ObsOf rd obs ∧
      r = { result (κ := κ) mode (Ap.forced o.base) dens ⟨p.arr.get, cid⟩ p.orig f with observers := obs } := by
  unfold runModelingWith at h
  by_cases hsr : o.base.subjectRejection.isTrue = true
  · rw [if_pos hsr] at h; cases h
  rw [if_neg hsr] at h
  cases hm : method o with
  | error e => rw [hm] at h; cases h
  | ok m =>
    rw [hm] at h
    dsimp only at h
    cases hp : preprocess rd o.base with
    | error e => rw [hp] at h; cases h
    | ok p =>
      rw [hp] at h
      dsimp only at h
      cases hC : numContents rd with
      | error e => rw [hC] at h; cases h
      | ok C =>
        rw [hC] at h
        dsimp only at h
        cases hmos : runMOS rd {} with
        | error e => rw [hmos] at h; cases h
        | ok mos =>
          rw [hmos] at h
          dsimp only at h
          cases hcid : contentIndex (contentIdOfDisVideos rd.disVideos) p.arr.E C with
          | error e => rw [hcid] at h; cases h
          | ok cid =>
            rw [hcid] at h
            dsimp only at h
            cases hf : fitArr mode m o.numericalPdf (o.deltaThr.getD defaultThr) (⟨p.arr.get, cid⟩ : Data K p.arr.E p.arr.S p.arr.R C)
                (fun e => (mos.qualityScores[e.val]?).getD .nan) with
            | error e => rw [hf] at h; cases h
            | ok f =>
              rw [hf] at h
              dsimp only at h
              have key : ∀ obs, runModelingWith.finish mode o p C ⟨p.arr.get, cid⟩ f obs = .ok r →
                  ∃ dens, density o.numericalPdf p.arr.R = .ok dens ∧
                    r = { result (κ := κ) mode (Ap.forced o.base) dens ⟨p.arr.get, cid⟩ p.orig f with observers := obs } := by
                intro obs hfin
                unfold runModelingWith.finish at hfin
                cases hdens : density (K := K) o.numericalPdf p.arr.R with
                | error e => simp only [hdens] at hfin; cases hfin
                | ok dens =>
                  simp only [hdens] at hfin
                  cases hfin
                  exact ⟨dens, rfl, rfl⟩
              cases hobs : rd.observers with
              | ok l =>
                rw [hobs] at h
                obtain ⟨dens, hdens, h0⟩ := key _ h
                exact ⟨p, C, m, mos, cid, f, dens, some l, ⟨hsr, hm, hp, hC, hmos, hcid, hf, hdens, Or.inl ⟨l, hobs⟩⟩,
                  Or.inl ⟨l, hobs, rfl⟩, h0⟩
              | error e =>
                rw [hobs] at h
                dsimp only at h
                split at h
                · rename_i he
                  obtain ⟨dens, hdens, h0⟩ := key _ h
                  exact ⟨p, C, m, mos, cid, f, dens, none, ⟨hsr, hm, hp, hC, hmos, hcid, hf, hdens, Or.inr (by rw [hobs, he])⟩,
                    Or.inr ⟨by rw [hobs, he], rfl⟩, h0⟩
                · cases h

theorem rm_fwd {mode : Mode} {rd : Reader κ K} {o : Opts K} {p : Prep K} {C : ℕ} {m : Method} {mos : Result κ K}
    {cid : Fin p.arr.E → Fin C} {f : Fit K p.arr.E p.arr.S C} {dens : Fl K → Fl K → Fl K → Fl K → Fl K → Fl K}
    {obs : Option (List κ)} (h : RunOf mode rd o p C m mos cid f dens) (hob : ObsOf rd obs) :
    runModelingWith mode rd o =
      .ok { result (κ := κ) mode (Ap.forced o.base) dens ⟨p.arr.get, cid⟩ p.orig f with observers := obs } := by
  obtain ⟨hsr, hm, hp, hC, hmos, hcid, hf, hdens, -⟩ := h
  unfold runModelingWith
  rw [if_neg hsr, hm]
  dsimp only
  rw [hp]
  dsimp only
  rw [hC]
  dsimp only
  rw [hmos]
  dsimp only
  rw [hcid]
  dsimp only
  rw [hf]
  dsimp only
  rcases hob with ⟨l, hl, rfl⟩ | ⟨hl, rfl⟩ <;> rw [hl] <;> dsimp only
  · unfold runModelingWith.finish
    simp only [hdens]
  · rw [if_pos rfl]
    unfold runModelingWith.finish
    simp only [hdens]

/-- the fit does not depend on `force_subjbias_zeromean` -/
theorem RunOf.unforced {mode : Mode} {rd : Reader κ K} {o : Opts K} {p : Prep K} {C : ℕ} {m : Method} {mos : Result κ K}
    {cid : Fin p.arr.E → Fin C} {f : Fit K p.arr.E p.arr.S C} {dens : Fl K → Fl K → Fl K → Fl K → Fl K → Fl K}
    (h : RunOf mode rd (Bstp.unforced o) p C m mos cid f dens) : RunOf mode rd o p C m mos cid f dens :=
  ⟨h.hsr, h.hm, h.hp, h.hC, h.hmos, h.hcid, h.hf, h.hdens, h.hobs⟩

/-- the last step of `run_modeling` -/
theorem run_of_rm {mode : Mode} {rd : Reader κ K} {o : Opts K} {r : Result κ K} (h : runModelingWith mode rd o = .ok r) :
    run mode rd o = .ok { r with qualityScores := postprocessScores o.base r.qualityScores } := by
  obtain ⟨p, C, m, mos, cid, f, dens, obs, -, hob, hr⟩ := rm_inv h
  unfold run runModeling
  have h' : runModelingWith mode rd { o with base := o.base } = .ok r := h
  simp only [h']
  rcases hob with ⟨l, hl, rfl⟩ | ⟨hl, rfl⟩ <;> rw [hl] <;> dsimp only
  rw [hr]

theorem density_shift {pdf : Option String} {R : ℕ} {dens : Fl K → Fl K → Fl K → Fl K → Fl K → Fl K}
    (h : density pdf R = .ok dens) (o x : Fl K) (b m : K) (v a : Fl K) :
    dens o (x + .fin m) (.fin b - .fin m) v a = dens o x (.fin b) v a := by
  unfold density at h
  dsimp only at h
  split at h
  · cases h
    dsimp only
    rw [Fl.add_add_sub]
  · split at h
    · split at h <;> cases h
    · split at h
      · cases h
        dsimp only
        unfold convUniforms
        have : o - (Fl.fin b - Fl.fin m) - (x + Fl.fin m) = o - Fl.fin b - x := by
          cases o <;> cases x <;> first | rfl | (simp; try ring)
        dsimp only
        rw [this]
      · cases h

end Mle

namespace Bstp
open Spec

/-- the run behind an unforced run, with the options as given -/
theorem unforce {mode : Mle.Mode} {rd : Reader κ K} {o : Mle.Opts K} {r0 : Result κ K} (hmode : mode ≠ .subjectOblivious)
    (h : Mle.runModelingWith mode rd (unforced o) = .ok r0) :
    ∃ (E S : ℕ) (x : Fin E → Fl K) (b : Fin S → Fl K) (m : Fl K) (r : Result κ K),
      (∃ a, rd.scores = .ok a ∧ a.E = E ∧ a.S = S) ∧
      r0.qualityScores = List.ofFn x ∧ r0.observerBias = some (List.ofFn b) ∧
      (∃ v : Fin S → Fl K, r0.observerInconsistency = some (List.ofFn v)) ∧
      m = Np.mean (List.ofFn b) ∧
      Mle.runModelingWith mode rd o = .ok r ∧
      (Ap.forced o.base = false → r = r0) ∧
      (Ap.forced o.base = true →
        (∃ rc ll aic bic, r = { r0 with
            qualityScores := List.ofFn fun e => x e + m
            observerBias := some (List.ofFn fun s => b s - m)
            reconstructions := rc, loglikelihood := ll, aic := aic, bic := bic }) ∧
        ((∀ s, ∃ y, b s - m = .fin y) → r = { r0 with
            qualityScores := List.ofFn fun e => x e + m
            observerBias := some (List.ofFn fun s => b s - m) })) := by
  obtain ⟨p, C, mt, mos, cid, f, dens, obs, hrun, hob, hr⟩ := Mle.rm_inv h
  have h2 := Mle.rm_fwd hrun.unforced hob
  have hf0 : Ap.forced (unforced o).base = false := by simp [Ap.forced, unforced]
  rw [hf0] at hr
  refine ⟨p.arr.E, p.arr.S, f.p.x, f.p.b, Np.mean (List.ofFn f.p.b), _, ?_, ?_, ?_, ?_, rfl, h2, ?_, ?_⟩
  · obtain ⟨h1, h2, h3, -⟩ := preprocess_dims hrun.hsr hrun.hp
    exact ⟨_, h1, h2.symm, h3.symm⟩
  · rw [hr]; rfl
  · rw [hr]; unfold Mle.result Mle.centre; simp [hmode]
  · rw [hr]; unfold Mle.result Mle.centre; simp [hmode]
  · intro hf; rw [hf, hr]
  · intro hf
    rw [hf, hr]
    constructor
    · unfold Mle.result Mle.centre
      simp [hmode]
    · intro hb
      have hb' : ∀ s, ∃ z y, f.p.b s = .fin z ∧ Np.mean (List.ofFn f.p.b) = .fin y := by
        intro s
        obtain ⟨y, hy⟩ := hb s
        obtain ⟨z, w, h1, h2, -⟩ := Fl.sub_eq_fin hy
        exact ⟨z, w, h1, h2⟩
      unfold Mle.result Mle.centre
      have hrec : ∀ e s, f.p.x e + Np.mean (List.ofFn f.p.b) + (f.p.b s - Np.mean (List.ofFn f.p.b)) = f.p.x e + f.p.b s := by
        intro e s
        obtain ⟨z, y, hz, hy⟩ := hb' s
        rw [hy, hz, Fl.add_add_sub]
      have hcells : Mle.logCells dens (⟨p.arr.get, cid⟩ : Mle.Data K p.arr.E p.arr.S p.arr.R C)
          { f.p with x := fun e => f.p.x e + Np.mean (List.ofFn f.p.b), b := fun s => f.p.b s - Np.mean (List.ofFn f.p.b) } =
          Mle.logCells dens ⟨p.arr.get, cid⟩ f.p := by
        funext e s r
        unfold Mle.logCells
        dsimp only
        obtain ⟨z, y, hz, hy⟩ := hb' s
        rw [hy, hz, Mle.density_shift hrun.hdens]
      simp [hmode, hrec, hcells]

end Bstp
end Sureal
