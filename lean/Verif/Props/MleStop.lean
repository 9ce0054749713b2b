import Verif.Props.MlePass
/-!
# C128: where the maximum likelihood models stop
-/
set_option linter.unusedSectionVars false
namespace Sureal.Spec
variable {E S R : ℕ}

/-- The mean of the votes on a video less the biases of the observers, each vote weighted with the inverse of its variance: the square of the
observer's inconsistency plus the square of the video's ambiguity. -/
noncomputable def weightedMean (P : Fin E → Fin S → Fin R → Bool) (X : Fin E → Fin S → Fin R → ℝ) (β ν : Fin S → ℝ) (α : Fin E → ℝ) (e : Fin E) : ℝ :=
  (∑ s, ∑ r, if P e s r = true then (X e s r - β s) / (ν s ^ 2 + α e ^ 2) else 0) /
    ∑ s, ∑ r, if P e s r = true then 1 / (ν s ^ 2 + α e ^ 2) else 0

end Sureal.Spec

namespace Sureal.Props
open Sureal Spec Mle
variable {κ : Type}

/-- the weights of the votes on a video are positive -/
theorem weight_pos {E S R : ℕ} {P : Fin E → Fin S → Fin R → Bool} {ν : Fin S → ℝ} {α : Fin E → ℝ} {e : Fin E}
    (hpos : ∀ s r, P e s r = true → 0 < ν s ^ 2 + α e ^ 2) (he : ∃ s r, P e s r = true) :
    0 < ∑ s, ∑ r, if P e s r = true then 1 / (ν s ^ 2 + α e ^ 2) else 0 := by
  obtain ⟨s0, r0, h0⟩ := he
  have hnn : ∀ s r, 0 ≤ if P e s r = true then 1 / (ν s ^ 2 + α e ^ 2) else 0 := by
    intro s r
    split
    · rename_i h; exact (div_pos one_pos (hpos s r h)).le
    · exact le_rfl
  refine Finset.sum_pos' (fun s _ => Finset.sum_nonneg fun r _ => hnn s r) ⟨s0, Finset.mem_univ _, ?_⟩
  refine Finset.sum_pos' (fun r _ => hnn s0 r) ⟨r0, Finset.mem_univ _, ?_⟩
  rw [if_pos h0]
  exact div_pos one_pos (hpos s0 r0 h0)

/-- a damped Newton step leaves nine times the distance it has made -/
theorem step_to_mean {E S R : ℕ} {P : Fin E → Fin S → Fin R → Bool} {X : Fin E → Fin S → Fin R → ℝ} {β ν : Fin S → ℝ} {α : Fin E → ℝ} {e : Fin E}
    (hpos : ∀ s r, P e s r = true → 0 < ν s ^ 2 + α e ^ 2) (he : ∃ s r, P e s r = true) (ξ ξ' : ℝ)
    (h : newtonStep ξ (∑ s, ∑ r, if P e s r = true then (X e s r - ξ - β s) / (ν s ^ 2 + α e ^ 2) else 0)
      (∑ s, ∑ r, if P e s r = true then -1 / (ν s ^ 2 + α e ^ 2) else 0) = .fin ξ') :
    ξ' - weightedMean P X β ν α e = 9 * (ξ - ξ') := by
  have hW := weight_pos hpos he
  have hneg : (∑ s, ∑ r, if P e s r = true then -1 / (ν s ^ 2 + α e ^ 2) else 0) =
      -∑ s, ∑ r, if P e s r = true then 1 / (ν s ^ 2 + α e ^ 2) else 0 := by
    rw [← Finset.sum_neg_distrib]
    refine Finset.sum_congr rfl fun s _ => ?_
    rw [← Finset.sum_neg_distrib]
    refine Finset.sum_congr rfl fun r _ => ?_
    split
    · ring
    · simp
  have hnum : (∑ s, ∑ r, if P e s r = true then (X e s r - ξ - β s) / (ν s ^ 2 + α e ^ 2) else 0) =
      (∑ s, ∑ r, if P e s r = true then (X e s r - β s) / (ν s ^ 2 + α e ^ 2) else 0) -
        ξ * ∑ s, ∑ r, if P e s r = true then 1 / (ν s ^ 2 + α e ^ 2) else 0 := by
    rw [Finset.mul_sum, ← Finset.sum_sub_distrib]
    refine Finset.sum_congr rfl fun s _ => ?_
    rw [Finset.mul_sum, ← Finset.sum_sub_distrib]
    refine Finset.sum_congr rfl fun r _ => ?_
    split
    · ring
    · ring
  rw [hneg, hnum, newtonStep_of_ne (by linarith), Fl.fin_inj] at h
  unfold weightedMean
  rw [← h]
  generalize (∑ s, ∑ r, if P e s r = true then (X e s r - β s) / (ν s ^ 2 + α e ^ 2) else 0) = A
  generalize (∑ s, ∑ r, if P e s r = true then 1 / (ν s ^ 2 + α e ^ 2) else 0) = W at hW ⊢
  field_simp
  ring

/-- moving the biases and the mean together -/
theorem weightedMean_shift {E S R : ℕ} {P : Fin E → Fin S → Fin R → Bool} {X : Fin E → Fin S → Fin R → ℝ} {β ν : Fin S → ℝ} {α : Fin E → ℝ}
    {e : Fin E} (hpos : ∀ s r, P e s r = true → 0 < ν s ^ 2 + α e ^ 2) (he : ∃ s r, P e s r = true) (m : ℝ) :
    weightedMean P X (fun s => β s - m) ν α e = weightedMean P X β ν α e + m := by
  have hW := weight_pos hpos he
  have hnum : (∑ s, ∑ r, if P e s r = true then (X e s r - (β s - m)) / (ν s ^ 2 + α e ^ 2) else 0) =
      (∑ s, ∑ r, if P e s r = true then (X e s r - β s) / (ν s ^ 2 + α e ^ 2) else 0) +
        m * ∑ s, ∑ r, if P e s r = true then 1 / (ν s ^ 2 + α e ^ 2) else 0 := by
    rw [Finset.mul_sum, ← Finset.sum_add_distrib]
    refine Finset.sum_congr rfl fun s _ => ?_
    rw [Finset.mul_sum, ← Finset.sum_add_distrib]
    refine Finset.sum_congr rfl fun r _ => ?_
    split
    · ring
    · ring
  unfold weightedMean
  rw [hnum, add_div, mul_div_cancel_right₀ _ hW.ne']

theorem fin_of_sub {a b : Fl ℝ} {x : ℝ} (h : a - b = .fin x) : ∃ u v, a = .fin u ∧ b = .fin v ∧ x = u - v := by
  cases a <;> cases b
  case fin.fin u v =>
    rw [Fl.fin_sub, Fl.fin_inj] at h
    exact ⟨u, v, rfl, rfl, h.symm⟩
  all_goals cases h

theorem fin_of_add {a b : Fl ℝ} {x : ℝ} (h : a + b = .fin x) : ∃ u v, a = .fin u ∧ b = .fin v ∧ x = u + v := by
  cases a <;> cases b
  case fin.fin u v =>
    rw [Fl.fin_add, Fl.fin_inj] at h
    exact ⟨u, v, rfl, rfl, h.symm⟩
  all_goals cases h

/-- **C128.** A run of an MLE model with an analytic gradient method that needs fewer than 10000 passes, on votes `X` (present where `P`, at least one
per video), without final normalisation or transformation: if the reported biases, inconsistencies and ambiguities are numbers and give every vote
a positive variance, the reported qualities are at a distance less than nine times the threshold from the weighted means of the votes less the
reported biases, i.e. from the qualities that maximise the likelihood for the other reported parameters. -/
theorem C128_qualities_partial (mode : Mode) (rd : Reader κ ℝ) (o : Mle.Opts ℝ) (res : Result κ ℝ) (h : Mle.run mode rd o = .ok res)
    (hm : o.gradientMethod = none ∨ o.gradientMethod = some "simplified" ∨ o.gradientMethod = some "original")
    (hno : o.base.normalizeFinal = none) (hto : o.base.transformFinal = none)
    (a : Arr3D (Fl ℝ)) (ha : res.rawScores = some a)
    (P : Fin a.E → Fin a.S → Fin a.R → Bool) (X : Fin a.E → Fin a.S → Fin a.R → ℝ)
    (hX : ∀ e s r, a.get e s r = mask (P e s r) (X e s r)) (hvid : ∀ e, ∃ s r, P e s r = true)
    (n : ℕ) (hn : res.numIter = some n) (hlt : n < 10000) (τ : ℝ) (hτ : o.deltaThr = some (.fin τ) ∨ (o.deltaThr = none ∧ τ = 1 / 100000000))
    (ξ α : Fin a.E → ℝ) (β ν : Fin a.S → ℝ) (hξ : res.qualityScores = List.ofFn fun e => .fin (ξ e))
    (hβ : res.observerBias = if mode = .subjectOblivious then none else some (List.ofFn fun s => .fin (β s)))
    (hν : res.observerInconsistency = if mode = .subjectOblivious then none else some (List.ofFn fun s => .fin (ν s)))
    (hS : mode = .subjectOblivious → ∀ s, β s = 0 ∧ ν s = 0)
    (hα : ∀ l, res.contentAmbiguity = some l → ∀ (e : Fin a.E) (dv : DisVideo κ ℝ), rd.disVideos[e.val]? = some dv →
      l[dv.contentId.toNat]? = some (.fin (α e)))
    (hC : mode = .contentOblivious → ∀ e, α e = 0)
    (hpos : ∀ e s r, P e s r = true → 0 < ν s ^ 2 + α e ^ 2) :
    qdist ξ (weightedMean P X β ν α) < 9 * τ := by
  obtain ⟨p, C, m, mos, cid, f, dens, obs, hrun, hres⟩ := Mle.run_inv h
  have hpa : p.arr = a := by
    rw [hres] at ha
    simpa [Mle.result] using ha
  subst hpa
  have hget : p.arr.get = Ap.maskX P X := by funext e s r; exact hX e s r
  obtain ⟨u, hu, hloop⟩ := fitArr_inv hrun.hf
  rw [hget] at hloop
  have hmeth : m = .simplified ∨ m = .original := by
    have := hrun.hm
    unfold Mle.method at this
    rcases hm with hm | hm | hm <;> rw [hm] at this <;> simp at this
    · exact Or.inl this.symm
    · exact Or.inl this.symm
    · exact Or.inr this.symm
  generalize hp0 : init mode (⟨Ap.maskX P X, cid⟩ : Data ℝ p.arr.E p.arr.S p.arr.R C)
    (fun e => (mos.qualityScores[e.val]?).getD .nan) = p0 at hloop
  obtain ⟨n', hn1, hitr, hmax, hfp, -, htr⟩ := loop_trace _ 0 rfl (by decide) p0 hloop
  have hnn : n = n' := by
    rw [hres] at hn
    have : some f.itr = some n := hn
    rw [Option.some.injEq] at this
    omega
  subst hnn
  obtain ⟨δ, h1, -, h3⟩ := htr (n - 1) (by omega)
  rw [Nat.sub_add_cancel hn1, ← hfp] at h1
  have hδ : δ.lt (o.deltaThr.getD defaultThr) = true := by
    rcases h3 (by omega) with h3 | h3
    · exact h3
    · exfalso
      have : f.itr = 10000 := h3
      omega
  generalize hpk : iter mode u (⟨Ap.maskX P X, cid⟩ : Data ℝ p.arr.E p.arr.S p.arr.R C) p0 (n - 1) = pk at h1
  have hft : f.p = (step mode u (⟨Ap.maskX P X, cid⟩ : Data ℝ p.arr.E p.arr.S p.arr.R C) pk).1 := by
    rw [hfp, ← hpk]
    obtain ⟨k, rfl⟩ : ∃ k, n = k + 1 := ⟨n - 1, by omega⟩
    rfl
  have htx : f.p.x = (u.x ⟨Ap.maskX P X, cid⟩ ⟨pk.x, f.p.b, f.p.v, f.p.a⟩).1 := by rw [hft]; rfl
  have hthr : o.deltaThr.getD defaultThr = .fin τ := by
    rcases hτ with hτ | ⟨hτ, rfl⟩
    · rw [hτ]; rfl
    · rw [hτ]
      show (Fl.dec 1 100000000 : Fl ℝ) = _
      unfold Fl.dec
      norm_num
  -- the qualities before and after the last pass
  obtain ⟨hf1, hf2⟩ := norm_fin h1
  choose ξp hξp using hf1
  choose ξ0 hξ0 using hf2
  have hdist : qdist ξp ξ0 < τ := by
    have : Np.linalgNorm (List.ofFn fun e => pk.x e - f.p.x e) = .ok (.fin (qdist ξp ξ0)) := by
      unfold qdist
      rw [← Bt.norm_vec]
      congr 2
      funext e
      rw [hξp, hξ0, Fl.fin_sub]
    rw [this] at h1
    cases h1
    rw [hthr] at hδ
    simpa [Fl.lt] using hδ
  -- the parameters reported
  have hq : ∀ e, (centre (Ap.forced o.base) f.p).x e = .fin (ξ e) := by
    have : res.qualityScores = List.ofFn (centre (Ap.forced o.base) f.p).x := by
      rw [hres]
      unfold postprocessScores
      dsimp only
      rw [hno, hto]
      rfl
    rw [this] at hξ
    exact fun e => congrFun (List.ofFn_injective hξ) e
  have hbias : mode ≠ .subjectOblivious → ∀ s, (centre (Ap.forced o.base) f.p).b s = .fin (β s) := by
    intro hmode
    rw [hres] at hβ
    unfold Mle.result at hβ
    dsimp only at hβ
    rw [if_neg hmode, if_neg hmode, Option.some.injEq] at hβ
    exact fun s => congrFun (List.ofFn_injective hβ) s
  have hstepS : mode = .subjectOblivious → f.p.b = (fun _ => 0) ∧ f.p.v = fun _ => 0 := by
    intro hmode
    rw [hft]
    subst hmode
    exact ⟨rfl, rfl⟩
  have hstepC : mode = .contentOblivious → f.p.a = fun _ => 0 := by
    intro hmode
    rw [hft]
    subst hmode
    rfl
  have hinc : ∀ s, f.p.v s = .fin (ν s) := by
    by_cases hmode : mode = .subjectOblivious
    · intro s
      rw [(hstepS hmode).2, (hS hmode s).2, Fl.zero_def]
    · rw [hres] at hν
      unfold Mle.result at hν
      dsimp only at hν
      rw [if_neg hmode, if_neg hmode, Option.some.injEq, (centre_va _ f.p).1] at hν
      exact fun s => congrFun (List.ofFn_injective hν) s
  have hamb : ∀ e, f.p.a (cid e) = .fin (α e) := by
    intro e
    by_cases hmode : mode = .contentOblivious
    · rw [hstepC hmode, hC hmode e, Fl.zero_def]
    · have hc := hrun.hcid
      unfold Mle.contentIndex at hc
      split at hc
      case isFalse => cases hc
      rename_i hok
      injection hc with hc
      obtain ⟨hl, hall⟩ := hok
      have hlen : rd.disVideos.length = p.arr.E := by simpa [contentIdOfDisVideos] using hl
      have he : e.val < rd.disVideos.length := by have := e.isLt; omega
      have hcv : (cid e).val = (rd.disVideos[e.val]).contentId.toNat := by
        rw [← hc]
        simp [contentIdOfDisVideos]
      have := hα (List.ofFn f.p.a) (by
        rw [hres]
        unfold Mle.result
        dsimp only
        rw [if_neg hmode, (centre_va _ f.p).2]) e _ (List.getElem?_eq_getElem he)
      rw [← hcv, List.getElem?_ofFn, dif_pos (cid e).isLt, Option.some.injEq] at this
      exact this
  -- without the final centring
  have hmove : p.arr.E = 0 ∨ ∃ (m0 : ℝ) (β0 : Fin p.arr.S → ℝ), (∀ s, f.p.b s = .fin (β0 s)) ∧ (∀ e, ξ e = ξ0 e + m0) ∧ ∀ s, β s = β0 s - m0 := by
    rcases Nat.eq_zero_or_pos p.arr.E with hE | hE
    · exact Or.inl hE
    right
    obtain ⟨s0, -, -⟩ := hvid ⟨0, hE⟩
    cases hforce : Ap.forced o.base with
    | false =>
      rw [hforce] at hq hbias
      refine ⟨0, β, ?_, ?_, fun s => by ring⟩
      · by_cases hmode : mode = .subjectOblivious
        · intro s
          rw [(hstepS hmode).1, (hS hmode s).1, Fl.zero_def]
        · exact hbias hmode
      · intro e
        have := hq e
        have h2 : f.p.x e = .fin (ξ e) := this
        rw [hξ0, Fl.fin_inj] at h2
        linarith
    | true =>
      rw [hforce] at hq hbias
      have hqe : ∀ e, f.p.x e + Np.mean (List.ofFn f.p.b) = .fin (ξ e) := hq
      obtain ⟨-, m0, -, hm0, -⟩ := fin_of_add (hqe ⟨0, hE⟩)
      have hx0 : ∀ e, ξ e = ξ0 e + m0 := by
        intro e
        have := hqe e
        rw [hξ0, hm0, Fl.fin_add, Fl.fin_inj] at this
        exact this.symm
      by_cases hmode : mode = .subjectOblivious
      · refine ⟨m0, fun _ => 0, fun s => by rw [(hstepS hmode).1, Fl.zero_def], hx0, ?_⟩
        intro s
        rw [(hS hmode s).1]
        have : Np.mean (List.ofFn fun _ : Fin p.arr.S => (0 : Fl ℝ)) = .fin 0 := by
          have hl : (List.ofFn fun _ : Fin p.arr.S => (0 : Fl ℝ)) = (List.ofFn fun _ : Fin p.arr.S => (0 : ℝ)).map Fl.fin := by
            rw [List.map_ofFn]; rfl
          rw [hl, Np.mean_map_fin (by
            intro h0
            have hl0 := congrArg List.length h0
            rw [List.length_ofFn, List.length_nil] at hl0
            have hs0 := s0.isLt
            omega)]
          simp [Spec.mean]
        rw [(hstepS hmode).1, this, Fl.fin_inj] at hm0
        rw [← hm0]
        ring
      · have hb : ∀ s, f.p.b s - Np.mean (List.ofFn f.p.b) = .fin (β s) := hbias hmode
        have : ∀ s, ∃ b0, f.p.b s = .fin b0 ∧ β s = b0 - m0 := by
          intro s
          obtain ⟨u0, v0, k1, k2, k3⟩ := fin_of_sub (hb s)
          rw [hm0, Fl.fin_inj] at k2
          exact ⟨u0, k1, by rw [k3, k2]⟩
        choose β0 hβ0 using this
        exact ⟨m0, β0, fun s => (hβ0 s).1, hx0, fun s => (hβ0 s).2⟩
  have hτ0 : 0 < τ := lt_of_le_of_lt (Real.sqrt_nonneg _) hdist
  rcases hmove with hE | ⟨m0, β0, hb0, hx0, hβ0⟩
  · have : IsEmpty (Fin p.arr.E) := by rw [hE]; infer_instance
    unfold qdist
    rw [Finset.univ_eq_empty, Finset.sum_empty, Real.sqrt_zero]
    linarith
  have hreg : Regular P cid (⟨pk.x, f.p.b, f.p.v, f.p.a⟩ : Params ℝ p.arr.E p.arr.S C) ξp β0 ν fun c => num (f.p.a c) := by
    refine ⟨fun e _ _ _ => hξp e, fun _ s _ _ => hb0 s, fun _ s _ _ => hinc s, fun e _ _ _ => ?_, fun e s r hP => ?_⟩
    · show f.p.a (cid e) = _
      rw [hamb e]
      rfl
    · rw [hamb e]
      exact hpos e s r hP
  have hux : u.x ⟨Ap.maskX P X, cid⟩ ⟨pk.x, f.p.b, f.p.v, f.p.a⟩ = xSimplified ⟨Ap.maskX P X, cid⟩ ⟨pk.x, f.p.b, f.p.v, f.p.a⟩ := by
    rcases hmeth with rfl | rfl
    · cases hu; rfl
    · cases hu
      exact xOriginal_eq hreg
  have hmean : ∀ e, ξ e - weightedMean P X β ν α e = 9 * (ξp e - ξ0 e) := by
    intro e
    have hk := (xSimplified_newton (X := X) hreg e (hvid e)).1
    rw [← hux, ← htx, hξ0] at hk
    have ha : num (f.p.a (cid e)) = α e := by rw [hamb e]; rfl
    simp only [ha] at hk
    have := step_to_mean (X := X) (β := β0) (hpos e) (hvid e) (ξp e) (ξ0 e) hk.symm
    have hb : β = fun s => β0 s - m0 := funext hβ0
    rw [hb, weightedMean_shift (hpos e) (hvid e), hx0]
    linarith
  have : qdist ξ (weightedMean P X β ν α) = 9 * qdist ξp ξ0 := by
    unfold qdist
    have h9 : (9 : ℝ) = Real.sqrt (9 ^ 2) := by rw [Real.sqrt_sq (by norm_num)]
    conv_rhs => rw [h9, ← Real.sqrt_mul (by norm_num)]
    congr 1
    rw [Finset.mul_sum]
    refine Finset.sum_congr rfl fun e _ => ?_
    rw [hmean e]
    ring
  rw [this]
  linarith

end Sureal.Props
