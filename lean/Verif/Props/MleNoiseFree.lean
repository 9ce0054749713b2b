import Verif.Props.MleStop
/-!
# C129: maximum likelihood on votes without noise
-/
set_option linter.unusedSectionVars false
namespace Sureal.Props
open Sureal Spec Mle
variable {κ : Type}

theorem Derivs.unique {f : ℝ → ℝ} {θ d1 d2 d1' d2' : ℝ} (h : Derivs f θ d1 d2) (h' : Derivs f θ d1' d2') : d1 = d1' ∧ d2 = d2' := by
  obtain ⟨f1, h1, h2, h3⟩ := h
  obtain ⟨g1, k1, k2, k3⟩ := h'
  have he : f1 =ᶠ[nhds θ] g1 := by
    filter_upwards [h1, k1] with t ht kt
    exact ht.unique kt
  refine ⟨by rw [← h2, ← k2]; exact he.eq_of_nhds, ?_⟩
  exact h3.unique (k3.congr_of_eventuallyEq he)

section sums
variable {E S R C : ℕ}

/-- averages over the votes on a content of a number that depends on the observer only -/
theorem avg_content (cid : Fin E → Fin C) (c : Fin C) (hc : ∃ e, cid e = c) (hR : 0 < R) (g : Fin S → ℝ) :
    avg (votesOnContent (fun (_ : Fin E) (_ : Fin S) (_ : Fin R) => true) cid c) (fun t => g t.2.1) = avg Finset.univ g := by
  have hset : votesOnContent (fun (_ : Fin E) (_ : Fin S) (_ : Fin R) => true) cid c =
      (Finset.univ.filter fun e => cid e = c) ×ˢ (Finset.univ ×ˢ Finset.univ) := by
    ext ⟨e, s, r⟩
    simp [votesOnContent]
  have hV : 0 < (Finset.univ.filter fun e => cid e = c).card := by
    obtain ⟨e, he⟩ := hc
    exact Finset.card_pos.mpr ⟨e, by simp [he]⟩
  have hV' : ((Finset.univ.filter fun e => cid e = c).card : ℝ) ≠ 0 := by exact_mod_cast hV.ne'
  have hR' : (R : ℝ) ≠ 0 := by exact_mod_cast hR.ne'
  unfold avg
  rw [hset, Finset.sum_product, Finset.card_product, Finset.card_product]
  simp only [Finset.sum_product, Finset.sum_const, Finset.card_univ, Fintype.card_fin, nsmul_eq_mul]
  rw [← Finset.mul_sum]
  push_cast
  by_cases hS : (S : ℝ) = 0
  · simp [hS]
  · field_simp

theorem dev_sum (hS : 0 < S) (β : Fin S → ℝ) : ∑ s, (β s - avg Finset.univ β) = 0 := by
  unfold avg
  rw [Finset.sum_sub_distrib, Finset.sum_const, Finset.card_univ, Fintype.card_fin, nsmul_eq_mul]
  have : (S : ℝ) ≠ 0 := by exact_mod_cast hS.ne'
  field_simp
  ring

theorem dev_sq (hS : 0 < S) (β : Fin S → ℝ) : ∑ s, (β s - avg Finset.univ β) ^ 2 = S * spread Finset.univ β ^ 2 := by
  have : (S : ℝ) ≠ 0 := by exact_mod_cast hS.ne'
  unfold spread
  rw [Real.sq_sqrt]
  · generalize avg Finset.univ β = m
    unfold avg
    rw [Finset.card_univ, Fintype.card_fin]
    field_simp
  · unfold avg
    positivity

end sums

/-- **C129.** Every observer votes on every video, without noise: each vote is the quality of the video plus the bias of the observer.  The biases
are not all equal (their population standard deviation `A` is positive), and no bias is exactly `10/9 * A` away from the mean bias.  Then the
maximum likelihood model stops after one pass and reports the qualities plus the mean bias exactly, inconsistency 0 for every observer,
and one tenth of each observer's deviation from the mean bias; for every video it reports an ambiguity close to `A`. -/
theorem C129_noise_free_partial (rd : Reader κ ℝ) (o : Mle.Opts ℝ) (ho : o.base = {})
    (hm : o.gradientMethod = none ∨ o.gradientMethod = some "simplified" ∨ o.gradientMethod = some "original")
    (τ : ℝ) (hτ : o.deltaThr = some (.fin τ) ∨ (o.deltaThr = none ∧ τ = 1 / 100000000)) (hτ0 : 0 < τ)
    (res : Result κ ℝ) (h : Mle.run .default rd o = .ok res) (a : Arr3D (Fl ℝ)) (ha : rd.scores = .ok a)
    (hE : 0 < a.E) (hS : 0 < a.S) (hR : 0 < a.R) (q : Fin a.E → ℝ) (β : Fin a.S → ℝ) (hX : ∀ e s r, a.get e s r = .fin (q e + β s))
    (hA : spread Finset.univ β ≠ 0) (hβ : ∀ s, 81 / 100 * (β s - avg Finset.univ β) ^ 2 ≠ spread Finset.univ β ^ 2) :
    res.qualityScores = (List.ofFn fun e => .fin (q e + avg Finset.univ β)) ∧
    res.observerBias = some (List.ofFn fun s => .fin ((β s - avg Finset.univ β) / 10)) ∧
    res.observerInconsistency = some (List.ofFn fun _ : Fin a.S => .fin 0) ∧ res.numIter = some 1 ∧
    ∃ l, res.contentAmbiguity = some l ∧ ∀ (e : Fin a.E) (dv : DisVideo κ ℝ), rd.disVideos[e.val]? = some dv →
      l[dv.contentId.toNat]? = some (.fin (spread Finset.univ β * (1 - 19 / 1430))) := by
  have hraw : res.rawScores = some a := by
    obtain ⟨p, C, m, mos, cid, f, dens, obs, hrun, hres⟩ := Mle.run_inv h
    have hp := hrun.hp
    rw [ho, preprocess_default ha] at hp
    have hp' := (Except.ok.inj hp).symm
    have : res.rawScores = some p.arr := by rw [hres]; simp [Mle.result]
    rw [this, hp']
  obtain ⟨C, cid, n, w, sd, ξ, hcid, hx, ⟨mos, hmos, hq0⟩, hstart, hround, hn1, hn2, hnum, hstop, -, hinc, hamb, hfinal⟩ :=
    C85_rounds .default rd o res h hm a hraw (fun _ _ _ => true) (fun e s _ => q e + β s) (fun e s r => by rw [hX]; rfl)
  set b0 := avg Finset.univ β with hb0
  set A := spread Finset.univ β with hAdef
  have hApos : 0 < A := lt_of_le_of_ne (Real.sqrt_nonneg _) (Ne.symm hA)
  have hSr : (a.S : ℝ) ≠ 0 := by exact_mod_cast hS.ne'
  have hRr : (a.R : ℝ) ≠ 0 := by exact_mod_cast hR.ne'
  have hEr : (a.E : ℝ) ≠ 0 := by exact_mod_cast hE.ne'
  have hdev : ∑ s, (β s - b0) = 0 := dev_sum hS β
  have hdev2 : ∑ s, (β s - b0) ^ 2 = a.S * A ^ 2 := dev_sq hS β
  have e0 : Fin a.E := ⟨0, hE⟩
  have s0 : Fin a.S := ⟨0, hS⟩
  have r0 : Fin a.R := ⟨0, hR⟩
  -- the mean opinion scores
  have hξ0 : ∀ e, ξ 0 e = q e + b0 := by
    intro e
    rw [runMOS_default ha hmos] at hq0
    have h1 : (mosAndStats (fun E _ _ => E * 2) a a : Result κ ℝ).qualityScores = List.ofFn (meanAlongS a.get) := rfl
    dsimp only at hq0
    rw [h1] at hq0
    have h2 := congrFun (List.ofFn_injective hq0) e
    have h3 : a.get = fun e s (_ : Fin a.R) => Fl.fin (q e + β s) := by funext e s r; exact hX e s r
    rw [h3, meanAlongS_fin _ _ (Nat.mul_ne_zero hS.ne' hR.ne'), Fl.fin_inj] at h2
    rw [← h2, hb0]
    unfold avg
    simp only [Finset.sum_const, Finset.card_univ, Fintype.card_fin, nsmul_eq_mul]
    rw [← Finset.mul_sum, Finset.sum_add_distrib, Finset.sum_const, Finset.card_univ, Fintype.card_fin, nsmul_eq_mul]
    field_simp
  have hres : ∀ (e : Fin a.E) s, q e + β s - ξ 0 e = β s - b0 := by intro e s; rw [hξ0]; ring
  -- the starting point
  have hv0 : ∀ s, (w 0).v s = .fin 0 := by
    intro s
    rw [hstart.inconsistencies (by decide) s ⟨e0, r0, rfl⟩]
    congr 1
    have hc : (fun c : Fin a.E × Fin a.R => q c.1 + β s - ξ 0 c.1) = fun _ => β s - b0 := by funext c; exact hres _ _
    rw [hc]
    have hcard : ((votesOfObserver (fun (_ : Fin a.E) (_ : Fin a.S) (_ : Fin a.R) => true) s).card : ℝ) ≠ 0 := by
      have : (votesOfObserver (fun (_ : Fin a.E) (_ : Fin a.S) (_ : Fin a.R) => true) s).Nonempty := ⟨(e0, r0), by simp [votesOfObserver]⟩
      exact_mod_cast this.card_pos.ne'
    have havg : avg (votesOfObserver (fun (_ : Fin a.E) (_ : Fin a.S) (_ : Fin a.R) => true) s) (fun _ => β s - b0) = β s - b0 := by
      unfold avg
      rw [Finset.sum_const, nsmul_eq_mul]
      field_simp
    unfold spread
    rw [havg]
    simp [avg]
  have ha0 : ∀ e, (w 0).a (cid e) = .fin A := by
    intro e
    rw [hstart.ambiguities (by decide) (cid e) ⟨e, s0, r0, rfl, rfl⟩]
    congr 1
    have hc : (fun t : Fin a.E × Fin a.S × Fin a.R => q t.1 + β t.2.1 - ξ 0 t.1) = fun t => (fun s => β s - b0) t.2.1 := by
      funext t; exact hres _ _
    rw [hc]
    unfold spread
    rw [avg_content cid (cid e) ⟨e, rfl⟩ hR (fun s => β s - b0)]
    have : avg Finset.univ (fun s => β s - b0) = 0 := by unfold avg; rw [hdev, zero_div]
    rw [this]
    have := avg_content (R := a.R) cid (cid e) ⟨e, rfl⟩ hR (fun s => (β s - b0 - 0) ^ 2)
    rw [this]
    simp only [sub_zero]
    rfl
  -- the first round
  have hr := hround 0 hn1
  have hpos : ∀ (v : ℝ) (A' : ℝ), 0 < A' → 0 < v ^ 2 + A' ^ 2 := fun v A' h => by positivity
  have hat0 : At (fun _ _ (_ : Fin a.R) => true) cid (w 0) (ξ 0) (fun _ : Fin a.S => 0) (fun _ => 0) (fun _ => A) := fun e s r _ =>
    ⟨hx 0 (Nat.zero_le _) e, hstart.biases s, hv0 s, ha0 e, hpos _ _ hApos⟩
  have hb1 : ∀ s, (w 1).b s = .fin ((β s - b0) / 10) := by
    intro s
    obtain ⟨d1, d2, hd, hnew, -⟩ := hr.biases (by decide) _ _ _ _ hat0 s ⟨e0, r0, rfl⟩
    obtain ⟨rfl, rfl⟩ := Derivs.unique hd (derivs_b (fun _ _ _ _ => hpos _ _ hApos) s)
    rw [hnew]
    simp only [if_true, hres, sub_zero]
    simp only [Finset.sum_const, Finset.card_univ, Fintype.card_fin, nsmul_eq_mul]
    have hw : (a.E : ℝ) * (a.R * (-1 / ((0 : ℝ) ^ 2 + A ^ 2))) ≠ 0 := by
      rw [zero_pow (by decide), zero_add]
      have : -1 / A ^ 2 ≠ 0 := div_ne_zero (by norm_num) (pow_ne_zero 2 hA)
      exact mul_ne_zero hEr (mul_ne_zero hRr this)
    rw [newtonStep_of_ne hw]
    congr 1
    rw [zero_pow (by decide), zero_add]
    field_simp
    ring
  have hat1 : At (fun _ _ (_ : Fin a.R) => true) cid (⟨(w 0).x, (w 1).b, (w 0).v, (w 0).a⟩ : Four a.E a.S C) (ξ 0) (fun s : Fin a.S => (β s - b0) / 10)
      (fun _ => 0) (fun _ => A) := fun e s r _ =>
    ⟨hx 0 (Nat.zero_le _) e, hb1 s, hv0 s, ha0 e, hpos _ _ hApos⟩
  have hres1 : ∀ (e : Fin a.E) s, q e + β s - ξ 0 e - (β s - b0) / 10 = 9 / 10 * (β s - b0) := by intro e s; rw [hres]; ring
  have hv1 : ∀ s, (w 1).v s = .fin 0 := by
    intro s
    obtain ⟨v, ⟨d1, d2, hd, hnew, -⟩, hclip⟩ := hr.inconsistencies (by decide) _ _ _ _ hat1 s ⟨e0, r0, rfl⟩
    obtain ⟨rfl, rfl⟩ := Derivs.unique hd (derivs_v (fun _ _ _ _ => hpos _ _ hApos) s)
    have hc1 : ∀ r, cell1 0 A r = 0 := by intro r; unfold cell1; simp
    have hc2 : cell2 0 A (9 / 10 * (β s - b0)) = (81 / 100 * (β s - b0) ^ 2 - A ^ 2) / A ^ 4 := by
      unfold cell2
      field_simp
      ring
    have hne : (81 / 100 * (β s - b0) ^ 2 - A ^ 2) / A ^ 4 ≠ 0 := div_ne_zero (sub_ne_zero.mpr (hβ s)) (pow_ne_zero 4 hA)
    rw [hclip, hnew]
    simp only [if_true, hres1, hc1, hc2]
    simp only [Finset.sum_const, Finset.card_univ, Fintype.card_fin, nsmul_eq_mul]
    rw [newtonStep_of_ne (mul_ne_zero hEr (mul_ne_zero hRr hne))]
    simp [clip0]
  have hat2 : At (fun _ _ (_ : Fin a.R) => true) cid (⟨(w 0).x, (w 1).b, (w 1).v, (w 0).a⟩ : Four a.E a.S C) (ξ 0) (fun s : Fin a.S => (β s - b0) / 10)
      (fun _ => 0) (fun _ => A) := fun e s r _ =>
    ⟨hx 0 (Nat.zero_le _) e, hb1 s, hv1 s, ha0 e, hpos _ _ hApos⟩
  have hA1 : 0 < A * (1 - 19 / 1430) := by
    have : (0 : ℝ) < 1 - 19 / 1430 := by norm_num
    positivity
  have ha1 : ∀ e, (w 1).a (cid e) = .fin (A * (1 - 19 / 1430)) := by
    intro e
    obtain ⟨v, ⟨d1, d2, hd, hnew, -⟩, hclip⟩ := hr.ambiguities (by decide) _ _ _ _ hat2 (cid e) ⟨e, s0, r0, rfl, rfl⟩
    obtain ⟨rfl, rfl⟩ := Derivs.unique hd (derivs_a (fun _ _ _ _ => hpos _ _ hApos) (cid e))
    have hc1 : ∀ x : ℝ, cell1 A 0 (9 / 10 * x) = -1 / A + 81 / 100 / A ^ 3 * x ^ 2 := by
      intro x
      unfold cell1
      field_simp
      ring
    have hc2 : ∀ x : ℝ, cell2 A 0 (9 / 10 * x) = 1 / A ^ 2 - 243 / 100 / A ^ 4 * x ^ 2 := by
      intro x
      unfold cell2
      field_simp
      ring
    have hs1 : ∑ s, ∑ _ : Fin a.R, (-1 / A + 81 / 100 / A ^ 3 * (β s - b0) ^ 2) = a.R * (a.S * (-19 / 100 / A)) := by
      simp only [Finset.sum_const, Finset.card_univ, Fintype.card_fin, nsmul_eq_mul]
      rw [← Finset.mul_sum, Finset.sum_add_distrib, ← Finset.mul_sum, hdev2]
      simp only [Finset.sum_const, Finset.card_univ, Fintype.card_fin, nsmul_eq_mul]
      field_simp
      ring
    have hs2 : ∑ s, ∑ _ : Fin a.R, (1 / A ^ 2 - 243 / 100 / A ^ 4 * (β s - b0) ^ 2) = a.R * (a.S * (-143 / 100 / A ^ 2)) := by
      simp only [Finset.sum_const, Finset.card_univ, Fintype.card_fin, nsmul_eq_mul]
      rw [← Finset.mul_sum, Finset.sum_sub_distrib, ← Finset.mul_sum, hdev2]
      simp only [Finset.sum_const, Finset.card_univ, Fintype.card_fin, nsmul_eq_mul]
      field_simp
      ring
    have hV : ((Finset.univ.filter fun e' => cid e' = cid e).card : ℝ) ≠ 0 := by
      have : (Finset.univ.filter fun e' => cid e' = cid e).Nonempty := ⟨e, by simp⟩
      exact_mod_cast this.card_pos.ne'
    have hite : ∀ y : ℝ, ∑ e', (if cid e' = cid e then y else 0) = (Finset.univ.filter fun e' => cid e' = cid e).card * y := by
      intro y
      rw [← Finset.sum_filter, Finset.sum_const, nsmul_eq_mul]
    rw [hclip, hnew]
    simp only [if_true, hres1, hc1, hc2, hs1, hs2, hite]
    have hne : (-143 / 100 / A ^ 2 : ℝ) ≠ 0 := by
      refine div_ne_zero (by norm_num) (pow_ne_zero 2 hA)
    rw [newtonStep_of_ne (mul_ne_zero hV (mul_ne_zero hRr (mul_ne_zero hSr hne)))]
    have : A * (9 / 10) + (A - ((Finset.univ.filter fun e' => cid e' = cid e).card : ℝ) * (a.R * (a.S * (-19 / 100 / A))) /
        (((Finset.univ.filter fun e' => cid e' = cid e).card : ℝ) * (a.R * (a.S * (-143 / 100 / A ^ 2))))) * (1 / 10) = A * (1 - 19 / 1430) := by
      field_simp
      ring
    rw [this]
    show Fl.fin (max _ 0) = _
    rw [max_eq_left hA1.le]
  have hat3 : At (fun _ _ (_ : Fin a.R) => true) cid (⟨(w 0).x, (w 1).b, (w 1).v, (w 1).a⟩ : Four a.E a.S C) (ξ 0) (fun s : Fin a.S => (β s - b0) / 10)
      (fun _ => 0) (fun _ => A * (1 - 19 / 1430)) := fun e s r _ =>
    ⟨hx 0 (Nat.zero_le _) e, hb1 s, hv1 s, ha1 e, hpos _ _ hA1⟩
  have hξ1 : ∀ e, ξ 1 e = ξ 0 e := by
    intro e
    obtain ⟨d1, d2, hd, hnew, -⟩ := hr.qualities _ _ _ _ hat3 e ⟨s0, r0, rfl⟩
    obtain ⟨rfl, rfl⟩ := Derivs.unique hd (derivs_x (fun _ _ _ _ => hpos _ _ hA1) e)
    rw [Nat.zero_add, hx 1 hn1 e] at hnew
    simp only [if_true, hres1] at hnew
    simp only [Finset.sum_const, Finset.card_univ, Fintype.card_fin, nsmul_eq_mul] at hnew
    have hz : ∑ s, (a.R : ℝ) * (9 / 10 * (β s - b0) / ((0 : ℝ) ^ 2 + (A * (1 - 19 / 1430)) ^ 2)) = 0 := by
      have : ∀ s, (a.R : ℝ) * (9 / 10 * (β s - b0) / ((0 : ℝ) ^ 2 + (A * (1 - 19 / 1430)) ^ 2)) =
          a.R * (9 / 10) / ((0 : ℝ) ^ 2 + (A * (1 - 19 / 1430)) ^ 2) * (β s - b0) := by intro s; ring
      simp only [this]
      rw [← Finset.mul_sum, hdev, mul_zero]
    have hne : (-1 : ℝ) / ((0 : ℝ) ^ 2 + (A * (1 - 19 / 1430)) ^ 2) ≠ 0 := div_ne_zero (by norm_num) (hpos 0 _ hA1).ne'
    rw [hz, newtonStep_of_ne (mul_ne_zero hSr (mul_ne_zero hRr hne)), Fl.fin_inj] at hnew
    rw [hnew]
    ring
  -- it stops
  have hn : n = 1 := by
    by_contra hne
    have := (hstop τ hτ).1 0 (by omega)
    have hz : qdist (ξ 0) (ξ (0 + 1)) = 0 := by
      unfold qdist
      simp [hξ1]
    rw [hz] at this
    linarith
  subst hn
  obtain ⟨m, hm0, hqual, hbias⟩ := hfinal (by rw [ho]) (by rw [ho]) _ hb1 hS
  have hm1 : m = 0 := by
    rw [hm0, ho]
    rw [if_neg (by decide), ← Finset.sum_div, hdev]
    simp
  refine ⟨?_, ?_, ?_, hnum, _, (hamb (by decide)).1, ?_⟩
  · rw [hqual]
    congr 1
    funext e
    rw [hξ1, hξ0, hm1, add_zero]
  · rw [hbias (by decide)]
    simp only [hm1, sub_zero]
  · rw [(hinc (by decide)).1]
    congr 2
    funext s
    exact hv1 s
  · intro e dv hdv
    have hlen : e.val < rd.disVideos.length := (List.getElem?_eq_some_iff.mp hdv).1
    have hcv : ((cid e).val : Int) = dv.contentId := by
      have h1 := congrArg (fun l => l[e.val]?) hcid
      rw [List.getElem?_ofFn, dif_pos e.isLt, List.getElem?_map, hdv] at h1
      simpa using h1
    rw [← hcv, Int.toNat_natCast, List.getElem?_ofFn, dif_pos (cid e).isLt]
    exact congrArg some (ha1 e)

/-! ### the example: one video of quality 2, two observers with biases -1 and 1 -/

/-- the biases of the two observers -/
def exBias : Fin 2 → ℝ := fun s => if s = 0 then -1 else 1

theorem exBias_avg : avg Finset.univ exBias = 0 := by
  unfold avg exBias
  simp

theorem exBias_spread : spread Finset.univ exBias = 1 := by
  unfold spread
  rw [exBias_avg]
  unfold avg exBias
  simp

/-- the run on the example -/
theorem ex_noise_free : ∃ res, Mle.run .default exMleReader {} = .ok res ∧ res.rawScores = some ⟨1, 2, 1, exVotes⟩ ∧
    res.qualityScores = (List.ofFn fun _ : Fin 1 => .fin 2) ∧ res.observerBias = some (List.ofFn fun s => .fin (exBias s / 10)) ∧
    res.observerInconsistency = some (List.ofFn fun _ : Fin 2 => .fin 0) ∧ res.numIter = some 1 ∧
    ∃ l, res.contentAmbiguity = some l ∧ ∀ (e : Fin 1) (dv : DisVideo String ℝ), exMleReader.disVideos[e.val]? = some dv →
      l[dv.contentId.toNat]? = some (.fin (1 - 19 / 1430)) := by
  obtain ⟨res, hr, hraw, -⟩ := ex_run
  have := C129_noise_free_partial exMleReader {} rfl (Or.inl rfl) (1 / 100000000) (Or.inr ⟨rfl, rfl⟩) (by norm_num) res hr ⟨1, 2, 1, exVotes⟩ rfl
    (by decide) (by decide) (by decide) (fun _ => 2) exBias
    (by
      intro e s r
      show exVotes e s r = _
      unfold exVotes exBias
      split <;> norm_num)
    (by rw [exBias_spread]; norm_num)
    (by
      intro s
      rw [exBias_avg, exBias_spread]
      unfold exBias
      split <;> norm_num)
  rw [exBias_avg, exBias_spread] at this
  simp only [add_zero, sub_zero, one_mul] at this
  exact ⟨res, hr, hraw, this⟩

/-- **C129, refuted for the biases.** The votes are the quality plus the biases -1 and 1, but the biases reported are -1/10 and 1/10. -/
theorem C129_refuted_biases : ¬ ∀ (rd : Reader String ℝ) (res : Result String ℝ) (a : Arr3D (Fl ℝ)) (q : Fin a.E → ℝ) (β : Fin a.S → ℝ),
    Mle.run .default rd {} = .ok res → rd.scores = .ok a → 0 < a.E → 0 < a.S → 0 < a.R → (∀ e s r, a.get e s r = .fin (q e + β s)) →
    res.observerBias = some (List.ofFn fun s => .fin (β s - avg Finset.univ β)) := by
  intro hall
  obtain ⟨res, hr, -, -, hb, -⟩ := ex_noise_free
  have := hall exMleReader res ⟨1, 2, 1, exVotes⟩ (fun _ => 2) exBias hr rfl (by decide) (by decide) (by decide) (by
    intro e s r
    show exVotes e s r = _
    unfold exVotes exBias
    split <;> norm_num)
  rw [hb, Option.some.injEq] at this
  have h1 := congrFun (List.ofFn_injective this) (1 : Fin 2)
  rw [exBias_avg, Fl.fin_inj] at h1
  norm_num [exBias] at h1

/-- the hypotheses of `C128_qualities_partial` on the example: there the distance is 0 -/
theorem ex_stop : ∃ res, Mle.run .default exMleReader {} = .ok res ∧
    qdist (fun _ : Fin 1 => 2) (weightedMean (fun (_ : Fin 1) (_ : Fin 2) (_ : Fin 1) => true) exX (fun s => exBias s / 10) (fun _ => 0)
      (fun _ => 1 - 19 / 1430)) < 9 * (1 / 100000000) := by
  obtain ⟨res, hr, hraw, hq, hb, hv, hn, l, hl, ha⟩ := ex_noise_free
  refine ⟨res, hr, ?_⟩
  exact C128_qualities_partial .default exMleReader {} res hr (Or.inl rfl) rfl rfl ⟨1, 2, 1, exVotes⟩ hraw (fun _ _ _ => true) exX
    (fun e s r => congrFun (congrFun (congrFun exVotes_mask e) s) r) (fun _ => ⟨(0 : Fin 2), (0 : Fin 1), rfl⟩) 1 hn (by decide) _ (Or.inr ⟨rfl, rfl⟩)
    (fun _ => 2) (fun _ => 1 - 19 / 1430) (fun s => exBias s / 10) (fun _ => 0) hq hb hv (fun h => by cases h)
    (fun l' hl' e dv hdv => by
      rw [hl] at hl'
      cases hl'
      exact ha e dv hdv) (fun h => by cases h) (fun _ _ _ _ => by norm_num)

/-- **C128, refuted for the biases.** The run stops by its threshold, `1/100000000`, after one pass, but the biases reported are at a distance
greater than 1 from the weighted means of the observers' votes less the qualities, which maximise the likelihood for the
other reported parameters. -/
theorem C128_refuted_biases : ∃ (res : Result String ℝ) (β : Fin 2 → ℝ), Mle.run .default exMleReader {} = .ok res ∧ res.numIter = some 1 ∧
    res.qualityScores = (List.ofFn fun _ : Fin 1 => .fin 2) ∧ res.observerBias = some (List.ofFn fun s => .fin (β s)) ∧
    res.observerInconsistency = some (List.ofFn fun _ : Fin 2 => .fin 0) ∧
    (∃ l, res.contentAmbiguity = some l ∧ l[0]? = some (.fin (1 - 19 / 1430))) ∧
    1 < qdist β (weightedMean (fun (_ : Fin 2) (_ : Fin 1) (_ : Fin 1) => true) (fun s e r => exX e s r) (fun _ => 2) (fun _ => 1 - 19 / 1430) (fun _ => 0)) := by
  obtain ⟨res, hr, hraw, hq, hb, hv, hn, l, hl, ha⟩ := ex_noise_free
  refine ⟨res, fun s => exBias s / 10, hr, hn, hq, hb, hv, ⟨l, hl, ha 0 _ rfl⟩, ?_⟩
  have : (∑ s, (exBias s / 10 - weightedMean (fun (_ : Fin 2) (_ : Fin 1) (_ : Fin 1) => true) (fun s e r => exX e s r) (fun _ => 2)
      (fun _ => 1 - 19 / 1430) (fun _ => 0) s) ^ 2) = 162 / 100 := by
    unfold weightedMean exBias exX
    simp
    norm_num
  unfold qdist
  rw [this]
  rw [show (1 : ℝ) = Real.sqrt 1 from Real.sqrt_one.symm]
  exact Real.sqrt_lt_sqrt (by norm_num) (by norm_num)

end Sureal.Props
