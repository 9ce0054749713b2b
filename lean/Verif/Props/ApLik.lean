import Verif.Lemmas.ApLik
import Verif.Props.ApSym
/-!
# C102: the passes of the alternating projection climb the likelihood

`Spec.apCost` is the deviance (-2 times the logarithm of the likelihood) of quality scores and biases under the best
variances of the observers; the solver enlarges every variance by `10^-8`, and so does `apCost`.
-/
set_option linter.unusedSectionVars false
namespace Sureal.Props
open Sureal Spec Ap
variable {κ : Type} {J I R : ℕ}

/-- the scores and biases after `k` passes of the loop when its two tests for stopping are left out -/
noncomputable def after (x : Arr3 (Fl ℝ) J I R) : ℕ → Arr1 (Fl ℝ) J × Arr1 (Fl ℝ) I
  | 0 => (meanAlongS x, biases x (meanAlongS x))
  | k + 1 => ((step x k (after x k).1 (after x k).2).s, (step x k (after x k).1 (after x k).2).b)

/-- the array holds the votes `X` where `P` says so, and NaN elsewhere -/
def Holds (x : Arr3 (Fl ℝ) J I R) (P : Fin J → Fin I → Fin R → Bool) (X : Fin J → Fin I → Fin R → ℝ) : Prop :=
  ∀ j i r, x j i r = mask (P j i r) (X j i r)

/-- every video has a vote and every observer has a vote -/
def Voted (P : Fin J → Fin I → Fin R → Bool) : Prop :=
  (∀ j, ∃ i r, P j i r = true) ∧ ∀ i, ∃ j r, P j i r = true

/-! ## helper lemmas -/

theorem Holds.eq {x : Arr3 (Fl ℝ) J I R} {P : Fin J → Fin I → Fin R → Bool} {X : Fin J → Fin I → Fin R → ℝ}
    (h : Holds x P X) : x = maskX P X := by
  funext j i r
  exact h j i r

theorem Voted.videos {P : Fin J → Fin I → Fin R → Bool} (h : Voted P) (j : Fin J) : (votesOnVideo P j).Nonempty := by
  obtain ⟨i, r, h⟩ := h.1 j
  exact voted_of h

theorem Voted.observers {P : Fin J → Fin I → Fin R → Bool} (h : Voted P) (i : Fin I) : (votesOfObserver P i).Nonempty := by
  obtain ⟨j, r, h⟩ := h.2 i
  exact voter_of h

theorem maskS_fin {P : Fin J → Fin I → Fin R → Bool} (h : Voted P) (S : Fin J → ℝ) : maskS P S = fun j => .fin (S j) := by
  funext j; simp [maskS, h.videos j]

theorem maskB_fin {P : Fin J → Fin I → Fin R → Bool} (h : Voted P) (B : Fin I → ℝ) : maskB P B = fun i => .fin (B i) := by
  funext i; simp [maskB, h.observers i]

theorem after_mask (P : Fin J → Fin I → Fin R → Bool) (X : Fin J → Fin I → Fin R → ℝ) (k : ℕ) :
    after (maskX P X) k = (maskS P (seq P X k), maskB P (apBias P X (seq P X k))) := by
  induction k with
  | zero =>
    show (meanAlongS (maskX P X), biases (maskX P X) (meanAlongS (maskX P X))) = _
    rw [init_spec, biases_spec]
    rfl
  | succ k ih =>
    show ((step (maskX P X) k (after (maskX P X) k).1 (after (maskX P X) k).2).s, _) = _
    rw [ih]
    dsimp only
    rw [step_spec]
    rfl

theorem after_fin {x : Arr3 (Fl ℝ) J I R} {P : Fin J → Fin I → Fin R → Bool} {X : Fin J → Fin I → Fin R → ℝ}
    (hx : Holds x P X) (h : Voted P) (k : ℕ) :
    after x k = (fun j => .fin (seq P X k j), fun i => .fin (apBias P X (seq P X k) i)) := by
  rw [hx.eq, after_mask, maskS_fin h, maskB_fin h]

theorem fin_inj {n : ℕ} {f g : Fin n → ℝ} (h : (fun i => (Fl.fin (f i) : Fl ℝ)) = fun i => .fin (g i)) : f = g := by
  funext i
  have := congrFun h i
  injection this

/-! ## C102 -/

/-- What the cost means: it is the least deviance over all positive variances (up to the number of votes). -/
theorem C102_cost_isLeast (P : Fin J → Fin I → Fin R → Bool) (X : Fin J → Fin I → Fin R → ℝ) (S : Fin J → ℝ) (B : Fin I → ℝ) :
    IsLeast {d | ∃ T : Fin I → ℝ, (∀ i, 0 < T i) ∧ d = apDeviance P X S B T} (apCost P X S B + totalVotes P) :=
  ⟨⟨_, fun i => var_pos P X S B i, (deviance_best P X S B).symm⟩, by
    rintro d ⟨T, hT, rfl⟩
    exact deviance_ge P X S B T hT⟩

/-- **C102**.  Every pass of the loop leads from numbers to numbers; it never raises the cost, and it lowers the cost
unless the quality scores stay the same. -/
theorem C102_pass (x : Arr3 (Fl ℝ) J I R) (P : Fin J → Fin I → Fin R → Bool) (X : Fin J → Fin I → Fin R → ℝ)
    (hx : Holds x P X) (h : Voted P) (k : ℕ) :
    ∃ (S S' : Fin J → ℝ) (B B' : Fin I → ℝ),
      after x k = (fun j => .fin (S j), fun i => .fin (B i)) ∧
      after x (k + 1) = (fun j => .fin (S' j), fun i => .fin (B' i)) ∧
      apCost P X S' B' ≤ apCost P X S B ∧ (S' ≠ S → apCost P X S' B' < apCost P X S B) :=
  ⟨seq P X k, seq P X (k + 1), _, _, after_fin hx h k, after_fin hx h (k + 1),
    next_cost_le P X h.videos _, fun hne => next_cost_lt P X h.videos _ hne⟩

/-- **C102**.  The changes of the quality scores tend to 0.  In particular the test of the loop for a change below
`10^-8` succeeds after finitely many passes, also if there were no limit of 1000 passes. -/
theorem C102_stops (x : Arr3 (Fl ℝ) J I R) (P : Fin J → Fin I → Fin R → Bool) (X : Fin J → Fin I → Fin R → ℝ)
    (hx : Holds x P X) (h : Voted P) :
    (∀ ε : ℝ, 0 < ε → ∃ N, ∀ k, N ≤ k → ∃ d : ℝ, d < ε ∧
      Np.linalgNorm (List.ofFn fun j => (after x k).1 j - (after x (k + 1)).1 j) = .ok (.fin d)) ∧
    ∃ k d, Np.linalgNorm (List.ofFn fun j => (after x k).1 j - (step x k (after x k).1 (after x k).2).s j) = .ok d ∧
      Fl.lt d deltaThr = true := by
  have hnorm : ∀ k, Np.linalgNorm (List.ofFn fun j => (after x k).1 j - (after x (k + 1)).1 j)
      = .ok (.fin (Real.sqrt (change P X k))) := by
    intro k
    rw [hx.eq, after_mask, after_mask]
    exact norm_mask P _ _ h.videos
  have h1 : ∀ ε : ℝ, 0 < ε → ∃ N, ∀ k, N ≤ k → ∃ d : ℝ, d < ε ∧
      Np.linalgNorm (List.ofFn fun j => (after x k).1 j - (after x (k + 1)).1 j) = .ok (.fin d) := by
    intro ε hε
    have ht := (change_tendsto P X h.videos).eventually (gt_mem_nhds (show (0:ℝ) < ε ^ 2 by positivity))
    obtain ⟨N, hN⟩ := Filter.eventually_atTop.mp ht
    refine ⟨N, fun k hk => ⟨Real.sqrt (change P X k), ?_, hnorm k⟩⟩
    rw [Real.sqrt_lt' hε]
    exact hN k hk
  refine ⟨h1, ?_⟩
  obtain ⟨N, hN⟩ := h1 (1 / 100000000) (by norm_num)
  obtain ⟨d, hd, he⟩ := hN N (le_refl _)
  refine ⟨N, .fin d, he, ?_⟩
  unfold deltaThr Fl.dec
  rw [Fl.lt_fin]
  simpa using hd

/-- **C102**.  A pass leaves scores and biases unchanged exactly at the stationary points of the cost. -/
theorem C102_fixed_iff (x : Arr3 (Fl ℝ) J I R) (P : Fin J → Fin I → Fin R → Bool) (X : Fin J → Fin I → Fin R → ℝ)
    (hx : Holds x P X) (h : Voted P) (k : ℕ) (S : Fin J → ℝ) (B : Fin I → ℝ) :
    ((step x k (fun j => .fin (S j)) fun i => .fin (B i)).s = (fun j => .fin (S j)) ∧
      (step x k (fun j => .fin (S j)) fun i => .fin (B i)).b = fun i => .fin (B i)) ↔ ApStationary P X S B := by
  rw [stationary_iff P X h.videos h.observers, hx.eq, ← maskS_fin h, ← maskB_fin h, step_spec]
  dsimp only
  rw [maskS_fin h, maskS_fin h, maskB_fin h, maskB_fin h]
  constructor
  · rintro ⟨h1, h2⟩
    have h1 := fin_inj h1
    have h2 := fin_inj h2
    rw [h1] at h2
    refine ⟨h2.symm, ?_⟩
    unfold next
    rw [h2]
    exact h1
  · rintro ⟨h1, h2⟩
    subst h1
    have h3 : apQuality P X (apBias P X S) (apSpread P X S (apBias P X S)) = S := h2
    rw [h3]
    exact ⟨rfl, rfl⟩

/-- **C102**.  Wherever the passes accumulate, the cost is stationary. -/
theorem C102_limits (x : Arr3 (Fl ℝ) J I R) (P : Fin J → Fin I → Fin R → Bool) (X : Fin J → Fin I → Fin R → ℝ)
    (hx : Holds x P X) (h : Voted P) (S : ℕ → Fin J → ℝ) (B : ℕ → Fin I → ℝ)
    (hS : ∀ k, after x k = (fun j => .fin (S k j), fun i => .fin (B k i))) (S0 : Fin J → ℝ) (B0 : Fin I → ℝ)
    (hc : MapClusterPt (S0, B0) Filter.atTop fun k => (S k, B k)) : ApStationary P X S0 B0 := by
  have hSk : ∀ k, S k = seq P X k ∧ B k = apBias P X (seq P X k) := by
    intro k
    have h1 := hS k
    rw [after_fin hx h k, Prod.mk.injEq] at h1
    exact ⟨(fin_inj h1.1).symm, (fin_inj h1.2).symm⟩
  have hfun : (fun k => (S k, B k)) = fun k => (seq P X k, apBias P X (seq P X k)) := by
    funext k; rw [(hSk k).1, (hSk k).2]
  rw [hfun] at hc
  have h1 : MapClusterPt S0 Filter.atTop (seq P X) :=
    hc.continuousAt_comp (f := Prod.fst) continuous_fst.continuousAt
  rw [stationary_iff P X h.videos h.observers]
  refine ⟨?_, cluster_fixed P X h.videos S0 h1⟩
  have hcl : IsClosed {p : (Fin J → ℝ) × (Fin I → ℝ) | p.2 = apBias P X p.1} :=
    isClosed_eq continuous_snd (continuous_pi fun i => (continuous_apBias P X i).comp continuous_fst)
  exact hcl.mem_of_mapClusterPt hc (Filter.Eventually.of_forall fun k => rfl)

/-- **C102**.  Without missing votes the passes do accumulate somewhere. -/
theorem C102_limits_exist (x : Arr3 (Fl ℝ) J I R) (X : Fin J → Fin I → Fin R → ℝ) (hI : 0 < I) (hJ : 0 < J) (hR : 0 < R)
    (hx : ∀ j i r, x j i r = .fin (X j i r)) :
    ∃ (S : ℕ → Fin J → ℝ) (B : ℕ → Fin I → ℝ) (S0 : Fin J → ℝ) (B0 : Fin I → ℝ),
      (∀ k, after x k = (fun j => .fin (S k j), fun i => .fin (B k i))) ∧
      MapClusterPt (S0, B0) Filter.atTop (fun k => (S k, B k)) ∧
      ApStationary (fun _ _ _ => true) X S0 B0 := by
  set P : Fin J → Fin I → Fin R → Bool := fun _ _ _ => true with hP
  have hx' : Holds x P X := hx
  have h : Voted P := ⟨fun _ => ⟨⟨0, hI⟩, ⟨0, hR⟩, rfl⟩, fun _ => ⟨⟨0, hJ⟩, ⟨0, hR⟩, rfl⟩⟩
  obtain ⟨S0, hS0⟩ := seq_cluster P X (fun _ _ _ => rfl) hI hR
  have hc : MapClusterPt (S0, apBias P X S0) Filter.atTop (fun k => (seq P X k, apBias P X (seq P X k))) :=
    hS0.continuousAt_comp (f := fun S => (S, apBias P X S))
      (continuous_id.prodMk (continuous_pi fun i => continuous_apBias P X i)).continuousAt
  exact ⟨seq P X, fun k => apBias P X (seq P X k), S0, apBias P X S0, after_fin hx' h, hc,
    C102_limits x P X hx' h (seq P X) (fun k => apBias P X (seq P X k)) (after_fin hx' h) S0 _ hc⟩

/-- what a fit on masked votes is -/
theorem fit_seq (P : Fin J → Fin I → Fin R → Bool) (X : Fin J → Fin I → Fin R → ℝ) (f : Fit ℝ J I)
    (hf : fit (maskX P X) = .ok f) :
    (∀ j, (votesOnVideo P j).Nonempty) ∧ ∃ k, f.s = maskS P (seq P X (k + 1)) ∧ f.b = maskB P (apBias P X (seq P X (k + 1))) := by
  have hv : ∀ j, (votesOnVideo P j).Nonempty := by
    rcases fit_mask P X with ⟨_, h⟩ | ⟨hv, _⟩
    · rw [h] at hf; cases hf
    · exact hv
  refine ⟨hv, ?_⟩
  unfold fit at hf
  dsimp only at hf
  rw [init_spec, biases_spec] at hf
  rcases loop_inv (x := maskX P X) (fun s b => ∃ k, s = maskS P (seq P X k) ∧ b = maskB P (apBias P X (seq P X k)))
    (by
      rintro k s b ⟨n, rfl, rfl⟩
      rw [step_spec]
      exact ⟨n + 1, rfl, rfl⟩) 0 (maskS P (mos0 P X)) (maskB P (apBias P X (mos0 P X))) ⟨0, rfl, rfl⟩ (by unfold maxItr; norm_num) with
    ⟨e, k, s1, b1, _, _, h3⟩ | ⟨k, s1, b1, d, _, _, ⟨n, rfl, rfl⟩, _, h3⟩
  · have := hf.symm.trans h3
    cases this
  · have h3 := hf.symm.trans h3
    injection h3 with h3
    rw [h3, step_spec]
    exact ⟨n, rfl, rfl⟩

/-- **C102**.  What a run reports has at most the cost of the mean opinion scores with the biases against them. -/
theorem C102_run (sd : StdFormula) (rd : Reader κ ℝ) (o : Opts ℝ) (h1 : o.normalizeFinal = none)
    (h2 : o.transformFinal = none) (res : Result κ ℝ) (hr : runAPWith sd rd o = .ok res) (a : Arr3D (Fl ℝ))
    (ha : res.rawScores = some a) (P : Fin a.E → Fin a.S → Fin a.R → Bool) (X : Fin a.E → Fin a.S → Fin a.R → ℝ)
    (hx : Holds a.get P X) (ho : ∀ i, ∃ j r, P j i r = true) :
    ∃ (q : Fin a.E → ℝ) (b : Fin a.S → ℝ),
      res.qualityScores = List.ofFn (fun j => .fin (q j)) ∧
      res.observerBias = some (List.ofFn fun i => .fin (b i)) ∧
      ∀ (m : Fin a.E → ℝ) (b0 : Fin a.S → ℝ), (∀ j, m j = avg (votesOnVideo P j) fun c => X j c.1 c.2) →
        (∀ i, b0 i = avg (votesOfObserver P i) fun c => X c.1 i c.2 - m c.1) →
        apCost P X q b ≤ apCost P X m b0 := by
  obtain ⟨p, f, hp, hf, hres⟩ := ap_run hr
  have hpa : p.arr = a := by
    rw [hres] at ha
    simpa [result] using ha
  subst hpa
  have hX := hx.eq
  rw [hX] at hf
  obtain ⟨hv, k, hs, hb⟩ := fit_seq P X f hf
  have h : Voted P := ⟨fun j => by
    obtain ⟨⟨i, r⟩, hc⟩ := hv j
    simp only [votesOnVideo, Finset.mem_filter, Finset.mem_univ, true_and] at hc
    exact ⟨i, r, hc⟩, ho⟩
  rw [maskS_fin h] at hs
  have hbm := hb
  rw [maskB_fin h] at hb
  have hcost := seq_cost_anti P X hv (k + 1)
  have hstart : ∀ (m : Fin p.arr.E → ℝ) (b0 : Fin p.arr.S → ℝ), (∀ j, m j = avg (votesOnVideo P j) fun c => X j c.1 c.2) →
        (∀ i, b0 i = avg (votesOfObserver P i) fun c => X c.1 i c.2 - m c.1) → m = mos0 P X ∧ b0 = apBias P X (mos0 P X) := by
    intro m b0 hm hb0
    have hm' : m = mos0 P X := funext hm
    subst hm'
    exact ⟨rfl, funext hb0⟩
  obtain ⟨t, hcen⟩ : ∃ t : ℝ, centre (forced o) f.s f.b = (fun j => .fin (seq P X (k + 1) j + t),
      fun i => .fin (apBias P X (seq P X (k + 1)) i - t)) := by
    cases hfo : forced o
    · refine ⟨0, ?_⟩
      unfold centre
      rw [if_neg (by simp), hs, hb]
      simp
    · refine ⟨(∑ i, apBias P X (seq P X (k + 1)) i) / p.arr.S, ?_⟩
      unfold centre
      rw [if_pos rfl]
      dsimp only
      rw [show Np.mean (List.ofFn f.b) = Np.mean (List.ofFn (maskB P (apBias P X (seq P X (k + 1))))) by rw [hbm], mean_maskB]
      rcases Nat.eq_zero_or_pos p.arr.S with h0 | h0
      · refine Prod.ext (funext fun j => ?_) (funext fun i => ?_)
        · obtain ⟨⟨i, _⟩, _⟩ := hv j
          exact absurd i.isLt (by omega)
        · exact absurd i.isLt (by omega)
      · rw [decide_eq_true ⟨h0, h.observers⟩, hs, hb]
        rfl
  refine ⟨fun j => seq P X (k + 1) j + t, fun i => apBias P X (seq P X (k + 1)) i - t, ?_, ?_, ?_⟩
  · rw [hres, post_plain h1 h2, hcen]
  · rw [hres]
    show some (List.ofFn (centre (forced o) f.s f.b).2) = _
    rw [hcen]
  · intro m b0 hm hb0
    obtain ⟨rfl, rfl⟩ := hstart m b0 hm hb0
    rw [apCost_shift]
    exact hcost

/-! ## examples and the limits of the claim -/

/-- two observers with opposite opinions on two videos -/
def crossX : Fin 2 → Fin 2 → Fin 1 → ℝ := fun j i _ => if j = i then 0 else 1

/-- all votes are present -/
def everyVote : Fin 2 → Fin 2 → Fin 1 → Bool := fun _ _ _ => true

theorem allVotes_voted : Voted everyVote := ⟨fun _ => ⟨0, 0, rfl⟩, fun _ => ⟨0, 0, rfl⟩⟩

theorem cross_start : mos0 everyVote crossX = (fun _ => 1 / 2) ∧ apBias everyVote crossX (fun _ => 1 / 2) = fun _ => 0 := by
  have hv : ∀ j, votesOnVideo everyVote j = Finset.univ := complete_videos _ fun _ _ _ => rfl
  have ho : ∀ j, votesOfObserver everyVote j = Finset.univ := complete_observers _ fun _ _ _ => rfl
  constructor
  · funext j
    unfold mos0
    rw [hv]
    fin_cases j <;> simp [avg, crossX, Fintype.sum_prod_type, Fin.sum_univ_succ]
  · funext i
    unfold apBias
    rw [ho]
    fin_cases i <;> simp [avg, crossX, Fintype.sum_prod_type, Fin.sum_univ_succ]

theorem cross_meanSq (i : Fin 2) : apMeanSq everyVote crossX (fun _ => 1 / 2) (fun _ => 0) i = 1 / 4 := by
  unfold apMeanSq
  rw [complete_observers everyVote fun _ _ _ => rfl]
  fin_cases i <;> simp [avg, crossX, Fintype.sum_prod_type, Fin.sum_univ_succ] <;> norm_num

theorem cross_next : next everyVote crossX (fun _ => 1 / 2) = fun _ => 1 / 2 := by
  funext j
  have hw : ∀ i, apWeight (apSpread everyVote crossX (fun _ => 1 / 2) (apBias everyVote crossX fun _ => 1 / 2) i)
      = 1 / (1 / 4 + 1 / 100000000) := by
    intro i
    rw [weight_eq, cross_start.2, cross_meanSq]
  unfold next apQuality wavg
  simp only [hw]
  rw [cross_start.2, complete_videos everyVote fun _ _ _ => rfl]
  fin_cases j <;> simp [crossX, Fintype.sum_prod_type, Fin.sum_univ_succ] <;> norm_num

theorem cross_run (sd : StdFormula) : ∃ res,
    runAPWith sd (arrReader 2 2 1 fun j i r => .fin (crossX j i r)) {} = .ok res ∧
    res.qualityScores = [.fin (1 / 2), .fin (1 / 2)] ∧ res.observerBias = some [.fin 0, .fin 0] ∧
    res.observerInconsistency = some (List.ofFn fun i => .fin (apSpread everyVote crossX (fun _ => 1 / 2) (fun _ => 0) i)) := by
  have hX : (fun j i r => (Fl.fin (crossX j i r) : Fl ℝ)) = maskX everyVote crossX := rfl
  have hfit : fit (maskX everyVote crossX) = .ok (step (maskX everyVote crossX) 0 (maskS everyVote (fun _ => 1 / 2))
      (maskB everyVote fun _ => 0)) := by
    unfold fit
    dsimp only
    rw [init_spec, show (fun j => avg (votesOnVideo everyVote j) fun c => crossX j c.1 c.2) = fun _ => (1:ℝ) / 2 from cross_start.1,
      biases_spec, cross_start.2, loop_unfold, step_spec]
    dsimp only
    have hn : apQuality everyVote crossX (fun _ => 0) (apSpread everyVote crossX (fun _ => 1 / 2) fun _ => 0) = fun _ => 1 / 2 := by
      have := cross_next
      unfold next at this
      rwa [cross_start.2] at this
    rw [hn, norm_mask everyVote _ _ allVotes_voted.videos]
    simp only [sub_self, ne_eq, OfNat.ofNat_ne_zero, not_false_eq_true, zero_pow, Finset.sum_const_zero, Real.sqrt_zero]
    rw [if_pos]
    unfold deltaThr Fl.dec
    rw [Fl.lt_fin]
    norm_num
  have hstep : ∃ u n, step (maskX everyVote crossX) 0 (maskS everyVote (fun _ => 1 / 2)) (maskB everyVote fun _ => 0)
      = { s := fun _ => .fin (1 / 2), b := fun _ => .fin 0, vi := fun i => .fin (apSpread everyVote crossX (fun _ => 1 / 2) (fun _ => 0) i), vj := u, itr := n } := by
    rw [step_spec]
    have hn : apQuality everyVote crossX (fun _ => 0) (apSpread everyVote crossX (fun _ => 1 / 2) fun _ => 0) = fun _ => 1 / 2 := by
      have := cross_next
      unfold next at this
      rwa [cross_start.2] at this
    rw [hn, cross_start.2, maskS_fin allVotes_voted, maskB_fin allVotes_voted, maskB_fin allVotes_voted]
    exact ⟨_, _, rfl⟩
  obtain ⟨u, n, hstep⟩ := hstep
  rw [hstep] at hfit
  have hp := preprocess_zeromean (rd := arrReader 2 2 1 fun j i r => .fin (crossX j i r)) (a := ⟨2, 2, 1, fun j i r => .fin (crossX j i r)⟩) rfl none
  obtain ⟨res, hres⟩ := (ap_runs (sd := sd) (arr_harmless 2 2 1 fun j i r => .fin (crossX j i r)) hp).1 _ hfit
  obtain ⟨p, f, hp', hf', hr⟩ := ap_run hres
  have hpp : p = { arr := ⟨2, 2, 1, fun j i r => .fin (crossX j i r)⟩, orig := ⟨2, 2, 1, fun j i r => .fin (crossX j i r)⟩ } := by
    have := hp'.symm.trans hp
    injection this
  subst hpp
  have hff : f = { s := fun _ => .fin (1 / 2), b := fun _ => .fin 0, vi := fun i => .fin (apSpread everyVote crossX (fun _ => 1 / 2) (fun _ => 0) i), vj := u, itr := n } := by
    have := hf'.symm.trans hfit
    injection this
  subst hff
  have hcen : centre (forced ({} : Opts ℝ)) (fun _ : Fin 2 => (Fl.fin (1 / 2) : Fl ℝ)) (fun _ : Fin 2 => .fin 0)
      = (fun _ => .fin (1 / 2), fun _ => .fin 0) := by
    unfold centre
    rw [forced_true (by simp), if_pos rfl]
    dsimp only
    rw [show (fun _ : Fin 2 => (Fl.fin 0 : Fl ℝ)) = maskB everyVote fun _ => 0 from (maskB_fin allVotes_voted _).symm, mean_maskB,
      decide_eq_true ⟨by norm_num, allVotes_voted.observers⟩, maskB_fin allVotes_voted]
    simp
  refine ⟨res, hres, ?_, ?_, ?_⟩
  · rw [hr, post_plain rfl rfl]
    dsimp only
    rw [hcen]
    simp [List.ofFn_succ]
  · rw [hr]
    show some (List.ofFn (centre (forced ({} : Opts ℝ)) _ _).2) = _
    rw [hcen]
    simp [List.ofFn_succ]
  · rw [hr]
    rfl

/-- The stationary point the solver finds need not be the best: here it reports equal scores for the two videos, but
the scores of the first observer have a smaller cost (their likelihood is larger). -/
theorem C102_refuted_global (sd : StdFormula) : ∃ res,
    runAPWith sd (arrReader 2 2 1 fun j i r => .fin (crossX j i r)) {} = .ok res ∧
    res.qualityScores = [.fin (1 / 2), .fin (1 / 2)] ∧ res.observerBias = some [.fin 0, .fin 0] ∧
    apCost everyVote crossX ![0, 1] ![0, 0] < apCost everyVote crossX ![1 / 2, 1 / 2] ![0, 0] := by
  obtain ⟨res, h1, h2, h3, -⟩ := cross_run sd
  refine ⟨res, h1, h2, h3, ?_⟩
  · have hc : ∀ i, (votesOfObserver everyVote i).card = 2 := by
      intro i
      rw [complete_observers everyVote fun _ _ _ => rfl]
      rfl
    have h1 : apMeanSq everyVote crossX ![0, 1] ![0, 0] 0 = 0 ∧ apMeanSq everyVote crossX ![0, 1] ![0, 0] 1 = 1 := by
      constructor <;>
      · unfold apMeanSq
        rw [complete_observers everyVote fun _ _ _ => rfl]
        simp [avg, crossX, Fintype.sum_prod_type, Fin.sum_univ_succ]
    have h2 : ∀ i, apMeanSq everyVote crossX ![1 / 2, 1 / 2] ![0, 0] i = 1 / 4 := by
      intro i
      rw [← cross_meanSq i]
      congr 1
      · funext j; fin_cases j <;> rfl
      · funext j; fin_cases j <;> rfl
    unfold apCost
    simp only [hc, h2, Fin.sum_univ_two, h1.1, h1.2, zero_add]
    have h3 : Real.log (1 / 100000000) + Real.log (1 + 1 / 100000000) < Real.log (1 / 4 + 1 / 100000000) + Real.log (1 / 4 + 1 / 100000000) := by
      rw [← Real.log_mul (by norm_num) (by norm_num), ← Real.log_mul (by norm_num) (by norm_num)]
      apply Real.log_lt_log <;> norm_num
    push_cast
    linarith

/-- the hypotheses of `C102_pass`, `C102_stops`, `C102_fixed_iff` are met, also with a missing vote -/
example : ∃ (x : Arr3 (Fl ℝ) 2 2 1) (P : Fin 2 → Fin 2 → Fin 1 → Bool) (X : Fin 2 → Fin 2 → Fin 1 → ℝ),
    Holds x P X ∧ Voted P ∧ x 0 0 0 = .fin 3 ∧ x 0 1 0 = .nan ∧ x 1 0 0 = .fin 5 ∧ x 1 1 0 = .fin 4 :=
  ⟨fun j i r => mask (!(j == 0 && i == 1)) (![![3, 0], ![5, 4]] j i), fun j i _ => !(j == 0 && i == 1),
    fun j i _ => ![![3, 0], ![5, 4]] j i, fun _ _ _ => rfl,
    ⟨fun j => by fin_cases j; exacts [⟨0, 0, rfl⟩, ⟨0, 0, rfl⟩], fun i => by fin_cases i; exacts [⟨0, 0, rfl⟩, ⟨1, 0, rfl⟩]⟩,
    by simp [mask], by simp [mask], by simp [mask], by simp [mask]⟩

/-- `C102_fixed_iff` applies to the run above: it stopped at a stationary point -/
example : ApStationary everyVote crossX (fun _ => 1 / 2) fun _ => 0 := by
  rw [stationary_iff _ _ allVotes_voted.videos allVotes_voted.observers]
  exact ⟨cross_start.2.symm, cross_next⟩

/-- and not everything is stationary -/
example : ¬ ApStationary everyVote crossX ![0, 0] ![0, 0] := by
  rw [stationary_iff _ _ allVotes_voted.videos allVotes_voted.observers]
  rintro ⟨h, _⟩
  have := congrFun h 0
  unfold apBias at this
  rw [complete_observers everyVote fun _ _ _ => rfl] at this
  simp [avg, crossX, Fintype.sum_prod_type, Fin.sum_univ_succ] at this

/-- `C102_run` applies to a run with a missing vote -/
example (sd : StdFormula) : ∃ res : Result String ℝ, runAPWith sd (arrReader 2 2 1 exArr) {} = .ok res :=
  (C27_succeeds_iff sd (arrReader 2 2 1 exArr) (arr_harmless _ _ _ _) _ rfl exArr_rated.1 none).1 exArr_rated.2.1

end Sureal.Props
