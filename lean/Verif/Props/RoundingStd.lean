import Verif.Props.Rounding
import Mathlib.Tactic.LinearCombination
/-!
# C115: ambiguities and standard errors in floating-point arithmetic
-/
set_option linter.unusedSectionVars false
namespace Sureal.Props
open Spec

section
variable {κ : Type} {ρ : ℝ → ℝ} {N : ℕ} {E S R : ℕ}

/-- the sum of squared deviations from a number other than the mean -/
theorem sum_sq_about (l : List ℝ) (h0 : l ≠ []) (m : ℝ) : (l.map fun x => (x - m) ^ 2).sum = sqDev l + l.length * (m - mean l) ^ 2 := by
  have hl : (l.length : ℝ) ≠ 0 := by
    have := List.length_pos_iff.mpr h0
    positivity
  have key : ∀ (l : List ℝ) (c : ℝ), (l.map fun x => (x - m) ^ 2).sum = (l.map fun x => (x - c) ^ 2).sum + 2 * (c - m) * (l.sum - l.length * c) + l.length * (m - c) ^ 2 := by
    intro l c
    induction l with
    | nil => simp
    | cons x l ih =>
      simp only [List.map_cons, List.sum_cons, List.length_cons, ih]
      push_cast
      ring
  rw [key l (mean l)]
  have : l.sum - l.length * mean l = 0 := by
    unfold mean
    field_simp
    ring
  rw [this]
  unfold sqDev
  ring

theorem relErr_nonneg {u : ℝ} (h : RelErr ρ u) {y : ℝ} (hy : 0 ≤ y) : (1 - u) * y ≤ ρ y ∧ ρ y ≤ (1 + u) * y := by
  have := abs_le.mp (h y)
  rw [abs_of_nonneg hy] at this
  constructor <;> linarith [this.1, this.2]

/-- a square formed in rounded arithmetic -/
theorem relErr_sq {u : ℝ} (hu : 0 ≤ u) (hu1 : u < 1) (h : RelErr ρ u) (y : ℝ) :
    (1 - u) ^ 3 * y ^ 2 ≤ ρ (ρ y * ρ y) ∧ ρ (ρ y * ρ y) ≤ (1 + u) ^ 3 * y ^ 2 := by
  have g : 0 ≤ 1 - u := by linarith
  have h1 : (1 - u) * |y| ≤ |ρ y| := by
    have h2 := h y
    have h3 : |y| ≤ |ρ y - y| + |ρ y| := by
      have := abs_sub_abs_le_abs_sub y (ρ y)
      rw [abs_sub_comm] at this
      linarith
    linarith
  have h2 : |ρ y| ≤ (1 + u) * |y| := by
    have h2 := h y
    have h3 := abs_add_le (ρ y - y) y
    rw [sub_add_cancel] at h3
    linarith
  have e : ρ y * ρ y = |ρ y| ^ 2 := by rw [sq_abs]; ring
  have e2 : |y| ^ 2 = y ^ 2 := sq_abs y
  have p1 : (1 - u) ^ 2 * y ^ 2 ≤ |ρ y| ^ 2 := by
    rw [← e2, ← mul_pow]
    exact pow_le_pow_left₀ (mul_nonneg g (abs_nonneg _)) h1 2
  have p2 : |ρ y| ^ 2 ≤ (1 + u) ^ 2 * y ^ 2 := by
    rw [← e2, ← mul_pow]
    exact pow_le_pow_left₀ (abs_nonneg _) h2 2
  obtain ⟨q1, q2⟩ := relErr_nonneg h (mul_self_nonneg (ρ y))
  rw [e] at q1 q2 ⊢
  constructor
  · calc (1 - u) ^ 3 * y ^ 2 = (1 - u) * ((1 - u) ^ 2 * y ^ 2) := by ring
      _ ≤ (1 - u) * |ρ y| ^ 2 := mul_le_mul_of_nonneg_left p1 g
      _ ≤ _ := q1
  · calc ρ (|ρ y| ^ 2) ≤ (1 + u) * |ρ y| ^ 2 := q2
      _ ≤ (1 + u) * ((1 + u) ^ 2 * y ^ 2) := mul_le_mul_of_nonneg_left p2 (by linarith)
      _ = _ := by ring

/-- the ambiguity as the program computes it -/
theorem rounded_std (h : Rounds ρ N) (v : Fin E → Fin S → Fin R → Option ℝ) (e : Fin E) (hn : (stackedVotes v e).length ≤ N)
    (h2 : 2 ≤ (stackedVotes v e).length) (m : Rd ρ) (hm : meanAlongS (fun e s r => cellOf ρ (v e s r)) e = .fin m)
    (hpos : 0 ≤ ρ ((listTree (ρ := ρ) ((stackedVotes v e).map fun x => ρ (ρ (x - m.val) * ρ (x - m.val)))).eval.val / ((stackedVotes v e).length - 1))) :
    Np.nanstd 1 (rowL (stack1 fun e s r => cellOf ρ (v e s r)) e) = .fin
      ⟨ρ (Real.sqrt (ρ ((listTree (ρ := ρ) ((stackedVotes v e).map fun x => ρ (ρ (x - m.val) * ρ (x - m.val)))).eval.val / ((stackedVotes v e).length - 1))))⟩ := by
  unfold Np.nanstd Np.nanvar
  unfold meanAlongS at hm
  have hc : Np.countNotNan (rowL (stack1 fun e s r => cellOf ρ (v e s r)) e) = (stackedVotes v e).length := by
    unfold Np.countNotNan
    rw [notNan_row, List.length_map]
  rw [hc, if_neg (by omega), hm, notNan_row, List.map_map]
  have hterm : ((fun x => (x - Fl.fin m).sq) ∘ fun x : ℝ => Fl.fin (⟨x⟩ : Rd ρ)) = fun x => Fl.fin (⟨ρ (ρ (x - m.val) * ρ (x - m.val))⟩ : Rd ρ) := rfl
  rw [hterm]
  have hsum : Np.sum ((stackedVotes v e).map fun x => Fl.fin (⟨ρ (ρ (x - m.val) * ρ (x - m.val))⟩ : Rd ρ))
      = .fin (listTree (ρ := ρ) ((stackedVotes v e).map fun x => ρ (ρ (x - m.val) * ρ (x - m.val)))).eval := by
    rw [← listTree_eval, List.map_map]
    rfl
  rw [hsum]
  have hcast : (((stackedVotes v e).length - 1 : ℕ) : Fl (Rd ρ)) = .fin ⟨((stackedVotes v e).length : ℝ) - 1⟩ := by
    change Fl.fin (⟨ρ (((stackedVotes v e).length - 1 : ℕ) : ℝ)⟩ : Rd ρ) = _
    have := h.whole (((stackedVotes v e).length - 1 : ℕ) : ℤ) (by rw [abs_of_nonneg (by positivity)]; exact_mod_cast (Nat.sub_le _ _).trans hn)
    rw [Int.cast_natCast] at this
    rw [this, Nat.cast_sub (by omega), Nat.cast_one]
  have h2' : (2 : ℝ) ≤ (stackedVotes v e).length := by exact_mod_cast h2
  rw [hcast, fl_div_pos (show (0 : ℝ) < ((stackedVotes v e).length : ℝ) - 1 by linarith)]
  exact if_neg (not_lt.mpr hpos)

/-- **C115.** In rounded arithmetic with relative error `u`, with `n ≥ 2` votes on a video and the reported score `m`: the reported ambiguity is, up to factors `(1 ± u)^(n + 5)`,
the root of the sample variance plus `n / (n - 1) (m - mean)^2`, and the reported standard error, up to factors `(1 ± u)^(n + 6) / (1 ∓ u)`, this root divided by the root of `n`. -/
theorem C115_std (h : Rounds ρ N) (hN : 1 ≤ N) {u : ℝ} (hu : 0 ≤ u) (hu1 : u < 1) (hru : RelErr ρ u) (rd : Reader κ (Rd ρ)) (v : Fin E → Fin S → Fin R → Option ℝ)
    (hs : rd.scores = .ok ⟨E, S, R, fun e s r => cellOf ρ (v e s r)⟩) (res : Result κ (Rd ρ)) (hr : runMOS rd {} = .ok res) (e : Fin E)
    (hn : (votesOf v e).length ≤ N) (h2 : 2 ≤ (votesOf v e).length) :
    ∃ (m s t : Rd ρ) (amb se : List (Fl (Rd ρ))) (W : ℝ), res.qualityScores[(e : ℕ)]? = some (.fin m) ∧ res.qualityAmbiguity = some amb ∧ res.qualityScoresStd = some se ∧
      amb[(e : ℕ)]? = some (.fin s) ∧ se[(e : ℕ)]? = some (.fin t) ∧
      W = sampleVar (votesOf v e) + (votesOf v e).length / ((votesOf v e).length - 1) * (m.val - mean (votesOf v e)) ^ 2 ∧
      (1 - u) ^ ((votesOf v e).length + 5) * Real.sqrt W ≤ s.val ∧ s.val ≤ (1 + u) ^ ((votesOf v e).length + 5) * Real.sqrt W ∧
      (1 - u) ^ ((votesOf v e).length + 6) * (Real.sqrt W / Real.sqrt (votesOf v e).length) ≤ (1 + u) * t.val ∧
      (1 - u) * t.val ≤ (1 + u) ^ ((votesOf v e).length + 6) * (Real.sqrt W / Real.sqrt (votesOf v e).length) := by
  have hp : (stackedVotes v e).Perm (votesOf v e) := stackedVotes_perm v e
  have hne : votesOf v e ≠ [] := by intro hc; rw [hc] at h2; simp at h2
  have h1 : stackedVotes v e ≠ [] := fun hc => hne (by rw [hc] at hp; exact hp.symm.eq_nil)
  have hn' : (stackedVotes v e).length ≤ N := by rw [hp.length_eq]; exact hn
  have h2' : 2 ≤ (stackedVotes v e).length := by rw [hp.length_eq]; exact h2
  obtain ⟨m, hm⟩ : ∃ m : Rd ρ, meanAlongS (fun e s r => cellOf ρ (v e s r)) e = .fin m := ⟨_, rounded_mean h v e hn' h1⟩
  have g : 0 ≤ 1 - u := by linarith
  have g1 : 0 < 1 - u := by linarith
  set n := (votesOf v e).length with hnn
  have hlen := hp.length_eq
  have hn2 : (2 : ℝ) ≤ n := by exact_mod_cast h2
  have hn1 : (0 : ℝ) < (n : ℝ) - 1 := by linarith
  set L := (stackedVotes v e).map fun x => ρ (ρ (x - m.val) * ρ (x - m.val)) with hL
  set Y := ((votesOf v e).map fun x => (x - m.val) ^ 2).sum with hY
  have hY0 : 0 ≤ Y := List.sum_nonneg (by simp only [List.mem_map]; rintro _ ⟨x, -, rfl⟩; positivity)
  -- the sum of the squares
  have hL1 : (1 - u) ^ 3 * Y ≤ L.sum ∧ L.sum ≤ (1 + u) ^ 3 * Y := by
    have hY' : Y = ((stackedVotes v e).map fun x => (x - m.val) ^ 2).sum := by rw [hY]; exact ((hp.map _).sum_eq).symm
    rw [hY', hL]
    generalize stackedVotes v e = l
    induction l with
    | nil => simp
    | cons x l ih =>
      simp only [List.map_cons, List.sum_cons]
      have := relErr_sq hu hu1 hru (x - m.val)
      constructor <;> linarith [this.1, this.2, ih.1, ih.2]
  have hLn : ∀ x ∈ L, 0 ≤ x := by
    intro x hx
    obtain ⟨y, -, rfl⟩ := List.mem_map.mp hx
    exact le_trans (by positivity) (relErr_sq hu hu1 hru (y - m.val)).1
  have hdep : (listTree (ρ := ρ) L).depth = n := by rw [listTree_depth, hL, List.length_map, hlen]
  obtain ⟨t1, t2⟩ := tree_rel hu hu1.le hru (listTree (ρ := ρ) L) (by
    intro x hx
    have hm : x.val ∈ L ++ [0] := by
      rw [← listTree_leaves (ρ := ρ)]
      exact List.mem_map_of_mem hx
    rcases List.mem_append.mp hm with hm | hm
    · exact hLn _ hm
    · rw [List.mem_singleton.mp hm])
  rw [listTree_leaves, List.sum_append, hdep] at t1 t2
  simp only [List.sum_cons, List.sum_nil, add_zero] at t1 t2
  set T := (listTree (ρ := ρ) L).eval.val with hT
  have hLs : 0 ≤ L.sum := List.sum_nonneg hLn
  have b1 : (1 - u) ^ (n + 3) * Y ≤ T := by
    calc (1 - u) ^ (n + 3) * Y = (1 - u) ^ n * ((1 - u) ^ 3 * Y) := by rw [pow_add]; ring
      _ ≤ (1 - u) ^ n * L.sum := mul_le_mul_of_nonneg_left hL1.1 (pow_nonneg g _)
      _ ≤ T := t1
  have b2 : T ≤ (1 + u) ^ (n + 3) * Y := by
    calc T ≤ (1 + u) ^ n * L.sum := t2
      _ ≤ (1 + u) ^ n * ((1 + u) ^ 3 * Y) := mul_le_mul_of_nonneg_left hL1.2 (by positivity)
      _ = _ := by rw [pow_add]; ring
  have hT0 : 0 ≤ T := le_trans (mul_nonneg (pow_nonneg g _) hY0) b1
  set W := Y / ((n : ℝ) - 1) with hW
  have hW0 : 0 ≤ W := div_nonneg hY0 hn1.le
  obtain ⟨c1, c2⟩ := relErr_nonneg hru (div_nonneg hT0 hn1.le)
  set V := ρ (T / ((n : ℝ) - 1)) with hV
  have v1 : (1 - u) ^ (n + 4) * W ≤ V := by
    calc (1 - u) ^ (n + 4) * W = (1 - u) * ((1 - u) ^ (n + 3) * Y / ((n : ℝ) - 1)) := by rw [hW, pow_succ]; ring
      _ ≤ (1 - u) * (T / ((n : ℝ) - 1)) := mul_le_mul_of_nonneg_left (div_le_div_of_nonneg_right b1 hn1.le) g
      _ ≤ V := c1
  have v2 : V ≤ (1 + u) ^ (n + 4) * W := by
    calc V ≤ (1 + u) * (T / ((n : ℝ) - 1)) := c2
      _ ≤ (1 + u) * ((1 + u) ^ (n + 3) * Y / ((n : ℝ) - 1)) := mul_le_mul_of_nonneg_left (div_le_div_of_nonneg_right b2 hn1.le) (by linarith)
      _ = _ := by rw [hW, pow_succ]; ring
  have hV0 : 0 ≤ V := le_trans (mul_nonneg (pow_nonneg g _) hW0) v1
  -- the root
  have s1 : (1 - u) ^ (n + 4) * Real.sqrt W ≤ Real.sqrt V := by
    have q0 : 0 ≤ (1 - u) ^ (n + 4) := pow_nonneg g _
    have q1 : (1 - u) ^ (n + 4) ≤ 1 := pow_le_one₀ g (by linarith)
    refine Real.le_sqrt_of_sq_le ?_
    rw [mul_pow, Real.sq_sqrt hW0]
    refine le_trans (mul_le_mul_of_nonneg_right ?_ hW0) v1
    nlinarith
  have s2 : Real.sqrt V ≤ (1 + u) ^ (n + 4) * Real.sqrt W := by
    have q1 : 1 ≤ (1 + u) ^ (n + 4) := one_le_pow₀ (by linarith)
    rw [Real.sqrt_le_left (mul_nonneg (by linarith) (Real.sqrt_nonneg _)), mul_pow, Real.sq_sqrt hW0]
    refine v2.trans (mul_le_mul_of_nonneg_right ?_ hW0)
    nlinarith
  obtain ⟨d1, d2⟩ := relErr_nonneg hru (Real.sqrt_nonneg V)
  set s := ρ (Real.sqrt V) with hs'
  have r1 : (1 - u) ^ (n + 5) * Real.sqrt W ≤ s := by
    calc (1 - u) ^ (n + 5) * Real.sqrt W = (1 - u) * ((1 - u) ^ (n + 4) * Real.sqrt W) := by rw [pow_succ]; ring
      _ ≤ (1 - u) * Real.sqrt V := mul_le_mul_of_nonneg_left s1 g
      _ ≤ s := d1
  have r2 : s ≤ (1 + u) ^ (n + 5) * Real.sqrt W := by
    calc s ≤ (1 + u) * Real.sqrt V := d2
      _ ≤ (1 + u) * ((1 + u) ^ (n + 4) * Real.sqrt W) := mul_le_mul_of_nonneg_left s2 (by linarith)
      _ = _ := by rw [pow_succ]; ring
  have hs0 : 0 ≤ s := le_trans (mul_nonneg (pow_nonneg g _) (Real.sqrt_nonneg _)) r1
  -- the root of the number of votes
  have hsn : 1 ≤ Real.sqrt n := by rw [Real.one_le_sqrt]; linarith
  have hq1 : (1 : ℝ) ≤ ρ (Real.sqrt n) := by
    have h1 : ρ ((1 : ℤ) : ℝ) = (1 : ℤ) := h.whole 1 (by simpa using hN)
    rw [Int.cast_one] at h1
    rw [← h1]
    exact h.mono hsn
  obtain ⟨f1, f2⟩ := relErr_nonneg hru (Real.sqrt_nonneg (n : ℝ))
  set q := ρ (Real.sqrt n) with hq
  have hq0 : 0 < q := by linarith
  obtain ⟨k1, k2⟩ := relErr_nonneg hru (div_nonneg hs0 hq0.le)
  have hcast : ρ (n : ℝ) = n := by
    have := h.whole (n : ℤ) (by rw [abs_of_nonneg (by positivity)]; exact_mod_cast hn)
    simpa using this
  have hstd : Np.nanstd 1 (rowL (stack1 fun e s r => cellOf ρ (v e s r)) e) = .fin ⟨s⟩ := by
    have := rounded_std h v e hn' h2' m hm (by rw [← hL, ← hT, hlen]; exact hV0)
    rw [← hL, ← hT, hlen] at this
    exact this
  have hcount : Np.countNotNan (rowL (stack1 fun e s r => cellOf ρ (v e s r)) e) = n := by
    unfold Np.countNotNan
    rw [notNan_row, List.length_map, hlen]
  have hse : (Fl.fin (⟨s⟩ : Rd ρ)) / ((n : ℕ) : Fl (Rd ρ)).sqrt = .fin ⟨ρ (s / q)⟩ := by
    have e1 : ((n : ℕ) : Fl (Rd ρ)).sqrt = .fin ⟨q⟩ := by
      change Fl.sqrt (.fin (⟨ρ (n : ℝ)⟩ : Rd ρ)) = _
      rw [hcast]
      exact if_neg (not_lt.mpr (show (0 : ℝ) ≤ n by positivity))
    rw [e1, fl_div_pos hq0]
  have hres := runMOS_any hs hr
  refine ⟨m, ⟨s⟩, ⟨ρ (s / q)⟩, _, _, W, by rw [score_at hs hr e, hm], by rw [hres]; rfl, by rw [hres]; rfl, ?_, ?_, ?_, r1, r2, ?_, ?_⟩
  · rw [List.getElem?_ofFn]
    simp only [e.isLt, dif_pos]
    exact congrArg some hstd
  · rw [List.getElem?_ofFn]
    simp only [e.isLt, dif_pos]
    refine congrArg some ?_
    rw [show (⟨(e : ℕ), e.isLt⟩ : Fin E) = e from rfl]
    rw [hstd, hcount, hse]
  · rw [hW, hY, sum_sq_about _ hne]
    unfold sampleVar
    rw [← hnn]
    field_simp
  · have hsq : 0 < Real.sqrt n := by linarith
    have : (1 - u) ^ (n + 5) * Real.sqrt W / ((1 + u) * Real.sqrt n) ≤ s / q :=
      div_le_div₀ hs0 r1 hq0 f2
    calc (1 - u) ^ (n + 6) * (Real.sqrt W / Real.sqrt n)
        = (1 + u) * ((1 - u) * ((1 - u) ^ (n + 5) * Real.sqrt W / ((1 + u) * Real.sqrt n))) := by
          have : (1 + u) ≠ 0 := by linarith
          rw [pow_succ]
          field_simp
      _ ≤ (1 + u) * ((1 - u) * (s / q)) := by gcongr
      _ ≤ (1 + u) * ρ (s / q) := mul_le_mul_of_nonneg_left k1 (by linarith)
  · have hsq : 0 < Real.sqrt n := by linarith
    have : s / q ≤ (1 + u) ^ (n + 5) * Real.sqrt W / ((1 - u) * Real.sqrt n) :=
      div_le_div₀ (by positivity) r2 (by positivity) f1
    calc (1 - u) * ρ (s / q) ≤ (1 - u) * ((1 + u) * (s / q)) := mul_le_mul_of_nonneg_left k2 g
      _ ≤ (1 - u) * ((1 + u) * ((1 + u) ^ (n + 5) * Real.sqrt W / ((1 - u) * Real.sqrt n))) := by gcongr
      _ = _ := by
          have e6 : (1 + u) ^ (n + 6) = (1 + u) * (1 + u) ^ (n + 5) := by ring
          rw [e6]
          field_simp

/-- **C115, equal votes.** If all votes on a video are the same whole number, the ambiguity and the standard error are exactly 0. -/
theorem C115_equal (h : Rounds ρ N) (hN : 1 ≤ N) {u : ℝ} (hu : 0 ≤ u) (hu1 : u < 1) (hru : RelErr ρ u) (rd : Reader κ (Rd ρ)) (v : Fin E → Fin S → Fin R → Option ℝ)
    (hs : rd.scores = .ok ⟨E, S, R, fun e s r => cellOf ρ (v e s r)⟩) (res : Result κ (Rd ρ)) (hr : runMOS rd {} = .ok res) (e : Fin E)
    (c : ℤ) (hc : ∀ x ∈ votesOf v e, x = c) (hcN : (votesOf v e).length * |c| ≤ N) (hn : (votesOf v e).length ≤ N) (h2 : 2 ≤ (votesOf v e).length) :
    ∃ amb se : List (Fl (Rd ρ)), res.qualityAmbiguity = some amb ∧ res.qualityScoresStd = some se ∧
      amb[(e : ℕ)]? = some (.fin ⟨0⟩) ∧ se[(e : ℕ)]? = some (.fin ⟨0⟩) := by
  obtain ⟨m, s, t, amb, se, W, hm, ha, hse, hs1, ht1, hW, a1, a2, a3, a4⟩ := C115_std h hN hu hu1 hru rd v hs res hr e hn h2
  have hrep : votesOf v e = List.replicate (votesOf v e).length (c : ℝ) := List.eq_replicate_of_mem hc
  have hl : ((votesOf v e).length : ℝ) ≠ 0 := by
    have : 0 < (votesOf v e).length := by omega
    positivity
  have hmean : mean (votesOf v e) = c := by
    unfold mean
    rw [hrep, List.sum_replicate, List.length_replicate, nsmul_eq_mul]
    field_simp
  have hne : votesOf v e ≠ [] := by intro hc; rw [hc] at h2; simp at h2
  have hcN1 : |c| ≤ N := by
    refine le_trans ?_ hcN
    have : (1 : ℤ) ≤ (votesOf v e).length := by omega
    nlinarith [abs_nonneg c]
  have hq := C114_mos h rd v hs res hr e (fun x hx => ⟨c, hc x hx⟩) (by
    have : ((votesOf v e).map fun x => |x|).sum = (votesOf v e).length * |(c : ℝ)| := by
      conv_lhs => rw [hrep]
      simp
    rw [this]
    exact_mod_cast hcN) hn
  rw [if_neg hne, hmean, h.whole c hcN1, hm, Option.some.injEq, Fl.fin.injEq] at hq
  have hmv : m.val = c := by rw [hq]
  have hsd : sampleVar (votesOf v e) = 0 := by
    unfold sampleVar sqDev
    rw [hmean, List.sum_eq_zero (l := (votesOf v e).map fun x => (x - (c : ℝ)) ^ 2), zero_div]
    intro x hx
    obtain ⟨y, hy, rfl⟩ := List.mem_map.mp hx
    rw [hc y hy]; simp
  have hW0 : W = 0 := by rw [hW, hsd, hmean, hmv]; simp
  rw [hW0, Real.sqrt_zero] at a1 a2 a3 a4
  rw [mul_zero] at a1 a2
  rw [zero_div, mul_zero] at a3 a4
  have hs0 : s = ⟨0⟩ := by ext; exact le_antisymm a2 a1
  have ht0 : t = ⟨0⟩ := by
    ext
    refine le_antisymm ?_ ?_
    · by_contra hcon; push Not at hcon; nlinarith
    · by_contra hcon; push Not at hcon; nlinarith
  exact ⟨amb, se, ha, hse, by rw [hs1, hs0], by rw [ht1, ht0]⟩

end

/-- **C115, double precision.** The hypotheses on the rounding are met by double precision. -/
theorem C115_binary64 : Rounds (binary64 : ℝ → ℝ) (2 ^ 53) ∧ (1 : ℕ) ≤ 2 ^ 53 ∧ (0 : ℝ) ≤ 2 ^ (-53 : ℤ) ∧ (2 : ℝ) ^ (-53 : ℤ) < 1 ∧
    RelErr (binary64 : ℝ → ℝ) (2 ^ (-53 : ℤ)) :=
  ⟨binary64_rounds, by norm_num, by positivity, by norm_num, binary64_err⟩

/-- votes 1, 5, 4 and 3, 3, 3 -/
noncomputable def realVotes : Fin 2 → Fin 3 → Fin 1 → Option ℝ
  | 0, 0, _ => some 1 | 0, 1, _ => some 5 | 0, 2, _ => some 4
  | 1, _, _ => some 3

/-- the hypotheses of `C115_std` and `C115_equal` are met -/
example : (∃ res, runMOS (anyReader 2 3 1 fun e s r => cellOf (binary64 : ℝ → ℝ) (realVotes e s r)) {} = .ok res) ∧
    (votesOf realVotes 0).length = 3 ∧ (votesOf realVotes 1).length = 3 ∧ ∀ x ∈ votesOf realVotes 1, x = ((3 : ℤ) : ℝ) := by
  have l0 : votesOf realVotes 0 = [1, 5, 4] := rfl
  have l1 : votesOf realVotes 1 = [3, 3, 3] := rfl
  refine ⟨anyReader_runs _ _ _ _, by rw [l0]; rfl, by rw [l1]; rfl, ?_⟩
  rw [l1]
  intro x hx
  simp at hx
  rw [hx]
  norm_num

end Sureal.Props
