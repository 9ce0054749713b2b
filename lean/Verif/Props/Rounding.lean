import Verif.Lemmas.RoundedMos
import Verif.Props.Dscore
/-!
# C114: mean opinion scores in floating-point arithmetic
-/
set_option linter.unusedSectionVars false
namespace Sureal.Props
open Spec

/-- **C114, double precision.** Rounding to double precision keeps the order, does not change whole numbers up to `2^53` in size, and has a relative error of at most `2^-53`. -/
theorem C114_binary64 {F : Type} [Field F] [LinearOrder F] [IsStrictOrderedRing F] [FloorRing F] :
    Rounds (binary64 : F → F) (2 ^ 53) ∧ RelErr (binary64 : F → F) (2 ^ (-53 : ℤ)) := ⟨binary64_rounds, binary64_err⟩

section
variable {κ F : Type} [Field F] [LinearOrder F] [IsStrictOrderedRing F] [MathFn F] {ρ : F → F} {N : ℕ}
variable {E S R : ℕ}

/-- the votes on a video -/
def votesOf (v : Fin E → Fin S → Fin R → Option F) (e : Fin E) : List F := (videoCells v e).filterMap id

theorem score_at {rd : Reader κ (Rd ρ)} {v : Fin E → Fin S → Fin R → Option F} (hs : rd.scores = .ok ⟨E, S, R, fun e s r => cellOf ρ (v e s r)⟩)
    {res : Result κ (Rd ρ)} (hr : runMOS rd {} = .ok res) (e : Fin E) :
    res.qualityScores[(e : ℕ)]? = some (meanAlongS (fun e s r => cellOf ρ (v e s r)) e) := by
  rw [runMOS_any hs hr]
  change (List.ofFn (meanAlongS fun e s r => cellOf ρ (v e s r)))[(e : ℕ)]? = _
  rw [List.getElem?_ofFn]
  simp

/-- **C114, whole votes.** The score of a video is the rounded mean of its votes: no rounding error other than the last. -/
theorem C114_mos (h : Rounds ρ N) (rd : Reader κ (Rd ρ)) (v : Fin E → Fin S → Fin R → Option F)
    (hs : rd.scores = .ok ⟨E, S, R, fun e s r => cellOf ρ (v e s r)⟩) (res : Result κ (Rd ρ)) (hr : runMOS rd {} = .ok res) (e : Fin E)
    (hw : ∀ x ∈ votesOf v e, ∃ n : ℤ, x = n) (hN : ((votesOf v e).map fun x => |x|).sum ≤ N) (hn : (votesOf v e).length ≤ N) :
    res.qualityScores[(e : ℕ)]? = some (if votesOf v e = [] then .nan else .fin ⟨ρ (mean (votesOf v e))⟩) := by
  have hp := stackedVotes_perm v e
  change (stackedVotes v e).Perm (votesOf v e) at hp
  rw [score_at hs hr e]
  by_cases h0 : votesOf v e = []
  · rw [if_pos h0, rounded_mean_none h v e (by rw [h0] at hp; exact hp.eq_nil)]
  · rw [if_neg h0]
    have h1 : stackedVotes v e ≠ [] := fun hc => h0 (by rw [hc] at hp; exact hp.symm.eq_nil)
    rw [rounded_mean h v e (by rw [hp.length_eq]; exact hn) h1]
    have ht : ((listTree (ρ := ρ) (stackedVotes v e)).leaves.map fun x => |x.val|) = (stackedVotes v e).map (fun x => |x|) ++ [0] := by
      have := congrArg (List.map fun x : F => |x|) (listTree_leaves (ρ := ρ) (stackedVotes v e))
      simpa [Function.comp_def] using this
    obtain ⟨h2, -⟩ := tree_exact h (listTree (ρ := ρ) (stackedVotes v e)) (by
        intro x hx
        have hm : x.val ∈ stackedVotes v e ++ [0] := by
          rw [← listTree_leaves (ρ := ρ)]
          exact List.mem_map_of_mem hx
        rcases List.mem_append.mp hm with hm | hm
        · exact hw _ (hp.mem_iff.mp hm)
        · exact ⟨0, by simpa using hm⟩) (by
        rw [ht, List.sum_append, (hp.map _).sum_eq]
        simpa using hN)
    rw [h2, listTree_leaves, List.sum_append, hp.sum_eq, hp.length_eq]
    simp [mean]

/-- **C114, range.** The score of a video with whole votes lies between two of its votes, in floating-point arithmetic too. -/
theorem C114_between (h : Rounds ρ N) (rd : Reader κ (Rd ρ)) (v : Fin E → Fin S → Fin R → Option F)
    (hs : rd.scores = .ok ⟨E, S, R, fun e s r => cellOf ρ (v e s r)⟩) (res : Result κ (Rd ρ)) (hr : runMOS rd {} = .ok res) (e : Fin E)
    (hw : ∀ x ∈ votesOf v e, ∃ n : ℤ, x = n) (hN : ((votesOf v e).map fun x => |x|).sum ≤ N) (hn : (votesOf v e).length ≤ N) (h0 : votesOf v e ≠ [])
    (lo hi : ℤ) (hlo : |lo| ≤ N) (hhi : |hi| ≤ N) (hb : ∀ x ∈ votesOf v e, (lo : F) ≤ x ∧ x ≤ hi) :
    ∃ q : Rd ρ, res.qualityScores[(e : ℕ)]? = some (.fin q) ∧ (lo : F) ≤ q.val ∧ q.val ≤ hi := by
  refine ⟨_, by rw [C114_mos h rd v hs res hr e hw hN hn, if_neg h0], ?_⟩
  have hl : (0 : F) < (votesOf v e).length := by exact_mod_cast List.length_pos_iff.mpr h0
  constructor
  · rw [← h.whole lo hlo]
    refine h.mono ?_
    unfold mean
    rw [le_div_iff₀ hl, mul_comm, ← nsmul_eq_mul]
    exact List.card_nsmul_le_sum _ _ fun x hx => (hb x hx).1
  · rw [← h.whole hi hhi]
    refine h.mono ?_
    unfold mean
    rw [div_le_iff₀ hl, mul_comm, ← nsmul_eq_mul]
    exact List.sum_le_card_nsmul _ _ fun x hx => (hb x hx).2

/-- **C114, order of the votes.** Two videos with the same whole votes in a different order, of the same or of different datasets, have the same score, bit by bit. -/
theorem C114_order (h : Rounds ρ N) {E' S' R' : ℕ} (rd rd' : Reader κ (Rd ρ)) (v : Fin E → Fin S → Fin R → Option F) (v' : Fin E' → Fin S' → Fin R' → Option F)
    (hs : rd.scores = .ok ⟨E, S, R, fun e s r => cellOf ρ (v e s r)⟩) (hs' : rd'.scores = .ok ⟨E', S', R', fun e s r => cellOf ρ (v' e s r)⟩)
    (res res' : Result κ (Rd ρ)) (hr : runMOS rd {} = .ok res) (hr' : runMOS rd' {} = .ok res') (e : Fin E) (e' : Fin E')
    (hw : ∀ x ∈ votesOf v e, ∃ n : ℤ, x = n) (hN : ((votesOf v e).map fun x => |x|).sum ≤ N) (hn : (votesOf v e).length ≤ N)
    (hp : (votesOf v e).Perm (votesOf v' e')) : res.qualityScores[(e : ℕ)]? = res'.qualityScores[(e' : ℕ)]? := by
  rw [C114_mos h rd v hs res hr e hw hN hn, C114_mos h rd' v' hs' res' hr' e' (fun x hx => hw x (hp.mem_iff.mpr hx))
    (by rw [← (hp.map _).sum_eq]; exact hN) (by rw [← hp.length_eq]; exact hn)]
  congr 1
  by_cases h0 : votesOf v e = []
  · rw [if_pos h0, if_pos (by rw [h0] at hp; exact hp.symm.eq_nil)]
  · rw [if_neg h0, if_neg (fun hc => h0 (by rw [hc] at hp; exact hp.eq_nil))]
    unfold mean
    rw [hp.sum_eq, hp.length_eq]

/-- **C114, way of adding.** However `np.sum` puts the additions together, and whatever zeros stand for the missing votes: the sum of whole votes is exact. -/
theorem C114_tree (h : Rounds ρ N) (votes : List F) (hw : ∀ x ∈ votes, ∃ n : ℤ, x = n) (hN : (votes.map fun x => |x|).sum ≤ N) (k : ℕ)
    (t : SumTree (Rd ρ)) (ht : (t.leaves.map (·.val)).Perm (votes ++ List.replicate k 0)) : t.eval.val = votes.sum := by
  obtain ⟨h1, -⟩ := tree_exact h t (by
      intro x hx
      have hm := ht.mem_iff.mp (List.mem_map_of_mem (f := fun x : Rd ρ => x.val) hx)
      rcases List.mem_append.mp hm with hm | hm
      · exact hw _ hm
      · exact ⟨0, by simpa using (List.mem_replicate.mp hm).2⟩) (by
      have := (ht.map fun x : F => |x|).sum_eq
      rw [List.map_map] at this
      rw [Function.comp_def] at this
      rw [this, List.map_append, List.sum_append]
      simpa using hN)
  rw [h1, ht.sum_eq]
  simp

/-- **C114, any votes.** Whatever numbers the votes are: the score of a video with `n` votes differs from their mean by at most `(1 + u)^(n + 1) - 1` times the mean of their sizes. -/
theorem C114_error (h : Rounds ρ N) {u : F} (hu : 0 ≤ u) (hru : RelErr ρ u) (rd : Reader κ (Rd ρ)) (v : Fin E → Fin S → Fin R → Option F)
    (hs : rd.scores = .ok ⟨E, S, R, fun e s r => cellOf ρ (v e s r)⟩) (res : Result κ (Rd ρ)) (hr : runMOS rd {} = .ok res) (e : Fin E)
    (hn : (votesOf v e).length ≤ N) (h0 : votesOf v e ≠ []) :
    ∃ q : Rd ρ, res.qualityScores[(e : ℕ)]? = some (.fin q) ∧
      |q.val - mean (votesOf v e)| ≤ ((1 + u) ^ ((votesOf v e).length + 1) - 1) * mean ((votesOf v e).map fun x => |x|) := by
  have hp : (stackedVotes v e).Perm (votesOf v e) := stackedVotes_perm v e
  have h1 : stackedVotes v e ≠ [] := fun hc => h0 (by rw [hc] at hp; exact hp.symm.eq_nil)
  refine ⟨_, by rw [score_at hs hr e, rounded_mean h v e (by rw [hp.length_eq]; exact hn) h1], ?_⟩
  have ht : ((listTree (ρ := ρ) (stackedVotes v e)).leaves.map fun x => |x.val|) = (stackedVotes v e).map (fun x => |x|) ++ [0] := by
    have := congrArg (List.map fun x : F => |x|) (listTree_leaves (ρ := ρ) (stackedVotes v e))
    simpa [Function.comp_def] using this
  have hE := tree_error hu hru (listTree (ρ := ρ) (stackedVotes v e))
  rw [ht, listTree_leaves, listTree_depth, List.sum_append, List.sum_append, (hp.map _).sum_eq, hp.sum_eq, hp.length_eq] at hE
  simp only [List.sum_cons, List.sum_nil, add_zero] at hE
  unfold mean
  rw [List.length_map]
  dsimp only
  rw [hp.length_eq]
  have hl : (0 : F) < (votesOf v e).length := by exact_mod_cast List.length_pos_iff.mpr h0
  have habs : ∀ l : List F, |l.sum| ≤ (l.map fun x => |x|).sum := by
    intro l
    induction l with
    | nil => simp
    | cons x l ih =>
      simp only [List.map_cons, List.sum_cons]
      exact (abs_add_le _ _).trans (by linarith)
  have hA := habs (votesOf v e)
  set s := (listTree (ρ := ρ) (stackedVotes v e)).eval.val
  set A := (votesOf v e).sum
  set T := ((votesOf v e).map fun x => |x|).sum
  set n := (votesOf v e).length
  have e0 := hru (s / n)
  have e1 : |s / n - A / n| ≤ ((1 + u) ^ n - 1) * (T / n) := by
    rw [← sub_div, abs_div, abs_of_pos hl, ← mul_div_assoc]
    exact div_le_div_of_nonneg_right hE hl.le
  have e3 : |A / n| ≤ T / n := by
    rw [abs_div, abs_of_pos hl]
    exact div_le_div_of_nonneg_right hA hl.le
  have e2 : |s / n| ≤ (1 + u) ^ n * (T / n) := by
    have : |s / n| ≤ |s / n - A / n| + |A / n| := by
      have := abs_add_le (s / n - A / n) (A / n)
      rwa [sub_add_cancel] at this
    linarith
  calc |ρ (s / n) - A / n| ≤ |ρ (s / n) - s / n| + |s / n - A / n| := by
        have := abs_add_le (ρ (s / n) - s / n) (s / n - A / n)
        rwa [sub_add_sub_cancel] at this
    _ ≤ u * ((1 + u) ^ n * (T / n)) + ((1 + u) ^ n - 1) * (T / n) := by
        have := mul_le_mul_of_nonneg_left e2 hu
        linarith
    _ = _ := by rw [pow_succ]; ring

end

/-! ### votes that are not whole -/
attribute [local instance] ratMath

/-- the vote `n / 10` as read from a dataset, in double precision -/
def tenth (n : ℕ) : ℚ := binary64 (n / 10)

/-- the score of a video with one vote per observer -/
def oneScore (l : List ℚ) : Option (Fl (Rd (binary64 : ℚ → ℚ))) :=
  match runMOS (anyReader 1 l.length 1 fun _ s _ => cellOf binary64 (some (l.get s))) {} with
  | .ok res => res.qualityScores[0]?
  | .error _ => none

/-- **C114, refuted for votes that are not whole: range.** The score of three votes of 0.1 is greater than 0.1. -/
theorem C114_refuted_range : ∃ q, oneScore [tenth 1, tenth 1, tenth 1] = some (.fin q) ∧ tenth 1 < q.val :=
  ⟨⟨binary64 (binary64 (tenth 1 + binary64 (tenth 1 + tenth 1)) / 3)⟩, by decide +kernel, by decide +kernel⟩

/-- **C114, refuted for votes that are not whole: order.** The scores of the votes 0.1, 0.2, 0.3 and of the votes 0.3, 0.2, 0.1 differ. -/
theorem C114_refuted_order : oneScore [tenth 1, tenth 2, tenth 3] ≠ oneScore [tenth 3, tenth 2, tenth 1] := by
  decide +kernel

/-- three videos of three observers, with a missing vote and a video without votes -/
def wholeVotes : Fin 3 → Fin 3 → Fin 1 → Option ℚ
  | 0, 0, _ => some 1 | 0, 1, _ => some 5 | 0, 2, _ => some 4
  | 1, 0, _ => some 2 | 1, 2, _ => some 3
  | _, _, _ => none

/-- the hypotheses of `C114_mos` are met: the score of the votes 1, 5, 4 is the double next to 10/3 -/
example : ∃ res, runMOS (anyReader 3 3 1 fun e s r => cellOf binary64 (wholeVotes e s r)) {} = .ok res ∧
    (∀ e, (∀ x ∈ votesOf wholeVotes e, ∃ n : ℤ, x = n) ∧ ((votesOf wholeVotes e).map fun x => |x|).sum ≤ (2 ^ 53 : ℕ) ∧ (votesOf wholeVotes e).length ≤ 2 ^ 53) ∧
    res.qualityScores[0]? = some (.fin ⟨binary64 (10 / 3)⟩) ∧ res.qualityScores[2]? = some .nan := by
  obtain ⟨res, hr⟩ := anyReader_runs 3 3 1 fun e s r => cellOf (binary64 : ℚ → ℚ) (wholeVotes e s r)
  have hyp : ∀ e, (∀ x ∈ votesOf wholeVotes e, ∃ n : ℤ, x = n) ∧ ((votesOf wholeVotes e).map fun x => |x|).sum ≤ (2 ^ 53 : ℕ) ∧
      (votesOf wholeVotes e).length ≤ 2 ^ 53 := by
    intro e
    have l0 : votesOf wholeVotes 0 = [1, 5, 4] := by decide +kernel
    have l1 : votesOf wholeVotes 1 = [2, 3] := by decide +kernel
    have l2 : votesOf wholeVotes 2 = [] := by decide +kernel
    fin_cases e
    · change (∀ x ∈ votesOf wholeVotes 0, _) ∧ _
      rw [show (votesOf wholeVotes ⟨0, by norm_num⟩) = [1, 5, 4] from l0, l0]
      refine ⟨?_, by norm_num, by norm_num⟩
      intro x hx
      fin_cases hx
      · exact ⟨1, by norm_num⟩
      · exact ⟨5, by norm_num⟩
      · exact ⟨4, by norm_num⟩
    · change (∀ x ∈ votesOf wholeVotes 1, _) ∧ ((votesOf wholeVotes 1).map _).sum ≤ _ ∧ (votesOf wholeVotes 1).length ≤ _
      rw [l1]
      refine ⟨?_, by norm_num, by norm_num⟩
      intro x hx
      fin_cases hx
      · exact ⟨2, by norm_num⟩
      · exact ⟨3, by norm_num⟩
    · change (∀ x ∈ votesOf wholeVotes 2, _) ∧ ((votesOf wholeVotes 2).map _).sum ≤ _ ∧ (votesOf wholeVotes 2).length ≤ _
      rw [l2]
      exact ⟨by simp, by norm_num, by norm_num⟩
  refine ⟨res, hr, hyp, ?_, ?_⟩
  · have := C114_mos binary64_rounds _ wholeVotes rfl res hr 0 (hyp 0).1 (hyp 0).2.1 (hyp 0).2.2
    refine this.trans ?_
    decide +kernel
  · have := C114_mos binary64_rounds _ wholeVotes rfl res hr 2 (hyp 2).1 (hyp 2).2.1 (hyp 2).2.2
    refine this.trans ?_
    decide +kernel

end Sureal.Props
