import Verif.Props.ApSym
import Verif.Props.ApStd
import Verif.Spec.Panel
/-!
# The alternating projection on a panel that consists of copies of a panel, and of silent observers
-/
set_option linter.unusedSectionVars false
namespace Sureal.Ap
open Sureal Spec Props
variable {J I I' R : ℕ}

section
variable (P : Fin J → Fin I → Fin R → Bool) (X : Fin J → Fin I → Fin R → ℝ) (φ : Fin I' → Option (Fin I))

/-- who votes in the new panel -/
def copyP : Fin J → Fin I' → Fin R → Bool := fun j i' r => (φ i').elim false fun i => P j i r

/-- a number per observer, for the new panel -/
def copyB (B : Fin I → ℝ) : Fin I' → ℝ := fun i' => (φ i').elim 0 B

def copyX : Fin J → Fin I' → Fin R → ℝ := fun j i' r => (φ i').elim 0 fun i => X j i r

theorem sum_copies {m : ℕ} (h : CopiesOf m φ) (G : Option (Fin I) → ℝ) (h0 : G none = 0) : ∑ i', G (φ i') = m * ∑ i, G (some i) := by
  classical
  have h1 : ∑ i', G (φ i') = ∑ o, ∑ i' ∈ Finset.univ.filter (fun i' => φ i' = o), G (φ i') := (Finset.sum_fiberwise _ _ _).symm
  have h2 : ∀ o, ∑ i' ∈ Finset.univ.filter (fun i' => φ i' = o), G (φ i') = (Finset.univ.filter fun i' => φ i' = o).card * G o := by
    intro o
    rw [Finset.sum_congr rfl (g := fun _ => G o) fun i' hi' => by rw [(Finset.mem_filter.mp hi').2], Finset.sum_const, nsmul_eq_mul]
  rw [h1, Fintype.sum_option, h2, h0, mul_zero, zero_add, Finset.mul_sum]
  refine Finset.sum_congr rfl fun i _ => ?_
  rw [h2, h i]

theorem sum_video_copies {m : ℕ} (h : CopiesOf m φ) (j : Fin J) (H : Option (Fin I) → Fin R → ℝ) :
    ∑ c ∈ votesOnVideo (copyP P φ) j, H (φ c.1) c.2 = m * ∑ c ∈ votesOnVideo P j, H (some c.1) c.2 := by
  unfold votesOnVideo
  rw [Finset.sum_filter, Fintype.sum_prod_type, Finset.sum_filter, Fintype.sum_prod_type]
  have := sum_copies φ h (fun o => o.elim 0 fun i => ∑ r, if P j i r = true then H (some i) r else 0) rfl
  simp only [Option.elim_some] at this
  rw [← this]
  refine Finset.sum_congr rfl fun i' _ => ?_
  dsimp only [copyP]
  rcases Option.eq_none_or_eq_some (φ i') with hi | ⟨i, hi⟩
  · simp [hi]
  · simp [hi]

theorem card_video_copies {m : ℕ} (h : CopiesOf m φ) (j : Fin J) : (votesOnVideo (copyP P φ) j).card = m * (votesOnVideo P j).card := by
  have := sum_video_copies P φ h j fun _ _ => 1
  simp only [Finset.sum_const, nsmul_eq_mul, mul_one] at this
  exact_mod_cast this

theorem video_copies_nonempty {m : ℕ} (h : CopiesOf m φ) (hm : 0 < m) (j : Fin J) :
    (votesOnVideo (copyP P φ) j).Nonempty ↔ (votesOnVideo P j).Nonempty := by
  rw [← Finset.card_pos, ← Finset.card_pos, card_video_copies P φ h]
  exact Nat.mul_pos_iff_of_pos_left hm

theorem observer_copies_some {i' : Fin I'} {i : Fin I} (hi : φ i' = some i) : votesOfObserver (copyP P φ) i' = votesOfObserver P i := by
  unfold votesOfObserver copyP
  rw [hi]
  rfl

theorem observer_copies_none {i' : Fin I'} (hi : φ i' = none) : votesOfObserver (copyP P φ) i' = ∅ := by
  unfold votesOfObserver copyP
  rw [hi]
  simp

theorem maskX_copies : maskX (copyP P φ) (copyX X φ) = fun j i' r => (φ i').elim .nan fun i => maskX P X j i r := by
  funext j i' r
  unfold maskX copyP copyX
  cases φ i' <;> rfl

theorem maskS_copies {m : ℕ} (h : CopiesOf m φ) (hm : 0 < m) (S : Fin J → ℝ) : maskS (copyP P φ) S = maskS P S := by
  funext j
  unfold maskS
  congr 1
  exact decide_eq_decide.mpr (video_copies_nonempty P φ h hm j)

theorem maskB_copies (B : Fin I → ℝ) : maskB (copyP P φ) (copyB φ B) = fun i' => (φ i').elim .nan (maskB P B) := by
  funext i'
  unfold maskB copyB
  cases hi : φ i' with
  | none => rw [observer_copies_none P φ hi]; simp
  | some i => rw [observer_copies_some P φ hi]; rfl

theorem avg_empty {ι : Type} (f : ι → ℝ) : avg ∅ f = 0 := by simp [avg]

theorem spread_copies (S : Fin J → ℝ) (B : Fin I → ℝ) :
    apSpread (copyP P φ) (copyX X φ) S (copyB φ B) = copyB φ (apSpread P X S B) := by
  funext i'
  unfold apSpread copyX copyB
  cases hi : φ i' with
  | none =>
    rw [observer_copies_none P φ hi]
    unfold spread
    rw [avg_empty, Real.sqrt_zero]
    rfl
  | some i => rw [observer_copies_some P φ hi]; rfl

theorem bias_copies (S : Fin J → ℝ) : apBias (copyP P φ) (copyX X φ) S = copyB φ (apBias P X S) := by
  funext i'
  unfold apBias copyX copyB
  cases hi : φ i' with
  | none => rw [observer_copies_none P φ hi, avg_empty]; rfl
  | some i => rw [observer_copies_some P φ hi]; rfl

theorem avg_video_copies {m : ℕ} (h : CopiesOf m φ) (hm : 0 < m) (j : Fin J) (H : Option (Fin I) → Fin R → ℝ) :
    avg (votesOnVideo (copyP P φ) j) (fun c => H (φ c.1) c.2) = avg (votesOnVideo P j) fun c => H (some c.1) c.2 := by
  unfold avg
  rw [sum_video_copies P φ h, card_video_copies P φ h, Nat.cast_mul]
  exact mul_div_mul_left _ _ (by exact_mod_cast hm.ne')

theorem quality_copies {m : ℕ} (h : CopiesOf m φ) (hm : 0 < m) (B V : Fin I → ℝ) :
    apQuality (copyP P φ) (copyX X φ) (copyB φ B) (copyB φ V) = apQuality P X B V := by
  funext j
  unfold apQuality wavg
  have h1 := sum_video_copies P φ h j fun o r => ((o.elim 0 fun i => X j i r) - o.elim 0 B) * apWeight (o.elim 0 V)
  have h2 := sum_video_copies P φ h j fun o _ => apWeight (o.elim 0 V)
  simp only [Option.elim_some] at h1 h2
  have e1 : ∑ c ∈ votesOnVideo (copyP P φ) j, (copyX X φ j c.1 c.2 - copyB φ B c.1) * apWeight (copyB φ V c.1) =
      m * ∑ c ∈ votesOnVideo P j, (X j c.1 c.2 - B c.1) * apWeight (V c.1) := h1
  have e2 : ∑ c ∈ votesOnVideo (copyP P φ) j, apWeight (copyB φ V c.1) = m * ∑ c ∈ votesOnVideo P j, apWeight (V c.1) := h2
  rw [e1, e2]
  exact mul_div_mul_left _ _ (by exact_mod_cast hm.ne')

theorem spreadJ_copies {m : ℕ} (h : CopiesOf m φ) (hm : 0 < m) (S : Fin J → ℝ) (B : Fin I → ℝ) :
    apSpreadJ (copyP P φ) (copyX X φ) S (copyB φ B) = apSpreadJ P X S B := by
  funext j
  unfold apSpreadJ spread
  have h1 : avg (votesOnVideo (copyP P φ) j) (fun c => copyX X φ j c.1 c.2 - S j - copyB φ B c.1) =
      avg (votesOnVideo P j) fun c => X j c.1 c.2 - S j - B c.1 :=
    avg_video_copies P φ h hm j fun o r => (o.elim 0 fun i => X j i r) - S j - o.elim 0 B
  rw [h1]
  exact congrArg Real.sqrt (avg_video_copies P φ h hm j fun o r =>
    ((o.elim 0 fun i => X j i r) - S j - o.elim 0 B - avg (votesOnVideo P j) fun c => X j c.1 c.2 - S j - B c.1) ^ 2)

theorem mos0_copies {m : ℕ} (h : CopiesOf m φ) (hm : 0 < m) :
    (fun j => avg (votesOnVideo (copyP P φ) j) fun c => copyX X φ j c.1 c.2) = fun j => avg (votesOnVideo P j) fun c => X j c.1 c.2 := by
  funext j
  exact avg_video_copies P φ h hm j fun o r => o.elim 0 fun i => X j i r

theorem observers_copies {m : ℕ} (h : CopiesOf m φ) (hs : ∀ i', φ i' ≠ none) : I' = m * I := by
  have := sum_copies φ h (fun o => o.elim 0 fun _ => 1) rfl
  simp only [Option.elim_some, Finset.sum_const, Finset.card_univ, Fintype.card_fin, nsmul_eq_mul, mul_one] at this
  have h1 : ∀ i', (φ i').elim (0 : ℝ) (fun _ => 1) = 1 := by
    intro i'
    cases hi : φ i' with
    | none => exact absurd hi (hs i')
    | some i => rfl
  simp only [h1, Finset.sum_const, Finset.card_univ, Fintype.card_fin, nsmul_eq_mul, mul_one] at this
  exact_mod_cast this

theorem centre_copies {m : ℕ} (h : CopiesOf m φ) (hm : 0 < m) (S : Fin J → ℝ) (B : Fin I → ℝ) (z : Bool) (hz : z = true → ∀ i', φ i' ≠ none) :
    centre z (maskS P S) (fun i' => (φ i').elim .nan (maskB P B)) =
      ((centre z (maskS P S) (maskB P B)).1, fun i' => (φ i').elim .nan (centre z (maskS P S) (maskB P B)).2) := by
  unfold centre
  cases z
  · rfl
  · have hs := hz rfl
    rw [if_pos rfl, if_pos rfl]
    have hmean : Np.mean (List.ofFn fun i' => (φ i').elim .nan (maskB P B)) = Np.mean (List.ofFn (maskB P B)) := by
      rw [← maskB_copies P φ, mean_maskB, mean_maskB]
      have hI := observers_copies φ h hs
      have h1 : (0 < I' ∧ ∀ i', (votesOfObserver (copyP P φ) i').Nonempty) ↔ (0 < I ∧ ∀ i, (votesOfObserver P i).Nonempty) := by
        refine and_congr (by rw [hI]; exact Nat.mul_pos_iff_of_pos_left hm) ⟨fun hv i => ?_, fun hv i' => ?_⟩
        · have hc : 0 < (Finset.univ.filter fun i' => φ i' = some i).card := by rw [h i]; exact hm
          obtain ⟨i', hi'⟩ := Finset.card_pos.mp hc
          rw [← observer_copies_some P φ (Finset.mem_filter.mp hi').2]
          exact hv i'
        · cases hi : φ i' with
          | none => exact absurd hi (hs i')
          | some i => rw [observer_copies_some P φ hi]; exact hv i
      have h2 : ∑ i', copyB φ B i' = m * ∑ i, B i := sum_copies φ h (fun o => o.elim 0 B) rfl
      have h3 : ((I' : ℕ) : ℝ) = m * I := by rw [hI]; push_cast; rfl
      rw [decide_eq_decide.mpr h1, h2, h3]
      congr 1
      exact mul_div_mul_left _ _ (by exact_mod_cast hm.ne')
    dsimp only
    rw [hmean]
    refine Prod.ext rfl (funext fun i' => ?_)
    dsimp only
    cases hi : φ i' with
    | none => exact absurd hi (hs i')
    | some i => rfl

theorem step_copies {m : ℕ} (h : CopiesOf m φ) (hm : 0 < m) (k : ℕ) (S : Fin J → ℝ) (B : Fin I → ℝ) :
    step (maskX (copyP P φ) (copyX X φ)) k (maskS P S) (fun i' => (φ i').elim .nan (maskB P B)) =
      { s := (step (maskX P X) k (maskS P S) (maskB P B)).s
        b := fun i' => (φ i').elim .nan (step (maskX P X) k (maskS P S) (maskB P B)).b
        vi := fun i' => (φ i').elim .nan (step (maskX P X) k (maskS P S) (maskB P B)).vi
        vj := (step (maskX P X) k (maskS P S) (maskB P B)).vj
        itr := (step (maskX P X) k (maskS P S) (maskB P B)).itr } := by
  rw [step_spec P X k S B, ← maskB_copies P φ]
  have h1 := step_spec (copyP P φ) (copyX X φ) k S (copyB φ B)
  rw [spread_copies, quality_copies P X φ h hm, bias_copies, spreadJ_copies P X φ h hm, maskS_copies P φ h hm, maskS_copies P φ h hm,
    maskS_copies P φ h hm, maskB_copies P φ (apBias _ _ _), maskB_copies P φ (apSpread _ _ _ _)] at h1
  exact h1

/-- the fit is the same -/
theorem fit_copies {m : ℕ} (h : CopiesOf m φ) (hm : 0 < m) :
    (∃ e, fit (maskX P X) = .error e ∧ fit (maskX (copyP P φ) (copyX X φ)) = .error e) ∨
    ∃ f, (∃ k S B, f = step (maskX P X) k (maskS P S) (maskB P B)) ∧ fit (maskX P X) = .ok f ∧ fit (maskX (copyP P φ) (copyX X φ)) =
      .ok { s := f.s, b := fun i' => (φ i').elim .nan f.b, vi := fun i' => (φ i').elim .nan f.vi, vj := f.vj, itr := f.itr } := by
  have hlock := loop_lockstep (x := maskX P X) (x' := maskX (copyP P φ) (copyX X φ))
    (fun s b s' b' => ∃ A B, s = maskS P A ∧ b = maskB P B ∧ s' = s ∧ b' = fun i' => (φ i').elim .nan b)
    (by
      rintro k s b s' b' ⟨A, B, rfl, rfl, rfl, rfl⟩
      rw [step_copies P X φ h hm])
    (by
      rintro k s b s' b' ⟨A, B, rfl, rfl, rfl, rfl⟩
      rw [step_copies P X φ h hm]
      exact ⟨_, _, congrArg Fit.s (step_spec P X k A B), congrArg Fit.b (step_spec P X k A B), rfl, rfl⟩)
    0 (meanAlongS (maskX P X)) (biases (maskX P X) (meanAlongS (maskX P X)))
    (meanAlongS (maskX (copyP P φ) (copyX X φ))) (biases (maskX (copyP P φ) (copyX X φ)) (meanAlongS (maskX (copyP P φ) (copyX X φ))))
    (by
      refine ⟨_, _, init_spec P X, by rw [init_spec, biases_spec], ?_, ?_⟩
      · rw [init_spec, init_spec, mos0_copies P X φ h hm, maskS_copies P φ h hm]
      · rw [init_spec, biases_spec, init_spec, biases_spec, mos0_copies P X φ h hm, bias_copies, maskB_copies])
  rcases hlock with ⟨e, h1, h2⟩ | ⟨k, s, b, s', b', ⟨A, B, rfl, rfl, rfl, rfl⟩, h1, h2⟩
  · exact Or.inl ⟨e, h1, h2⟩
  · refine Or.inr ⟨_, ⟨k, A, B, rfl⟩, h1, ?_⟩
    rw [step_copies P X φ h hm] at h2
    exact h2
end

end Sureal.Ap
