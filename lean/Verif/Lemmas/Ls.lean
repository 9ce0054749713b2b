import Verif.Model.Ls
import Verif.Spec.LinAlg
import Verif.Lemmas.Mos
import Mathlib.Logic.Equiv.Fin.Basic
import Mathlib.LinearAlgebra.Matrix.NonsingularInverse
import Mathlib.LinearAlgebra.Matrix.ToLin
import Mathlib.LinearAlgebra.Matrix.DotProduct
import Mathlib.Algebra.BigOperators.Fin
/-! Helper lemmas for the least squares model. -/
set_option linter.unusedSectionVars false
namespace Sureal.Ls
open Sureal Spec
variable {K : Type} [Field K] [LinearOrder K] [IsStrictOrderedRing K]

theorem inner_fold {n m : ℕ} (v S k : ℕ) (A : Arr2 K n m) (i : Fin n) (j : Fin m) :
    (List.range k).foldl (fun A s => setAt (setAt A (v * S + s) s 1) (v * S + s) (S + v) 1) A i j =
      if ∃ s < k, i.val = v * S + s ∧ (j.val = s ∨ j.val = S + v) then 1 else A i j := by
  induction k with
  | zero => simp
  | succ k ih =>
    rw [List.range_succ, List.foldl_append]
    simp only [List.foldl_cons, List.foldl_nil]
    unfold setAt
    unfold setAt at ih
    rw [ih]
    by_cases h1 : i.val = v * S + k ∧ j.val = S + v
    · rw [if_pos h1, if_pos ⟨k, by omega, h1.1, Or.inr h1.2⟩]
    · rw [if_neg h1]
      by_cases h2 : i.val = v * S + k ∧ j.val = k
      · rw [if_pos h2, if_pos ⟨k, by omega, h2.1, Or.inl h2.2⟩]
      · rw [if_neg h2]
        refine if_congr ⟨?_, ?_⟩ rfl rfl
        · rintro ⟨s, hs, h⟩; exact ⟨s, by omega, h⟩
        · rintro ⟨s, hs, h⟩
          rcases Nat.lt_succ_iff_lt_or_eq.mp hs with h' | h'
          · exact ⟨s, h', h⟩
          · subst h'
            rcases h.2 with h3 | h3
            · exact absurd ⟨h.1, h3⟩ h2
            · exact absurd ⟨h.1, h3⟩ h1

theorem indicator_fold {n m : ℕ} (S k : ℕ) (A : Arr2 K n m) (i : Fin n) (j : Fin m) :
    (List.range k).foldl (fun A v =>
      (List.range S).foldl (fun A s => setAt (setAt A (v * S + s) s 1) (v * S + s) (S + v) 1) A) A i j =
      if ∃ v < k, ∃ s < S, i.val = v * S + s ∧ (j.val = s ∨ j.val = S + v) then 1 else A i j := by
  induction k with
  | zero => simp
  | succ k ih =>
    rw [List.range_succ, List.foldl_append]
    simp only [List.foldl_cons, List.foldl_nil]
    rw [inner_fold, ih]
    by_cases h1 : ∃ s < S, i.val = k * S + s ∧ (j.val = s ∨ j.val = S + k)
    · rw [if_pos h1, if_pos ⟨k, by omega, h1⟩]
    · rw [if_neg h1]
      refine if_congr ⟨?_, ?_⟩ rfl rfl
      · rintro ⟨s, hs, h⟩; exact ⟨s, by omega, h⟩
      · rintro ⟨s, hs, h⟩
        rcases Nat.lt_succ_iff_lt_or_eq.mp hs with h' | h'
        · exact ⟨s, h', h⟩
        · subst h'; exact absurd h h1

theorem cell_unique {S v s v' s' : ℕ} (hs : s < S) (hs' : s' < S) (h : v * S + s = v' * S + s') : v = v' ∧ s = s' := by
  have hS : 0 < S := by omega
  have h1 : (v * S + s) / S = v := by
    rw [Nat.mul_comm, Nat.mul_add_div hS, Nat.div_eq_of_lt hs, Nat.add_zero]
  have h2 : (v' * S + s') / S = v' := by
    rw [Nat.mul_comm, Nat.mul_add_div hS, Nat.div_eq_of_lt hs', Nat.add_zero]
  have : v = v' := by rw [← h1, ← h2, h]
  subst this
  exact ⟨rfl, by omega⟩

/-- row of the vote of observer `s` on video `e` -/
def rowOf {E S : ℕ} (e : Fin E) (s : Fin S) : Fin (E * S + 1) := (finProdFinEquiv (e, s)).castSucc

theorem rowOf_val {E S : ℕ} (e : Fin E) (s : Fin S) : (rowOf e s).val = e.val * S + s.val := by
  unfold rowOf
  rw [Fin.val_castSucc, finProdFinEquiv_apply_val, Nat.mul_comm]
  exact Nat.add_comm _ _

theorem rowOf_lt {E S : ℕ} (e : Fin E) (s : Fin S) : (rowOf e s).val < E * S := (finProdFinEquiv (e, s)).isLt

theorem design_row {E S : ℕ} (e : Fin E) (s : Fin S) (j : Fin (S + E)) :
    design (K := K) E S (rowOf e s) j = if j.val = s.val ∨ j.val = S + e.val then 1 else 0 := by
  unfold design
  rw [dif_pos (rowOf_lt e s)]
  unfold indicator
  rw [indicator_fold]
  refine if_congr ⟨?_, ?_⟩ rfl rfl
  · rintro ⟨v, hv, s', hs', h, hj⟩
    have h' : e.val * S + s.val = v * S + s' := by rw [← rowOf_val]; exact h
    obtain ⟨rfl, rfl⟩ := cell_unique s.isLt hs' h'
    exact hj
  · intro hj
    exact ⟨e.val, e.isLt, s.val, s.isLt, rowOf_val e s, hj⟩

theorem design_last {E S : ℕ} (j : Fin (S + E)) :
    design (K := K) E S (Fin.last _) j = if j.val = S then 1 else 0 := by
  unfold design
  rw [dif_neg (by simp)]
  unfold setAt
  simp

theorem target_row {E S : ℕ} (x : Arr2 (Fl K) E S) (m0 : Fl K) (e : Fin E) (s : Fin S) :
    target x m0 (rowOf e s) = x e s := by
  unfold target
  rw [dif_pos (rowOf_lt e s)]
  have hS : 0 < S := lt_of_le_of_lt (Nat.zero_le _) s.isLt
  congr 1
  · congr 1
    show (rowOf e s).val / S = e.val
    rw [rowOf_val, Nat.mul_comm, Nat.mul_add_div hS, Nat.div_eq_of_lt s.isLt, Nat.add_zero]
  · apply Fin.ext
    show (rowOf e s).val % S = s.val
    rw [rowOf_val, Nat.mul_comm, Nat.mul_add_mod, Nat.mod_eq_of_lt s.isLt]

theorem target_last {E S : ℕ} (x : Arr2 (Fl K) E S) (m0 : Fl K) : target x m0 (Fin.last _) = m0 := by
  unfold target
  rw [dif_neg (by simp)]

/-- a sum over the rows of the system -/
theorem sum_rows {E S : ℕ} (f : Fin (E * S + 1) → K) :
    ∑ i, f i = (∑ e : Fin E, ∑ s : Fin S, f (rowOf e s)) + f (Fin.last _) := by
  rw [Fin.sum_univ_castSucc]
  congr 1
  rw [← Fintype.sum_prod_type', ← finProdFinEquiv.sum_comp]
  exact Finset.sum_congr rfl fun p _ => rfl

theorem design_row_b {E S : ℕ} (e : Fin E) (s s' : Fin S) :
    design (K := K) E S (rowOf e s) (Fin.castAdd E s') = if s' = s then 1 else 0 := by
  rw [design_row]
  refine if_congr ⟨?_, ?_⟩ rfl rfl
  · rintro (h | h)
    · exact Fin.ext h
    · have := s'.isLt; simp only [Fin.val_castAdd] at h; omega
  · rintro rfl; exact Or.inl rfl

theorem design_row_q {E S : ℕ} (e e' : Fin E) (s : Fin S) :
    design (K := K) E S (rowOf e s) (Fin.natAdd S e') = if e' = e then 1 else 0 := by
  rw [design_row]
  refine if_congr ⟨?_, ?_⟩ rfl rfl
  · rintro (h | h)
    · have := s.isLt; simp only [Fin.val_natAdd] at h; omega
    · exact Fin.ext (by simp only [Fin.val_natAdd] at h; omega)
  · rintro rfl; exact Or.inr rfl

theorem design_last_b {E S : ℕ} (s' : Fin S) :
    design (K := K) E S (Fin.last _) (Fin.castAdd E s') = 0 := by
  rw [design_last, if_neg]
  have := s'.isLt
  simp only [Fin.val_castAdd]; omega

theorem design_last_q {E S : ℕ} (e' : Fin E) :
    design (K := K) E S (Fin.last _) (Fin.natAdd S e') = if e'.val = 0 then 1 else 0 := by
  rw [design_last]
  exact if_congr (by simp) rfl rfl

/-- `A z` row by row -/
theorem mulVec_row {E S : ℕ} (z : Fin (S + E) → K) (e : Fin E) (s : Fin S) :
    ∑ j, design (K := K) E S (rowOf e s) j * z j = z (Fin.castAdd E s) + z (Fin.natAdd S e) := by
  rw [Fin.sum_univ_add]
  simp [design_row_b, design_row_q]

theorem mulVec_last {E S : ℕ} (hE : 0 < E) (z : Fin (S + E) → K) :
    ∑ j, design (K := K) E S (Fin.last _) j * z j = z (Fin.natAdd S ⟨0, hE⟩) := by
  rw [Fin.sum_univ_add]
  simp only [design_last_b, zero_mul, Finset.sum_const_zero, zero_add, design_last_q, ite_mul, one_mul]
  rw [Finset.sum_eq_single ⟨0, hE⟩]
  · simp
  · intro b _ hb
    rw [if_neg]
    exact fun h => hb (Fin.ext h)
  · simp

open Matrix in
theorem design_injective {E S : ℕ} (hE : 0 < E) (hS : 0 < S) (z : Fin (S + E) → K)
    (h : ∀ i, ∑ j, design (K := K) E S i j * z j = 0) : z = 0 := by
  have h0 : z (Fin.natAdd S ⟨0, hE⟩) = 0 := (mulVec_last hE z).symm.trans (h _)
  have hb : ∀ s, z (Fin.castAdd E s) = 0 := by
    intro s
    have := h (rowOf ⟨0, hE⟩ s)
    rw [mulVec_row, h0, add_zero] at this
    exact this
  have hq : ∀ e, z (Fin.natAdd S e) = 0 := by
    intro e
    have := h (rowOf e ⟨0, hS⟩)
    rw [mulVec_row, hb, zero_add] at this
    exact this
  funext j
  refine Fin.addCases (fun s => ?_) (fun e => ?_) j
  · exact hb s
  · exact hq e

section matrix
open Matrix

/-- the design matrix as a Mathlib matrix -/
def dm (E S : ℕ) : Matrix (Fin (E * S + 1)) (Fin (S + E)) K := Matrix.of (design E S)

theorem gram_injective {E S : ℕ} (hE : 0 < E) (hS : 0 < S) (z : Fin (S + E) → K)
    (h : ((dm (K := K) E S)ᵀ * dm E S) *ᵥ z = 0) : z = 0 := by
  have h1 : (dm (K := K) E S *ᵥ z) ⬝ᵥ (dm (K := K) E S *ᵥ z) = 0 := by
    rw [Matrix.dotProduct_mulVec, Matrix.vecMul_mulVec, ← Matrix.mulVec_transpose, Matrix.transpose_mul,
      Matrix.transpose_transpose, h]
    simp
  have h2 : dm (K := K) E S *ᵥ z = 0 := dotProduct_self_eq_zero.mp h1
  exact design_injective hE hS z fun i => by
    have := congrFun h2 i
    simpa [Matrix.mulVec, dotProduct, dm] using this

/-- a least squares solution computed with a pseudo-inverse is the solution of the normal equations -/
theorem pinv_solution {E S : ℕ} (hE : 0 < E) (hS : 0 < S) {P : Arr2 K (S + E) (E * S + 1)}
    (hP : MoorePenrose (design E S) P) (y : Fin (E * S + 1) → K) (z : Fin (S + E) → K)
    (hz : ∀ j, ∑ i, design (K := K) E S i j * (∑ k, design (K := K) E S i k * z k - y i) = 0) :
    ∀ c, ∑ i, P c i * y i = z c := by
  set A := dm (K := K) E S with hA
  set Q : Matrix (Fin (S + E)) (Fin (E * S + 1)) K := Matrix.of P with hQ
  have hapa : A * Q * A = A := by
    ext i j
    rw [Matrix.mul_apply]
    simp only [Matrix.mul_apply]
    rw [← show (∑ k, ∑ l, A i k * Q k l * A l j) = A i j from hP.apa i j, Finset.sum_comm]
    exact Finset.sum_congr rfl fun l _ => Finset.sum_mul _ _ _
  have hap : (A * Q)ᵀ = A * Q := by
    ext i j
    rw [Matrix.transpose_apply, Matrix.mul_apply, Matrix.mul_apply]
    exact (hP.ap_symm i j).symm
  have hAz : Aᵀ *ᵥ (A *ᵥ z) = Aᵀ *ᵥ y := by
    rw [← sub_eq_zero, ← Matrix.mulVec_sub]
    funext j
    exact hz j
  have hn : Aᵀ *ᵥ (A *ᵥ (Q *ᵥ y)) = Aᵀ *ᵥ y := by
    rw [Matrix.mulVec_mulVec, Matrix.mulVec_mulVec]
    congr 1
    rw [Matrix.mul_assoc, ← hap, ← Matrix.transpose_mul, hapa]
  have hd : (Aᵀ * A) *ᵥ (Q *ᵥ y - z) = 0 := by
    rw [Matrix.mulVec_sub, ← Matrix.mulVec_mulVec, ← Matrix.mulVec_mulVec, hn, hAz, sub_self]
  have h0 := gram_injective hE hS _ hd
  intro c
  have := congrFun (sub_eq_zero.mp h0) c
  exact this

/-- a matrix with independent columns has a pseudo-inverse -/
theorem pinv_exists {n m : ℕ} (A0 : Fin n → Fin m → K) (hinj : ∀ z : Fin m → K, (∀ i, ∑ j, A0 i j * z j = 0) → z = 0) :
    ∃ P : Arr2 K m n, MoorePenrose A0 P := by
  set A : Matrix (Fin n) (Fin m) K := Matrix.of A0 with hA
  have hg : ∀ z, (Aᵀ * A) *ᵥ z = 0 → z = 0 := by
    intro z h
    have h1 : (A *ᵥ z) ⬝ᵥ (A *ᵥ z) = 0 := by
      rw [Matrix.dotProduct_mulVec, Matrix.vecMul_mulVec, ← Matrix.mulVec_transpose, Matrix.transpose_mul,
        Matrix.transpose_transpose, h]
      simp
    have h2 : A *ᵥ z = 0 := dotProduct_self_eq_zero.mp h1
    exact hinj z fun i => congrFun h2 i
  have hu : IsUnit (Aᵀ * A) := by
    rw [← Matrix.mulVec_injective_iff_isUnit]
    intro z z' h
    have : (Aᵀ * A) *ᵥ (z - z') = 0 := by rw [Matrix.mulVec_sub, sub_eq_zero]; exact h
    exact sub_eq_zero.mp (hg _ this)
  have hdet : IsUnit (Aᵀ * A).det := (Matrix.isUnit_iff_isUnit_det _).mp hu
  have hQA : (Aᵀ * A)⁻¹ * Aᵀ * A = 1 := by rw [Matrix.mul_assoc]; exact Matrix.nonsing_inv_mul _ hdet
  have hsym : ((Aᵀ * A)⁻¹)ᵀ = (Aᵀ * A)⁻¹ := by
    rw [Matrix.transpose_nonsing_inv, Matrix.transpose_mul, Matrix.transpose_transpose]
  set Q := (Aᵀ * A)⁻¹ * Aᵀ with hQ
  have h1 : A * Q * A = A := by rw [Matrix.mul_assoc, hQA, Matrix.mul_one]
  have h2 : Q * A * Q = Q := by rw [hQA, Matrix.one_mul]
  have h3 : (A * Q)ᵀ = A * Q := by
    rw [hQ, Matrix.transpose_mul, Matrix.transpose_mul, Matrix.transpose_transpose, hsym, Matrix.mul_assoc]
  have h4 : (Q * A)ᵀ = Q * A := by rw [hQA, Matrix.transpose_one]
  refine ⟨fun i j => Q i j, ⟨fun i j => ?_, fun i j => ?_, fun i j => ?_, fun i j => ?_⟩⟩
  · have := congrFun (congrFun h1 i) j
    rw [Matrix.mul_apply] at this
    simp only [Matrix.mul_apply, Finset.sum_mul] at this
    rw [Finset.sum_comm]
    exact this
  · have := congrFun (congrFun h2 i) j
    rw [Matrix.mul_apply] at this
    simp only [Matrix.mul_apply, Finset.sum_mul] at this
    rw [Finset.sum_comm]
    exact this
  · have := congrFun (congrFun h3 j) i
    rw [Matrix.transpose_apply, Matrix.mul_apply, Matrix.mul_apply] at this
    exact this
  · have := congrFun (congrFun h4 j) i
    rw [Matrix.transpose_apply, Matrix.mul_apply, Matrix.mul_apply] at this
    exact this

end matrix

theorem dot_fin {n m : ℕ} (P : Arr2 K n m) (y : Fin m → K) (c : Fin n) :
    dot P (fun i => .fin (y i)) c = .fin (∑ i, P c i * y i) := by
  unfold dot
  have : (List.ofFn fun i => (Fl.fin (P c i) * Fl.fin (y i) : Fl K)) = (List.ofFn fun i => P c i * y i).map Fl.fin := by
    rw [List.map_ofFn]; rfl
  rw [this, Np.sum_map_fin, List.sum_ofFn]

theorem sum_nan {l : List (Fl K)} (h : Fl.nan ∈ l) : Np.sum l = .nan := by
  unfold Np.sum
  induction l with
  | nil => simp at h
  | cons x l ih =>
    rw [List.sum_cons]
    rcases List.mem_cons.mp h with h | h
    · rw [← h, Fl.nan_add]
    · rw [ih h, Fl.add_nan]

theorem dot_nan {n m : ℕ} (P : Arr2 K n m) (y : Arr1 (Fl K) m) (i : Fin m) (h : y i = .nan) (c : Fin n) :
    dot P y c = .nan := by
  unfold dot
  apply sum_nan
  rw [List.mem_ofFn]
  exact ⟨i, by rw [h, Fl.mul_nan]⟩

end Sureal.Ls
