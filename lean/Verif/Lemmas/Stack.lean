import Verif.Model.Preproc
import Verif.Spec.Arrays
import Verif.Lemmas.Fl
import Mathlib.Data.List.OfFn
import Mathlib.Data.Multiset.Bind
import Mathlib.Data.Fintype.Basic
import Mathlib.Algebra.BigOperators.Fin
/-! Closed form of the stacking loops, and the lists the reductions run over. -/
set_option linter.unusedSectionVars false
namespace Sureal
open Spec

section
variable {K : Type} [Zero K] [One K] [Add K] [Neg K] [Sub K] [Mul K] [Div K] [NatCast K]
  [LT K] [LE K] [DecidableLT K] [DecidableLE K]
variable {E S R : Nat}

theorem stack0_foldl (a : Arr3 (Fl K) E S R) (l : List (Fin R)) (hl : l.Nodup) (o : Arr2 (Fl K) (R * E) S)
    (r : Fin R) (hr : r ∈ l) (e : Fin E) (s : Fin S) (i : Fin (R * E)) (hi : i.val = r.val * E + e.val) :
    (l.foldl (fun o r => fun i s =>
      if h : r.val * E ≤ i.val ∧ i.val < (r.val + 1) * E then
        a ⟨i.val - r.val * E, by have := h.2; rw [Nat.add_mul] at this; omega⟩ s r
      else o i s) o) i s = a e s r := by
  have uniq : ∀ r' : Fin R, (r'.val * E ≤ i.val ∧ i.val < (r'.val + 1) * E) → r' = r := by
    rintro r' ⟨h1, h2⟩
    have e1 : r'.val = i.val / E := by
      symm
      rw [Nat.div_eq_iff (by have := e.isLt; omega)]
      rw [Nat.add_mul] at h2
      have := e.isLt
      omega
    have e2 : r.val = i.val / E := by
      rw [hi, Nat.mul_comm, Nat.mul_add_div (by have := e.isLt; omega), Nat.div_eq_of_lt e.isLt, Nat.add_zero]
    exact Fin.ext (by rw [e1, e2])
  have key : ∀ (l : List (Fin R)) (o : Arr2 (Fl K) (R * E) S), r ∉ l →
      (l.foldl (fun o r => fun i s =>
      if h : r.val * E ≤ i.val ∧ i.val < (r.val + 1) * E then
        a ⟨i.val - r.val * E, by have := h.2; rw [Nat.add_mul] at this; omega⟩ s r
      else o i s) o) i s = o i s := by
    intro l
    induction l with
    | nil => intro o _; rfl
    | cons r' l ih =>
      intro o hn
      simp only [List.mem_cons, not_or] at hn
      rw [List.foldl_cons, ih _ hn.2]
      rw [dif_neg]
      intro h
      exact hn.1 (uniq r' h).symm
  induction l generalizing o with
  | nil => simp at hr
  | cons r' l ih =>
    rw [List.foldl_cons]
    rw [List.nodup_cons] at hl
    rcases List.mem_cons.mp hr with rfl | hr'
    · rw [key l _ hl.1]
      have hcond : r.val * E ≤ i.val ∧ i.val < (r.val + 1) * E := by
        rw [Nat.add_mul]; have := e.isLt; omega
      rw [dif_pos hcond]
      congr 1
      exact Fin.ext (by simp [hi])
    · exact ih hl.2 _ hr'

/-- position of cell `(e, s, r)` in the axis-0 stack -/
theorem stack0_apply (a : Arr3 (Fl K) E S R) (e : Fin E) (s : Fin S) (r : Fin R) (i : Fin (R * E))
    (hi : i.val = r.val * E + e.val) : stack0 a i s = a e s r :=
  stack0_foldl a _ (List.nodup_finRange R) _ r (List.mem_finRange r) e s i hi

theorem stack1_eq_stack0 (a : Arr3 (Fl K) E S R) (e : Fin E) (i : Fin (R * S)) :
    stack1 a e i = stack0 (fun s e r => a e s r) i e := by
  unfold stack1 stack0
  generalize List.finRange R = l
  have : ∀ (l : List (Fin R)) (o : Arr2 (Fl K) E (R * S)) (o' : Arr2 (Fl K) (R * S) E), (∀ e i, o e i = o' i e) →
     (l.foldl (fun o r => fun e i =>
      if h : r.val * S ≤ i.val ∧ i.val < (r.val + 1) * S then
        a e ⟨i.val - r.val * S, by have := h.2; rw [Nat.add_mul] at this; omega⟩ r
      else o e i) o) e i = 
      (l.foldl (fun o r => fun i s =>
      if h : r.val * S ≤ i.val ∧ i.val < (r.val + 1) * S then
        a s ⟨i.val - r.val * S, by have := h.2; rw [Nat.add_mul] at this; omega⟩ r
      else o i s) o') i e := by
    intro l
    induction l with
    | nil => intro o o' h; exact h e i
    | cons r l ih =>
      intro o o' h
      rw [List.foldl_cons, List.foldl_cons]
      apply ih
      intro e i
      split <;> simp [h]
  exact this l _ _ (fun _ _ => rfl)

/-- position of cell `(e, s, r)` in the axis-1 stack -/
theorem stack1_apply (a : Arr3 (Fl K) E S R) (e : Fin E) (s : Fin S) (r : Fin R) (i : Fin (R * S))
    (hi : i.val = r.val * S + s.val) : stack1 a e i = a e s r := by
  rw [stack1_eq_stack0]; exact stack0_apply _ s e r i hi

theorem rowL_stack1 (a : Arr3 (Fl K) E S R) (e : Fin E) :
    rowL (stack1 a) e = (List.ofFn fun r => List.ofFn fun s => a e s r).flatten := by
  unfold rowL
  rw [List.ofFn_mul]
  congr 2
  funext r
  congr 1
  funext s
  exact stack1_apply a e s r _ rfl

theorem colL_stack0 (a : Arr3 (Fl K) E S R) (s : Fin S) :
    colL (stack0 a) s = (List.ofFn fun r => List.ofFn fun e => a e s r).flatten := by
  unfold colL
  rw [List.ofFn_mul]
  congr 2
  funext r
  congr 1
  funext e
  exact stack0_apply a e s r _ rfl
end

theorem coe_ofFn {α : Type} {n : Nat} (f : Fin n → α) :
    ((List.ofFn f : List α) : Multiset α) = (Finset.univ : Finset (Fin n)).val.map f := by
  rw [List.ofFn_eq_map]; rfl

theorem coe_flatten_ofFn {α : Type} {n : Nat} (f : Fin n → List α) :
    (((List.ofFn f).flatten : List α) : Multiset α)
      = (Finset.univ : Finset (Fin n)).val.bind fun i => (f i : Multiset α) := by
  rw [Multiset.bind, ← Multiset.coe_join]
  congr 1
  rw [← coe_ofFn, List.map_ofFn]
  rfl

/-- reading a table row by row or column by column gives the same multiset -/
theorem flatten_ofFn_comm {α : Type} {n m : Nat} (f : Fin n → Fin m → α) :
    ((List.ofFn fun i => List.ofFn fun j => f i j).flatten).Perm
      (List.ofFn fun j => List.ofFn fun i => f i j).flatten := by
  rw [← Multiset.coe_eq_coe, coe_flatten_ofFn, coe_flatten_ofFn]
  simp only [coe_ofFn]
  exact Multiset.bind_map_comm _ _

section
variable {K : Type} [Zero K] [One K] [Add K] [Neg K] [Sub K] [Mul K] [Div K] [NatCast K]
  [LT K] [LE K] [DecidableLT K] [DecidableLE K]
variable {E S R : Nat}

theorem rowL_stack1_perm (a : Arr3 (Fl K) E S R) (e : Fin E) : (rowL (stack1 a) e).Perm (videoCells a e) := by
  rw [rowL_stack1]; exact (flatten_ofFn_comm fun s r => a e s r).symm

theorem colL_stack0_perm (a : Arr3 (Fl K) E S R) (s : Fin S) : (colL (stack0 a) s).Perm (observerCells a s) := by
  rw [colL_stack0]; exact (flatten_ofFn_comm fun e r => a e s r).symm

theorem mem_videoCells {α : Type} (a : Arr3 α E S R) (e : Fin E) (x : α) :
    x ∈ videoCells a e ↔ ∃ s r, a e s r = x := by
  simp [videoCells, List.mem_flatten, List.mem_ofFn]

theorem mem_observerCells {α : Type} (a : Arr3 α E S R) (s : Fin S) (x : α) :
    x ∈ observerCells a s ↔ ∃ e r, a e s r = x := by
  simp [observerCells, List.mem_flatten, List.mem_ofFn]

theorem videoCells_map {α β : Type} (f : α → β) (a : Arr3 α E S R) (e : Fin E) :
    videoCells (fun e s r => f (a e s r)) e = (videoCells a e).map f := by
  simp [videoCells, List.map_flatten, List.map_ofFn, Function.comp_def]

theorem observerCells_map {α β : Type} (f : α → β) (a : Arr3 α E S R) (s : Fin S) :
    observerCells (fun e s r => f (a e s r)) s = (observerCells a s).map f := by
  simp [observerCells, List.map_flatten, List.map_ofFn, Function.comp_def]
end
end Sureal

namespace Sureal
open Spec
variable {K : Type} {E S R : Nat}

theorem coe_videoCells {α : Type} (a : Arr3 α E S R) (e : Fin E) :
    ((videoCells a e : List α) : Multiset α)
      = (Finset.univ : Finset (Fin S × Fin R)).val.map fun p => a e p.1 p.2 := by
  unfold videoCells
  rw [coe_flatten_ofFn]
  simp only [coe_ofFn]
  rw [← Finset.univ_product_univ, Finset.product_val]
  simp [SProd.sprod, Multiset.product, Multiset.map_bind]
  rfl

theorem dropNan_relayout {S' R' : Nat} (a : Arr3 (Fl K) E S R) (a' : Arr3 (Fl K) E S' R') (e : Fin E)
    (φ : Fin S × Fin R ↪ Fin S' × Fin R') (h : ∀ p, a' e (φ p).1 (φ p).2 = a e p.1 p.2)
    (hout : ∀ q, (∀ p, φ p ≠ q) → a' e q.1 q.2 = .nan) :
    (dropNan (videoCells a' e)).Perm (dropNan (videoCells a e)) := by
  rw [← Multiset.coe_eq_coe]
  unfold dropNan
  have hf : ∀ l : List (Fl K), ((l.filter (fun x => !x.isNan) : List (Fl K)) : Multiset (Fl K))
      = Multiset.filter (fun x => (!x.isNan) = true) (l : Multiset (Fl K)) := by
    intro l
    rw [Multiset.filter_coe]
    congr 1
    simp
  rw [hf, hf, coe_videoCells, coe_videoCells]
  rw [Multiset.filter_map, Multiset.filter_map]
  have : (Finset.univ.filter (fun q : Fin S' × Fin R' => (!(a' e q.1 q.2).isNan) = true))
      = (Finset.univ.filter (fun p : Fin S × Fin R => (!(a e p.1 p.2).isNan) = true)).map φ := by
    ext q
    simp only [Finset.mem_filter, Finset.mem_univ, true_and, Finset.mem_map]
    constructor
    · intro hq
      by_cases hx : ∃ p, φ p = q
      · obtain ⟨p, rfl⟩ := hx
        exact ⟨p, by rwa [h] at hq, rfl⟩
      · push Not at hx
        rw [hout q hx] at hq
        simp [Fl.isNan] at hq
    · rintro ⟨p, hp, rfl⟩
      rwa [h]
  have h2 := congrArg Finset.val this
  simp only [Finset.filter_val, Finset.map_val] at h2
  simp only [Function.comp_def]
  rw [h2, Multiset.map_map]
  apply Multiset.map_congr rfl
  intro p _
  exact h p

end Sureal
