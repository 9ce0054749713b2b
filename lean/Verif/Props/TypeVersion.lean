import Verif.Model.TypeVersion
import Mathlib.Data.List.Infix
import Verif.Props.Lookup
/-!
# C109: type and version identify a model class
-/
namespace Sureal.Props
open Sureal TypeVersion

/-- `_V` does not occur -/
def NoMark (v : List Char) : Prop := ¬∃ a b : List Char, v = a ++ '_' :: 'V' :: b

/-- **C109, partial.** The full claim, that the string of type and version is unique, is refuted by `C109_refuted`.  Proved: two
strings are equal only for equal types and versions, if the versions do not contain `_V`. -/
theorem C109_unique_partial {t t' v v' : List Char} (hv : NoMark v) (hv' : NoMark v') (h : string t v = string t' v') : t = t' ∧ v = v' := by
  unfold TypeVersion.string at h
  have key : ∀ {t t' v v' : List Char} (m : List Char), NoMark v → t' = t ++ m → '_' :: 'V' :: v = m ++ '_' :: 'V' :: v' → t = t' ∧ v = v' := by
    intro t t' v v' m hv h1 h2
    rcases m with _ | ⟨x, _ | ⟨y, m⟩⟩
    · simp only [List.append_nil] at h1
      simp only [List.nil_append, List.cons.injEq, true_and] at h2
      exact ⟨h1.symm, h2⟩
    · simp at h2
    · simp only [List.cons_append, List.cons.injEq] at h2
      exact absurd ⟨m, v', h2.2.2⟩ hv
  rcases List.append_eq_append_iff.mp h with ⟨m, h1, h2⟩ | ⟨m, h1, h2⟩
  · exact key m hv h1 h2
  · obtain ⟨e1, e2⟩ := key m hv' h1 h2
    exact ⟨e1.symm, e2.symm⟩

/-- **C109, refuted.** Versions that pass the check may contain `_V`: two classes with different types and versions and the same
string. -/
theorem C109_refuted : check "A".toList "1_V2".toList = .ok () ∧ check "A_V1".toList "2".toList = .ok () ∧
    string "A".toList "1_V2".toList = string "A_V1".toList "2".toList := by
  decide +kernel

/-- **C109.** The check passes exactly for versions of letters, digits, dots, underscores and hyphens, at least one, ... -/
theorem C109_check (t v : List Char) (hnl : v.getLast? ≠ some '\n') :
    check t v = .ok () ↔ v ≠ [] ∧ ∀ c ∈ v, (('a' ≤ c ∧ c ≤ 'z') ∨ ('A' ≤ c ∧ c ≤ 'Z') ∨ ('0' ≤ c ∧ c ≤ '9') ∨ c = '.' ∨ c = '_' ∨ c = '-') := by
  unfold check TypeVersion.accepts
  rw [if_neg hnl]
  have hall : ∀ c, allowed c = true ↔ (('a' ≤ c ∧ c ≤ 'z') ∨ ('A' ≤ c ∧ c ≤ 'Z') ∨ ('0' ≤ c ∧ c ≤ '9') ∨ c = '.' ∨ c = '_' ∨ c = '-') := by
    intro c
    have hle : ∀ x y : Char, x ≤ y ↔ x.toNat ≤ y.toNat := fun x y => Iff.rfl
    unfold allowed
    simp only [Bool.or_eq_true, Bool.and_eq_true, decide_eq_true_eq, beq_iff_eq, hle, or_assoc]
    rfl
  simp only [← hall]
  have hne : v ≠ [] ↔ v.isEmpty = false := by cases v <;> simp
  rw [hne, ← List.all_eq_true]
  have hb : (!v.isEmpty && v.all allowed) = true ↔ v.isEmpty = false ∧ v.all allowed = true := by
    rw [Bool.and_eq_true, Bool.not_eq_true']
  rw [← hb]
  by_cases h : (!v.isEmpty && v.all allowed) = true
  · rw [if_pos h]
    exact iff_of_true rfl h
  · rw [if_neg h]
    exact iff_of_false (fun h' => by cases h') h

/-- **C109, refuted.** ... but a line feed at the end passes too. -/
theorem C109_refuted_newline : check "A".toList "1.0\n".toList = .ok () := by decide +kernel

/-- **C109.** The classes of the package that can be made have types and versions that pass the check, and the strings of different
classes are different. -/
theorem C109_package :
    (∀ c : ModelClass, (c.ownType = none ↔ version c = none) ∧ ∀ t v, c.ownType = some t → version c = some v → check t.toList v.toList = .ok ()) ∧
    ∀ (c c' : ModelClass) (t t' v v' : String), c.ownType = some t → c'.ownType = some t' → version c = some v → version c' = some v' →
      string t.toList v.toList = string t'.toList v'.toList → c = c' := by
  constructor
  · intro c
    have h : (decide (c.ownType = none ↔ version c = none) && match c.ownType, version c with
        | some t, some v => decide (check t.toList v.toList = .ok ())
        | _, _ => true) = true := by cases c <;> decide +kernel
    rw [Bool.and_eq_true, decide_eq_true_eq] at h
    refine ⟨h.1, fun t v ht hv => ?_⟩
    have h2 := h.2
    rw [ht, hv] at h2
    exact decide_eq_true_eq.mp h2
  · intro c c' t t' v v' ht ht' hv hv' h
    have hm : ∀ (c : ModelClass) (v : String), version c = some v → NoMark v.toList := by
      rintro c v hv ⟨a, b, hab⟩
      have h : (match version c with | some v => v.toList.all fun x => x != 'V' | none => true) = true := by cases c <;> decide +kernel
      rw [hv] at h
      dsimp only at h
      rw [hab, List.all_eq_true] at h
      exact absurd (h 'V' (by simp)) (by decide)
    have hu := (C109_unique_partial (hm c v hv) (hm c' v' hv') h).1
    have ht2 : t = t' := String.toList_inj.mp hu
    subst ht2
    have h1 := C66_package c t ht
    have h2 := C66_package c' t ht'
    rw [h1] at h2
    exact Except.ok.inj h2

example : check "VMAF".toList "0.1".toList = .ok () ∧ check "VMAF".toList "0 1".toList = .error .assertion := by decide +kernel

end Sureal.Props
