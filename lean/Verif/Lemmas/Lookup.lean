import Verif.Spec.Lookup
import Mathlib.Data.List.Nodup
import Mathlib.Data.List.Range
import Mathlib.Tactic.Common
import Mathlib.Data.List.Pairwise
/-! Helper lemmas for the lookups. -/
namespace Sureal
open Spec
open Pc (pyGet)

theorem pyRange_nil {a b : Int} (h : b ≤ a) : pyRange a b = [] := by
  unfold pyRange
  have : (b - a).toNat = 0 := by omega
  simp [this]

theorem pyRange_cons {a b : Int} (h : a < b) : pyRange a b = a :: pyRange (a + 1) b := by
  unfold pyRange
  have : (b - a).toNat = (b - (a + 1)).toNat + 1 := by omega
  rw [this, List.range_succ_eq_map, List.map_cons, List.map_map]
  simp only [List.cons.injEq]
  refine ⟨by simp, ?_⟩
  apply List.map_congr_left
  intro k _
  simp only [Function.comp]
  push_cast
  omega

theorem pyGet_nat {T : Type} {l : List T} {k : Nat} {x : T} (h : l[k]? = some x) : pyGet l (k : Int) = .ok x := by
  unfold pyGet
  simp [h]

theorem pyGet_out {T : Type} {l : List T} {k : Nat} (h : l.length ≤ k) : pyGet l (k : Int) = .error .index := by
  unfold pyGet
  simp [List.getElem?_eq_none h]

variable {T : Type} [DecidableEq T]

/-- the search proper, over natural positions: no error up to the first occurrence -/
theorem optScan_first {argv : List T} {x : T} {e : Nat} : ∀ (m b k : Nat) (itr : Option Int), k - b = m → FirstAt argv b e x k →
    optScan argv x (pyRange b e) itr = .ok (some (k : Int)) := by
  intro m
  induction m with
  | zero =>
    intro b k itr hm hk
    obtain ⟨h1, h2, h3, h4⟩ := hk
    have : b = k := by omega
    subst this
    rw [pyRange_cons (by omega)]
    simp [optScan, pyGet_nat h3]
  | succ m ih =>
    intro b k itr hm hk
    obtain ⟨h1, h2, h3, h4⟩ := hk
    have hb : b < argv.length := by
      have := (List.getElem?_eq_some_iff.mp h3).1
      omega
    have hne : argv[b]? ≠ some x := h4 b (le_refl _) (by omega)
    obtain ⟨y, hy⟩ : ∃ y, argv[b]? = some y := ⟨_, List.getElem?_eq_getElem hb⟩
    rw [pyRange_cons (by omega)]
    have hyx : y ≠ x := fun h => hne (by rw [hy, h])
    simp only [optScan, pyGet_nat hy, hyx, if_false]
    exact ih (b + 1) k _ (by omega) ⟨by omega, h2, h3, fun j hj => h4 j (by omega)⟩

theorem existsScan_first {argv : List T} {x : T} {e : Nat} : ∀ (m b k : Nat), k - b = m → FirstAt argv b e x k →
    existsScan argv x (pyRange b e) = .ok true := by
  intro m
  induction m with
  | zero =>
    intro b k hm hk
    obtain ⟨h1, h2, h3, h4⟩ := hk
    have : b = k := by omega
    subst this
    rw [pyRange_cons (by omega)]
    simp [existsScan, pyGet_nat h3]
  | succ m ih =>
    intro b k hm hk
    obtain ⟨h1, h2, h3, h4⟩ := hk
    have hb : b < argv.length := by
      have := (List.getElem?_eq_some_iff.mp h3).1
      omega
    have hne : argv[b]? ≠ some x := h4 b (le_refl _) (by omega)
    obtain ⟨y, hy⟩ : ∃ y, argv[b]? = some y := ⟨_, List.getElem?_eq_getElem hb⟩
    rw [pyRange_cons (by omega)]
    have hyx : y ≠ x := fun h => hne (by rw [hy, h])
    simp only [existsScan, pyGet_nat hy, hyx, if_false]
    exact ih (b + 1) k (by omega) ⟨by omega, h2, h3, fun j hj => h4 j (by omega)⟩

theorem optScan_absent {argv : List T} {x : T} {e : Nat} (he : e ≤ argv.length) : ∀ (m b : Nat) (itr : Option Int), e - b = m →
    Absent argv b e x → optScan argv x (pyRange b e) itr = .ok (if b < e then some ((e : Int) - 1) else itr) := by
  intro m
  induction m with
  | zero =>
    intro b itr hm h
    rw [pyRange_nil (by omega), if_neg (by omega)]; rfl
  | succ m ih =>
    intro b itr hm h
    have hb : b < argv.length := by omega
    obtain ⟨y, hy⟩ : ∃ y, argv[b]? = some y := ⟨_, List.getElem?_eq_getElem hb⟩
    have hyx : y ≠ x := fun h' => h b (le_refl _) (by omega) (by rw [hy, h'])
    rw [pyRange_cons (by omega), if_pos (by omega)]
    simp only [optScan, pyGet_nat hy, hyx, if_false]
    have := ih (b + 1) (some (b : Int)) (by omega) (fun j hj => h j (by omega))
    push_cast at this
    rw [this]
    split
    · rfl
    · congr 2; omega

theorem existsScan_absent {argv : List T} {x : T} {e : Nat} (he : e ≤ argv.length) : ∀ (m b : Nat), e - b = m →
    Absent argv b e x → existsScan argv x (pyRange b e) = .ok false := by
  intro m
  induction m with
  | zero =>
    intro b hm h
    rw [pyRange_nil (by omega)]; rfl
  | succ m ih =>
    intro b hm h
    have hb : b < argv.length := by omega
    obtain ⟨y, hy⟩ : ∃ y, argv[b]? = some y := ⟨_, List.getElem?_eq_getElem hb⟩
    have hyx : y ≠ x := fun h' => h b (le_refl _) (by omega) (by rw [hy, h'])
    rw [pyRange_cons (by omega)]
    simp only [existsScan, pyGet_nat hy, hyx, if_false]
    exact ih (b + 1) (by omega) (fun j hj => h j (by omega))

theorem optScan_out {argv : List T} {x : T} {e : Nat} : ∀ (m b : Nat) (itr : Option Int), argv.length - b = m → b < e →
    argv.length < e → Absent argv b argv.length x → optScan argv x (pyRange b e) itr = .error .index := by
  intro m
  induction m with
  | zero =>
    intro b itr hm hb he h
    rw [pyRange_cons (by omega)]
    simp [optScan, pyGet_out (l := argv) (k := b) (by omega)]
  | succ m ih =>
    intro b itr hm hb he h
    obtain ⟨y, hy⟩ : ∃ y, argv[b]? = some y := ⟨_, List.getElem?_eq_getElem (by omega)⟩
    have hyx : y ≠ x := fun h' => h b (le_refl _) (by omega) (by rw [hy, h'])
    rw [pyRange_cons (by omega)]
    simp only [optScan, pyGet_nat hy, hyx, if_false]
    exact ih (b + 1) _ (by omega) (by omega) he (fun j hj => h j (by omega))

/-! ### classes -/
variable {C : Type} {H : Classes C T}

theorem mem_subclassesTo : ∀ (n : Nat) (c d : C), H.depth c ≤ n → (d ∈ subclassesTo H.subs n c ↔ Below H c d) := by
  intro n
  induction n with
  | zero =>
    intro c d hn
    simp only [subclassesTo, List.not_mem_nil, false_iff]
    intro h
    rcases Relation.TransGen.head'_iff.mp h with ⟨x, hx, _⟩
    have := H.acyclic c x hx
    omega
  | succ n ih =>
    intro c d hn
    simp only [subclassesTo, List.mem_append, List.mem_flatMap]
    constructor
    · rintro (h | ⟨x, hx, hd⟩)
      · exact Relation.TransGen.single h
      · have := H.acyclic c x hx
        exact Relation.TransGen.head hx ((ih x d (by omega)).mp hd)
    · intro h
      rcases Relation.TransGen.head'_iff.mp h with ⟨x, hx, hxd⟩
      rcases Relation.reflTransGen_iff_eq_or_transGen.mp hxd with e | h'
      · subst e; exact Or.inl hx
      · have := H.acyclic c x hx
        exact Or.inr ⟨x, hx, (ih x d (by omega)).mpr h'⟩

theorem mem_subclasses (c d : C) : d ∈ H.subclasses c ↔ Below H c d := mem_subclassesTo _ c d (le_refl _)

theorem below_depth {c d : C} (h : Below H c d) : H.depth d < H.depth c := by
  induction h with
  | single h => exact H.acyclic _ _ h
  | tail _ h ih => exact lt_trans (H.acyclic _ _ h) ih

/-- with single inheritance, a class strictly below `x` whose base is `c` has `c` at or below `x` -/
theorem base_below (hs : SingleInheritance H) {c d x : C} (hd : d ∈ H.subs c) (h : Below H x d) : c = x ∨ Below H x c := by
  rcases Relation.TransGen.tail'_iff.mp h with ⟨y, hxy, hy⟩
  have := hs.parent c y d hd hy
  subst this
  rcases Relation.reflTransGen_iff_eq_or_transGen.mp hxy with e | h'
  · exact Or.inl e
  · exact Or.inr h'

/-- two classes above the same one are comparable -/
theorem comparable (hs : SingleInheritance H) {x y d : C} (hx : Below H x d) (hy : Below H y d) :
    x = y ∨ Below H x y ∨ Below H y x := by
  induction hx with
  | @single d hd =>
    rcases base_below hs hd hy with e | h
    · exact Or.inl e
    · exact Or.inr (Or.inr h)
  | @tail e d hxe hd ih =>
    rcases base_below hs hd hy with e' | h
    · subst e'; exact Or.inr (Or.inl hxe)
    · exact ih h

theorem nodup_subclassesTo (hs : SingleInheritance H) : ∀ (n : Nat) (c : C), H.depth c ≤ n → (subclassesTo H.subs n c).Nodup := by
  intro n
  induction n with
  | zero => intro c _; exact List.nodup_nil
  | succ n ih =>
    intro c hn
    simp only [subclassesTo]
    have hsub : ∀ x ∈ H.subs c, H.depth x ≤ n := fun x hx => by have := H.acyclic c x hx; omega
    have notup : ∀ x ∈ H.subs c, ¬ (c = x ∨ Below H x c) := by
      intro x hx h
      have h1 := H.acyclic c x hx
      rcases h with e | h
      · subst e; omega
      · have := below_depth h; omega
    rw [List.nodup_append']
    refine ⟨hs.nodup c, ?_, ?_⟩
    · rw [List.nodup_flatMap]
      refine ⟨fun x hx => ih x (hsub x hx), ?_⟩
      refine (hs.nodup c).imp_of_mem ?_
      intro x y hx hy hxy d hdx hdy
      have h1 := (mem_subclassesTo n x d (hsub x hx)).mp hdx
      have h2 := (mem_subclassesTo n y d (hsub y hy)).mp hdy
      rcases comparable hs h1 h2 with e | h | h
      · exact hxy e
      · exact notup x hx (base_below hs hy h)
      · exact notup y hy (base_below hs hx h)
    · intro d hd hd'
      obtain ⟨x, hx, hdx⟩ := List.mem_flatMap.mp hd'
      exact notup x hx (base_below hs hd ((mem_subclassesTo n x d (hsub x hx)).mp hdx))

end Sureal
