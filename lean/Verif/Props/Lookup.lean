import Verif.Lemmas.Lookup
import Verif.Model.ModelClasses
/-!
# C65, C66, C78: looking up options, model classes and readers
-/
set_option linter.unusedSectionVars false
namespace Sureal.Props
open Spec
open Pc (pyGet)
variable {T : Type} [DecidableEq T]

/-- C65 (found): the argument after the first occurrence, `None` if the first occurrence is the last position. -/
theorem C65_found {argv : List T} {b e : Nat} (he : e ≤ argv.length) {x : T} {k : Nat} (h : FirstAt argv b e x k) :
    getCmdOption argv b e x = .ok (if k + 1 < e then argv[k + 1]? else none) := by
  have h2 := h.2.1
  unfold getCmdOption
  rw [optScan_first _ b k none rfl h]
  simp only
  by_cases hk : k + 1 < e
  · rw [if_pos ⟨by omega, by omega⟩, if_pos hk]
    obtain ⟨y, hy⟩ : ∃ y, argv[k + 1]? = some y := ⟨_, List.getElem?_eq_getElem (by omega)⟩
    have := pyGet_nat hy
    push_cast at this
    rw [this, hy]
  · rw [if_neg (by omega), if_neg hk]

/-- C65 (absent) -/
theorem C65_absent {argv : List T} {b e : Nat} (he : e ≤ argv.length) {x : T} (h : Absent argv b e x) :
    getCmdOption argv b e x = .ok none := by
  unfold getCmdOption
  rw [optScan_absent he _ b none rfl h]
  split
  · rename_i h'; cases h'
  · rfl
  · rename_i itr h'
    split at h'
    · cases h'; rw [if_neg (by omega)]
    · cases h'

/-- C65 (exists) -/
theorem C65_exists {argv : List T} {b e : Nat} (he : e ≤ argv.length) (x : T) :
    ∃ r, cmdOptionExists argv b e x = .ok r ∧ (r = true ↔ ∃ j, b ≤ j ∧ j < e ∧ argv[j]? = some x) := by
  classical
  by_cases h : ∃ j, b ≤ j ∧ j < e ∧ argv[j]? = some x
  · have hk := Nat.find_spec h
    have hf : FirstAt argv b e x (Nat.find h) :=
      ⟨hk.1, hk.2.1, hk.2.2, fun j hj hlt hx => Nat.find_min h hlt ⟨hj, by omega, hx⟩⟩
    exact ⟨true, existsScan_first _ b _ rfl hf, by simp only [true_iff]; exact h⟩
  · exact ⟨false, existsScan_absent he _ b rfl (fun j h1 h2 h3 => h ⟨j, h1, h2, h3⟩), by simp [h]⟩

/-- C65 (every case is covered): within the list the option is absent or has a first occurrence. -/
theorem C65_cases (argv : List T) (b e : Nat) (x : T) : Absent argv b e x ∨ ∃ k, FirstAt argv b e x k := by
  classical
  by_cases h : ∃ j, b ≤ j ∧ j < e ∧ argv[j]? = some x
  · have hk := Nat.find_spec h
    exact Or.inr ⟨_, hk.1, hk.2.1, hk.2.2, fun j hj hlt hx => Nat.find_min h hlt ⟨hj, by omega, hx⟩⟩
  · exact Or.inl (fun j h1 h2 h3 => h ⟨j, h1, h2, h3⟩)

/-- C65 (bounds beyond the list): if the option is not found before the end of the list, IndexError. -/
theorem C65_out_of_range {argv : List T} {b e : Nat} (hb : b < e) (he : argv.length < e) {x : T}
    (h : Absent argv b argv.length x) : getCmdOption argv b e x = .error .index := by
  unfold getCmdOption
  rw [optScan_out _ b none rfl hb he h]

example : FirstAt ["prog", "MOS", "set.py", "--out", "dir", "--out", "other"] 3 7 "--out" 3 := by
  refine ⟨by omega, by omega, by decide, ?_⟩
  intro j h1 h2; omega
example : getCmdOption ["prog", "MOS", "set.py", "--out", "dir", "--out", "other"] 3 7 "--out" = .ok (some "dir") := by
  decide +kernel

/-! ### classes -/
variable {C : Type} (H : Classes C T)

theorem find_ok_iff (c d : C) (t : T) : H.find c t = .ok d ↔ (H.subclasses c).filter (fun d => H.type d = some t) = [d] := by
  unfold Classes.find
  split
  · rename_i d' h; rw [h]; simp
  · rename_i h
    constructor
    · intro h'; cases h'
    · intro h'; exact absurd h' (h d)

/-- C66 (sound): what `find_subclass` returns is a class below the given one with the requested TYPE, and there is no other. -/
theorem C66_sound {c d : C} {t : T} (h : H.find c t = .ok d) :
    Below H c d ∧ H.type d = some t ∧ ∀ d', Below H c d' → H.type d' = some t → d' = d := by
  rw [find_ok_iff] at h
  have hd : d ∈ (H.subclasses c).filter (fun d => H.type d = some t) := by rw [h]; simp
  rw [List.mem_filter] at hd
  refine ⟨(mem_subclasses c d).mp hd.1, by simpa using hd.2, ?_⟩
  intro d' h1 h2
  have : d' ∈ (H.subclasses c).filter (fun d => H.type d = some t) := by
    rw [List.mem_filter]; exact ⟨(mem_subclasses c d').mpr h1, by simpa using h2⟩
  rw [h] at this
  simpa using this

/-- C66 (raises): the only alternative is AssertionError; in particular none or several raise. -/
theorem C66_raises (c : C) (t : T) (h : (∀ d, Below H c d → H.type d ≠ some t) ∨
    ∃ d d', d ≠ d' ∧ Below H c d ∧ Below H c d' ∧ H.type d = some t ∧ H.type d' = some t) :
    H.find c t = .error .assertion := by
  cases hf : H.find c t with
  | ok d =>
    exfalso
    obtain ⟨h1, h2, h3⟩ := C66_sound H hf
    rcases h with h | ⟨a, b, hne, ha, hb, ha', hb'⟩
    · exact h d h1 h2
    · exact hne ((h3 a ha ha').trans (h3 b hb hb').symm)
  | error e =>
    unfold Classes.find at hf
    split at hf
    · cases hf
    · rw [← hf]

/-- C66 (complete, part): with single inheritance the unique class is found.  Missing from the full statement: hierarchies in
which a class can be reached in two ways, see `C66_refuted`. -/
theorem C66_complete_partial (hs : SingleInheritance H) {c d : C} {t : T} (h1 : Below H c d) (h2 : H.type d = some t)
    (h3 : ∀ d', Below H c d' → H.type d' = some t → d' = d) : H.find c t = .ok d := by
  rw [find_ok_iff]
  have hn : ((H.subclasses c).filter (fun d => H.type d = some t)).Nodup := (nodup_subclassesTo hs _ c (le_refl _)).filter _
  have hall : ∀ x, x ∈ (H.subclasses c).filter (fun d => H.type d = some t) ↔ x = d := by
    intro x
    rw [List.mem_filter, mem_subclasses]
    constructor
    · rintro ⟨ha, hb⟩; exact h3 x ha (by simpa using hb)
    · rintro rfl; exact ⟨h1, by simpa using h2⟩
  have hp := (List.perm_ext_iff_of_nodup hn (List.nodup_singleton d)).mpr (fun x => by rw [hall x]; simp)
  exact List.perm_singleton.mp hp

/-- class 3 inherits from 1 and 2, which inherit from 0 -/
def diamond : Classes (Fin 4) String :=
  { subs := fun c => if c = 0 then [1, 2] else if c = 3 then [] else [3],
    type := fun c => if c = 3 then some "MIX" else none,
    depth := fun c => if c = 0 then 2 else if c = 3 then 0 else 1,
    acyclic := by decide }

/-- C66 is false of a diamond: the only class with the TYPE is met twice, and the lookup raises. -/
theorem C66_refuted : ∃ (H : Classes (Fin 4) String) (c d : Fin 4) (t : String), Below H c d ∧ H.type d = some t ∧
    (∀ d', Below H c d' → H.type d' = some t → d' = d) ∧ H.find c t = .error .assertion := by
  refine ⟨diamond, 0, 3, "MIX", ?_, rfl, ?_, by decide +kernel⟩
  · exact Relation.TransGen.tail (b := 1) (Relation.TransGen.single (by decide)) (by decide)
  · intro d' _ h
    by_contra hne
    simp [diamond, hne] at h

/-- C66 for the package itself: looking up the TYPE of any of its model classes below `SubjectiveModel` gives that class. -/
theorem C66_package (c : ModelClass) (t : String) (h : c.ownType = some t) :
    ModelClass.hierarchy.find .SubjectiveModel t = .ok c := by
  revert h
  cases c <;> intro h <;> first | (cases h; rfl) | cases h

/-- the package uses single inheritance below `SubjectiveModel`, so `C66_complete_partial` applies to it -/
theorem C66_package_single : SingleInheritance ModelClass.hierarchy := by
  have hbase : ∀ x d, d ∈ ModelClass.hierarchy.subs x → d.base = some x := by
    intro x d h
    have := (List.mem_filter.mp h).2
    simpa using this
  refine ⟨?_, ?_⟩
  · intro c; cases c <;> decide +kernel
  · intro x y d hx hy
    have h1 := hbase x d hx
    have h2 := hbase y d hy
    rw [h1] at h2
    exact Option.some.inj h2

/-! ### the reader -/

/-- C78: the raw reader is chosen iff there is a model and none is for paired comparisons; the paired comparison reader iff
there is a model and all are; in every other case (no model, or a mixture) the program raises. -/
theorem C78_reader (isSubj isPc : C → Bool) (cs : List C) (hs : ∀ c ∈ cs, isSubj c = true) :
    (chooseReader isSubj isPc cs = .ok .raw ↔ cs ≠ [] ∧ ∀ c ∈ cs, isPc c = false) ∧
    (chooseReader isSubj isPc cs = .ok .pairedComp ↔ cs ≠ [] ∧ ∀ c ∈ cs, isPc c = true) ∧
    (chooseReader isSubj isPc cs = .error .assertion ↔
      cs = [] ∨ ((∃ c ∈ cs, isPc c = true) ∧ ∃ c ∈ cs, isPc c = false)) := by
  have h1 : cs.all (fun c => isSubj c && !isPc c) = true ↔ ∀ c ∈ cs, isPc c = false := by
    rw [List.all_eq_true]
    constructor
    · intro h c hc; have := h c hc; simp at this; exact this.2
    · intro h c hc; simp [hs c hc, h c hc]
  have h2 : cs.all isPc = true ↔ ∀ c ∈ cs, isPc c = true := List.all_eq_true
  have hcontra : cs ≠ [] → ¬ ((∀ c ∈ cs, isPc c = false) ∧ ∀ c ∈ cs, isPc c = true) := by
    intro hne ⟨ha, hb⟩
    obtain ⟨c, hc⟩ := List.exists_mem_of_ne_nil cs hne
    have := ha c hc; rw [hb c hc] at this; cases this
  unfold chooseReader
  simp only
  by_cases hne : cs = []
  · subst hne; simp
  · by_cases ha : ∀ c ∈ cs, isPc c = false
    · have hb : ¬ ∀ c ∈ cs, isPc c = true := fun hb => hcontra hne ⟨ha, hb⟩
      have hb' : cs.all isPc = false := by rw [← Bool.not_eq_true, h2]; exact hb
      rw [h1.mpr ha, hb']
      simp only [hne]
      refine ⟨by simp [hne]; exact ha, by simp; exact fun _ => by simpa using hb, ?_⟩
      simp
      intro x hx hx'
      rw [ha x hx] at hx'; cases hx'
    · have ha' : cs.all (fun c => isSubj c && !isPc c) = false := by rw [← Bool.not_eq_true, h1]; exact ha
      rw [ha']
      by_cases hb : ∀ c ∈ cs, isPc c = true
      · rw [h2.mpr hb]
        refine ⟨by simp; exact fun _ => by simpa using ha, by simp [hne]; exact hb, ?_⟩
        simp [hne]
        intro x hx hx' y hy; exact hb y hy
      · have hb' : cs.all isPc = false := by rw [← Bool.not_eq_true, h2]; exact hb
        rw [hb']
        refine ⟨by simp; exact fun _ => by simpa using ha, by simp; exact fun _ => by simpa using hb, ?_⟩
        simp [hne]
        push Not at ha hb
        obtain ⟨x, hx, hx'⟩ := ha
        obtain ⟨y, hy, hy'⟩ := hb
        exact ⟨⟨x, hx, by simpa using hx'⟩, ⟨y, hy, by simpa using hy'⟩⟩

/-- whether `PairedCompSubjectiveModel` is a base of the class, directly or not -/
def isPcClass (c : ModelClass) : Bool := c = .PairedCompSubjectiveModel || c.base = some .PairedCompSubjectiveModel

example : chooseReader (fun _ => true) isPcClass [ModelClass.MosModel, .P910AnnexEModel] = .ok .raw ∧
    chooseReader (fun _ => true) isPcClass [ModelClass.MosModel, .ThurstoneMlePairedCompSubjectiveModel] = .error .assertion := by
  decide +kernel

end Sureal.Props
