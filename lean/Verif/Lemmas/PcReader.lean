import Verif.Model.PcReader
import Verif.Spec.PcArr
import Verif.Lemmas.Dataset
import Verif.Lemmas.Fl
/-! # Helper lemmas for the paired-comparison reader -/
set_option linter.unusedSectionVars false
namespace Sureal.PcReader
open Spec
variable {κ K : Type} [LinearOrder κ] [Field K] [LinearOrder K] [IsStrictOrderedRing K]

theorem feq_iff (x : Fl K) (q : K) : feq x (.fin q) = true ↔ x = .fin q := by
  unfold feq
  cases x with
  | nan => simp [Fl.le]
  | pinf => simp [Fl.le]
  | ninf => simp [Fl.le]
  | fin a =>
    simp only [Fl.le_fin, Bool.and_eq_true, decide_eq_true_eq, Fl.fin.injEq]
    exact le_antisymm_iff.symm

theorem legal_iff (x : Fl K) : legal x = true ↔ ∃ q : K, Outcome3 q ∧ x = .fin q := by
  have h0 : (0 : Fl K) = .fin 0 := rfl
  have h1 : (1 : Fl K) = .fin 1 := rfl
  have h2 : (Fl.dec 1 2 : Fl K) = .fin (1 / 2) := by simp [Fl.dec]
  unfold legal
  rw [h0, h1, h2]
  simp only [Bool.or_eq_true, feq_iff]
  unfold Outcome3
  constructor
  · rintro ((rfl | rfl) | rfl)
    · exact ⟨_, .inl rfl, rfl⟩
    · exact ⟨_, .inr (.inl rfl), rfl⟩
    · exact ⟨_, .inr (.inr rfl), rfl⟩
  · rintro ⟨q, rfl | rfl | rfl, rfl⟩ <;> simp

theorem Outcome3.compl {q : K} (h : Outcome3 q) : Outcome3 (1 - q) := by
  rcases h with rfl | rfl | rfl
  · exact .inr (.inr (by ring))
  · exact .inr (.inl (by ring))
  · exact .inl (by ring)

/-- the number of a single vote -/
def val : Vote K → Fl K
  | .one x => x
  | .many _ _ => .nan

/-- the row meant by an index in range -/
def pidx (n : ℕ) (b : Int) : ℕ := if 0 ≤ b then b.toNat else (n + b).toNat

/-- the two assignments of a record that raises nothing -/
def recP (n : ℕ) (obs : List κ) (i : ℕ) (p : (κ × Int) × Vote K) : List ((ℕ × ℕ × ℕ) × Fl K) :=
  [((i, pidx n p.1.2, obs.idxOf p.1.1), val p.2), ((pidx n p.1.2, i, obs.idxOf p.1.1), 1 - val p.2)]

theorem pyIdx_ok {n : ℕ} {b : Int} {j : ℕ} : pyIdx n b = .ok j ↔ (-(n : Int) ≤ b ∧ b < n) ∧ j = pidx n b := by
  unfold pyIdx pidx
  split
  · rename_i h
    rw [if_pos h.1]
    constructor
    · intro e; cases e; exact ⟨⟨by omega, h.2⟩, rfl⟩
    · rintro ⟨-, rfl⟩; rfl
  · rename_i h
    split
    · rename_i h'
      rw [if_neg (by omega)]
      constructor
      · intro e; cases e; exact ⟨⟨by omega, by omega⟩, rfl⟩
      · rintro ⟨-, rfl⟩; rfl
    · constructor
      · intro e; cases e
      · rintro ⟨⟨h1, h2⟩, -⟩
        omega

theorem pyIdx_err {n : ℕ} {b : Int} {e} (h : pyIdx n b = .error e) : e = .index := by
  unfold pyIdx at h
  split at h
  · cases h
  · split at h <;> cases h
    rfl

theorem record_ok {n : ℕ} {obs : List κ} {i : ℕ} {p : (κ × Int) × Vote K} {w} :
    record n obs i p = .ok w ↔ (∃ q : K, Outcome3 q ∧ p.2 = .one (.fin q)) ∧
      (-(n : Int) ≤ p.1.2 ∧ p.1.2 < n) ∧ w = recP n obs i p := by
  obtain ⟨⟨s, b⟩, v⟩ := p
  unfold record recP
  dsimp only
  cases v with
  | many k l =>
    constructor
    · intro h
      cases k <;> cases h
    · rintro ⟨⟨q, -, h⟩, -⟩
      cases h
  | one x =>
    dsimp only
    by_cases hx : legal x = true
    · rw [if_pos hx]
      obtain ⟨q, hq, rfl⟩ := (legal_iff x).mp hx
      cases hj : pyIdx n b with
      | error e =>
        dsimp only
        constructor
        · intro h; cases h
        · rintro ⟨-, h, -⟩
          have := pyIdx_ok.mpr ⟨h, rfl⟩
          rw [hj] at this
          cases this
      | ok j =>
        obtain ⟨hr, rfl⟩ := pyIdx_ok.mp hj
        dsimp only
        constructor
        · intro h
          cases h
          exact ⟨⟨q, hq, rfl⟩, hr, rfl⟩
        · rintro ⟨-, -, rfl⟩
          rfl
    · rw [if_neg hx]
      constructor
      · intro h; cases h
      · rintro ⟨⟨q, hq, h⟩, -⟩
        cases h
        exact absurd ((legal_iff _).mpr ⟨q, hq, rfl⟩) hx

/-! ## Cells after assignments -/

theorem cellAfter_append_none (ws ws' : List ((ℕ × ℕ × ℕ) × Fl K)) (c) (h : ∀ w ∈ ws', w.1 ≠ c) :
    cellAfter (ws ++ ws') c = cellAfter ws c := by
  unfold cellAfter
  have hn : ws'.filter (fun w => decide (w.1 = c)) = [] := List.filter_eq_nil_iff.mpr (by simpa using h)
  rw [List.filter_append, hn, List.append_nil]

theorem cellAfter_append_some (ws ws' : List ((ℕ × ℕ × ℕ) × Fl K)) (c) (x : Fl K) (h : ∃ w ∈ ws', w.1 = c)
    (hx : ∀ w ∈ ws', w.1 = c → w.2 = x) : cellAfter (ws ++ ws') c = x := by
  unfold cellAfter
  rw [List.filter_append]
  obtain ⟨w, hw, hc⟩ := h
  have hne : ws'.filter (fun w => decide (w.1 = c)) ≠ [] := by
    intro hn
    have := List.filter_eq_nil_iff.mp hn w hw
    simp [hc] at this
  rw [List.getLast?_append_of_ne_nil _ hne, List.getLast?_eq_some_getLast hne]
  have hm := List.getLast_mem hne
  rw [List.mem_filter] at hm
  exact hx _ hm.1 (of_decide_eq_true hm.2)

theorem cellAfter_all {ws : List ((ℕ × ℕ × ℕ) × Fl K)} {c} {x : Fl K} (h : ∃ w ∈ ws, w.1 = c)
    (hx : ∀ w ∈ ws, w.1 = c → w.2 = x) : cellAfter ws c = x := by
  simpa using cellAfter_append_some [] ws c x h hx

theorem cellAfter_none {ws : List ((ℕ × ℕ × ℕ) × Fl K)} {c} (h : ∀ w ∈ ws, w.1 ≠ c) : cellAfter ws c = .nan := by
  have := cellAfter_append_none [] ws c h
  simpa [cellAfter] using this

/-- pairs of assignments keep complementary cells complementary -/
theorem complement {ws : List (List ((ℕ × ℕ × ℕ) × Fl K))}
    (h : ∀ w ∈ ws, ∃ i j s q, Outcome3 q ∧ w = [((i, j, s), .fin q), ((j, i, s), .fin (1 - q))]) (a b s : ℕ)
    (hab : a ≠ b) : (cellAfter ws.flatten (a, b, s) = .nan ∧ cellAfter ws.flatten (b, a, s) = .nan) ∨
      ∃ q : K, Outcome3 q ∧ cellAfter ws.flatten (a, b, s) = .fin q ∧ cellAfter ws.flatten (b, a, s) = .fin (1 - q) := by
  induction ws using List.reverseRecOn with
  | nil => left; exact ⟨rfl, rfl⟩
  | append_singleton ws w ih =>
    have ih := ih fun w hw => h w (by simp [hw])
    obtain ⟨i, j, k, q, hq, rfl⟩ := h w (by simp)
    rw [List.flatten_append]
    by_cases h1 : i = a ∧ j = b ∧ k = s
    · obtain ⟨rfl, rfl, rfl⟩ := h1
      right
      refine ⟨q, hq, cellAfter_append_some _ _ _ _ ⟨((i, j, k), .fin q), by simp, rfl⟩ ?_,
        cellAfter_append_some _ _ _ _ ⟨((j, i, k), .fin (1 - q)), by simp, rfl⟩ ?_⟩
      · intro w hw hc
        simp only [List.flatten_cons, List.flatten_nil, List.append_nil, List.mem_cons, List.not_mem_nil, or_false] at hw
        rcases hw with rfl | rfl
        · rfl
        · simp only [Prod.mk.injEq] at hc
          exact absurd hc.2.1 hab
      · intro w hw hc
        simp only [List.flatten_cons, List.flatten_nil, List.append_nil, List.mem_cons, List.not_mem_nil, or_false] at hw
        rcases hw with rfl | rfl
        · simp only [Prod.mk.injEq] at hc
          exact absurd hc.1 hab
        · rfl
    · by_cases h2 : j = a ∧ i = b ∧ k = s
      · obtain ⟨rfl, rfl, rfl⟩ := h2
        right
        refine ⟨1 - q, Outcome3.compl hq, cellAfter_append_some _ _ _ _ ⟨((j, i, k), .fin (1 - q)), by simp, rfl⟩ ?_,
          cellAfter_append_some _ _ _ _ ⟨((i, j, k), .fin q), by simp, rfl⟩ ?_⟩
        · intro w hw hc
          simp only [List.flatten_cons, List.flatten_nil, List.append_nil, List.mem_cons, List.not_mem_nil, or_false] at hw
          rcases hw with rfl | rfl
          · simp only [Prod.mk.injEq] at hc
            exact absurd hc.1.symm hab
          · rfl
        · intro w hw hc
          simp only [List.flatten_cons, List.flatten_nil, List.append_nil, List.mem_cons, List.not_mem_nil, or_false] at hw
          rcases hw with rfl | rfl
          · simp
          · simp only [Prod.mk.injEq] at hc
            exact absurd hc.1 hab
      · have hn : ∀ c : ℕ × ℕ × ℕ, (c = (a, b, s) ∨ c = (b, a, s)) → ∀ w ∈ [[((i, j, k), Fl.fin q),
            ((j, i, k), Fl.fin (1 - q))]].flatten, w.1 ≠ c := by
          intro c hc w hw
          simp only [List.flatten_cons, List.flatten_nil, List.append_nil, List.mem_cons, List.not_mem_nil, or_false] at hw
          rcases hc with rfl | rfl <;> rcases hw with rfl | rfl <;> simp only [ne_eq, Prod.mk.injEq] <;> tauto
        rw [cellAfter_append_none _ _ _ (hn _ (.inl rfl)), cellAfter_append_none _ _ _ (hn _ (.inr rfl))]
        exact ih

/-! ## The whole dataset -/

/-- the assignments of the videos `ds`, the first of which has number `m` -/
def allWrites (n : ℕ) (obs : List κ) (m : ℕ) (ds : List (List ((κ × Int) × Vote K))) : List ((ℕ × ℕ × ℕ) × Fl K) :=
  (ds.zipIdx m).flatMap fun p => p.1.flatMap fun e => recP n obs p.2 e

theorem allWrites_append (n : ℕ) (obs : List κ) (m : ℕ) (l r : List (List ((κ × Int) × Vote K))) :
    allWrites n obs m (l ++ r) = allWrites n obs m l ++ allWrites n obs (m + l.length) r := by
  unfold allWrites
  rw [List.zipIdx_append, List.flatMap_append]

theorem mem_allWrites {n : ℕ} {obs : List κ} {m : ℕ} {ds : List (List ((κ × Int) × Vote K))} {w} :
    w ∈ allWrites n obs m ds ↔ ∃ i d e, ds[i]? = some d ∧ e ∈ d ∧ w ∈ recP n obs (m + i) e := by
  unfold allWrites
  rw [List.mem_flatMap]
  constructor
  · rintro ⟨⟨d, i⟩, hp, hw⟩
    obtain ⟨e, he, hw⟩ := List.mem_flatMap.mp hw
    obtain ⟨h1, h2⟩ := List.mem_zipIdx_iff_le_and_getElem?_sub.mp hp
    refine ⟨i - m, d, e, h2, he, ?_⟩
    dsimp only at hw h1
    rw [show m + (i - m) = i by omega]
    exact hw
  · rintro ⟨i, d, e, hd, he, hw⟩
    exact ⟨(d, m + i), List.mem_zipIdx_iff_le_and_getElem?_sub.mpr ⟨by simp, by simpa using hd⟩,
      List.mem_flatMap.mpr ⟨e, he, hw⟩⟩

theorem forall₂_ok {α β : Type} {f : α → Py β} {g : α → β} {P : α → Prop} (hf : ∀ a b, f a = .ok b ↔ P a ∧ b = g a)
    (l : List α) (r : List β) : mapPy f l = .ok r ↔ (∀ a ∈ l, P a) ∧ r = l.map g := by
  constructor
  · intro h
    rw [mapPy_eq_ok_iff] at h
    induction h with
    | nil => simp
    | cons h1 h2 ih =>
      rw [hf] at h1
      obtain ⟨i1, rfl⟩ := ih
      exact ⟨by simpa using ⟨h1.1, i1⟩, by rw [h1.2]; rfl⟩
  · rintro ⟨h1, rfl⟩
    exact mapPy_ok fun a ha => (hf a _).mpr ⟨h1 a ha, rfl⟩

theorem pcDict_ok {dv : DisVideo (κ × Int) K} {d} : pcDict dv = .ok d ↔ dv.os = some (.dict d) := by
  unfold pcDict
  cases ho : dv.os with
  | none => simp
  | some o => cases o <;> simp

/-- the records of a list of videos -/
def dictsOf (dvs : List (DisVideo (κ × Int) K)) : List (List ((κ × Int) × Vote K)) :=
  dvs.map fun dv => match dv.os with | some (.dict d) => d | _ => []

theorem mapPy_pcDict {dvs : List (DisVideo (κ × Int) K)} (h : ∀ dv ∈ dvs, ∃ d, dv.os = some (.dict d)) :
    mapPy pcDict dvs = .ok (dictsOf dvs) := by
  apply mapPy_ok
  intro dv hdv
  obtain ⟨d, hd⟩ := h dv hdv
  rw [pcDict_ok.mpr hd, hd]

theorem dictsOf_get {dvs : List (DisVideo (κ × Int) K)} {i : ℕ} {dv d} (h : dvs[i]? = some dv)
    (hd : dv.os = some (.dict d)) : (dictsOf dvs)[i]? = some d := by
  simp [dictsOf, h, hd]

theorem get_dictsOf {dvs : List (DisVideo (κ × Int) K)} (hdict : ∀ dv ∈ dvs, ∃ d, dv.os = some (.dict d)) {i : ℕ} {d}
    (h : (dictsOf dvs)[i]? = some d) : ∃ dv, dvs[i]? = some dv ∧ dv.os = some (.dict d) := by
  unfold dictsOf at h
  rw [List.getElem?_map, Option.map_eq_some_iff] at h
  obtain ⟨dv, hdv, h⟩ := h
  obtain ⟨d', hd'⟩ := hdict dv (List.mem_of_getElem? hdv)
  rw [hd'] at h
  exact ⟨dv, hdv, by rw [hd', ← h]⟩

/-- the observers of a paired-comparison dataset -/
def obsOf (dvs : List (DisVideo (κ × Int) K)) : List κ :=
  uniqueSorted ((dictsOf dvs).flatMap fun d => d.map fun p => p.1.1)

theorem pcObservers_ok {dvs : List (DisVideo (κ × Int) K)} (h : ∀ dv ∈ dvs, ∃ d, dv.os = some (.dict d)) :
    pcObservers dvs = .ok (obsOf dvs) := by
  unfold pcObservers
  rw [mapPy_pcDict h]
  rfl

theorem pcScores_ok {dvs : List (DisVideo (κ × Int) K)} (h : ∀ dv ∈ dvs, ∃ d, dv.os = some (.dict d))
    (arr : Arr3D (Fl K)) : pcScores dvs = .ok arr ↔ RecordsLegal dvs ∧
      arr = { E := dvs.length, S := dvs.length, R := (obsOf dvs).length,
              get := fun i j s => cellAfter (allWrites dvs.length (obsOf dvs) 0 (dictsOf dvs)) (i.val, j.val, s.val) } := by
  unfold pcScores
  rw [pcObservers_ok h, mapPy_pcDict h]
  dsimp only
  have key := forall₂_ok (f := fun q : ℕ × ((κ × Int) × Vote K) => record dvs.length (obsOf dvs) q.1 q.2)
    (g := fun q => recP dvs.length (obsOf dvs) q.1 q.2)
    (P := fun q => (∃ x : K, Outcome3 x ∧ q.2.2 = .one (.fin x)) ∧
      (-(dvs.length : Int) ≤ q.2.1.2 ∧ q.2.1.2 < (dvs.length : Int)))
    (fun a b => by rw [record_ok]; tauto)
    ((dictsOf dvs).zipIdx.flatMap fun p => p.1.map fun e => (p.2, e))
  have hleg : (∀ a ∈ ((dictsOf dvs).zipIdx.flatMap fun p => p.1.map fun e => (p.2, e)),
      (∃ x : K, Outcome3 x ∧ a.2.2 = .one (.fin x)) ∧ (-(dvs.length : Int) ≤ a.2.1.2 ∧ a.2.1.2 < (dvs.length : Int))) ↔
      RecordsLegal dvs := by
    constructor
    · intro hh dv hdv d hd s b v hv
      obtain ⟨i, hi⟩ := List.mem_iff_getElem?.mp hdv
      refine hh (i, ((s, b), v)) (List.mem_flatMap.mpr ⟨(d, i), ?_, List.mem_map.mpr ⟨_, hv, rfl⟩⟩)
      exact List.mem_zipIdx_iff_getElem?.mpr (dictsOf_get hi hd)
    · intro hh a ha
      obtain ⟨⟨d, i⟩, hp, ha⟩ := List.mem_flatMap.mp ha
      obtain ⟨⟨⟨s, b⟩, v⟩, he, rfl⟩ := List.mem_map.mp ha
      obtain ⟨dv, hdv, hd⟩ := get_dictsOf h (List.mem_zipIdx_iff_getElem?.mp hp)
      exact hh dv (List.mem_of_getElem? hdv) d hd s b v he
  have hfl : (((dictsOf dvs).zipIdx.flatMap fun p => p.1.map fun e => (p.2, e)).map
      fun q => recP dvs.length (obsOf dvs) q.1 q.2).flatten = allWrites dvs.length (obsOf dvs) 0 (dictsOf dvs) := by
    unfold allWrites
    rw [← List.flatMap_def, List.flatMap_assoc]
    congr 1
    funext p
    rw [List.flatMap_map]
  cases hm : mapPy (fun q : ℕ × ((κ × Int) × Vote K) => record dvs.length (obsOf dvs) q.1 q.2)
      ((dictsOf dvs).zipIdx.flatMap fun p => p.1.map fun e => (p.2, e)) with
  | error e =>
    dsimp only
    constructor
    · intro h; cases h
    · rintro ⟨hl, -⟩
      have := (key _).mpr ⟨hleg.mpr hl, rfl⟩
      rw [hm] at this
      cases this
  | ok ws =>
    obtain ⟨h1, rfl⟩ := (key _).mp hm
    dsimp only
    rw [hfl]
    constructor
    · intro h
      exact ⟨hleg.mp h1, (Except.ok.inj h).symm⟩
    · rintro ⟨-, rfl⟩
      rfl

theorem assertPc_ok {d : Dataset (κ × Int) K} : assertPc d = .ok () ↔ assertRaw d = .ok () ∧
    ∀ dv ∈ d.disVideos, (∃ l, dv.os = some (.dict l)) ∧ 0 ≤ dv.assetId ∧ dv.assetId < d.disVideos.length := by
  unfold assertPc
  cases ha : assertRaw d with
  | error e => simp
  | ok u =>
    dsimp only
    have : (d.disVideos.all fun dv => (match dv.os with | some (.dict _) => true | _ => false) &&
        decide (0 ≤ dv.assetId) && decide (dv.assetId < d.disVideos.length)) = true ↔
        ∀ dv ∈ d.disVideos, (∃ l, dv.os = some (.dict l)) ∧ 0 ≤ dv.assetId ∧ dv.assetId < d.disVideos.length := by
      rw [List.all_eq_true]
      refine forall_congr' fun dv => forall_congr' fun hdv => ?_
      cases ho : dv.os with
      | none => simp
      | some o => cases o <;> simp
    split
    · rename_i h; simpa using this.mp h
    · rename_i h; simpa using fun h' => h (this.mpr h')

theorem pcReader_ok {d : Dataset (κ × Int) K} {rd} : pcReader d = .ok rd ↔
    assertPc d = .ok () ∧ rd = ⟨d, pcScores d.disVideos, pcObservers d.disVideos⟩ := by
  unfold pcReader
  cases assertPc d with
  | error e => simp
  | ok u => simp [eq_comm]

end Sureal.PcReader
