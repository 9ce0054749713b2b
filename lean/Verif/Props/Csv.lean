import Verif.Lemmas.Csv
import Verif.Props.Demo
/-! # C91: reading votes from CSV files -/
set_option linter.unusedSectionVars false
namespace Sureal.Props
open Sureal Spec
variable {κ K : Type}

/-- **C91.** Which files of matrices the BT.500 demo reads, and what it reads: the first matrix must be rectangular, and each of
the others rectangular and of the same size - or have a single row or a single column, which then counts for all rows or columns.
`float` is what numpy reads in a cell; an empty cell is not a number. -/
theorem C91_read [Zero K] (float : List Char → Option (Fl K)) (hf : float [] = none)
    (first : List (List (List Char))) (others : List (List (List (List Char)))) (hnum : AllNumbers float (first :: others))
    (text : List Char) (ht : IsCsv (first :: others) text) :
    ((∃ a, Csv.read3 float text = .ok a) ↔ ∃ E S, HasShape E S first ∧ 0 < E ∧
      ∀ m ∈ others, ∃ E' S', HasShape E' S' m ∧ 0 < E' ∧ (E' = E ∨ E' = 1) ∧ (S' = S ∨ S' = 1)) ∧
    ∀ a, Csv.read3 float text = .ok a → HasShape a.E a.S first ∧ a.R = (first :: others).length ∧
      ∀ r m E' S', (first :: others)[r]? = some m → HasShape E' S' m → ∀ e s, e < a.E → s < a.S →
        ∃ row c, m[if E' = 1 then 0 else e]? = some row ∧ row[if S' = 1 then 0 else s]? = some c ∧ cell a e s r = float c := by
  have hb := Csv.blocks_file hf (by simp) hnum ht
  unfold Csv.read3
  rw [hb]
  dsimp only
  cases first with
  | nil =>
    refine ⟨⟨fun ⟨a, ha⟩ => (by cases ha), ?_⟩, fun a ha => (by cases ha)⟩
    rintro ⟨E, S, ⟨h1, -⟩, h2, -⟩
    simp at h1; omega
  | cons row0 rest =>
    have hS : 0 < row0.length := List.length_pos_iff.mpr (hnum (row0 :: rest) (by simp) row0 (by simp)).1
    rw [List.map_cons]
    have hv : Csv.vals float (row0 :: rest) = (row0.map fun c => (float c).getD 0) :: Csv.vals float rest := rfl
    rw [hv]
    dsimp only
    have e1 : ((row0.map fun c => (float c).getD 0) :: Csv.vals float rest).length = (row0 :: rest).length := by simp [Csv.vals]
    have e2 : (row0.map fun c => (float c).getD 0).length = row0.length := by simp
    rw [e1, e2, ← hv, ← List.map_cons (f := Csv.vals float)]
    have hfirst : ∀ E' S', HasShape E' S' (row0 :: rest) → E' = (row0 :: rest).length ∧ S' = row0.length :=
      fun E' S' h => ⟨h.1.symm, (h.2 row0 (by simp)).symm⟩
    have hmap : (∃ ms, mapPy (Csv.broadcast (row0 :: rest).length row0.length) (((row0 :: rest) :: others).map (Csv.vals float)) = .ok ms) ↔
        ∀ m ∈ (row0 :: rest) :: others, ∃ g, Csv.broadcast (row0 :: rest).length row0.length (Csv.vals float m) = .ok g := by
      constructor
      · rintro ⟨ms, hms⟩ m hm
        rw [mapPy_eq_ok_iff] at hms
        obtain ⟨k, hk, hkm⟩ := List.getElem_of_mem hm
        have hl := hms.length_eq
        have hk' : k < (((row0 :: rest) :: others).map (Csv.vals float)).length := by rw [List.length_map]; exact hk
        have := List.forall₂_iff_get.mp hms |>.2 k hk' (by omega)
        simp only [List.get_eq_getElem, List.getElem_map, hkm] at this
        exact ⟨_, this⟩
      · intro h
        choose! g hg using h
        have := mapPy_ok (f := fun m => Csv.broadcast (row0 :: rest).length row0.length (Csv.vals float m)) (g := g) hg
        refine ⟨((row0 :: rest) :: others).map g, ?_⟩
        rw [← this]
        generalize (row0 :: rest) :: others = l
        induction l with
        | nil => rfl
        | cons a l ih => simp only [List.map_cons, mapPy, ih]
    constructor
    · constructor
      · rintro ⟨a, ha⟩
        split at ha
        · cases ha
        rename_i ms hms
        have h := hmap.mp ⟨ms, hms⟩
        obtain ⟨E', S', hsh, -⟩ := ((Csv.broadcast_iff hS _).1).mp (h (row0 :: rest) (by simp))
        obtain ⟨rfl, rfl⟩ := hfirst _ _ hsh
        exact ⟨_, _, hsh, by simp, fun m hm => ((Csv.broadcast_iff hS _).1).mp (h m (by simp [hm]))⟩
      · rintro ⟨E, S, hsh, hE, h⟩
        obtain ⟨rfl, rfl⟩ := hfirst _ _ hsh
        obtain ⟨ms, hms⟩ := hmap.mpr fun m hm => by
          rw [(Csv.broadcast_iff hS _).1]
          rcases List.mem_cons.mp hm with rfl | hm
          · exact ⟨_, _, hsh, hE, Or.inl rfl, Or.inl rfl⟩
          · exact h m hm
        rw [hms]
        exact ⟨_, rfl⟩
    · intro a ha
      split at ha
      · cases ha
      rename_i ms hms
      cases ha
      have hall := hmap.mp ⟨ms, hms⟩
      obtain ⟨E', S', hsh, -⟩ := ((Csv.broadcast_iff hS _).1).mp (hall (row0 :: rest) (by simp))
      obtain ⟨rfl, rfl⟩ := hfirst _ _ hsh
      refine ⟨hsh, by simp, ?_⟩
      intro r m E' S' hr hm e s he hs
      obtain ⟨hrl, hrm⟩ := List.getElem?_eq_some_iff.mp hr
      rw [mapPy_eq_ok_iff] at hms
      have hl := hms.length_eq
      rw [List.length_map] at hl
      have hk' : r < (((row0 :: rest) :: others).map (Csv.vals float)).length := by rw [List.length_map]; exact hrl
      have hg := List.forall₂_iff_get.mp hms |>.2 r hk' (by omega)
      simp only [List.get_eq_getElem, List.getElem_map, hrm] at hg
      obtain ⟨row, c, h1, h2, h3⟩ := (Csv.broadcast_iff (float := float) hS m).2 _ hg E' S' hm e s he hs
      refine ⟨row, c, h1, h2, ?_⟩
      have hx : ∃ x, float c = some x := by
        have hm' : m ∈ (row0 :: rest) :: others := List.mem_of_getElem? hr
        exact ((hnum m hm' row (List.mem_of_getElem? h1)).2 c (List.mem_of_getElem? h2)).1
      obtain ⟨x, hx⟩ := hx
      unfold cell
      rw [dif_pos ⟨he, hs, by rw [List.length_map]; exact hrl⟩]
      dsimp only
      have e3 : (ms[r]?).getD (fun _ _ => 0) = ms[r]'(by omega) := by
        rw [List.getElem?_eq_getElem (by omega)]; rfl
      rw [e3, h3, hx]
      rfl

/-- **C91, partial.** A file of matrices of the same size is read into the array whose `r`-th layer is the `r`-th matrix.

Missing: files with matrices of other sizes are not all refused (`C91_refuted_row`). -/
theorem C91_round_trip_partial [Zero K] (float : List Char → Option (Fl K)) (hf : float [] = none)
    (mats : List (List (List (List Char)))) (hne : mats ≠ []) (hnum : AllNumbers float mats) (E S : ℕ) (hE : 0 < E)
    (hsh : ∀ m ∈ mats, HasShape E S m) (text : List Char) (ht : IsCsv mats text) :
    ∃ a, Csv.read3 float text = .ok a ∧ a.E = E ∧ a.S = S ∧ a.R = mats.length ∧
      ∀ (e s r : ℕ) m row c, mats[r]? = some m → m[e]? = some row → row[s]? = some c → cell a e s r = float c := by
  cases mats with
  | nil => exact absurd rfl hne
  | cons first others =>
    obtain ⟨h1, h2⟩ := C91_read float hf first others hnum text ht
    obtain ⟨a, ha⟩ := h1.mpr ⟨E, S, hsh first (by simp), hE, fun m hm => ⟨E, S, hsh m (by simp [hm]), hE, Or.inl rfl, Or.inl rfl⟩⟩
    obtain ⟨h3, h4, h5⟩ := h2 a ha
    have hEE : a.E = E := h3.1.symm.trans (hsh first (by simp)).1
    have hSS : a.S = S := by
      cases first with
      | nil => have := (hsh [] (by simp)).1; simp at this; omega
      | cons row l => exact (h3.2 row (by simp)).symm.trans ((hsh (row :: l) (by simp)).2 row (by simp))
    refine ⟨a, ha, hEE, hSS, h4, ?_⟩
    intro e s r m row c hm hrow hc
    have hmem := List.mem_of_getElem? hm
    have hmE := hsh m hmem
    have he : e < E := by rw [← hmE.1]; exact (List.getElem?_eq_some_iff.mp hrow).1
    have hs : s < S := by
      rw [← hmE.2 row (List.mem_of_getElem? hrow)]; exact (List.getElem?_eq_some_iff.mp hc).1
    obtain ⟨row', c', k1, k2, k3⟩ := h5 r m E S hm hmE e s (by omega) (by omega)
    have i1 : (if E = 1 then 0 else e) = e := by split <;> omega
    have i2 : (if S = 1 then 0 else s) = s := by split <;> omega
    rw [i1, hrow] at k1
    cases k1
    rw [i2, hc] at k2
    cases k2
    exact k3

/-- **C91, refuted.** A repetition of one row is not refused: every video gets the repeated votes of that row. -/
theorem C91_refuted_row [Zero K] (float : List Char → Option (Fl K)) (hf : float [] = none) (first : List (List (List Char)))
    (row : List (List Char)) (hnum : AllNumbers float [first, [row]]) (E S : ℕ) (hE : 0 < E) (hS : row.length = S)
    (hsh : HasShape E S first) (text : List Char) (ht : IsCsv [first, [row]] text) :
    ∃ a, Csv.read3 float text = .ok a ∧ a.E = E ∧ a.S = S ∧ a.R = 2 ∧
      ∀ (e s : ℕ) c, e < E → row[s]? = some c → cell a e s 1 = float c := by
  obtain ⟨h1, h2⟩ := C91_read float hf first [[row]] hnum text ht
  have hrow : HasShape 1 S [row] := ⟨rfl, by simpa using hS⟩
  obtain ⟨a, ha⟩ := h1.mpr ⟨E, S, hsh, hE, fun m hm => by
    rw [List.mem_singleton.mp hm]
    exact ⟨1, S, hrow, one_pos, Or.inr rfl, Or.inl rfl⟩⟩
  obtain ⟨h3, h4, h5⟩ := h2 a ha
  have hEE : a.E = E := h3.1.symm.trans hsh.1
  have hSS : a.S = S := by
    cases first with
    | nil => have := hsh.1; simp at this; omega
    | cons r l => exact (h3.2 r (by simp)).symm.trans (hsh.2 r (by simp))
  refine ⟨a, ha, hEE, hSS, h4, ?_⟩
  intro e s c he hc
  have hs : s < S := by rw [← hS]; exact (List.getElem?_eq_some_iff.mp hc).1
  obtain ⟨row', c', k1, k2, k3⟩ := h5 1 [row] 1 S rfl hrow e s (by omega) (by omega)
  rw [if_pos rfl] at k1
  cases k1
  have i2 : (if S = 1 then 0 else s) = s := by split <;> omega
  rw [i2, hc] at k2
  cases k2
  exact k3

/-- **C91, end to end.** The BT.500 demo on a file of matrices of the same size and `SubjectMLEModelProjectionSolver2` on a reader
that holds the same votes raise the same exception or report the same estimates. -/
theorem C91_bt500_file (float : List Char → Option (Fl ℝ)) (hf : float [] = none)
    (mats : List (List (List (List Char)))) (hne : mats ≠ []) (hnum : AllNumbers float mats) (E S : ℕ) (hE : 0 < E)
    (hsh : ∀ m ∈ mats, HasShape E S m) (text : List Char) (ht : IsCsv mats text)
    (rd : Reader κ ℝ) (hob : ObserversHarmless rd) (b : Arr3D (Fl ℝ)) (hb : rd.scores = .ok b)
    (hbE : b.E = E) (hbS : b.S = S) (hbR : b.R = mats.length)
    (hcell : ∀ (e s r : ℕ) m row c, mats[r]? = some m → m[e]? = some row → row[s]? = some c → cell b e s r = float c) :
    (∃ e, Csv.bt500 float text = .error e ∧ runAP2 rd {} = .error e) ∨
    (∃ d res, Csv.bt500 float text = .ok d ∧ runAP2 rd {} = .ok res ∧ SameEstimates d res) := by
  obtain ⟨a, ha, h1, h2, h3, h4⟩ := C91_round_trip_partial float hf mats hne hnum E S hE hsh text ht
  have hab : a = b := by
    obtain ⟨aE, aS, aR, ag⟩ := a
    obtain ⟨bE, bS, bR, bg⟩ := b
    dsimp only at h1 h2 h3 hbE hbS hbR
    subst h1 h2 h3 hbE hbS
    subst hbR
    congr 1
    funext e s r
    have hr : r.val < mats.length := r.isLt
    have hsr := hsh _ (List.getElem_mem hr)
    have he : e.val < (mats[r.val]).length := by rw [hsr.1]; exact e.isLt
    have hs : s.val < ((mats[r.val])[e.val]).length := by rw [hsr.2 _ (List.getElem_mem he)]; exact s.isLt
    have k1 := h4 e s r _ _ _ (List.getElem?_eq_getElem hr) (List.getElem?_eq_getElem he) (List.getElem?_eq_getElem hs)
    have k2 := hcell e s r _ _ _ (List.getElem?_eq_getElem hr) (List.getElem?_eq_getElem he) (List.getElem?_eq_getElem hs)
    unfold cell at k1 k2
    rw [dif_pos ⟨e.isLt, s.isLt, r.isLt⟩] at k1 k2
    rw [← k2] at k1
    exact Option.some.inj k1
  subst hab
  unfold Csv.bt500
  rw [ha]
  exact C33_bt500_demo a.E a.S a.R a.get rd hob hb

theorem mem_joinBy_of {α : Type} {sep : List α} (l : List (List α)) (x : List α) {m : List α} (hm : m ∈ x :: l) {a : α} (ha : a ∈ m) :
    a ∈ joinBy sep (x :: l) := by
  induction l generalizing x with
  | nil => rw [List.mem_singleton] at hm; subst hm; exact ha
  | cons y l ih =>
    rw [joinBy, List.mem_append, List.mem_append]
    rcases List.mem_cons.mp hm with rfl | hm
    · exact Or.inl (Or.inl ha)
    · exact Or.inr (ih y hm)

/-- **C91.** A cell that is not a number is a ValueError. -/
theorem C91_bad_cell [Zero K] (float : List Char → Option (Fl K)) (mats : List (List (List (List Char))))
    (hclean : ∀ m ∈ mats, ∀ row ∈ m, row ≠ [] ∧ row ≠ [[]] ∧ row ≠ [[], []] ∧ ∀ c ∈ row, ',' ∉ c ∧ '\n' ∉ c)
    (m : List (List (List Char))) (hm : m ∈ mats) (row : List (List Char)) (hrow : row ∈ m) (c : List Char) (hc : c ∈ row)
    (hbad : float c = none) (text : List Char) (ht : IsCsv mats text) : Csv.read3 float text = .error .value := by
  have hmem : row ∈ joinBy [[[], []]] mats := by
    cases mats with
    | nil => simp at hm
    | cons m' l => exact mem_joinBy_of l m' hm hrow
  have hrows : Csv.rows text = joinBy [[[], []]] mats := by
    apply Csv.rows_eq _ _ text ht
    intro r hr
    rcases Csv.mem_joinBy (x := []) hr with h1 | ⟨m', hm', h1⟩
    · rw [List.mem_singleton] at h1
      subst h1
      simp
    · obtain ⟨k1, k2, -, k3⟩ := hclean m' hm' r h1
      exact ⟨k1, k2, k3⟩
  unfold Csv.read3
  rw [hrows, Csv.blocks_bad hmem (hclean m hm row hrow).2.2.1 hc hbad]

/-- **C91.** The P.910 and P.913 demos read a file of one matrix, and refuse rows of different lengths. -/
theorem C91_p910_read [Zero K] (float : List Char → Option (Fl K)) (hf : float [] = none) (m : List (List (List Char))) (hm : m ≠ [])
    (hnum : AllNumbers float [m]) (text : List Char) (ht : IsCsv [m] text) :
    ((∃ S, HasShape m.length S m) → Csv.read2 float text = .ok (m.map fun row => row.map fun c => (float c).getD 0)) ∧
    ((¬ ∃ S, HasShape m.length S m) → Csv.read2 float text = .error .value) := by
  have hrows : Csv.rows text = m := by
    have h := Csv.rows_eq (joinBy [[[], []]] [m]) (by
      intro row hrow
      obtain ⟨h2, h3⟩ := hnum m (by simp) row hrow
      refine ⟨h2, ?_, fun c hc => (h3 c hc).2⟩
      rintro rfl
      obtain ⟨⟨x, hx⟩, -⟩ := h3 [] (by simp)
      rw [hf] at hx; cases hx) text ht
    exact h
  unfold Csv.read2
  rw [hrows]
  cases m with
  | nil => exact absurd rfl hm
  | cons row rest =>
    dsimp only
    have hall : (rest.all fun r => r.length == row.length) = true ↔ ∃ S, HasShape (row :: rest).length S (row :: rest) := by
      simp only [List.all_eq_true, beq_iff_eq]
      constructor
      · intro h
        refine ⟨row.length, rfl, fun r hr => ?_⟩
        rcases List.mem_cons.mp hr with rfl | hr
        · rfl
        · exact h r hr
      · rintro ⟨S, -, h⟩ r hr
        rw [h r (by simp [hr]), h row (by simp)]
    constructor
    · intro h
      rw [if_pos (hall.mpr h)]
      apply mapPy_ok
      intro r hr
      exact Csv.parseRow_ok fun c hc => ((hnum _ (by simp) r hr).2 c hc).1
    · intro h
      rw [if_neg (fun h' => h (hall.mp h'))]

/-- **C91, end to end.** The P.910 and P.913 demos on a file of one matrix and `SubjectMLEModelProjectionSolver2` on a reader that
holds the same votes raise the same exception or report the same estimates. -/
theorem C91_p910_file (float : List Char → Option (Fl ℝ)) (hf : float [] = none) (m : List (List (List Char)))
    (hnum : AllNumbers float [m]) (E S : ℕ) (hE : 0 < E) (hsh : HasShape E S m) (text : List Char) (ht : IsCsv [m] text)
    (rd : Reader κ ℝ) (hob : ObserversHarmless rd) (x : Fin E → Fin S → Fl ℝ) (hb : rd.scores = .ok ⟨E, S, 1, fun e s _ => x e s⟩)
    (hcell : ∀ (e : Fin E) (s : Fin S) row c, m[e.val]? = some row → row[s.val]? = some c → float c = some (x e s)) :
    (∃ e, Csv.p910 float text = .error e ∧ runAP2 rd {} = .error e) ∨
    (∃ d res, Csv.p910 float text = .ok d ∧ runAP2 rd {} = .ok res ∧ SameEstimates d res) := by
  have hmne : m ≠ [] := by
    rintro rfl
    have := hsh.1; simp at this; omega
  have hr := (C91_p910_read float hf m hmne hnum text ht).1 ⟨S, by rw [hsh.1]; exact hsh⟩
  unfold Csv.p910
  rw [hr]
  dsimp only
  have hl : (m.map fun row => row.map fun c => (float c).getD 0).length = E := by rw [List.length_map, hsh.1]
  have hS : (((m.map fun row => row.map fun c => (float c).getD 0)).head?.getD []).length = S := by
    cases m with
    | nil => exact absurd rfl hmne
    | cons row rest => simpa using hsh.2 row (by simp)
  have key : ∀ (J I : ℕ), J = E → I = S →
      (∃ e, P910Demo.run (J := J) (I := I) (fun j i =>
        (((((m.map fun row => row.map fun c => (float c).getD 0))[j.val]?).getD [])[i.val]?).getD 0) = .error e ∧ runAP2 rd {} = .error e) ∨
      (∃ d res, P910Demo.run (J := J) (I := I) (fun j i =>
        (((((m.map fun row => row.map fun c => (float c).getD 0))[j.val]?).getD [])[i.val]?).getD 0) = .ok d ∧
        runAP2 rd {} = .ok res ∧ SameEstimates d res) := by
    rintro J I rfl rfl
    have hx : (fun (j : Fin J) (i : Fin I) =>
        (((((m.map fun row => row.map fun c => (float c).getD 0))[j.val]?).getD [])[i.val]?).getD 0) = x := by
      funext j i
      have hj : j.val < m.length := by rw [hsh.1]; exact j.isLt
      have hi : i.val < (m[j.val]).length := by rw [hsh.2 _ (List.getElem_mem hj)]; exact i.isLt
      have := hcell j i _ _ (List.getElem?_eq_getElem hj) (List.getElem?_eq_getElem hi)
      rw [List.getElem?_map, List.getElem?_eq_getElem hj]
      simp only [Option.map_some, Option.getD_some]
      rw [List.getElem?_map, List.getElem?_eq_getElem hi]
      simp [this]
    rw [hx]
    exact C33_p910_demo J I x rd hob hb
  exact key _ _ hl hS

/-! ### a concrete file -/

/-- some numbers -/
def exFloat (c : List Char) : Option (Fl ℚ) :=
  if c = ['1'] then some (.fin 1) else if c = ['2'] then some (.fin 2) else if c = ['n', 'a', 'n'] then some .nan else none

/-- two matrices, without a line end at the end of the file -/
example : exFloat [] = none ∧ AllNumbers exFloat [[[['1'], ['2']], [['2'], ['2']]], [[['n', 'a', 'n'], ['1']], [['2'], ['1']]]] ∧
    IsCsv [[[['1'], ['2']], [['2'], ['2']]], [[['n', 'a', 'n'], ['1']], [['2'], ['1']]]] "1,2\n2,2\n,\nnan,1\n2,1".toList ∧
    ∀ m ∈ [[[['1'], ['2']], [['2'], ['2']]], [[['n', 'a', 'n'], ['1']], [['2'], ['1']]]], HasShape 2 2 m := by
  refine ⟨rfl, ?_, Or.inr rfl, ?_⟩
  · simp [AllNumbers, exFloat]
  · simp [HasShape]

/-- a repetition of a single row (hypotheses of `C91_refuted_row`) -/
example : AllNumbers exFloat [[[['1'], ['2']], [['2'], ['2']]], [[['1'], ['1']]]] ∧
    IsCsv [[[['1'], ['2']], [['2'], ['2']]], [[['1'], ['1']]]] "1,2\n2,2\n,\n1,1\n".toList := by
  refine ⟨?_, Or.inl rfl⟩
  simp [AllNumbers, exFloat]

/-- an empty cell (hypotheses of `C91_bad_cell`) -/
example : IsCsv [[[['1'], [], ['2']]]] "1,,2\n".toList ∧ exFloat [] = none := ⟨Or.inl rfl, rfl⟩

end Sureal.Props
