import Verif.Model.Csv
import Verif.Spec.Csv
import Verif.Lemmas.Dataset
/-! Reading CSV files. -/
set_option linter.unusedSectionVars false
namespace Sureal.Csv
open Sureal Spec
variable {K : Type}

theorem split_ne (c : Char) (l : List Char) : split c l ≠ [] := by
  cases l with
  | nil => simp [split]
  | cons x l =>
    unfold split
    split
    · simp
    · split <;> simp

theorem split_append (c : Char) (p l : List Char) (h : c ∉ p) : split c (p ++ c :: l) = p :: split c l := by
  induction p with
  | nil => simp [split]
  | cons x p ih =>
    simp only [List.mem_cons, not_or] at h
    rw [List.cons_append, split, if_neg (Ne.symm h.1), ih h.2]

theorem split_single (c : Char) (p : List Char) (h : c ∉ p) : split c p = [p] := by
  induction p with
  | nil => rfl
  | cons x p ih =>
    simp only [List.mem_cons, not_or] at h
    rw [split, if_neg (Ne.symm h.1), ih h.2]

theorem split_snoc (c : Char) (t : List Char) : split c (t ++ [c]) = split c t ++ [[]] := by
  induction t with
  | nil => simp [split]
  | cons x t ih =>
    rw [List.cons_append, split, split, ih]
    split
    · simp
    · have := split_ne c t
      cases hs : split c t with
      | nil => exact absurd hs this
      | cons p ps => rfl

theorem split_joinBy (c : Char) (ls : List (List Char)) (hne : ls ≠ []) (h : ∀ p ∈ ls, c ∉ p) : split c (joinBy [c] ls) = ls := by
  induction ls with
  | nil => exact absurd rfl hne
  | cons p ls ih =>
    cases ls with
    | nil => exact split_single c p (h p (by simp))
    | cons q l =>
      rw [joinBy, List.append_assoc, List.singleton_append, split_append c p _ (h p (by simp)),
        ih (by simp) (fun r hr => h r (by simp [hr]))]

theorem split_lines (ls : List (List Char)) (h : ∀ p ∈ ls, '\n' ∉ p) :
    split '\n' (ls.flatMap fun p => p ++ ['\n']) = ls ++ [[]] := by
  induction ls with
  | nil => rfl
  | cons p ls ih =>
    rw [List.flatMap_cons, List.append_assoc, List.singleton_append, split_append _ p _ (h p (by simp)),
      ih (fun q hq => h q (by simp [hq]))]
    rfl

theorem lines_eq (ls : List (List Char)) (h : ∀ p ∈ ls, '\n' ∉ p ∧ p ≠ []) (text : List Char)
    (ht : text = (ls.flatMap fun p => p ++ ['\n']) ∨ text ++ ['\n'] = ls.flatMap fun p => p ++ ['\n']) : lines text = ls := by
  have hs := split_lines ls (fun p hp => (h p hp).1)
  unfold lines
  rcases ht with rfl | ht
  · rw [hs]
    simp
  · rw [← ht, split_snoc] at hs
    have := List.append_cancel_right hs
    rw [this]
    dsimp only
    rw [if_neg]
    intro hl
    exact (h [] (List.mem_of_getLast? hl)).2 rfl

theorem mem_joinBy {α : Type} {sep x : List α} {ls : List (List α)} {a : α} (h : a ∈ joinBy sep ls) : a ∈ sep ∨ ∃ x ∈ ls, a ∈ x := by
  induction ls with
  | nil => simp [joinBy] at h
  | cons y ls ih =>
    cases ls with
    | nil => exact Or.inr ⟨y, by simp, h⟩
    | cons z l =>
      rw [joinBy, List.mem_append, List.mem_append] at h
      rcases h with (h | h) | h
      · exact Or.inr ⟨y, by simp, h⟩
      · exact Or.inl h
      · rcases ih h with h | ⟨x, hx, h⟩
        · exact Or.inl h
        · exact Or.inr ⟨x, by simp [hx], h⟩

theorem joinBy_nil {c : Char} {row : List (List Char)} (h : joinBy [c] row = []) (hne : row ≠ []) : row = [[]] := by
  cases row with
  | nil => exact absurd rfl hne
  | cons x l =>
    cases l with
    | nil => rw [joinBy] at h; rw [h]
    | cons y l => simp [joinBy] at h

/-- the rows of a file -/
theorem rows_eq (rs : List (List (List Char))) (h : ∀ row ∈ rs, row ≠ [] ∧ row ≠ [[]] ∧ ∀ c ∈ row, ',' ∉ c ∧ '\n' ∉ c)
    (text : List Char) (ht : text = (rs.flatMap fun row => joinBy [','] row ++ ['\n']) ∨
      text ++ ['\n'] = rs.flatMap fun row => joinBy [','] row ++ ['\n']) : rows text = rs := by
  have e : (rs.flatMap fun row => joinBy [','] row ++ ['\n']) = (rs.map (joinBy [','])).flatMap fun p => p ++ ['\n'] := by
    rw [List.flatMap_map]
  rw [e] at ht
  unfold rows
  rw [lines_eq (rs.map (joinBy [','])) ?_ text ht, List.map_map]
  · refine (List.map_congr_left (g := id) fun row hrow => ?_).trans (List.map_id _)
    obtain ⟨h1, h2, h3⟩ := h row hrow
    simp only [Function.comp, fields, id]
    rw [if_neg (fun h' => h2 (joinBy_nil h' h1)), split_joinBy ',' row h1 (fun p hp => (h3 p hp).1)]
  · intro p hp
    obtain ⟨row, hrow, rfl⟩ := List.mem_map.mp hp
    obtain ⟨h1, h2, h3⟩ := h row hrow
    refine ⟨fun hc => ?_, fun h' => h2 (joinBy_nil h' h1)⟩
    rcases mem_joinBy (x := []) hc with hc | ⟨x, hx, hc⟩
    · simp at hc
    · exact (h3 x hx).2 hc

/-- the numbers in a matrix of cells -/
def vals [Zero K] (float : List Char → Option (Fl K)) (m : List (List (List Char))) : List (List (Fl K)) :=
  m.map fun row => row.map fun c => (float c).getD 0

theorem parseRow_ok [Zero K] {float : List Char → Option (Fl K)} {row : List (List Char)} (h : ∀ c ∈ row, ∃ x, float c = some x) :
    parseRow float row = .ok (row.map fun c => (float c).getD 0) := by
  apply mapPy_ok
  intro c hc
  obtain ⟨x, hx⟩ := h c hc
  rw [hx]; rfl

theorem blocks_matrix [Zero K] {float : List Char → Option (Fl K)} (hf : float [] = none) {m : List (List (List Char))}
    (h : ∀ row ∈ m, ∀ c ∈ row, ∃ x, float c = some x)
    (l : List (List (List Char))) (data : List (List (Fl K))) (done : List (List (List (Fl K)))) :
    blocks float (m ++ l) data done = blocks float l (data ++ vals float m) done := by
  induction m generalizing data with
  | nil => simp [vals]
  | cons row m ih =>
    have hr := h row (by simp)
    have hsep : row ≠ [[], []] := by
      rintro rfl
      obtain ⟨x, hx⟩ := hr [] (by simp)
      rw [hf] at hx; cases hx
    rw [List.cons_append, blocks, if_pos hsep, parseRow_ok hr]
    dsimp only
    rw [ih (fun r hr => h r (by simp [hr]))]
    simp [vals]

theorem blocks_all [Zero K] {float : List Char → Option (Fl K)} (hf : float [] = none) {mats : List (List (List (List Char)))}
    (hne : mats ≠ []) (h : ∀ m ∈ mats, ∀ row ∈ m, ∀ c ∈ row, ∃ x, float c = some x) (done : List (List (List (Fl K)))) :
    blocks float (joinBy [[[], []]] mats) [] done = .ok (done ++ mats.map (vals float)) := by
  induction mats generalizing done with
  | nil => exact absurd rfl hne
  | cons m mats ih =>
    have hm := blocks_matrix hf (h m (by simp))
    cases mats with
    | nil =>
      have := hm [] [] done
      rw [List.append_nil] at this
      rw [joinBy, this]
      simp [blocks]
    | cons m' l =>
      rw [joinBy, List.append_assoc, hm, List.singleton_append, blocks, if_neg (by simp),
        ih (by simp) (fun q hq => h q (by simp [hq]))]
      simp

theorem blocks_file [Zero K] {float : List Char → Option (Fl K)} (hf : float [] = none) {mats : List (List (List (List Char)))}
    (hne : mats ≠ []) (h : AllNumbers float mats) {text : List Char} (ht : IsCsv mats text) :
    blocks float (rows text) [] [] = .ok (mats.map (vals float)) := by
  rw [rows_eq (joinBy [[[], []]] mats) ?_ text ht, blocks_all hf hne (fun m hm row hr c hc => ((h m hm row hr).2 c hc).1)]
  · rfl
  · intro row hrow
    rcases mem_joinBy (x := []) hrow with h1 | ⟨m, hm, h1⟩
    · rw [List.mem_singleton] at h1
      subst h1
      simp
    · obtain ⟨h2, h3⟩ := h m hm row h1
      refine ⟨h2, ?_, fun c hc => (h3 c hc).2⟩
      rintro rfl
      obtain ⟨⟨x, hx⟩, -⟩ := h3 [] (by simp)
      rw [hf] at hx; cases hx

theorem parseRow_bad {float : List Char → Option (Fl K)} {row : List (List Char)} {c : List Char} (hc : c ∈ row) (h : float c = none) :
    parseRow float row = .error .value := by
  unfold parseRow
  induction row with
  | nil => simp at hc
  | cons y row ih =>
    unfold mapPy
    rcases List.mem_cons.mp hc with rfl | hc
    · rw [h]
    · cases hy : float y with
      | none => rfl
      | some x =>
        dsimp only
        rw [ih hc]

theorem parseRow_err {float : List Char → Option (Fl K)} {row : List (List Char)} {e : PyErr} (h : parseRow float row = .error e) :
    e = .value := by
  unfold parseRow at h
  induction row with
  | nil => cases h
  | cons y row ih =>
    unfold mapPy at h
    cases hy : float y with
    | none => rw [hy] at h; cases h; rfl
    | some x =>
      rw [hy] at h
      dsimp only at h
      split at h
      · rename_i e' he; cases h; exact ih he
      · cases h

/-- a cell that is no number -/
theorem blocks_bad {float : List Char → Option (Fl K)} {rs : List (List (List Char))} {row : List (List Char)} (hrow : row ∈ rs)
    (hsep : row ≠ [[], []]) {c : List Char} (hc : c ∈ row) (h : float c = none) (data : List (List (Fl K)))
    (done : List (List (List (Fl K)))) : blocks float rs data done = .error .value := by
  induction rs generalizing data done with
  | nil => simp at hrow
  | cons r rs ih =>
    unfold blocks
    rcases List.mem_cons.mp hrow with rfl | hrow
    · rw [if_pos hsep, parseRow_bad hc h]
    · split
      · cases hp : parseRow float r with
        | error e => rw [parseRow_err hp]
        | ok v => exact ih hrow _ _
      · exact ih hrow _ _

/-- when `data3d[:, :, r] = mat` succeeds, and what it writes -/
theorem broadcast_iff [Zero K] {float : List Char → Option (Fl K)} {E S : ℕ} (hS : 0 < S) (m : List (List (List Char))) :
    ((∃ g, broadcast E S (vals float m) = .ok g) ↔ ∃ E' S', HasShape E' S' m ∧ 0 < E' ∧ (E' = E ∨ E' = 1) ∧ (S' = S ∨ S' = 1)) ∧
    ∀ g, broadcast E S (vals float m) = .ok g → ∀ E' S', HasShape E' S' m → ∀ e s, e < E → s < S →
      ∃ row c, m[if E' = 1 then 0 else e]? = some row ∧ row[if S' = 1 then 0 else s]? = some c ∧ g e s = (float c).getD 0 := by
  cases m with
  | nil =>
    have hb : broadcast E S (vals float []) = .error .value := by
      simp only [broadcast, vals, List.map_nil]
      rw [if_neg (by omega)]
    rw [hb]
    refine ⟨⟨fun ⟨g, hg⟩ => (by cases hg), ?_⟩, fun g hg => (by cases hg)⟩
    rintro ⟨E', S', ⟨h1, -⟩, h2, -⟩
    simp at h1; omega
  | cons row rest =>
    have hv : vals float (row :: rest) = (row.map fun c => (float c).getD 0) :: vals float rest := rfl
    have hall : ((vals float rest).all fun r => r.length == (row.map fun c => (float c).getD 0).length) = true ↔
        ∀ r ∈ rest, r.length = row.length := by
      simp [vals, List.all_eq_true]
    have hlen : ((row.map fun c => (float c).getD 0) :: vals float rest).length = (row :: rest).length := by simp [vals]
    unfold broadcast
    rw [hv]
    dsimp only
    by_cases hr : ∀ r ∈ rest, r.length = row.length
    · rw [if_pos (hall.mpr hr)]
      have hshape : ∀ E' S', HasShape E' S' (row :: rest) ↔ E' = (row :: rest).length ∧ S' = row.length := by
        intro E' S'
        constructor
        · rintro ⟨h1, h2⟩
          exact ⟨h1.symm, (h2 row (by simp)).symm⟩
        · rintro ⟨rfl, rfl⟩
          refine ⟨rfl, fun r hr' => ?_⟩
          rcases List.mem_cons.mp hr' with rfl | hr'
          · rfl
          · exact hr r hr'
      rw [hlen, List.length_map]
      by_cases hc : ((row :: rest).length = E ∨ (row :: rest).length = 1) ∧ (row.length = S ∨ row.length = 1)
      · rw [if_pos hc]
        refine ⟨⟨fun _ => ⟨_, _, (hshape _ _).mpr ⟨rfl, rfl⟩, by simp, hc.1, hc.2⟩, fun _ => ⟨_, rfl⟩⟩, ?_⟩
        intro g hg E' S' hsh e s he hs
        obtain ⟨rfl, rfl⟩ := (hshape E' S').mp hsh
        cases hg
        have hi : (if (row :: rest).length = 1 then 0 else e) < (row :: rest).length := by
          split
          · omega
          · rcases hc.1 with h | h <;> omega
        have hrowlen : ((row :: rest)[if (row :: rest).length = 1 then 0 else e]).length = row.length :=
          hsh.2 _ (List.getElem_mem hi)
        have hj : (if row.length = 1 then 0 else s) < ((row :: rest)[if (row :: rest).length = 1 then 0 else e]).length := by
          rw [hrowlen]
          split
          · omega
          · rcases hc.2 with h | h <;> omega
        refine ⟨_, _, List.getElem?_eq_getElem hi, List.getElem?_eq_getElem hj, ?_⟩
        have e1 : ((row.map fun c => (float c).getD 0) :: vals float rest)[if (row :: rest).length = 1 then 0 else e]? =
            some (((row :: rest)[if (row :: rest).length = 1 then 0 else e]).map fun c => (float c).getD 0) := by
          rw [← hv]
          unfold vals
          rw [List.getElem?_map, List.getElem?_eq_getElem hi]
          rfl
        dsimp only
        rw [e1, Option.getD_some, List.getElem?_map, List.getElem?_eq_getElem hj]
        rfl
      · rw [if_neg hc]
        refine ⟨⟨fun ⟨g, hg⟩ => (by cases hg), ?_⟩, fun g hg => (by cases hg)⟩
        rintro ⟨E', S', hsh, -, h3, h4⟩
        obtain ⟨rfl, rfl⟩ := (hshape E' S').mp hsh
        exact absurd ⟨h3, h4⟩ hc
    · rw [if_neg (fun h => hr (hall.mp h))]
      refine ⟨⟨fun ⟨g, hg⟩ => (by cases hg), ?_⟩, fun g hg => (by cases hg)⟩
      rintro ⟨E', S', ⟨-, h2⟩, -⟩
      exact absurd (fun r hr' => (h2 r (by simp [hr'])).trans (h2 row (by simp)).symm) hr

end Sureal.Csv
