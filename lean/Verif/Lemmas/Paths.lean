import Verif.Model.Paths
import Verif.Spec.Paths
import Verif.Lemmas.Overlap
/-!
# Lemmas about paths
-/
namespace Sureal.Paths
open Sureal.Spec
variable {δ : Type}

theorem names_append (a b : List Char) : namesIn (a ++ '/' :: b) = namesIn a ++ namesIn b := by
  unfold namesIn
  rw [List.splitOn_append_cons_self, List.filter_append]

theorem names_nil : namesIn [] = [] := by simp [namesIn]

theorem names_slash (b : List Char) : namesIn ('/' :: b) = namesIn b := by
  have := names_append [] b
  rwa [names_nil, List.nil_append, List.nil_append] at this

theorem names_snoc (a : List Char) : namesIn (a ++ ['/']) = namesIn a := by
  rw [names_append, names_nil, List.append_nil]

theorem names_plain {n : List Char} (h0 : n ≠ []) (h : '/' ∉ n) : namesIn n = [n] := by
  unfold namesIn
  rw [List.splitOn_eq_singleton h]
  simp [h0]

theorem goTo_join1 (fs : Places δ) (cur : δ) (a b : List Char) : fs.goTo cur (MosTable.join a b) = fs.goTo (fs.goTo cur a) b := by
  unfold MosTable.join
  split
  · rename_i h
    simp [Places.goTo, h]
  rename_i h
  split
  · rename_i h0
    subst h0
    simp [Places.goTo, names_nil]
  rename_i h0
  have hh : ∀ l, (a ++ l).head? = a.head? := by
    intro l
    cases a with
    | nil => exact absurd rfl h0
    | cons x a => rfl
  split
  · rename_i h1
    obtain ⟨a', rfl⟩ : ∃ a', a = a' ++ ['/'] := by
      refine ⟨a.dropLast, ?_⟩
      rw [List.getLast?_eq_some_getLast h0] at h1
      have := List.dropLast_append_getLast h0
      rw [Option.some.inj h1] at this
      exact this.symm
    unfold Places.goTo
    rw [hh, names_snoc, List.append_assoc, List.singleton_append, names_append, List.foldl_append, if_neg h]
  · unfold Places.goTo
    rw [hh, names_append, List.foldl_append, if_neg h]

theorem goTo_join (fs : Places δ) (cur : δ) (a : List Char) (ps : List (List Char)) : fs.goTo cur (join a ps) = ps.foldl fs.goTo (fs.goTo cur a) := by
  induction ps generalizing a with
  | nil => rfl
  | cons p ps ih =>
    rw [List.foldl_cons, ← goTo_join1]
    exact ih _

theorem goTo_plain (fs : Places δ) (cur : δ) {n : List Char} (h0 : n ≠ []) (h : '/' ∉ n) : fs.goTo cur n = fs.enter cur n := by
  unfold Places.goTo
  rw [names_plain h0 h, if_neg]
  · rfl
  · cases n with
    | nil => exact absurd rfl h0
    | cons x n =>
      intro hx
      rw [List.head?_cons] at hx
      exact h (by rw [Option.some.inj hx]; exact List.mem_cons_self)

theorem rfind1_spec (c : Char) (l n : List Char) (h : c ∉ n) : FileName.rfind1 c (l ++ c :: n) = l.length + 1 := by
  have h0 : FileName.rfind1 c n = 0 := by
    induction n with
    | nil => rfl
    | cons x n ih =>
      rw [List.mem_cons, not_or] at h
      unfold FileName.rfind1
      rw [ih h.2]
      simp [Ne.symm h.1]
  induction l with
  | nil =>
    simp [FileName.rfind1, h0]
  | cons x l ih =>
    rw [List.cons_append]
    unfold FileName.rfind1
    rw [ih]
    rfl

theorem goTo_strip (fs : Places δ) (cur : δ) (l : List Char) (h : ¬ (l.all fun c => c == '/') = true) :
    fs.goTo cur (l.reverse.dropWhile fun c => c == '/').reverse = fs.goTo cur l := by
  induction l using List.reverseRecOn with
  | nil => rfl
  | append_singleton l x ih =>
    rw [List.reverse_append, List.reverse_singleton, List.singleton_append]
    by_cases hx : x = '/'
    · subst hx
      have hl : ¬ (l.all fun c => c == '/') = true := by simpa using h
      rw [List.dropWhile_cons_of_pos (by simp), ih hl]
      unfold Places.goTo
      rw [names_snoc]
      cases l with
      | nil => simp at hl
      | cons y l => rfl
    · rw [List.dropWhile_cons_of_neg (by simpa using hx)]
      simp

theorem goTo_dirname (fs : Places δ) (cur : δ) (dir n : List Char) (h : '/' ∉ n) (hd : dir ≠ []) :
    fs.goTo cur (dirname (dir ++ '/' :: n)) = fs.goTo cur dir := by
  have hs : fs.goTo cur (dir ++ ['/']) = fs.goTo cur dir := by
    unfold Places.goTo
    rw [names_snoc]
    cases dir with
    | nil => exact absurd rfl hd
    | cons y l => rfl
  unfold dirname
  rw [rfind1_spec '/' dir n h]
  have ht : (dir ++ '/' :: n).take (dir.length + 1) = dir ++ ['/'] := by
    rw [List.take_append, List.take_of_length_le (by omega)]
    simp
  simp only [ht]
  split
  · exact hs
  · rename_i hh
    rw [goTo_strip fs cur _ hh, hs]

theorem goTo_root (fs : Places δ) (cur : δ) (dir n : List Char) (h : '/' ∉ n) (hd : dir ≠ []) (ps : List (List Char)) :
    fs.goTo cur (rootPath (dir ++ '/' :: n) ps) = ps.foldl fs.goTo (fs.enter (fs.goTo cur dir) "..".toList) := by
  unfold rootPath pythonRoot
  rw [goTo_join, goTo_join, goTo_dirname fs cur dir n h hd]
  rw [List.foldl_cons, List.foldl_nil, goTo_plain]
  · decide
  · decide

theorem enter_plain {n : List Char} (h : PlainName n) (d : List (List Char)) : treePlaces.enter d n = d ++ [n] := by
  simp [treePlaces, h.2.2.1, h.2.2.2]

theorem goTo_names (d : List (List Char)) {ps : List (List Char)} (h : ∀ p ∈ ps, PlainName p) : ps.foldl treePlaces.goTo d = d ++ ps := by
  induction ps generalizing d with
  | nil => simp
  | cons p ps ih =>
    have hp := h p List.mem_cons_self
    rw [List.foldl_cons, goTo_plain treePlaces d hp.1 hp.2.1, enter_plain hp, ih _ fun q hq => h q (List.mem_cons_of_mem _ hq)]
    simp

theorem goTo_down (d : List (List Char)) {p : List Char} (h : Downward p) : d <+: treePlaces.goTo d p := by
  unfold Places.goTo
  rw [if_neg h.1]
  have h2 := h.2
  generalize namesIn p = l at h2
  induction l generalizing d with
  | nil => exact List.prefix_refl d
  | cons n l ih =>
    rw [List.mem_cons, not_or] at h2
    rw [List.foldl_cons]
    refine List.IsPrefix.trans ?_ (ih _ h2.2)
    simp only [treePlaces]
    split
    · exact List.prefix_refl d
    · rw [if_neg (Ne.symm h2.1)]
      exact List.prefix_append d [n]

theorem goTo_downs (d : List (List Char)) {ps : List (List Char)} (h : ∀ p ∈ ps, Downward p) : d <+: ps.foldl treePlaces.goTo d := by
  induction ps generalizing d with
  | nil => exact List.prefix_refl d
  | cons p ps ih => exact (goTo_down d (h p List.mem_cons_self)).trans (ih _ fun q hq => h q (List.mem_cons_of_mem _ hq))

theorem digits_no (k : ℕ) (c : Char) (hc : c.isDigit = false) : c ∉ (toString k).toList := by
  rw [Nat.toString_eq_ofList_toDigits, String.toList_ofList]
  intro h
  have := Nat.isDigit_of_mem_toDigits (by norm_num) (by norm_num) h
  rw [hc] at this
  cases this

theorem figure_inj {k l : ℕ} {f g : List Char} (h : (toString k).toList ++ '.' :: f = (toString l).toList ++ '.' :: g) : k = l := by
  have h1 := congrArg (fun x => x.takeWhile fun c => c != '.') h
  have tw : ∀ (k : ℕ) (f : List Char), ((toString k).toList ++ '.' :: f).takeWhile (fun c => c != '.') = (toString k).toList := by
    intro k f
    rw [List.takeWhile_append_of_pos]
    · simp
    · intro c hc
      simp only [bne_iff_ne, ne_eq]
      rintro rfl
      exact digits_no k '.' (by decide) hc
  simp only [tw] at h1
  exact Sureal.Conv.toString_nat_inj (String.toList_inj.mp h1)

end Sureal.Paths
