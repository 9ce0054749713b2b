import Verif.Model.FileName
/-!
# C107: names of files
-/
namespace Sureal.Props
open Sureal FileName

/-- `n` is the last component of the path -/
def IsLast (c : Char) (path n : List Char) : Prop := c ∉ n ∧ (path = n ∨ ∃ d : List Char, path = d ++ c :: n)

/-- the name `n` ends in a dot and `e`, with something other than dots before: `n` is `b`, a dot, `e` -/
def HasExt (n b e : List Char) : Prop := n = b ++ '.' :: e ∧ '.' ∉ e ∧ ∃ x ∈ b, x ≠ '.'

theorem split_ne (c : Char) (l : List Char) : split c l ≠ [] := by
  induction l with
  | nil => simp [split]
  | cons x l ih =>
    unfold split
    split
    · simp
    · cases h : split c l <;> simp

theorem last_cons {a : List Char} {l : List (List Char)} (h : l ≠ []) : last (a :: l) = last l := by
  cases l with
  | nil => exact absurd rfl h
  | cons b l => rfl

/-- `l` has a component before its last -/
theorem last_split (c : Char) (l : List Char) :
    c ∉ last (split c l) ∧ ((c ∉ l ∧ split c l = [l]) ∨ (∃ d : List Char, l = d ++ c :: last (split c l)) ∧ ∃ a b m, split c l = a :: b :: m) := by
  induction l with
  | nil => simp [split, last]
  | cons x l ih =>
    by_cases hx : x = c
    · subst hx
      have hs : split x (x :: l) = [] :: split x l := by simp [split]
      rw [hs, last_cons (split_ne x l)]
      refine ⟨ih.1, Or.inr ⟨?_, ?_⟩⟩
      · rcases ih.2 with ⟨_, h⟩ | ⟨⟨d, h⟩, _⟩
        · exact ⟨[], by rw [h]; rfl⟩
        · exact ⟨x :: d, by rw [List.cons_append, ← h]⟩
      · rcases h : split x l with _ | ⟨a, m⟩
        · exact absurd h (split_ne x l)
        · exact ⟨[], a, m, rfl⟩
    · rcases h : split c l with _ | ⟨a, m⟩
      · exact absurd h (split_ne c l)
      · have hs : split c (x :: l) = (x :: a) :: m := by simp [split, hx, h]
        rw [h] at ih
        rw [hs]
        rcases ih.2 with ⟨h1, h2⟩ | ⟨⟨d, h1⟩, a', b', m', h2⟩
        · have ha : a = l ∧ m = [] := by simpa using h2
          rw [ha.1, ha.2]
          have hc : c ∉ x :: l := by simp only [List.mem_cons, not_or]; exact ⟨fun h => hx h.symm, h1⟩
          exact ⟨hc, Or.inl ⟨hc, rfl⟩⟩
        · have hm : m ≠ [] := by
            rintro rfl
            simp at h2
          rw [last_cons hm]
          rw [last_cons hm] at ih h1
          refine ⟨ih.1, Or.inr ⟨⟨x :: d, by rw [List.cons_append, ← h1]⟩, ?_⟩⟩
          cases m with
          | nil => exact absurd rfl hm
          | cons b m => exact ⟨_, b, m, rfl⟩

theorem last_isLast (c : Char) (l : List Char) : IsLast c l (last (split c l)) := by
  obtain ⟨h1, h2⟩ := last_split c l
  refine ⟨h1, ?_⟩
  rcases h2 with ⟨_, h⟩ | ⟨h, _⟩
  · rw [h]; exact Or.inl rfl
  · exact Or.inr h

/-- two splittings at the last occurrence are equal -/
theorem split_unique {c : Char} {d d' n n' : List Char} (h : d ++ c :: n = d' ++ c :: n') (hn : c ∉ n) (hn' : c ∉ n') : d = d' ∧ n = n' := by
  rcases List.append_eq_append_iff.mp h with ⟨m, h1, h2⟩ | ⟨m, h1, h2⟩
  · cases m with
    | nil => simpa [eq_comm, h1] using h2
    | cons y m =>
      have : n = m ++ c :: n' := by simpa using (List.cons.inj h2).2
      exact absurd (by rw [this]; simp) hn
  · cases m with
    | nil => simpa [h1] using h2.symm
    | cons y m =>
      have : n' = m ++ c :: n := by simpa using (List.cons.inj h2).2
      exact absurd (by rw [this]; simp) hn'

theorem isLast_unique {c : Char} {l n n' : List Char} (h : IsLast c l n) (h' : IsLast c l n') : n = n' := by
  obtain ⟨h1, h2⟩ := h
  obtain ⟨h1', h2'⟩ := h'
  rcases h2 with rfl | ⟨d, rfl⟩
  · rcases h2' with rfl | ⟨d', h⟩
    · rfl
    · exact absurd (by rw [h]; simp) h1
  · rcases h2' with h | ⟨d', h⟩
    · exact absurd (by rw [← h]; simp) h1'
    · exact (split_unique h h1 h1').2

/-- **C107.** `get_file_name_with_extension` returns the last component of the path: what follows the last slash, the path itself if
there is none. -/
theorem C107_name (path n : List Char) : withExtension path = n ↔ IsLast '/' path n :=
  ⟨fun h => h ▸ last_isLast '/' path, fun h => isLast_unique (last_isLast '/' path) h⟩

theorem rfind1_none {c : Char} {l : List Char} (h : rfind1 c l = 0) : c ∉ l := by
  induction l with
  | nil => simp
  | cons x l ih =>
    unfold rfind1 at h
    cases hr : rfind1 c l with
    | zero =>
      rw [hr] at h
      dsimp only at h
      split at h
      · cases h
      · rename_i hx
        simp only [List.mem_cons, not_or]
        exact ⟨fun h => hx h.symm, ih hr⟩
    | succ n => rw [hr] at h; simp at h

theorem rfind1_zero {c : Char} {l : List Char} (h : c ∉ l) : rfind1 c l = 0 := by
  induction l with
  | nil => rfl
  | cons x l ih =>
    simp only [List.mem_cons, not_or] at h
    unfold rfind1
    rw [ih h.2]
    exact if_neg fun h' => h.1 h'.symm

theorem rfind1_some {c : Char} {l : List Char} {k : Nat} (h : rfind1 c l = k + 1) : l = l.take k ++ c :: l.drop (k + 1) ∧ l.drop k = c :: l.drop (k + 1) ∧ c ∉ l.drop (k + 1) := by
  induction l generalizing k with
  | nil => cases h
  | cons x l ih =>
    unfold rfind1 at h
    cases hr : rfind1 c l with
    | zero =>
      rw [hr] at h
      dsimp only at h
      split at h
      · rename_i hx
        have : k = 0 := by omega
        subst this hx
        exact ⟨rfl, rfl, rfind1_none hr⟩
      · cases h
    | succ n =>
      rw [hr] at h
      dsimp only at h
      have : k = n + 1 := by omega
      subst this
      obtain ⟨h1, h2, h3⟩ := ih hr
      exact ⟨by simpa using h1, by simpa using h2, by simpa using h3⟩

/-- **C107.** `get_file_name_without_extension` takes the last dot and what follows it off the name, if something other than dots
comes before it. -/
theorem C107_base (path n : List Char) (hn : IsLast '/' path n) :
    (∀ b e, HasExt n b e → withoutExtension path = b) ∧ ((¬∃ b e, HasExt n b e) → withoutExtension path = n) := by
  have he : last (split '/' path) = n := (C107_name path n).mpr hn
  unfold withoutExtension
  rw [he]
  unfold splitext
  rw [rfind1_zero hn.1]
  dsimp only
  cases hd : rfind1 '.' n with
  | zero =>
    have := rfind1_none hd
    refine ⟨fun b e h => ?_, fun _ => rfl⟩
    exact absurd (by rw [h.1]; simp) this
  | succ k =>
    obtain ⟨h1, -, h3⟩ := rfind1_some hd
    dsimp only
    simp only [Nat.zero_le, true_and, List.drop_zero]
    constructor
    · rintro b e ⟨h4, h5, x, hx, hxd⟩
      have := split_unique (h1.symm.trans h4) h3 h5
      rw [if_pos]
      · exact this.1
      · rw [List.any_eq_true]
        exact ⟨x, by rw [this.1]; exact hx, by simpa using hxd⟩
    · intro h
      rw [if_neg]
      intro ha
      rw [List.any_eq_true] at ha
      obtain ⟨x, hx, hxd⟩ := ha
      exact h ⟨_, _, h1, h3, x, hx, by simpa using hxd⟩

/-- **C107, partial.** The full claim, that `get_file_name_extension` returns what follows the last dot of the name of the file, is
refuted by `C107_refuted_directory` and `C107_refuted_none` for names without a dot.  Proved: it is so for names with a dot. -/
theorem C107_extension_partial (path n b e : List Char) (hn : IsLast '/' path n) (he : n = b ++ '.' :: e) (hd : '.' ∉ e) :
    extension path = e := by
  refine isLast_unique (last_isLast '.' path) ⟨hd, Or.inr ?_⟩
  rcases hn.2 with h | ⟨d, h⟩
  · exact ⟨b, by rw [h, he]⟩
  · exact ⟨d ++ '/' :: b, by rw [h, he]; simp⟩

/-- **C107.** So name without extension, dot and extension make the name. -/
theorem C107_parts (path n b e : List Char) (hn : IsLast '/' path n) (h : HasExt n b e) :
    withExtension path = withoutExtension path ++ '.' :: extension path := by
  rw [(C107_name path n).mpr hn, (C107_base path n hn).1 b e h, C107_extension_partial path n b e hn h.1 h.2.1]
  exact h.1

/-- **C107, refuted.** A name without a dot: with a dot in a directory the end of the path from there on is returned. -/
theorem C107_refuted_directory (d x n : List Char) (hx : '.' ∉ x) (hn : '.' ∉ n) (hn' : '/' ∉ n) :
    withExtension (d ++ '.' :: x ++ '/' :: n) = n ∧ extension (d ++ '.' :: x ++ '/' :: n) = x ++ '/' :: n := by
  refine ⟨(C107_name _ _).mpr ⟨hn', Or.inr ⟨d ++ '.' :: x, rfl⟩⟩, ?_⟩
  refine isLast_unique (last_isLast '.' _) ⟨?_, Or.inr ⟨d, by simp⟩⟩
  simp [hx, hn]

/-- **C107, refuted.** Without any dot the whole path is returned. -/
theorem C107_refuted_none (path : List Char) (h : '.' ∉ path) : extension path = path :=
  isLast_unique (last_isLast '.' path) ⟨h, Or.inl rfl⟩

example : withoutExtension "abc/xyz/src01_hrc01.sdr.yuv".toList = "src01_hrc01.sdr".toList := by decide +kernel
example : extension "a.b/c".toList = "b/c".toList := by decide +kernel
example : withoutExtension "a/..rc".toList = "..rc".toList := by decide +kernel
example : HasExt "src.sdr.yuv".toList "src.sdr".toList "yuv".toList := ⟨by decide +kernel, by decide +kernel, 's', by decide +kernel, by decide +kernel⟩
example : IsLast '/' "abc/x.y".toList "x.y".toList := ⟨by decide +kernel, Or.inr ⟨"abc".toList, by decide +kernel⟩⟩

end Sureal.Props
