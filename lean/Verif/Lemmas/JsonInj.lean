import Verif.Lemmas.Json
/-!
# Lemmas for C140: different documents have different texts
-/
set_option linter.unusedSectionVars false
namespace Sureal.JsonOut
open Sureal Spec.Json

/-! ## strings -/

/-- the value of a digit of `'{0:04x}'` -/
def hexVal (c : Char) : ℕ := if c.toNat < 58 then c.toNat - 48 else c.toNat - 87

theorem hexVal_hexDigit {n : ℕ} (h : n < 16) : hexVal (hexDigit n) = n := by
  unfold hexVal hexDigit
  interval_cases n <;> decide

def hexVal4 (a b c d : Char) : ℕ := 4096 * hexVal a + 256 * hexVal b + 16 * hexVal c + hexVal d

/-- the first character of a string, from its text, and the rest of the text -/
def unescape : List Char → Option (Char × List Char)
  | '\\' :: 'u' :: a :: b :: c :: d :: l =>
    if 55296 ≤ hexVal4 a b c d ∧ hexVal4 a b c d < 56320 then
      match l with
      | _ :: _ :: a' :: b' :: c' :: d' :: l' => some (Char.ofNat (65536 + (hexVal4 a b c d - 55296) * 1024 + (hexVal4 a' b' c' d' - 56320)), l')
      | _ => none
    else some (Char.ofNat (hexVal4 a b c d), l)
  | '\\' :: 'b' :: l => some ('\x08', l)
  | '\\' :: 'f' :: l => some ('\x0c', l)
  | '\\' :: 'n' :: l => some ('\n', l)
  | '\\' :: 'r' :: l => some ('\r', l)
  | '\\' :: 't' :: l => some ('\t', l)
  | '\\' :: c :: l => some (c, l)
  | c :: l => some (c, l)
  | [] => none

theorem hexVal4_hex4 {n : ℕ} (h : n < 65536) :
    hexVal4 (hexDigit (n / 4096 % 16)) (hexDigit (n / 256 % 16)) (hexDigit (n / 16 % 16)) (hexDigit (n % 16)) = n := by
  unfold hexVal4
  rw [hexVal_hexDigit (Nat.mod_lt _ (by omega)), hexVal_hexDigit (Nat.mod_lt _ (by omega)), hexVal_hexDigit (Nat.mod_lt _ (by omega)),
    hexVal_hexDigit (Nat.mod_lt _ (by omega))]
  omega

theorem unescape_escape (c : Char) (l : List Char) : unescape (escape c ++ l) = some (c, l) := by
  unfold escape
  split_ifs with h1 h2 h3 h4 h5 h6 h7 h8 h9
  · subst h1; rfl
  · subst h2; rfl
  · subst h3; rfl
  · subst h4; rfl
  · subst h5; rfl
  · subst h6; rfl
  · subst h7; rfl
  · rw [List.singleton_append]
    unfold unescape
    split <;> simp_all
  · have hs : ¬ (55296 ≤ c.toNat ∧ c.toNat < 56320) := by
      rcases c.valid with h | ⟨h, -⟩
      · have : c.toNat < 0xd800 := h
        omega
      · have : 0xdfff < c.toNat := h
        omega
    unfold hex4
    simp only [List.cons_append, List.nil_append, unescape]
    rw [hexVal4_hex4 h9, if_neg hs, Char.ofNat_toNat]
  · have := char_lt c
    unfold hex4
    simp only [List.cons_append, List.nil_append, unescape]
    rw [hexVal4_hex4 (by omega), hexVal4_hex4 (by omega), if_pos ⟨by omega, by omega⟩]
    rw [show 65536 + (55296 + (c.toNat - 65536) / 1024 - 55296) * 1024 + (56320 + (c.toNat - 65536) % 1024 - 56320) = c.toNat by omega,
      Char.ofNat_toNat]

theorem escape_head (c : Char) (l : List Char) : ∃ d t, escape c ++ l = d :: t ∧ d ≠ '"' := by
  unfold escape
  split_ifs with h1 h2 h3 h4 h5 h6 h7 h8 h9
  all_goals first | exact ⟨_, _, rfl, by decide⟩ | exact ⟨_, _, rfl, h2⟩

theorem encStr_inj {s s' r r' : List Char} (h : encStr s ++ r = encStr s' ++ r') : s = s' ∧ r = r' := by
  unfold encStr at h
  simp only [List.cons_append, List.append_assoc, List.nil_append, List.cons.injEq, true_and] at h
  induction s generalizing s' with
  | nil =>
    cases s' with
    | nil =>
      simp only [List.flatMap_nil, List.nil_append, List.cons.injEq, true_and] at h
      exact ⟨rfl, h⟩
    | cons c s' =>
      rw [List.flatMap_nil, List.nil_append, List.flatMap_cons, List.append_assoc] at h
      obtain ⟨d, t, h1, h2⟩ := escape_head c (s'.flatMap escape ++ '"' :: r')
      rw [h1] at h
      exact absurd (List.cons.inj h).1.symm h2
  | cons c s ih =>
    cases s' with
    | nil =>
      rw [List.flatMap_nil, List.nil_append, List.flatMap_cons, List.append_assoc] at h
      obtain ⟨d, t, h1, h2⟩ := escape_head c (s.flatMap escape ++ '"' :: r)
      rw [h1] at h
      exact absurd (List.cons.inj h).1 h2
    | cons c' s' =>
      rw [List.flatMap_cons, List.append_assoc, List.flatMap_cons, List.append_assoc] at h
      have hu := congrArg unescape h
      rw [unescape_escape, unescape_escape] at hu
      obtain ⟨rfl, hrest⟩ := Prod.mk.inj (Option.some.inj hu)
      obtain ⟨rfl, hr⟩ := ih hrest
      exact ⟨rfl, hr⟩

/-! ## numbers -/

variable {K : Type} {repr : K → List Char}

/-- what follows a value in a text: nothing, a comma or a new line -/
def Stop (r : List Char) : Prop := ∀ c ∈ r.head?, c = ',' ∨ c = '\n'

theorem stop_inj {a b r r' : List Char} (ha : ∀ c ∈ a, c ≠ ',' ∧ c ≠ '\n') (hb : ∀ c ∈ b, c ≠ ',' ∧ c ≠ '\n') (hr : Stop r) (hr' : Stop r')
    (h : a ++ r = b ++ r') : a = b ∧ r = r' := by
  induction a generalizing b with
  | nil =>
    cases b with
    | nil => exact ⟨rfl, h⟩
    | cons c b =>
      rw [List.nil_append, List.cons_append] at h
      have := hr c (by rw [h]; rfl)
      exact absurd this (not_or.mpr (hb c List.mem_cons_self))
  | cons c a ih =>
    cases b with
    | nil =>
      rw [List.nil_append, List.cons_append] at h
      have := hr' c (by rw [← h]; rfl)
      exact absurd this (not_or.mpr (ha c List.mem_cons_self))
    | cons d b =>
      rw [List.cons_append, List.cons_append] at h
      obtain ⟨h1, h2⟩ := List.cons.inj h
      obtain ⟨h3, h4⟩ := ih (fun c hc => ha c (List.mem_cons_of_mem _ hc)) (fun c hc => hb c (List.mem_cons_of_mem _ hc)) h2
      exact ⟨by rw [h1, h3], h4⟩

theorem number_chars {t : List Char} (h : IsNumber t) : ∀ c ∈ t, IsDigit c ∨ c = '-' ∨ c = '+' ∨ c = '.' ∨ c = 'e' ∨ c = 'E' := by
  obtain ⟨s, i, f, e, hs, hi, hf, he, rfl⟩ := h
  intro c hc
  simp only [List.mem_append] at hc
  rcases hc with ((hc | hc) | hc) | hc
  · rcases hs with rfl | rfl
    · cases hc
    · exact Or.inr (Or.inl (List.mem_singleton.mp hc))
  · rcases hi with rfl | ⟨hi, -⟩
    · rw [List.mem_singleton.mp hc]; exact Or.inl (by unfold IsDigit; decide)
    · exact Or.inl (hi.2 c hc)
  · rcases hf with rfl | ⟨d, hd, rfl⟩
    · cases hc
    · rcases List.mem_cons.mp hc with rfl | hc
      · simp
      · exact Or.inl (hd.2 c hc)
  · rcases he with rfl | ⟨x, s, d, hx, hs, hd, rfl⟩
    · cases hc
    · rw [List.cons_append] at hc
      rcases List.mem_cons.mp hc with rfl | hc
      · rcases hx with rfl | rfl <;> simp
      · rcases List.mem_append.mp hc with hc | hc
        · rcases hs with rfl | rfl | rfl
          · cases hc
          · rw [List.mem_singleton.mp hc]; simp
          · rw [List.mem_singleton.mp hc]; simp
        · exact Or.inl (hd.2 c hc)

/-- numbers begin with a sign or a digit -/
theorem number_head {t : List Char} (h : IsNumber t) : ∃ c l, t = c :: l ∧ (c = '-' ∨ IsDigit c) := by
  obtain ⟨s, i, f, e, hs, hi, hf, he, rfl⟩ := h
  have hi' : ∃ c l, i = c :: l ∧ IsDigit c := by
    rcases hi with rfl | ⟨hi, -⟩
    · exact ⟨_, _, rfl, by unfold IsDigit; decide⟩
    · cases i with
      | nil => exact absurd rfl hi.1
      | cons c l => exact ⟨c, l, rfl, hi.2 c List.mem_cons_self⟩
  obtain ⟨c, l, rfl, hc⟩ := hi'
  rcases hs with rfl | rfl
  · exact ⟨c, _, by simp only [List.nil_append, List.cons_append]; rfl, Or.inr hc⟩
  · exact ⟨'-', _, by simp only [List.cons_append]; rfl, Or.inl rfl⟩

theorem encNum_chars (hr : ∀ x, IsNumber (repr x)) (v : Fl K) : ∀ c ∈ encNum repr v, c ≠ ',' ∧ c ≠ '\n' := by
  cases v with
  | fin x =>
    intro c hc
    have := number_chars (hr x) c hc
    constructor <;> · rintro rfl; revert this; unfold IsDigit; decide
  | nan => exact (by decide : ∀ c ∈ ['N', 'a', 'N'], c ≠ ',' ∧ c ≠ '\n')
  | pinf => exact (by decide : ∀ c ∈ ['I', 'n', 'f', 'i', 'n', 'i', 't', 'y'], c ≠ ',' ∧ c ≠ '\n')
  | ninf => exact (by decide : ∀ c ∈ ['-', 'I', 'n', 'f', 'i', 'n', 'i', 't', 'y'], c ≠ ',' ∧ c ≠ '\n')

theorem encNum_inj (hr : ∀ x, IsNumber (repr x)) (hi : Function.Injective repr) {v w : Fl K} (h : encNum repr v = encNum repr w) : v = w := by
  have key : ∀ (x : K) (w : Fl K), (∀ y, w ≠ .fin y) → encNum repr (.fin x) ≠ encNum repr w := by
    intro x w hw h
    have h1 := encNum_whole hr x
    have h2 := encNum_broken (repr := repr) hw
    unfold Whole at h1
    unfold Broken at h2
    rw [h, h2] at h1
    cases h1
  cases v with
  | fin x =>
    cases w with
    | fin y => rw [hi h]
    | nan => exact absurd h (key x _ (by intro y hy; cases hy))
    | pinf => exact absurd h (key x _ (by intro y hy; cases hy))
    | ninf => exact absurd h (key x _ (by intro y hy; cases hy))
  | nan =>
    cases w with
    | fin y => exact absurd h.symm (key y _ (by intro y hy; cases hy))
    | nan => rfl
    | pinf => cases h
    | ninf => cases h
  | pinf =>
    cases w with
    | fin y => exact absurd h.symm (key y _ (by intro y hy; cases hy))
    | nan => cases h
    | pinf => rfl
    | ninf => cases h
  | ninf =>
    cases w with
    | fin y => exact absurd h.symm (key y _ (by intro y hy; cases hy))
    | nan => cases h
    | pinf => cases h
    | ninf => rfl

/-! ## documents -/

/-- the kind of a document -/
def kindOf {V : Type} : Doc V → ℕ
  | .null => 0
  | .bool true => 1
  | .bool false => 2
  | .num _ => 3
  | .str _ => 4
  | .arr _ => 5
  | .obj _ => 6

/-- the kind, from the first character of the text -/
def kindAt (c : Char) : ℕ :=
  if c = 'n' then 0 else if c = 't' then 1 else if c = 'f' then 2 else if c = '"' then 4 else if c = '[' then 5 else if c = '{' then 6 else 3

theorem kindAt_number {c : Char} (h : c = '-' ∨ IsDigit c) : kindAt c = 3 := by
  rcases h with rfl | h
  · rfl
  · unfold kindAt
    rw [if_neg, if_neg, if_neg, if_neg, if_neg, if_neg] <;> · rintro rfl; revert h; unfold IsDigit; decide

theorem enclose_head (o c : Char) (n : ℕ) (l : List (List Char)) : ∃ t, enclose o c n l = o :: t := by
  cases l with
  | nil => exact ⟨_, rfl⟩
  | cons x l => exact ⟨_, rfl⟩

theorem enc_head (hr : ∀ x, IsNumber (repr x)) (n : ℕ) (t : Doc (Fl K)) : ∃ c l, enc repr n t = c :: l ∧ kindAt c = kindOf t := by
  cases t with
  | null => exact ⟨_, _, by unfold enc; rfl, rfl⟩
  | bool b => cases b <;> exact ⟨_, _, by unfold enc; rfl, rfl⟩
  | num v =>
    cases v with
    | fin x =>
      obtain ⟨c, l, h, hc⟩ := number_head (hr x)
      exact ⟨c, l, by unfold enc encNum; exact h, kindAt_number hc⟩
    | nan => exact ⟨_, _, by unfold enc encNum; rfl, rfl⟩
    | pinf => exact ⟨_, _, by unfold enc encNum; rfl, rfl⟩
    | ninf => exact ⟨_, _, by unfold enc encNum; rfl, rfl⟩
  | str s => exact ⟨'"', s.flatMap escape ++ ['"'], by unfold enc encStr; rfl, rfl⟩
  | arr l => obtain ⟨t, ht⟩ := enclose_head '[' ']' n (encItems repr (n + 1) l); exact ⟨_, t, by unfold enc; exact ht, rfl⟩
  | obj l => obtain ⟨t, ht⟩ := enclose_head '{' '}' n (encMembers repr (n + 1) l); exact ⟨_, t, by unfold enc; exact ht, rfl⟩

/-- the items of a list, each after a comma and a new line, and the closing bracket -/
def tail (c : Char) (n : ℕ) (ys : List (List Char)) (r : List Char) : List Char :=
  (ys.flatMap fun y => ',' :: newline (n + 1) ++ y) ++ newline n ++ c :: r

theorem tail_stop (c : Char) (n : ℕ) (ys : List (List Char)) (r : List Char) : Stop (tail c n ys r) := by
  intro d hd
  unfold tail at hd
  cases ys with
  | nil =>
    have : d = '\n' := by
      simp only [List.flatMap_nil, List.nil_append, newline, List.cons_append, List.head?_cons, Option.mem_def, Option.some.injEq] at hd
      exact hd.symm
    exact Or.inr this
  | cons y ys =>
    have : d = ',' := by
      simp only [List.flatMap_cons, List.cons_append, List.head?_cons, Option.mem_def, Option.some.injEq] at hd
      exact hd.symm
    exact Or.inl this

theorem tail_cons (c : Char) (n : ℕ) (y : List Char) (ys : List (List Char)) (r : List Char) :
    tail c n (y :: ys) r = ',' :: (newline (n + 1) ++ (y ++ tail c n ys r)) := by
  unfold tail
  simp

/-- two enclosed lists, reduced to the items -/
theorem enclose_inj {o c : Char} {n : ℕ} (hc : c ≠ '\n') {ys ys' : List (List Char)} {r r' : List Char} (h : enclose o c n ys ++ r = enclose o c n ys' ++ r') :
    tail c n ys r = tail c n ys' r' := by
  cases ys with
  | nil =>
    cases ys' with
    | nil =>
      have : r = r' := by simpa [enclose] using h
      rw [this]
    | cons y ys' =>
      exfalso
      simp [enclose, newline] at h
      exact hc h.1
  | cons y ys =>
    cases ys' with
    | nil =>
      exfalso
      simp [enclose, newline] at h
      exact hc h.1.symm
    | cons y' ys' =>
      rw [tail_cons, tail_cons]
      unfold tail
      simpa [enclose] using h

theorem tail_nil_ne (c : Char) (n : ℕ) (y : List Char) (ys : List (List Char)) (r r' : List Char) : tail c n [] r ≠ tail c n (y :: ys) r' := by
  intro h
  rw [tail_cons] at h
  unfold tail at h
  simp [newline] at h

mutual
theorem enc_inj (hr : ∀ x, IsNumber (repr x)) (hi : Function.Injective repr) (n : ℕ) : ∀ (t t' : Doc (Fl K)) (r r' : List Char), Stop r → Stop r' →
    enc repr n t ++ r = enc repr n t' ++ r' → t = t' ∧ r = r' := by
  intro t t' r r' hs hs' h
  have hk : kindOf t = kindOf t' := by
    obtain ⟨c, l, h1, h2⟩ := enc_head hr n t
    obtain ⟨c', l', h1', h2'⟩ := enc_head hr n t'
    rw [h1, h1'] at h
    rw [← h2, ← h2', (List.cons.inj h).1]
  match t, t' with
  | .null, .null => exact ⟨rfl, List.append_cancel_left h⟩
  | .bool true, .bool true => exact ⟨rfl, List.append_cancel_left h⟩
  | .bool false, .bool false => exact ⟨rfl, List.append_cancel_left h⟩
  | .num v, .num w =>
    unfold enc at h
    obtain ⟨h1, h2⟩ := stop_inj (encNum_chars hr v) (encNum_chars hr w) hs hs' h
    exact ⟨by rw [encNum_inj hr hi h1], h2⟩
  | .str s, .str s' =>
    unfold enc at h
    obtain ⟨h1, h2⟩ := encStr_inj h
    exact ⟨by rw [h1], h2⟩
  | .arr l, .arr l' =>
    unfold enc at h
    obtain ⟨h1, h2⟩ := encItems_inj hr hi n l l' r r' (enclose_inj (by decide) h)
    exact ⟨by rw [h1], h2⟩
  | .obj l, .obj l' =>
    unfold enc at h
    obtain ⟨h1, h2⟩ := encMembers_inj hr hi n l l' r r' (enclose_inj (by decide) h)
    exact ⟨by rw [h1], h2⟩
  | .null, .bool true | .null, .bool false | .null, .num _ | .null, .str _ | .null, .arr _ | .null, .obj _ => cases hk
  | .bool true, .bool false | .bool true, .null | .bool true, .num _ | .bool true, .str _ | .bool true, .arr _ | .bool true, .obj _ => cases hk
  | .bool false, .bool true | .bool false, .null | .bool false, .num _ | .bool false, .str _ | .bool false, .arr _ | .bool false, .obj _ => cases hk
  | .num _, .bool true | .num _, .bool false | .num _, .null | .num _, .str _ | .num _, .arr _ | .num _, .obj _ => cases hk
  | .str _, .bool true | .str _, .bool false | .str _, .null | .str _, .num _ | .str _, .arr _ | .str _, .obj _ => cases hk
  | .arr _, .bool true | .arr _, .bool false | .arr _, .null | .arr _, .num _ | .arr _, .str _ | .arr _, .obj _ => cases hk
  | .obj _, .bool true | .obj _, .bool false | .obj _, .null | .obj _, .num _ | .obj _, .str _ | .obj _, .arr _ => cases hk
theorem encItems_inj (hr : ∀ x, IsNumber (repr x)) (hi : Function.Injective repr) (n : ℕ) : ∀ (l l' : List (Doc (Fl K))) (r r' : List Char),
    tail ']' n (encItems repr (n + 1) l) r = tail ']' n (encItems repr (n + 1) l') r' → l = l' ∧ r = r' := by
  intro l l' r r' h
  match l, l' with
  | [], [] =>
    unfold tail at h
    exact ⟨rfl, (List.cons.inj (List.append_cancel_left h)).2⟩
  | [], t' :: l' => unfold encItems at h; exact absurd h (tail_nil_ne _ _ _ _ _ _)
  | t :: l, [] => unfold encItems at h; exact absurd h.symm (tail_nil_ne _ _ _ _ _ _)
  | t :: l, t' :: l' =>
    unfold encItems at h
    rw [tail_cons, tail_cons] at h
    have h := List.append_cancel_left (List.cons.inj h).2
    obtain ⟨h1, h2⟩ := enc_inj hr hi (n + 1) t t' _ _ (tail_stop _ _ _ _) (tail_stop _ _ _ _) h
    obtain ⟨h3, h4⟩ := encItems_inj hr hi n l l' r r' h2
    exact ⟨by rw [h1, h3], h4⟩
theorem encMembers_inj (hr : ∀ x, IsNumber (repr x)) (hi : Function.Injective repr) (n : ℕ) : ∀ (l l' : List (List Char × Doc (Fl K))) (r r' : List Char),
    tail '}' n (encMembers repr (n + 1) l) r = tail '}' n (encMembers repr (n + 1) l') r' → l = l' ∧ r = r' := by
  intro l l' r r' h
  match l, l' with
  | [], [] =>
    unfold tail at h
    exact ⟨rfl, (List.cons.inj (List.append_cancel_left h)).2⟩
  | [], (k', t') :: l' => unfold encMembers at h; exact absurd h (tail_nil_ne _ _ _ _ _ _)
  | (k, t) :: l, [] => unfold encMembers at h; exact absurd h.symm (tail_nil_ne _ _ _ _ _ _)
  | (k, t) :: l, (k', t') :: l' =>
    unfold encMembers at h
    rw [tail_cons, tail_cons] at h
    have h := List.append_cancel_left (List.cons.inj h).2
    rw [List.append_assoc, List.append_assoc] at h
    obtain ⟨hk, h⟩ := encStr_inj h
    rw [List.cons_append, List.cons_append, List.cons_append, List.cons_append] at h
    obtain ⟨h1, h2⟩ := enc_inj hr hi (n + 1) t t' _ _ (tail_stop _ _ _ _) (tail_stop _ _ _ _) (List.cons.inj (List.cons.inj h).2).2
    obtain ⟨h3, h4⟩ := encMembers_inj hr hi n l l' r r' h2
    exact ⟨by rw [hk, h1, h3], h4⟩
end

end Sureal.JsonOut
