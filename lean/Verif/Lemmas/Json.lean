import Verif.Spec.Json
import Mathlib.Tactic.IntervalCases
import Mathlib.Tactic.Linarith
/-!
# Lemmas for C140: strings, numbers and the scan for characters outside strings
-/
set_option linter.unusedSectionVars false
namespace Sureal.JsonOut
open Sureal Spec.Json

/-! ## strings -/

theorem hexDigit_spec {n : ℕ} (h : n < 16) : HexDigit (hexDigit n) n := by
  unfold HexDigit IsDigit hexDigit
  interval_cases n <;> decide

theorem hex4_spec {n : ℕ} (h : n < 65536) : Hex4 (hex4 n) n :=
  ⟨_, _, _, _, _, _, _, _, rfl, hexDigit_spec (Nat.mod_lt _ (by omega)), hexDigit_spec (Nat.mod_lt _ (by omega)),
    hexDigit_spec (Nat.mod_lt _ (by omega)), hexDigit_spec (Nat.mod_lt _ (by omega)), by omega⟩

theorem char_lt (c : Char) : c.toNat < 0x110000 := by
  have := c.valid
  rcases this with h | ⟨-, h⟩
  · have : c.toNat < 0xd800 := h
    omega
  · exact h

theorem escape_spec (c : Char) {s t : List Char} (ht : Chars s t) : Chars (c :: s) (escape c ++ t) := by
  unfold escape
  split_ifs with h1 h2 h3 h4 h5 h6 h7 h8 h9
  · subst h1; exact .short (by decide) ht
  · subst h2; exact .short (by decide) ht
  · subst h3; exact .short (by decide) ht
  · subst h4; exact .short (by decide) ht
  · subst h5; exact .short (by decide) ht
  · subst h6; exact .short (by decide) ht
  · subst h7; exact .short (by decide) ht
  · exact .plain h8.1 h2 h1 ht
  · exact .unicode (hex4_spec h9) ht
  · have := char_lt c
    have hp := Chars.pair (c := c) (s := s) (t := t) (hex4_spec (n := 55296 + (c.toNat - 65536) / 1024) (by omega)) ⟨by omega, by omega⟩
      (hex4_spec (n := 56320 + (c.toNat - 65536) % 1024) (by omega)) ⟨by omega, by omega⟩ (by omega) ht
    simpa using hp

theorem encStr_spec (s : List Char) : IsString s (encStr s) := by
  refine ⟨s.flatMap escape, ?_, rfl⟩
  induction s with
  | nil => exact .nil
  | cons c s ih => exact escape_spec c ih

theorem ws_nil : IsWs [] := fun _ hc => nomatch hc

theorem newline_ws (n : ℕ) : IsWs (newline n) := by
  intro c hc
  unfold newline at hc
  rcases List.mem_cons.mp hc with rfl | hc
  · exact Or.inr (Or.inr (Or.inl rfl))
  · exact Or.inl (List.eq_of_mem_replicate hc)

/-! ## the numbers in a document -/

mutual
/-- the numbers of a document -/
def nums {V : Type} : Doc V → List V
  | .null => []
  | .bool _ => []
  | .num v => [v]
  | .str _ => []
  | .arr l => numsL l
  | .obj l => numsM l
def numsL {V : Type} : List (Doc V) → List V
  | [] => []
  | t :: l => nums t ++ numsL l
def numsM {V : Type} : List (List Char × Doc V) → List V
  | [] => []
  | (_, t) :: l => nums t ++ numsM l
end

variable {K : Type} {repr : K → List Char}

/-! ## documents with finite numbers only -/

/-- items between brackets -/
theorem elements_spec {n : ℕ} (m : ℕ) {t : Doc (Fl K)} {x : List Char} {l : List (Doc (Fl K))} {ys : List (List Char)}
    (hx : Denotes repr (.value t) x) (h : List.Forall₂ (fun t y => Denotes repr (.value t) y) l ys) :
    Denotes repr (.elements (t :: l)) (newline n ++ x ++ (ys.flatMap fun y => ',' :: newline n ++ y) ++ newline m) := by
  induction h generalizing t x with
  | nil =>
    have := Denotes.last (newline_ws n) (newline_ws m) hx
    simpa using this
  | @cons t' y l ys h1 _ ih =>
    have := Denotes.more (newline_ws n) (w' := []) ws_nil hx (ih h1)
    simpa using this

theorem members_spec {n : ℕ} (m : ℕ) {k : List Char} {t : Doc (Fl K)} {x : List Char} {l : List (List Char × Doc (Fl K))} {ys : List (List Char)}
    (hx : Denotes repr (.value t) x) (h : List.Forall₂ (fun p y => ∃ z, Denotes repr (.value p.2) z ∧ y = encStr p.1 ++ ':' :: ' ' :: z) l ys) :
    Denotes repr (.members ((k, t) :: l)) (newline n ++ (encStr k ++ ':' :: ' ' :: x) ++ (ys.flatMap fun y => ',' :: newline n ++ y) ++ newline m) := by
  have hsp : IsWs [' '] := by intro c hc; exact Or.inl (List.mem_singleton.mp hc)
  have hnil : IsWs [] := by intro c hc; cases hc
  induction h generalizing k t x with
  | nil =>
    have := Denotes.lastMember (newline_ws n) (encStr_spec k) hnil hsp (newline_ws m) hx
    simpa using this
  | @cons p y l ys h1 _ ih =>
    obtain ⟨z, hz, rfl⟩ := h1
    have := Denotes.moreMembers (newline_ws n) (encStr_spec k) hnil hsp hnil hx (ih (k := p.1) hz)
    simpa using this

mutual
theorem enc_spec (hr : ∀ x, IsNumber (repr x)) (n : ℕ) : ∀ t : Doc (Fl K), (∀ v ∈ nums t, ∃ x, v = .fin x) → Denotes repr (.value t) (enc repr n t)
  | .null, _ => .null
  | .bool true, _ => .yes
  | .bool false, _ => .no
  | .num v, h => by
    obtain ⟨x, rfl⟩ := h v (by unfold nums; exact List.mem_singleton_self v)
    exact .num (hr x)
  | .str s, _ => .str (encStr_spec s)
  | .arr l, h => by
    have := encItems_spec hr (n + 1) l (by unfold nums at h; exact h)
    unfold enc
    generalize encItems repr (n + 1) l = ys at this
    cases this with
    | nil => exact .arr0 (w := []) ws_nil
    | cons hx hl =>
      have := Denotes.arr (elements_spec (n := n + 1) n hx hl)
      simpa [enclose] using this
  | .obj l, h => by
    have := encMembers_spec hr (n + 1) l (by unfold nums at h; exact h)
    unfold enc
    generalize encMembers repr (n + 1) l = ys at this
    cases this with
    | nil => exact .obj0 (w := []) ws_nil
    | @cons p _ l _ hx hl =>
      obtain ⟨z, hz, rfl⟩ := hx
      have := Denotes.obj (members_spec (n := n + 1) n (k := p.1) hz hl)
      simpa [enclose] using this
theorem encItems_spec (hr : ∀ x, IsNumber (repr x)) (n : ℕ) : ∀ l : List (Doc (Fl K)), (∀ v ∈ numsL l, ∃ x, v = .fin x) →
    List.Forall₂ (fun t y => Denotes repr (.value t) y) l (encItems repr n l)
  | [], _ => .nil
  | t :: l, h => by
    unfold numsL at h
    unfold encItems
    exact .cons (enc_spec hr n t fun v hv => h v (List.mem_append_left _ hv)) (encItems_spec hr n l fun v hv => h v (List.mem_append_right _ hv))
theorem encMembers_spec (hr : ∀ x, IsNumber (repr x)) (n : ℕ) : ∀ l : List (List Char × Doc (Fl K)), (∀ v ∈ numsM l, ∃ x, v = .fin x) →
    List.Forall₂ (fun p y => ∃ z, Denotes repr (.value p.2) z ∧ y = encStr p.1 ++ ':' :: ' ' :: z) l (encMembers repr n l)
  | [], _ => .nil
  | (k, t) :: l, h => by
    unfold numsM at h
    unfold encMembers
    exact .cons ⟨_, enc_spec hr n t fun v hv => h v (List.mem_append_left _ hv), rfl⟩
      (encMembers_spec hr n l fun v hv => h v (List.mem_append_right _ hv))
end

/-! ## characters outside strings -/

/-- where a reader is: outside strings, inside a string, after a backslash in a string -/
inductive Pos where
  | out | str | esc
  deriving DecidableEq

/-- the characters that occur outside strings -/
def plainChars : List Char :=
  ['[', ']', '{', '}', ':', ',', '-', '+', '.', '0', '1', '2', '3', '4', '5', '6', '7', '8', '9', 'e', 'E', ' ', '\t', '\n', '\r',
    't', 'r', 'u', 'f', 'a', 'l', 's', 'n']

/-- the next character; none: it must not stand here -/
def step : Pos → Char → Option Pos
  | .out, c => if c = '"' then some .str else if c ∈ plainChars then some .out else none
  | .str, c => if c = '"' then some .out else if c = '\\' then some .esc else some .str
  | .esc, _ => some .str

/-- a text -/
def scan : Pos → List Char → Option Pos
  | p, [] => some p
  | p, c :: l => match step p c with
    | none => none
    | some q => scan q l

theorem scan_append (p : Pos) (s t : List Char) : scan p (s ++ t) = (scan p s).bind fun q => scan q t := by
  induction s generalizing p with
  | nil => rfl
  | cons c s ih =>
    simp only [List.cons_append, scan]
    cases step p c with
    | none => rfl
    | some q => exact ih q

/-- read from the outside of strings, back to the outside -/
def Whole (t : List Char) : Prop := scan .out t = some .out

theorem Whole.append {s t : List Char} (hs : Whole s) (ht : Whole t) : Whole (s ++ t) := by
  unfold Whole
  rw [scan_append, hs]
  exact ht

theorem step_plain {c : Char} (h1 : c ∈ plainChars) : step .out c = some .out := by
  have h2 : c ≠ '"' := by rintro rfl; revert h1; decide
  show (if c = '"' then some Pos.str else if c ∈ plainChars then some Pos.out else none) = _
  rw [if_neg h2, if_pos h1]

theorem step_str {c : Char} (h1 : c ≠ '"') (h2 : c ≠ '\\') : step .str c = some .str := by
  show (if c = '"' then some Pos.out else if c = '\\' then some Pos.esc else some Pos.str) = _
  rw [if_neg h1, if_neg h2]

theorem whole_of {t : List Char} (h : ∀ c ∈ t, c ∈ plainChars) : Whole t := by
  induction t with
  | nil => rfl
  | cons c t ih =>
    unfold Whole scan
    rw [step_plain (h c List.mem_cons_self)]
    exact ih fun c hc => h c (List.mem_cons_of_mem _ hc)

theorem whole_cons {c : Char} {t : List Char} (hc : c ∈ plainChars) (ht : Whole t) : Whole (c :: t) :=
  Whole.append (s := [c]) (whole_of fun d hd => by rw [List.mem_singleton.mp hd]; exact hc) ht

theorem ws_whole {t : List Char} (h : IsWs t) : Whole t := whole_of fun c hc => by
  rcases h c hc with rfl | rfl | rfl | rfl <;> decide

theorem digit_plain {c : Char} (h : IsDigit c) : c ∈ plainChars := by
  obtain ⟨n, hn⟩ : ∃ n : ℕ, c.toNat = n := ⟨_, rfl⟩
  have h1 : 48 ≤ n := by rw [← hn]; exact h.1
  have h2 : n ≤ 57 := by rw [← hn]; exact h.2
  have hc : c = Char.ofNat n := by rw [← hn]; exact (Char.ofNat_toNat c).symm
  subst hc
  clear hn h
  interval_cases n <;> decide

theorem digits_whole {t : List Char} (h : IsDigits t) : Whole t := whole_of fun c hc => digit_plain (h.2 c hc)

theorem number_whole {t : List Char} (h : IsNumber t) : Whole t := by
  obtain ⟨s, i, f, e, hs, hi, hf, he, rfl⟩ := h
  refine ((Whole.append ?_ ?_).append ?_).append ?_
  · rcases hs with rfl | rfl <;> rfl
  · rcases hi with rfl | ⟨hi, -⟩
    · rfl
    · exact digits_whole hi
  · rcases hf with rfl | ⟨d, hd, rfl⟩
    · rfl
    · exact whole_cons (by decide) (digits_whole hd)
  · rcases he with rfl | ⟨x, s, d, hx, hs, hd, rfl⟩
    · rfl
    · rw [List.cons_append]
      refine whole_cons (by rcases hx with rfl | rfl <;> decide) (Whole.append ?_ (digits_whole hd))
      rcases hs with rfl | rfl | rfl <;> rfl

theorem hex4_inside {h : List Char} {n : ℕ} (hh : Hex4 h n) : scan .str h = some .str := by
  obtain ⟨a, b, c, d, x, y, z, w, rfl, h1, h2, h3, h4, -⟩ := hh
  have key : ∀ {c : Char} {n : ℕ}, HexDigit c n → step .str c = some .str := by
    intro c n h
    have : c ≠ '"' ∧ c ≠ '\\' := by
      constructor <;> · rintro rfl; unfold HexDigit IsDigit at h; simp at h
    exact step_str this.1 this.2
  simp only [scan, key h1, key h2, key h3, key h4]

theorem chars_inside {s t : List Char} (h : Chars s t) : scan .str t = some .str := by
  induction h with
  | nil => rfl
  | plain h h1 h2 _ ih =>
    unfold scan
    rw [step_str h1 h2]
    exact ih
  | short _ _ ih => simpa [scan, step] using ih
  | unicode hh _ ih =>
    rw [List.cons_append, List.cons_append]
    simp only [scan, step, if_neg (show ('\\' : Char) ≠ '"' by decide), if_pos]
    rw [scan_append, hex4_inside hh]
    exact ih
  | @pair c h l x y s t hh _ hl _ _ _ ih =>
    rw [List.append_assoc, List.cons_append, List.cons_append, List.cons_append, List.cons_append]
    simp only [scan, step, if_neg (show ('\\' : Char) ≠ '"' by decide), if_pos]
    rw [scan_append, hex4_inside hh]
    simp only [Option.bind_some, scan, step, if_neg (show ('\\' : Char) ≠ '"' by decide), if_pos]
    rw [scan_append, hex4_inside hl]
    exact ih

theorem string_whole {s t : List Char} (h : IsString s t) : Whole t := by
  obtain ⟨u, hu, rfl⟩ := h
  unfold Whole
  rw [List.cons_append]
  show scan .str (u ++ ['"']) = _
  rw [scan_append, chars_inside hu]
  rfl

theorem denotes_whole {i : Item (Fl K)} {t : List Char} (h : Denotes repr i t) : Whole t := by
  induction h with
  | null => rfl
  | yes => rfl
  | no => rfl
  | num h => exact number_whole h
  | str h => exact string_whole h
  | arr0 h => exact whole_cons (by decide) ((ws_whole h).append rfl)
  | arr _ ih => exact whole_cons (by decide) (ih.append rfl)
  | obj0 h => exact whole_cons (by decide) ((ws_whole h).append rfl)
  | obj _ ih => exact whole_cons (by decide) (ih.append rfl)
  | last hw hw' _ ih => exact ((ws_whole hw).append ih).append (ws_whole hw')
  | more hw hw' _ _ ih ihl => exact (((ws_whole hw).append ih).append (ws_whole hw')).append (whole_cons (by decide) ihl)
  | lastMember hw hk h1 h2 hw' _ ih =>
    exact (((((ws_whole hw).append (string_whole hk)).append (ws_whole h1)).append (whole_cons (by decide) (ws_whole h2))).append ih).append (ws_whole hw')
  | moreMembers hw hk h1 h2 hw' _ _ ih ihl =>
    exact ((((((ws_whole hw).append (string_whole hk)).append (ws_whole h1)).append (whole_cons (by decide) (ws_whole h2))).append ih).append
      (ws_whole hw')).append (whole_cons (by decide) ihl)

/-! ## documents with a number that is not finite -/

/-- no JSON text goes on like this -/
def Broken (t : List Char) : Prop := scan .out t = none

theorem Broken.left {s : List Char} (t : List Char) (h : Broken s) : Broken (s ++ t) := by
  unfold Broken
  rw [scan_append, h]
  rfl

theorem Whole.broken {s t : List Char} (hs : Whole s) (h : Broken t) : Broken (s ++ t) := by
  unfold Broken
  rw [scan_append, hs]
  exact h

theorem encNum_whole (hr : ∀ x, IsNumber (repr x)) (x : K) : Whole (encNum repr (.fin x)) := number_whole (hr x)

theorem encNum_broken {v : Fl K} (h : ∀ x, v ≠ .fin x) : Broken (encNum repr v) := by
  cases v with
  | fin x => exact absurd rfl (h x)
  | nan => rfl
  | pinf => rfl
  | ninf => rfl

/-- pieces of which one is broken and those before it are not -/
theorem enclose_broken {o c : Char} (ho : o ∈ plainChars) {n : ℕ} {ys : List (List Char)} (hy : ∀ y ∈ ys, Whole y ∨ Broken y) (hb : ∃ y ∈ ys, Broken y) :
    Broken (enclose o c n ys) := by
  have rest : ∀ (ys : List (List Char)), (∀ y ∈ ys, Whole y ∨ Broken y) → (∃ y ∈ ys, Broken y) →
      Broken (ys.flatMap fun y => ',' :: newline (n + 1) ++ y) := by
    intro ys
    induction ys with
    | nil => rintro - ⟨y, hy, -⟩; cases hy
    | cons y ys ih =>
      intro hy hb
      rw [List.flatMap_cons]
      have hpre : Whole (',' :: newline (n + 1)) := whole_cons (by decide) (ws_whole (newline_ws _))
      rcases hy y List.mem_cons_self with h | h
      · refine Whole.broken (hpre.append h) (ih (fun z hz => hy z (List.mem_cons_of_mem _ hz)) ?_)
        obtain ⟨z, hz, hzb⟩ := hb
        rcases List.mem_cons.mp hz with rfl | hz
        · unfold Broken at hzb; unfold Whole at h; rw [h] at hzb; cases hzb
        · exact ⟨z, hz, hzb⟩
      · exact Broken.left _ (hpre.broken h)
  cases ys with
  | nil => obtain ⟨y, hy, -⟩ := hb; cases hy
  | cons y ys =>
    have hpre : Whole (o :: newline (n + 1)) := whole_cons ho (ws_whole (newline_ws _))
    show Broken (o :: newline (n + 1) ++ y ++ (ys.flatMap fun y => ',' :: newline (n + 1) ++ y) ++ newline n ++ [c])
    rw [List.append_assoc]
    refine Broken.left _ ?_
    rcases hy y List.mem_cons_self with h | h
    · refine Whole.broken (hpre.append h) (rest ys (fun z hz => hy z (List.mem_cons_of_mem _ hz)) ?_)
      obtain ⟨z, hz, hzb⟩ := hb
      rcases List.mem_cons.mp hz with rfl | hz
      · unfold Broken at hzb; unfold Whole at h; rw [h] at hzb; cases hzb
      · exact ⟨z, hz, hzb⟩
    · exact Broken.left _ (hpre.broken h)

theorem member_whole {k t : List Char} (h : Whole t) : Whole (encStr k ++ ':' :: ' ' :: t) :=
  (string_whole (encStr_spec k)).append (whole_cons (by decide) (whole_cons (by decide) h))

theorem member_broken {k t : List Char} (h : Broken t) : Broken (encStr k ++ ':' :: ' ' :: t) :=
  Whole.broken (string_whole (encStr_spec k)) (Whole.broken (s := [':', ' ']) rfl h)

theorem whole_or (p : Prop) {t : List Char} (h1 : p → Whole t) (h2 : ¬ p → Broken t) : Whole t ∨ Broken t :=
  (Classical.em p).imp h1 h2

mutual
theorem enc_broken (hr : ∀ x, IsNumber (repr x)) (n : ℕ) : ∀ t : Doc (Fl K), ¬ (∀ v ∈ nums t, ∃ x, v = .fin x) → Broken (enc repr n t)
  | .null, h => absurd (by unfold nums; intro v hv; cases hv) h
  | .bool _, h => absurd (by unfold nums; intro v hv; cases hv) h
  | .num v, h => encNum_broken fun x hx => h (by unfold nums; intro w hw; exact ⟨x, by rw [List.mem_singleton.mp hw, hx]⟩)
  | .str _, h => absurd (by unfold nums; intro v hv; cases hv) h
  | .arr l, h => by
    unfold nums at h
    unfold enc
    exact enclose_broken (by decide) (encItems_broken hr (n + 1) l).1 ((encItems_broken hr (n + 1) l).2 h)
  | .obj l, h => by
    unfold nums at h
    unfold enc
    exact enclose_broken (by decide) (encMembers_broken hr (n + 1) l).1 ((encMembers_broken hr (n + 1) l).2 h)
theorem encItems_broken (hr : ∀ x, IsNumber (repr x)) (n : ℕ) : ∀ l : List (Doc (Fl K)), (∀ y ∈ encItems repr n l, Whole y ∨ Broken y) ∧
    (¬ (∀ v ∈ numsL l, ∃ x, v = .fin x) → ∃ y ∈ encItems repr n l, Broken y)
  | [] => ⟨fun y hy => (by unfold encItems at hy; cases hy), fun h => absurd (fun v hv => (by unfold numsL at hv; cases hv)) h⟩
  | t :: l => by
    obtain ⟨h1, h2⟩ := encItems_broken hr n l
    unfold encItems numsL
    refine ⟨fun y hy => ?_, fun h => ?_⟩
    · rcases List.mem_cons.mp hy with rfl | hy
      · exact whole_or _ (fun h => denotes_whole (enc_spec hr n t h)) (enc_broken hr n t)
      · exact h1 y hy
    · by_cases ht : ∀ v ∈ nums t, ∃ x, v = .fin x
      · obtain ⟨y, hy, hb⟩ := h2 fun hl => h fun v hv => (List.mem_append.mp hv).elim (ht v) (hl v)
        exact ⟨y, List.mem_cons_of_mem _ hy, hb⟩
      · exact ⟨_, List.mem_cons_self, enc_broken hr n t ht⟩
theorem encMembers_broken (hr : ∀ x, IsNumber (repr x)) (n : ℕ) : ∀ l : List (List Char × Doc (Fl K)),
    (∀ y ∈ encMembers repr n l, Whole y ∨ Broken y) ∧ (¬ (∀ v ∈ numsM l, ∃ x, v = .fin x) → ∃ y ∈ encMembers repr n l, Broken y)
  | [] => ⟨fun y hy => (by unfold encMembers at hy; cases hy), fun h => absurd (fun v hv => (by unfold numsM at hv; cases hv)) h⟩
  | (k, t) :: l => by
    obtain ⟨h1, h2⟩ := encMembers_broken hr n l
    unfold encMembers numsM
    refine ⟨fun y hy => ?_, fun h => ?_⟩
    · rcases List.mem_cons.mp hy with rfl | hy
      · exact whole_or _ (fun h => member_whole (denotes_whole (enc_spec hr n t h))) (fun h => member_broken (enc_broken hr n t h))
      · exact h1 y hy
    · by_cases ht : ∀ v ∈ nums t, ∃ x, v = .fin x
      · obtain ⟨y, hy, hb⟩ := h2 fun hl => h fun v hv => (List.mem_append.mp hv).elim (ht v) (hl v)
        exact ⟨y, List.mem_cons_of_mem _ hy, hb⟩
      · exact ⟨_, List.mem_cons_self, member_broken (enc_broken hr n t ht)⟩
end

/-- a document is written as JSON just if its numbers are finite -/
theorem enc_json_iff (hr : ∀ x, IsNumber (repr x)) (n : ℕ) (t : Doc (Fl K)) :
    IsJsonText repr (enc repr n t) ↔ ∀ v ∈ nums t, ∃ x, v = .fin x := by
  refine ⟨fun h => ?_, fun h => ⟨[], _, [], t, ws_nil, ws_nil, enc_spec hr n t h, by simp⟩⟩
  by_contra hn
  have hb := enc_broken hr n t hn
  obtain ⟨w, u, w', x, hw, hw', hu, he⟩ := h
  have hwh : Whole (enc repr n t) := by
    rw [he]
    exact ((ws_whole hw).append (denotes_whole hu)).append (ws_whole hw')
  unfold Whole at hwh
  unfold Broken at hb
  rw [hwh] at hb
  cases hb

end Sureal.JsonOut
