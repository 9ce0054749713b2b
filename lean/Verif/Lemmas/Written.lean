import Verif.Model.Written
import Verif.Lemmas.FormatMap
import Verif.Lemmas.JsonDict
/-!
# Lemmas for C141: writing
-/
set_option linter.unusedSectionVars false
namespace Sureal.Written
open Sureal Format JsonOut Spec.Json
variable {ν K V W : Type}

mutual
/-- other numbers in a document -/
def docMap (f : V → W) : Doc V → Doc W
  | .null => .null
  | .bool b => .bool b
  | .num x => .num (f x)
  | .str s => .str s
  | .arr l => .arr (docMapL f l)
  | .obj l => .obj (docMapM f l)
def docMapL (f : V → W) : List (Doc V) → List (Doc W)
  | [] => []
  | t :: l => docMap f t :: docMapL f l
def docMapM (f : V → W) : List (List Char × Doc V) → List (List Char × Doc W)
  | [] => []
  | (k, t) :: l => (k, docMap f t) :: docMapM f l
end

theorem docMapL_eq (f : V → W) (l : List (Doc V)) : docMapL f l = l.map (docMap f) := by
  induction l with
  | nil => rw [docMapL]; rfl
  | cons t l ih => rw [docMapL, ih]; rfl

theorem docMapM_eq (f : V → W) (l : List (List Char × Doc V)) : docMapM f l = l.map fun p => (p.1, docMap f p.2) := by
  induction l with
  | nil => rw [docMapM]; rfl
  | cons t l ih => obtain ⟨k, t⟩ := t; rw [docMapM, ih]; rfl

theorem docMap_arr (f : V → W) (l : List (Doc V)) : docMap f (.arr l) = .arr (l.map (docMap f)) := by rw [docMap, docMapL_eq]

theorem docMap_obj (f : V → W) (l : List (List Char × Doc V)) : docMap f (.obj l) = .obj (l.map fun p => (p.1, docMap f p.2)) := by rw [docMap, docMapM_eq]

theorem docMap_num (f : V → W) (x : V) : docMap f (.num x) = .num (f x) := by rw [docMap]

theorem docMap_nums (f : V → W) (l : List V) : docMap f (.arr (l.map .num)) = .arr ((l.map f).map .num) := by
  rw [docMap_arr, List.map_map, List.map_map]
  exact congrArg Doc.arr (List.map_congr_left fun x _ => docMap_num f x)

theorem cellTree_map (f : V → W) (c : Cell V) : cellTree (c.map f) = docMap f (cellTree c) := by
  cases c with
  | one x => exact (docMap_num f x).symm
  | row l => exact (docMap_nums f l).symm

theorem valTree_map (f : V → W) (c : Val V) : valTree (c.map f) = docMap f (valTree c) := by
  cases c with
  | none => unfold Val.map valTree; rw [docMap]
  | num x => exact (docMap_num f x).symm
  | seq l => exact (docMap_nums f l).symm
  | rows l =>
    show Doc.arr ((l.map (·.map f)).map fun r => .arr (r.map .num)) = docMap f (.arr (l.map fun r => .arr (r.map .num)))
    rw [docMap_arr, List.map_map, List.map_map]
    exact congrArg Doc.arr (List.map_congr_left fun r _ => (docMap_nums f r).symm)

theorem models_map {β γ : Type} (f : V → W) (g : β → γ) (h : β → Doc V) (h' : γ → Doc W) (hh : ∀ x, h' (g x) = docMap f (h x))
    (l : List (String × List (String × β))) :
    Doc.obj ((dict (dict g) l).map fun p => (p.1.toList, .obj (p.2.map fun q => (q.1.toList, h' q.2)))) =
      docMap f (.obj (l.map fun p => (p.1.toList, .obj (p.2.map fun q => (q.1.toList, h q.2))))) := by
  rw [docMap_obj, dict, List.map_map, List.map_map]
  congr 1
  refine List.map_congr_left fun p _ => ?_
  dsimp only [Function.comp]
  rw [docMap_obj, dict, List.map_map, List.map_map]
  congr 2
  refine List.map_congr_left fun q _ => ?_
  dsimp only [Function.comp]
  rw [hh]

theorem entryTree_map (f : V → W) (name : ν → String) (key : String) (e : Entry ν V) : entryTree name key (e.map f) = docMap f (entryTree name key e) := by
  unfold entryTree
  rw [docMap_obj, List.map_append]
  have h1 : (e.map f).name = e.name := rfl
  have h2 : (e.map f).models = dict (dict (Cell.map f)) e.models := rfl
  rw [h1, h2]
  congr 2
  · cases e.name with
    | none => rfl
    | some n =>
      show _ = [(key.toList, docMap f (Doc.str (name n).toList))]
      rw [docMap]
  · by_cases hm : e.models = []
    · rw [if_pos hm, if_pos (by rw [hm]; rfl)]; rfl
    · rw [if_neg hm, if_neg (by unfold dict; rwa [List.map_eq_nil_iff])]
      rw [models_map f (Cell.map f) cellTree cellTree (cellTree_map f)]
      rfl

theorem sectionTree_map (f : V → W) (name : ν → String) (title key : String) (o : Option (List (Entry ν V))) :
    sectionTree name title key (o.map (·.map (Entry.map f))) = (sectionTree name title key o).map fun p => (p.1, docMap f p.2) := by
  cases o with
  | none => rfl
  | some l =>
    show [(title.toList, Doc.arr ((l.map (Entry.map f)).map (entryTree name key)))] = [(title.toList, docMap f (.arr (l.map (entryTree name key))))]
    rw [docMap_arr, List.map_map, List.map_map]
    rw [show List.map (entryTree name key ∘ Entry.map f) l = List.map (docMap f ∘ entryTree name key) l from
      List.map_congr_left fun e _ => entryTree_map f name key e]

theorem tree_map (f : V → W) (name : ν → String) (out : Output ν V) : tree name (out.map f) = docMap f (tree name out) := by
  unfold tree
  rw [docMap_obj, List.map_append, List.map_append, List.map_append, ← sectionTree_map, ← sectionTree_map, ← sectionTree_map]
  have hs : (out.map f).stats = out.stats.map (dict (dict (Val.map f))) := rfl
  rw [hs]
  congr 2
  cases out.stats with
  | none => rfl
  | some st =>
    dsimp only [Option.map_some]
    rw [models_map f (Val.map f) valTree valTree (valTree_map f), List.map_cons, List.map_nil]
    dsimp only
    rw [docMap_obj f [_]]
    rfl

/-! ## without arrays everything is written -/

theorem after_true (t : List Char) (q : Piece) : after (t, true) q = (t ++ q.1, q.2) := rfl

theorem rest_true (level : Nat) (l : List (List Char)) :
    rest level (l.map fun t => (t, true)) = (l.flatMap fun y => ',' :: newline level ++ y, true) := by
  induction l with
  | nil => rfl
  | cons t l ih =>
    rw [List.map_cons, rest, ih, after_true, after_true, List.flatMap_cons]
    simp

theorem enclosed_true (o c : Char) (level : Nat) (l : List (List Char)) :
    enclosed o c level (l.map fun t => (t, true)) = (enclose o c level l, true) := by
  cases l with
  | nil => rfl
  | cons t l =>
    rw [List.map_cons, enclosed, rest_true, after_true, after_true, after_true, enclose]
    simp

mutual
theorem write_floats (repr : K → List Char) (level : Nat) : ∀ t : Doc (Fl K), write repr level (docMap Obj.float t) = (enc repr level t, true)
  | .null => by rw [docMap, write, enc]
  | .bool true => by rw [docMap, write, enc]
  | .bool false => by rw [docMap, write, enc]
  | .num x => by rw [docMap, write, enc]
  | .str s => by rw [docMap, write, enc]
  | .arr l => by rw [docMap, write, enc, writeItems_floats repr (level + 1) l, enclosed_true]
  | .obj l => by rw [docMap, write, enc, writeMembers_floats repr (level + 1) l, enclosed_true]
theorem writeItems_floats (repr : K → List Char) (level : Nat) :
    ∀ l : List (Doc (Fl K)), writeItems repr level (docMapL Obj.float l) = (encItems repr level l).map fun t => (t, true)
  | [] => by rw [docMapL, writeItems, encItems]; rfl
  | t :: l => by rw [docMapL, writeItems, encItems, write_floats repr level t, writeItems_floats repr level l]; rfl
theorem writeMembers_floats (repr : K → List Char) (level : Nat) :
    ∀ l : List (List Char × Doc (Fl K)), writeMembers repr level (docMapM Obj.float l) = (encMembers repr level l).map fun t => (t, true)
  | [] => by rw [docMapM, writeMembers, encMembers]; rfl
  | (k, t) :: l => by
    rw [docMapM, writeMembers, encMembers, write_floats repr level t, writeMembers_floats repr level l, after_true]
    simp
end

/-! ## with an array nothing that is JSON is written -/

/-- the last character that is not white space announces more -/
def Open (t : List Char) : Prop := ∃ u c w, t = u ++ c :: w ∧ IsWs w ∧ (c = '[' ∨ c = ',' ∨ c = ':')

theorem Open.prepend {t : List Char} (h : Open t) (s : List Char) : Open (s ++ t) := by
  obtain ⟨u, c, w, rfl, hw, hc⟩ := h
  exact ⟨s ++ u, c, w, by simp, hw, hc⟩

theorem newline_ws (level : Nat) : IsWs (newline level) := by
  intro c hc
  rcases List.mem_cons.mp hc with rfl | hc
  · exact Or.inr (Or.inr (Or.inl rfl))
  · exact Or.inl (List.eq_of_mem_replicate hc)

/-- a piece that failed -/
def Failed (p : Piece) : Prop := p.2 = false ∧ (p.1 = [] ∨ Open p.1)

theorem Failed.after_left {p : Piece} (h : Failed p) (q : Piece) : after p q = p := by
  unfold after
  rw [h.1]
  rfl

theorem Failed.opened {p : Piece} (h : Failed p) {t : List Char} (ht : Open t) : (after (t, true) p).2 = false ∧ Open (after (t, true) p).1 := by
  rw [after_true]
  refine ⟨h.1, ?_⟩
  dsimp only
  rcases h.2 with h2 | h2
  · rw [h2, List.append_nil]; exact ht
  · exact h2.prepend t

theorem open_comma (level : Nat) : Open (',' :: newline level) := ⟨[], ',', newline level, rfl, newline_ws level, Or.inr (Or.inl rfl)⟩

/-- no piece failed, or one did -/
def Sound (p : Piece) : Prop := p.2 = true ∨ Failed p

theorem rest_failed (level : Nat) {l : List Piece} (hs : ∀ p ∈ l, Sound p) (h : ∃ p ∈ l, p.2 = false) :
    (rest level l).2 = false ∧ Open (rest level l).1 := by
  induction l with
  | nil => obtain ⟨p, hp, -⟩ := h; cases hp
  | cons p l ih =>
    unfold rest
    rcases hs p (by simp) with h1 | h1
    · have h2 : ∃ q ∈ l, q.2 = false := by
        obtain ⟨q, hq, hf⟩ := h
        rcases List.mem_cons.mp hq with rfl | hq
        · rw [h1] at hf; cases hf
        · exact ⟨q, hq, hf⟩
      obtain ⟨h3, h4⟩ := ih (fun q hq => hs q (by simp [hq])) h2
      have : after p (rest level l) = (p.1 ++ (rest level l).1, (rest level l).2) := by unfold after; rw [h1]; rfl
      rw [this]
      exact Failed.opened (p := (p.1 ++ (rest level l).1, (rest level l).2)) ⟨h3, Or.inr (h4.prepend p.1)⟩ (open_comma level)
    · rw [h1.after_left]
      exact h1.opened (open_comma level)

theorem rest_ok (level : Nat) {l : List Piece} (h : ∀ p ∈ l, p.2 = true) : (rest level l).2 = true := by
  induction l with
  | nil => rfl
  | cons p l ih =>
    unfold rest
    rw [after_true]
    unfold after
    rw [if_pos (h p (by simp))]
    exact ih fun q hq => h q (by simp [hq])

/-- brackets around pieces; `ho`: with `{` the first piece is the text of a key -/
theorem enclosed_sound {o c : Char} (level : Nat) {l : List Piece} (hs : ∀ p ∈ l, Sound p) (ho : o = '[' ∨ ∀ p ∈ l, p.2 = false → Open p.1) :
    ((∀ p ∈ l, p.2 = true) → (enclosed o c level l).2 = true) ∧
      ((∃ p ∈ l, p.2 = false) → (enclosed o c level l).2 = false ∧ Open (enclosed o c level l).1) := by
  cases l with
  | nil => exact ⟨fun _ => rfl, fun ⟨p, hp, _⟩ => by cases hp⟩
  | cons p l =>
    rw [enclosed]
    refine ⟨fun h => ?_, fun h => ?_⟩
    · rw [after_true]
      unfold after
      rw [if_pos (h p (by simp)), if_pos (rest_ok _ fun q hq => h q (by simp [hq]))]
    · rcases hs p (by simp) with h1 | h1
      · have h2 : ∃ q ∈ l, q.2 = false := by
          obtain ⟨q, hq, hf⟩ := h
          rcases List.mem_cons.mp hq with rfl | hq
          · rw [h1] at hf; cases hf
          · exact ⟨q, hq, hf⟩
        obtain ⟨h3, h4⟩ := rest_failed (level + 1) (fun q hq => hs q (by simp [hq])) h2
        rw [Failed.after_left ⟨h3, Or.inr h4⟩]
        have : after p (rest (level + 1) l) = (p.1 ++ (rest (level + 1) l).1, (rest (level + 1) l).2) := by unfold after; rw [h1]; rfl
        rw [this, after_true]
        exact ⟨h3, (h4.prepend p.1).prepend _⟩
      · rw [h1.after_left, after_true]
        refine ⟨h1.1, ?_⟩
        dsimp only
        rcases ho with rfl | ho
        · rcases h1.2 with h2 | h2
          · rw [h2, List.append_nil]
            exact ⟨[], '[', newline (level + 1), rfl, newline_ws _, Or.inl rfl⟩
          · exact h2.prepend _
        · exact (ho p (by simp) h1.1).prepend _

/-- whether there is an array in a document -/
def HasArray (t : Doc (Obj K)) : Prop := ∃ a, Obj.array a ∈ nums t

theorem isArray_or (x : Obj K) : (∃ v, x = .float v) ∨ ∃ a, x = .array a := by cases x <;> simp

mutual
theorem write_sound (repr : K → List Char) (level : Nat) :
    ∀ t : Doc (Obj K), (¬ HasArray t → (write repr level t).2 = true) ∧ (HasArray t → Failed (write repr level t))
  | .null => by rw [write]; exact ⟨fun _ => rfl, fun ⟨a, h⟩ => by rw [nums] at h; cases h⟩
  | .bool true => by rw [write]; exact ⟨fun _ => rfl, fun ⟨a, h⟩ => by rw [nums] at h; cases h⟩
  | .bool false => by rw [write]; exact ⟨fun _ => rfl, fun ⟨a, h⟩ => by rw [nums] at h; cases h⟩
  | .num (.float x) => by rw [write]; exact ⟨fun _ => rfl, fun ⟨a, h⟩ => by rw [nums] at h; simp at h⟩
  | .num (.array x) => by
    rw [write]
    exact ⟨fun h => absurd ⟨x, by rw [nums]; simp⟩ h, fun _ => ⟨rfl, Or.inl rfl⟩⟩
  | .str s => by rw [write]; exact ⟨fun _ => rfl, fun ⟨a, h⟩ => by rw [nums] at h; cases h⟩
  | .arr l => by
    obtain ⟨h1, h2, h3⟩ := writeItems_sound repr (level + 1) l
    obtain ⟨h4, h5⟩ := enclosed_sound (o := '[') (c := ']') level h1 (Or.inl rfl)
    rw [write]
    refine ⟨fun h => h4 (h2 ?_), fun h => ?_⟩
    · rintro ⟨a, ha⟩; exact h ⟨a, by rw [nums]; exact ha⟩
    · obtain ⟨a, ha⟩ := h
      rw [nums] at ha
      obtain ⟨h6, h7⟩ := h5 (h3 ⟨a, ha⟩)
      exact ⟨h6, Or.inr h7⟩
  | .obj l => by
    obtain ⟨h0, h2, h3⟩ := writeMembers_sound repr (level + 1) l
    have h1 : ∀ p ∈ writeMembers repr (level + 1) l, Sound p := fun p hp => (h0 p hp).imp_right fun h => ⟨h.1, Or.inr h.2⟩
    obtain ⟨h4, h5⟩ := enclosed_sound (o := '{') (c := '}') level h1 (Or.inr fun p hp hf => by
      rcases h0 p hp with h | h
      · rw [h] at hf; cases hf
      · exact h.2)
    rw [write]
    refine ⟨fun h => h4 (h2 ?_), fun h => ?_⟩
    · rintro ⟨a, ha⟩; exact h ⟨a, by rw [nums]; exact ha⟩
    · obtain ⟨a, ha⟩ := h
      rw [nums] at ha
      obtain ⟨h6, h7⟩ := h5 (h3 ⟨a, ha⟩)
      exact ⟨h6, Or.inr h7⟩
theorem writeItems_sound (repr : K → List Char) (level : Nat) :
    ∀ l : List (Doc (Obj K)), (∀ p ∈ writeItems repr level l, Sound p) ∧ ((¬ ∃ a, Obj.array a ∈ numsL l) → ∀ p ∈ writeItems repr level l, p.2 = true) ∧
      ((∃ a, Obj.array a ∈ numsL l) → ∃ p ∈ writeItems repr level l, p.2 = false)
  | [] => by
    rw [writeItems]
    exact ⟨fun p hp => absurd hp List.not_mem_nil, fun _ p hp => absurd hp List.not_mem_nil, fun ⟨a, h⟩ => by rw [numsL] at h; cases h⟩
  | t :: l => by
    obtain ⟨h1, h2⟩ := write_sound repr level t
    obtain ⟨h3, h4, h5⟩ := writeItems_sound repr level l
    rw [writeItems]
    refine ⟨fun p hp => ?_, fun h p hp => ?_, fun h => ?_⟩
    · rcases List.mem_cons.mp hp with rfl | hp
      · by_cases ht : HasArray t
        · exact Or.inr (h2 ht)
        · exact Or.inl (h1 ht)
      · exact h3 p hp
    · rw [numsL] at h
      rcases List.mem_cons.mp hp with rfl | hp
      · exact h1 fun ⟨a, ha⟩ => h ⟨a, List.mem_append_left _ ha⟩
      · exact h4 (fun ⟨a, ha⟩ => h ⟨a, List.mem_append_right _ ha⟩) p hp
    · obtain ⟨a, ha⟩ := h
      rw [numsL] at ha
      rcases List.mem_append.mp ha with ha | ha
      · exact ⟨_, List.mem_cons_self, (h2 ⟨a, ha⟩).1⟩
      · obtain ⟨p, hp, hf⟩ := h5 ⟨a, ha⟩
        exact ⟨p, List.mem_cons_of_mem _ hp, hf⟩
theorem writeMembers_sound (repr : K → List Char) (level : Nat) :
    ∀ l : List (List Char × Doc (Obj K)), (∀ p ∈ writeMembers repr level l, p.2 = true ∨ p.2 = false ∧ Open p.1) ∧
      ((¬ ∃ a, Obj.array a ∈ numsM l) → ∀ p ∈ writeMembers repr level l, p.2 = true) ∧
      ((∃ a, Obj.array a ∈ numsM l) → ∃ p ∈ writeMembers repr level l, p.2 = false)
  | [] => by
    rw [writeMembers]
    exact ⟨fun p hp => absurd hp List.not_mem_nil, fun _ p hp => absurd hp List.not_mem_nil, fun ⟨a, h⟩ => by rw [numsM] at h; cases h⟩
  | (k, t) :: l => by
    obtain ⟨h1, h2⟩ := write_sound repr level t
    obtain ⟨h3, h4, h5⟩ := writeMembers_sound repr level l
    have hopen : Open (encStr k ++ [':', ' ']) :=
      ⟨encStr k, ':', [' '], rfl, fun c hc => Or.inl (List.mem_singleton.mp hc), Or.inr (Or.inr rfl)⟩
    rw [writeMembers]
    refine ⟨fun p hp => ?_, fun h p hp => ?_, fun h => ?_⟩
    · rcases List.mem_cons.mp hp with rfl | hp
      · by_cases ht : HasArray t
        · exact Or.inr ((h2 ht).opened hopen)
        · exact Or.inl (h1 ht)
      · exact h3 p hp
    · rw [numsM] at h
      rcases List.mem_cons.mp hp with rfl | hp
      · exact h1 fun ⟨a, ha⟩ => h ⟨a, List.mem_append_left _ ha⟩
      · exact h4 (fun ⟨a, ha⟩ => h ⟨a, List.mem_append_right _ ha⟩) p hp
    · obtain ⟨a, ha⟩ := h
      rw [numsM] at ha
      rcases List.mem_append.mp ha with ha | ha
      · exact ⟨_, List.mem_cons_self, (h2 ⟨a, ha⟩).1⟩
      · obtain ⟨p, hp, hf⟩ := h5 ⟨a, ha⟩
        exact ⟨p, List.mem_cons_of_mem _ hp, hf⟩
end

/-! ## the end of a JSON text -/

def Blank (c : Char) : Prop := c = ' ' ∨ c = '\t' ∨ c = '\n' ∨ c = '\r'

/-- a text that ends with a character that neither is white space nor announces more -/
def Closed (t : List Char) : Prop := ∃ u c, t = u ++ [c] ∧ ¬ Blank c ∧ c ≠ '[' ∧ c ≠ ',' ∧ c ≠ ':'

theorem Closed.prepend {t : List Char} (h : Closed t) (s : List Char) : Closed (s ++ t) := by
  obtain ⟨u, c, rfl, hc⟩ := h
  exact ⟨s ++ u, c, by simp, hc⟩

theorem closed_of (u : List Char) {c : Char} (h : (!(c == ' ' || c == '\t' || c == '\n' || c == '\r' || c == '[' || c == ',' || c == ':')) = true) : Closed (u ++ [c]) := by
  refine ⟨u, c, rfl, ?_, ?_, ?_, ?_⟩
  · rintro (rfl | rfl | rfl | rfl) <;> revert h <;> decide
  all_goals (rintro rfl; revert h; decide)

theorem digit_closed {c : Char} (h : IsDigit c) : ¬ Blank c ∧ c ≠ '[' ∧ c ≠ ',' ∧ c ≠ ':' := by
  unfold IsDigit at h
  refine ⟨?_, ?_, ?_, ?_⟩
  · rintro (rfl | rfl | rfl | rfl) <;> revert h <;> decide
  all_goals (rintro rfl; revert h; decide)

theorem digits_closed {t : List Char} (h : IsDigits t) : Closed t := by
  refine ⟨t.dropLast, t.getLast h.1, (List.dropLast_append_getLast h.1).symm, ?_⟩
  exact digit_closed (h.2 _ (List.getLast_mem h.1))

theorem number_closed {t : List Char} (h : IsNumber t) : Closed t := by
  obtain ⟨s, i, f, e, -, hi, hf, he, rfl⟩ := h
  have hi' : Closed i := by
    rcases hi with rfl | ⟨hi, -⟩
    · exact closed_of [] (by decide)
    · exact digits_closed hi
  rcases he with rfl | ⟨x, s', d, -, -, hd, rfl⟩
  · rw [List.append_nil]
    rcases hf with rfl | ⟨d, hd, rfl⟩
    · rw [List.append_nil]; exact hi'.prepend s
    · exact ((digits_closed hd).prepend ['.']).prepend (s ++ i)
  · exact ((digits_closed hd).prepend (x :: s')).prepend (s ++ i ++ f)

theorem value_closed {repr : K → List Char} {x : Doc (Fl K)} {t : List Char} (h : Denotes repr (.value x) t) : Closed t := by
  cases h with
  | null => exact closed_of ['n', 'u', 'l'] (by decide)
  | yes => exact closed_of ['t', 'r', 'u'] (by decide)
  | no => exact closed_of ['f', 'a', 'l', 's'] (by decide)
  | num h => exact number_closed h
  | str h => obtain ⟨u, -, rfl⟩ := h; exact closed_of ('"' :: u) (by decide)
  | arr0 h => exact closed_of _ (by decide)
  | arr h => exact closed_of _ (by decide)
  | obj0 h => exact closed_of _ (by decide)
  | obj h => exact closed_of _ (by decide)

theorem last_unique {u u' w w' : List Char} {c c' : Char} (hw : IsWs w) (hw' : IsWs w') (hc : ¬ Blank c) (hc' : ¬ Blank c')
    (h : w ++ c :: u = w' ++ c' :: u') : c = c' := by
  induction w generalizing w' with
  | nil =>
    cases w' with
    | nil => exact (List.cons.inj h).1
    | cons b w' => rw [List.nil_append, List.cons_append] at h; exact absurd (hw' b (by simp)) ((List.cons.inj h).1 ▸ hc)
  | cons a w ih =>
    cases w' with
    | nil => rw [List.nil_append, List.cons_append] at h; exact absurd (hw a (by simp)) ((List.cons.inj h).1 ▸ hc')
    | cons b w' => exact ih (fun c hc => hw c (by simp [hc])) (fun c hc => hw' c (by simp [hc])) (List.cons.inj h).2

/-- a text that announces more is not JSON -/
theorem open_not_json {repr : K → List Char} {t : List Char} (h : Open t) : ¬ IsJsonText repr t := by
  rintro ⟨w, u, w', x, -, hw', hd, ht⟩
  obtain ⟨v, c, hv, hc⟩ := value_closed hd
  obtain ⟨a, b, z, ha, hz, hb⟩ := h
  subst hv
  rw [ha] at ht
  have hrev := congrArg List.reverse ht
  simp only [List.reverse_append, List.reverse_cons, List.nil_append, List.append_assoc, List.cons_append] at hrev
  have hbb : ¬ Blank b := by
    rcases hb with rfl | rfl | rfl <;> (unfold Blank; decide)
  have := last_unique (w := z.reverse) (w' := w'.reverse) (c := b) (c' := c) (fun c hc => hz c (List.mem_reverse.mp hc)) (fun c hc => hw' c (List.mem_reverse.mp hc)) hbb hc.1 hrev
  rcases hb with rfl | rfl | rfl
  · exact hc.2.1 this.symm
  · exact hc.2.2.1 this.symm
  · exact hc.2.2.2 this.symm

end Sureal.Written
