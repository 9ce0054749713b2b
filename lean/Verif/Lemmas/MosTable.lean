import Verif.Spec.MosTable
import Verif.Lemmas.Csv
import Verif.Lemmas.Dataset
/-! Helper lemmas about tables of votes. -/
set_option linter.unusedSectionVars false
namespace Sureal.MosTable
open Sureal Spec Csv

theorem joinBy_cons (sep p : List Char) (ps : List (List Char)) (h : ps ≠ []) : joinBy sep (p :: ps) = p ++ sep ++ joinBy sep ps := by
  cases ps with
  | nil => exact absurd rfl h
  | cons q l => rfl

theorem split_spec (c : Char) (l : List Char) : joinBy [c] (split c l) = l ∧ ∀ p ∈ split c l, c ∉ p := by
  induction l with
  | nil => simp [split, joinBy]
  | cons x l ih =>
    unfold split
    split
    · rename_i hx
      rw [joinBy_cons _ _ _ (split_ne c l), ih.1]
      refine ⟨by simp [hx], ?_⟩
      intro p hp
      rcases List.mem_cons.mp hp with rfl | hp
      · simp
      · exact ih.2 p hp
    · rename_i hx
      cases hs : split c l with
      | nil => exact absurd hs (split_ne c l)
      | cons p ps =>
        rw [hs] at ih
        dsimp only
        constructor
        · cases ps with
          | nil =>
            have := ih.1
            simp only [joinBy] at this ⊢
            rw [this]
          | cons q qs =>
            have := ih.1
            simp only [joinBy, List.cons_append] at this ⊢
            rw [this]
        · intro r hr
          rcases List.mem_cons.mp hr with rfl | hr
          · have := ih.2 p (by simp)
            simp only [List.mem_cons, not_or]
            exact ⟨fun h => hx h.symm, this⟩
          · exact ih.2 r (by simp [hr])

theorem split_three (p : List Char) (a b d : List Char) :
    split '_' p = [a, b, d] ↔ p = a ++ '_' :: (b ++ '_' :: d) ∧ '_' ∉ a ∧ '_' ∉ b ∧ '_' ∉ d := by
  constructor
  · intro h
    have := split_spec '_' p
    rw [h] at this
    refine ⟨?_, this.2 a (by simp), this.2 b (by simp), this.2 d (by simp)⟩
    rw [← this.1]
    simp [joinBy]
  · rintro ⟨rfl, ha, hb, hd⟩
    rw [split_append _ _ _ ha, split_append _ _ _ hb, split_single _ _ hd]

theorem mem_takeWhile {f : Char → Bool} {s : List Char} {x : Char} (h : x ∈ s.takeWhile f) : f x = true :=
  List.all_eq_true.mp List.all_takeWhile x h

/-- dropping from the front -/
theorem dropWhile_spec (f : Char → Bool) (s : List Char) :
    (∃ a, s = a ++ s.dropWhile f ∧ ∀ x ∈ a, f x = true) ∧ ∀ c l, s.dropWhile f = c :: l → f c = false := by
  refine ⟨⟨s.takeWhile f, (List.takeWhile_append_dropWhile).symm, fun x hx => mem_takeWhile hx⟩, ?_⟩
  intro c l h
  induction s with
  | nil => simp at h
  | cons x s ih =>
    rw [List.dropWhile_cons] at h
    split at h
    · exact ih h
    · rename_i hx
      cases h
      simpa using hx

theorem dropWhile_eq (f : Char → Bool) (a s : List Char) (ha : ∀ x ∈ a, f x = true) (hs : ∀ c l, s = c :: l → f c = false) :
    (a ++ s).dropWhile f = s := by
  induction a with
  | nil =>
    cases s with
    | nil => rfl
    | cons c l => rw [List.nil_append, List.dropWhile_cons, if_neg (by rw [hs c l rfl]; simp)]
  | cons x a ih =>
    rw [List.cons_append, List.dropWhile_cons, if_pos (ha x (by simp))]
    exact ih fun y hy => ha y (by simp [hy])

theorem strip_spec (s : List Char) :
    (∃ a b, s = a ++ strip s ++ b ∧ (∀ x ∈ a, x.isWhitespace = true) ∧ ∀ x ∈ b, x.isWhitespace = true) ∧
    (∀ c l, strip s = c :: l → c.isWhitespace = false) ∧ ∀ c l, strip s = l ++ [c] → c.isWhitespace = false := by
  obtain ⟨⟨a, ha, ha'⟩, h1⟩ := dropWhile_spec Char.isWhitespace s
  obtain ⟨⟨b, hb, hb'⟩, h2⟩ := dropWhile_spec Char.isWhitespace (s.dropWhile Char.isWhitespace).reverse
  have hb2 : s.dropWhile Char.isWhitespace = strip s ++ b.reverse := by
    have := congrArg List.reverse hb
    rw [List.reverse_reverse, List.reverse_append] at this
    exact this
  refine ⟨⟨a, b.reverse, ?_, ha', fun x hx => hb' x (List.mem_reverse.mp hx)⟩, ?_, ?_⟩
  · rw [List.append_assoc, ← hb2]
    exact ha
  · intro c l h
    rw [h] at hb2
    exact h1 c _ hb2
  · intro c l h
    refine h2 c l.reverse ?_
    have := congrArg List.reverse h
    unfold strip at this
    rw [List.reverse_reverse] at this
    rw [this]
    simp

theorem strip_eq (a p b : List Char) (ha : ∀ x ∈ a, x.isWhitespace = true) (hb : ∀ x ∈ b, x.isWhitespace = true)
    (h1 : ∀ c l, p = c :: l → c.isWhitespace = false) (h2 : ∀ c l, p = l ++ [c] → c.isWhitespace = false) (hp : p ≠ []) :
    strip (a ++ p ++ b) = p := by
  unfold strip
  rw [List.append_assoc, dropWhile_eq _ a (p ++ b) ha ?_, List.reverse_append, dropWhile_eq, List.reverse_reverse]
  · intro x hx
    exact hb x (List.mem_reverse.mp hx)
  · intro c l h
    refine h2 c l.reverse ?_
    have := congrArg List.reverse h
    rw [List.reverse_reverse] at this
    rw [this]
    simp
  · intro c l h
    cases p with
    | nil => exact absurd rfl hp
    | cons x p =>
      rw [List.cons_append] at h
      cases h
      exact h1 c p rfl

theorem text_ne (p : Pvs) : p.text ≠ [] := by simp [Pvs.text]

theorem names_inj {c : Cell} {p q : Pvs} (hp : Names c p) (hq : Names c q) : p = q := by
  obtain ⟨p0, a, b, rfl, ha, hb⟩ := hp
  obtain ⟨q0, a', b', h, ha', hb'⟩ := hq
  have h' : a ++ p.text ++ b = a' ++ q.text ++ b' := by simpa using h
  have e := strip_eq a p.text b ha hb p0.start p0.stop (text_ne p)
  rw [h', strip_eq a' q.text b' ha' hb' q0.start q0.stop (text_ne q)] at e
  have s1 := (split_three p.text p.db p.src p.hrc).mpr ⟨rfl, p0.db, p0.src, p0.hrc⟩
  have s2 := (split_three q.text q.db q.src q.hrc).mpr ⟨rfl, q0.db, q0.src, q0.hrc⟩
  rw [e, s1] at s2
  cases p
  cases q
  simp only [List.cons.injEq, and_true] at s2
  simp [s2]

theorem getIds_iff (c : Cell) (id src hrc : List Char) :
    getIds c = .ok (id, src, hrc) ↔ ∃ p, Names c p ∧ id = p.text ∧ src = p.src ∧ hrc = p.hrc := by
  constructor
  · intro h
    cases c with
    | num x => simp [getIds] at h
    | nan => simp [getIds] at h
    | text s =>
      simp only [getIds] at h
      split at h
      · rename_i db sr hr hs
        simp only [Except.ok.injEq, Prod.mk.injEq] at h
        obtain ⟨rfl, rfl, rfl⟩ := h
        obtain ⟨he, h1, h2, h3⟩ := (split_three _ _ _ _).mp hs
        obtain ⟨⟨a, b, hab, ha, hb⟩, e1, e2⟩ := strip_spec s
        rw [he] at e1 e2
        refine ⟨⟨db, sr, hr⟩, ⟨⟨h1, h2, h3, e1, e2⟩, a, b, ?_, ha, hb⟩, he, rfl, rfl⟩
        conv_lhs => rw [hab]
        rw [he]
        rfl
      · simp at h
  · rintro ⟨p, ⟨p0, a, b, rfl, ha, hb⟩, rfl, rfl, rfl⟩
    simp only [getIds]
    rw [strip_eq a p.text b ha hb p0.start p0.stop (text_ne p),
      (split_three p.text p.db p.src p.hrc).mpr ⟨rfl, p0.db, p0.src, p0.hrc⟩]

theorem names_text {p : Pvs} (h : p.Ok) : Names (.text p.text) p := ⟨h, [], [], by simp, by simp, by simp⟩

theorem foldl_digits (d : List Char) (a : ℕ) :
    d.foldl (fun a c => 10 * a + digit c) a = Nat.ofDigits 10 (d.reverse.map digit) + 10 ^ d.length * a := by
  induction d generalizing a with
  | nil => simp
  | cons x d ih =>
    rw [List.foldl_cons, ih, List.reverse_cons, List.map_append, Nat.ofDigits_append]
    simp only [List.length_map, List.length_reverse, List.map_cons, List.map_nil, Nat.ofDigits_singleton, List.length_cons, pow_succ]
    ring

theorem firstNumber_iff (s : List Char) (n : ℤ) : firstNumber s = .ok n ↔ ∃ m : ℕ, NumberIn s m ∧ n = m := by
  constructor
  · intro h
    simp only [firstNumber] at h
    split at h
    · simp at h
    · rename_i hd
      have h := (Except.ok.inj h).symm
      obtain ⟨⟨a, ha, ha'⟩, h1⟩ := dropWhile_spec (fun c => !c.isDigit) s
      refine ⟨_, ⟨a, (s.dropWhile fun c => !c.isDigit).takeWhile Char.isDigit, (s.dropWhile fun c => !c.isDigit).dropWhile Char.isDigit,
        ?_, ?_, hd, fun c hc => mem_takeWhile hc, ?_, rfl⟩, ?_⟩
      · rw [List.append_assoc, List.takeWhile_append_dropWhile]
        exact ha
      · intro c hc
        simpa using ha' c hc
      · exact (dropWhile_spec Char.isDigit _).2
      · rw [h, foldl_digits]
        simp only [Nat.mul_zero, Nat.add_zero]
        rfl
  · rintro ⟨m, ⟨a, d, b, rfl, ha, hd, hd', hb, rfl⟩, rfl⟩
    have e1 : (a ++ d ++ b).dropWhile (fun c => !c.isDigit) = d ++ b := by
      rw [List.append_assoc]
      refine dropWhile_eq _ _ _ (fun x hx => by simp [ha x hx]) ?_
      intro c l h
      cases d with
      | nil => exact absurd rfl hd
      | cons x d =>
        rw [List.cons_append] at h
        cases h
        simp [hd' c (by simp)]
    have e2 : (d ++ b).takeWhile Char.isDigit = d := by
      clear e1 hd
      induction d with
      | nil =>
        cases b with
        | nil => rfl
        | cons c l => rw [List.nil_append, List.takeWhile_cons, if_neg (by rw [hb c l rfl]; simp)]
      | cons x d ih =>
        rw [List.cons_append, List.takeWhile_cons, if_pos (hd' x (by simp)), ih fun c hc => hd' c (by simp [hc])]
    simp only [firstNumber]
    rw [e1, e2, if_neg hd, foldl_digits]
    simp only [Nat.mul_zero, Nat.add_zero]
    rfl

theorem numberIn_inj {s : List Char} {n m : ℕ} (h : NumberIn s n) (h' : NumberIn s m) : n = m := by
  have a := (firstNumber_iff s n).mpr ⟨n, h, rfl⟩
  rw [(firstNumber_iff s m).mpr ⟨m, h', rfl⟩] at a
  have := Except.ok.inj a
  omega

theorem toInt_iff (int : List Char → Option Int) (c : Cell) (n : ℤ) : toInt int c = .ok n ↔ Rates int c n := by
  cases c with
  | nan => simp only [toInt]; constructor <;> intro h <;> cases h
  | text s =>
    simp only [toInt]
    constructor
    · intro h
      split at h
      · rename_i m hm
        cases h
        exact .text s _ hm
      · cases h
    · intro h
      cases h with
      | text s n h => rw [h]
  | num x =>
    have key : (0 ≤ x → x.num.tdiv x.den = ⌊x⌋) ∧ (x ≤ 0 → x.num.tdiv x.den = ⌈x⌉) := by
      constructor
      · intro h
        rw [Rat.floor_def', Int.tdiv_eq_ediv_of_nonneg (Rat.num_nonneg.mpr h)]
      · intro h
        have h2 : ⌈x⌉ = -⌊-x⌋ := by rw [Int.floor_neg, neg_neg]
        rw [h2, Rat.floor_def', Rat.neg_num, Rat.neg_den, ← Int.tdiv_eq_ediv_of_nonneg, Int.neg_tdiv, neg_neg]
        have := Rat.num_nonneg.mpr (neg_nonneg.mpr h)
        rwa [Rat.neg_num] at this
    simp only [toInt, Except.ok.injEq]
    constructor
    · rintro rfl
      rcases le_total 0 x with h | h
      · rw [key.1 h]; exact .up x h
      · rw [key.2 h]; exact .down x h
    · intro h
      cases h with
      | up _ h => exact key.1 h
      | down _ h => exact key.2 h

theorem rates_inj {int : List Char → Option Int} {c : Cell} {n m : ℤ} (h : Rates int c n) (h' : Rates int c m) : n = m := by
  rw [← toInt_iff] at h h'
  rw [h] at h'
  exact Except.ok.inj h'

theorem ratingColumn_iff (key : List Char) : ratingColumn key = true ↔
    ¬ lower key ∈ ["pvs_id".toList, "mos".toList, "ci".toList, "n".toList] ∧
    (["user".toList, "s".toList, "subject".toList].any fun s => s.isPrefixOf (lower key)) = true := by
  unfold ratingColumn lower
  generalize key.map Char.toLower = k
  constructor
  · intro h
    split at h
    · simp [List.isPrefixOf]
    · simp [List.isPrefixOf]
    · cases h
  · rintro ⟨-, h⟩
    rcases k with _ | ⟨x, k⟩
    · simp [List.isPrefixOf] at h
    · by_cases hx : x = 's'
      · subst hx; rfl
      · have hx' : ¬ 's' = x := fun h => hx h.symm
        simp [List.isPrefixOf, hx'] at h
        rcases k with _ | ⟨y, _ | ⟨z, _ | ⟨w, k⟩⟩⟩ <;> simp at h
        obtain ⟨rfl, rfl, rfl, rfl⟩ := h
        rfl

theorem extract_iff (int : List Char → Option Int) (l : List (List Char × Cell)) (r : List (List Char × Int)) :
    extract int l = .ok r ↔
      List.Forall₂ (fun cv kn => kn.1 = cv.1 ∧ Rates int cv.2 kn.2) (l.filter fun cv => ratingColumn cv.1) r := by
  induction l generalizing r with
  | nil => simp [extract, eq_comm]
  | cons kv l ih =>
    obtain ⟨key, val⟩ := kv
    unfold extract
    by_cases hk : ratingColumn key = true
    · obtain ⟨h1, h2⟩ := (ratingColumn_iff key).mp hk
      rw [if_neg h1, if_neg (fun h => h h2), List.filter_cons_of_pos (by exact hk)]
      constructor
      · intro h
        split at h
        · cases h
        · rename_i n hn
          split at h
          · cases h
          · rename_i r' hr
            cases h
            exact .cons ⟨rfl, (toInt_iff int val n).mp hn⟩ ((ih r').mp hr)
      · intro h
        cases h with
        | @cons _ kn _ r' hb hr =>
          obtain ⟨k, n⟩ := kn
          obtain ⟨hb1, hb2⟩ := hb
          dsimp only at hb1 hb2
          subst hb1
          rw [(toInt_iff int val n).mpr hb2, (ih r').mpr hr]
    · rw [List.filter_cons_of_neg (by exact hk), ← ih]
      by_cases h1 : lower key ∈ ["pvs_id".toList, "mos".toList, "ci".toList, "n".toList]
      · rw [if_pos h1]
      · rw [if_neg h1, if_pos]
        intro h2
        exact hk ((ratingColumn_iff key).mpr ⟨h1, h2⟩)

theorem join_iff (dir file path : List Char) : join dir file = path ↔ PathIn dir file path := by
  have fwd : PathIn dir file (join dir file) := by
    unfold join
    split
    · rename_i h
      cases file with
      | nil => cases h
      | cons c l =>
        simp only [List.head?_cons, Option.some.injEq] at h
        subst h
        exact .absolute dir l
    · rename_i h
      have h' : ∀ l, file ≠ '/' :: l := by rintro l rfl; exact h rfl
      split
      · rename_i hd; subst hd; exact .here file
      · rename_i hd
        split
        · rename_i hl
          obtain ⟨l, rfl⟩ := List.getLast?_eq_some_iff.mp hl
          rw [List.append_assoc]
          exact .slash l file h'
        · rename_i hl
          refine .plain dir file h' hd ?_
          rintro l rfl
          exact hl (by simp)
  constructor
  · rintro rfl; exact fwd
  · intro h
    cases h with
    | absolute dir l => simp [join]
    | here file => unfold join; split <;> simp
    | slash dir file h =>
      have : ¬ file.head? = some '/' := by
        intro hf
        cases file with
        | nil => cases hf
        | cons c l => simp only [List.head?_cons, Option.some.injEq] at hf; exact h l (by rw [hf])
      simp [join, this]
    | plain dir file h h0 hd =>
      have : ¬ file.head? = some '/' := by
        intro hf
        cases file with
        | nil => cases hf
        | cons c l => simp only [List.head?_cons, Option.some.injEq] at hf; exact h l (by rw [hf])
      have h2 : ¬ dir.getLast? = some '/' := by
        intro hl
        obtain ⟨l, hl⟩ := List.getLast?_eq_some_iff.mp hl
        exact hd l hl
      simp [join, this, h0, h2]

theorem lookup_zip (cols : List (List Char)) (row : List Cell) (key : List Char) (c : Cell) (hn : cols.Nodup) :
    (cols.zip row).lookup key = some c ↔ ∃ i : ℕ, cols[i]? = some key ∧ row[i]? = some c := by
  induction cols generalizing row with
  | nil => simp
  | cons x cols ih =>
    cases row with
    | nil => simp
    | cons y row =>
      rw [List.nodup_cons] at hn
      rw [List.zip_cons_cons, List.lookup_cons]
      by_cases hx : key = x
      · subst hx
        rw [beq_self_eq_true]
        dsimp only
        rw [Option.some.injEq]
        constructor
        · intro h
          exact ⟨0, rfl, by rw [h]; rfl⟩
        · rintro ⟨i, h1, h2⟩
          cases i with
          | zero => exact Option.some.inj h2
          | succ i =>
            rw [List.getElem?_cons_succ] at h1
            exact absurd (List.mem_of_getElem? h1) hn.1
      · rw [beq_eq_false_iff_ne.mpr hx]
        dsimp only
        rw [ih row hn.2]
        constructor
        · rintro ⟨i, h1, h2⟩
          exact ⟨i + 1, h1, h2⟩
        · rintro ⟨i, h1, h2⟩
          cases i with
          | zero =>
            rw [List.getElem?_cons_zero, Option.some.injEq] at h1
            exact absurd h1.symm hx
          | succ i => exact ⟨i, h1, h2⟩

theorem pvsColumn_eq : pvsColumn = "PVS_ID".toList := by rfl

theorem field_iff {t : Table} (hw : TableWf t) (row : List Cell) (key : List Char) (c : Cell) :
    field t row key = .ok c ↔ ∃ i : ℕ, t.columns[i]? = some key ∧ row[i]? = some c := by
  rw [← lookup_zip _ _ _ _ hw.names]
  unfold field
  cases (t.columns.zip row).lookup key <;> simp

/-- the identifier of a row -/
def rowIds (t : Table) (row : List Cell) : Py (List Char × List Char × List Char) :=
  match field t row pvsColumn with | .error e => .error e | .ok c => getIds c

theorem rowIds_iff {t : Table} (hw : TableWf t) (row : List Cell) (id src hrc : List Char) :
    rowIds t row = .ok (id, src, hrc) ↔ ∃ p, RowOf t row p ∧ id = p.text ∧ src = p.src ∧ hrc = p.hrc := by
  unfold rowIds
  constructor
  · intro h
    split at h
    · cases h
    · rename_i c hc
      obtain ⟨i, h1, h2⟩ := (field_iff hw row _ c).mp hc
      obtain ⟨p, hp, hr⟩ := (getIds_iff _ _ _ _).mp h
      exact ⟨p, ⟨i, c, by rw [← pvsColumn_eq]; exact h1, h2, hp⟩, hr⟩
  · rintro ⟨p, ⟨i, c, h1, h2, hp⟩, hr⟩
    rw [(field_iff hw row _ c).mpr ⟨i, by rw [pvsColumn_eq]; exact h1, h2⟩]
    exact (getIds_iff _ _ _ _).mpr ⟨p, hp, hr⟩

theorem text_inj {p q : Pvs} (hp : p.Ok) (hq : q.Ok) (h : p.text = q.text) : p = q :=
  names_inj (names_text hp) (by rw [h]; exact names_text hq)

theorem rowOf_ok {t : Table} {row : List Cell} {p : Pvs} (h : RowOf t row p) : p.Ok := by
  obtain ⟨_, _, _, _, h, _⟩ := h
  exact h

theorem rowOf_inj {t : Table} (hw : TableWf t) {row : List Cell} {p q : Pvs} (hp : RowOf t row p) (hq : RowOf t row q) : p = q := by
  have h1 := (rowIds_iff hw row _ _ _).mpr ⟨p, hp, rfl, rfl, rfl⟩
  rw [(rowIds_iff hw row _ _ _).mpr ⟨q, hq, rfl, rfl, rfl⟩] at h1
  have := Except.ok.inj h1
  exact text_inj (rowOf_ok hp) (rowOf_ok hq) (congrArg Prod.fst this).symm

theorem findRatings_iff {int : List Char → Option Int} {t : Table} (hw : TableWf t) (p : Pvs) (hp : p.Ok) (rows : List (List Cell))
    (hrows : ∀ row ∈ rows, ∃ q, RowOf t row q) (hmem : ∃ row ∈ rows, RowOf t row p) (o : Option (List (List Char × Int))) :
    findRatings int t p.text rows = .ok o ↔ ∃ pre row post l, rows = pre ++ row :: post ∧ RowOf t row p ∧
      (∀ r ∈ pre, ∀ q, RowOf t r q → q.text ≠ p.text) ∧ extract int (t.columns.zip row) = .ok l ∧ o = some l := by
  induction rows with
  | nil => obtain ⟨row, h, _⟩ := hmem; cases h
  | cons row rest ih =>
    obtain ⟨q, hq⟩ := hrows row (by simp)
    have e : findRatings int t p.text (row :: rest) = if p.text = q.text then
          match extract int (t.columns.zip row) with
          | .error e => .error e
          | .ok r => .ok (some r)
        else findRatings int t p.text rest := by
      have h := (rowIds_iff hw row _ _ _).mpr ⟨q, hq, rfl, rfl, rfl⟩
      unfold rowIds at h
      rw [findRatings]
      split at h
      · cases h
      · rename_i c hc
        rw [hc]
        dsimp only
        rw [h]
        rfl
    rw [e]
    by_cases h : p.text = q.text
    · rw [if_pos h]
      have hpq := text_inj hp (rowOf_ok hq) h
      subst hpq
      constructor
      · intro hx
        split at hx
        · cases hx
        · rename_i l hl
          cases hx
          exact ⟨[], row, rest, l, rfl, hq, by simp, hl, rfl⟩
      · rintro ⟨pre, row', post, l, h1, h2, h3, h4, rfl⟩
        cases pre with
        | nil =>
          simp only [List.nil_append, List.cons.injEq] at h1
          obtain ⟨rfl, rfl⟩ := h1
          rw [h4]
        | cons x pre =>
          simp only [List.cons_append, List.cons.injEq] at h1
          obtain ⟨rfl, rfl⟩ := h1
          exact absurd rfl (h3 row (by simp) p hq)
    · rw [if_neg h, ih (fun r hr => hrows r (by simp [hr])) ?_]
      · constructor
        · rintro ⟨pre, row', post, l, rfl, h2, h3, h4⟩
          refine ⟨row :: pre, row', post, l, rfl, h2, ?_, h4⟩
          intro r hr q' hq'
          rcases List.mem_cons.mp hr with rfl | hr
          · rw [rowOf_inj hw hq' hq]
            exact fun h' => h h'.symm
          · exact h3 r hr q' hq'
        · rintro ⟨pre, row', post, l, h1, h2, h3, h4⟩
          cases pre with
          | nil =>
            simp only [List.nil_append, List.cons.injEq] at h1
            obtain ⟨rfl, rfl⟩ := h1
            exact absurd (by rw [rowOf_inj hw hq h2]) h
          | cons x pre =>
            simp only [List.cons_append, List.cons.injEq] at h1
            obtain ⟨rfl, rfl⟩ := h1
            exact ⟨pre, row', post, l, rfl, h2, fun r hr => h3 r (by simp [hr]), h4⟩
      · obtain ⟨row', h1, h2⟩ := hmem
        rcases List.mem_cons.mp h1 with rfl | h1
        · exact absurd (by rw [rowOf_inj hw hq h2]) h
        · exact ⟨row', h1, h2⟩

theorem firstRow_inj {t : Table} {p : Pvs} {row row' : List Cell} (h : FirstRow t row p) (h' : FirstRow t row' p) : row = row' := by
  obtain ⟨pre, post, e, hr, hp⟩ := h
  obtain ⟨pre', post', e', hr', hp'⟩ := h'
  rw [e] at e'
  clear e
  induction pre generalizing pre' with
  | nil =>
    cases pre' with
    | nil => simp only [List.nil_append, List.cons.injEq] at e'; exact e'.1
    | cons x pre' =>
      simp only [List.nil_append, List.cons_append, List.cons.injEq] at e'
      obtain ⟨rfl, rfl⟩ := e'
      exact absurd rfl (hp' row (by simp) p hr)
  | cons x pre ih =>
    cases pre' with
    | nil =>
      simp only [List.nil_append, List.cons_append, List.cons.injEq] at e'
      obtain ⟨rfl, rfl⟩ := e'
      exact absurd rfl (hp x (by simp) p hr')
    | cons y pre' =>
      simp only [List.cons_append, List.cons.injEq] at e'
      exact ih (fun r hr => hp r (by simp [hr])) pre' e'.2 (fun r hr => hp' r (by simp [hr]))

/-- every video in the table has a first row -/
theorem firstRow_exists {t : Table} (hw : TableWf t) {p : Pvs} (hrows : ∀ row ∈ t.rows, ∃ q, RowOf t row q) (h : ∃ row ∈ t.rows, RowOf t row p) :
    ∃ row, FirstRow t row p := by
  have key : ∀ rows : List (List Cell), (∃ row ∈ rows, RowOf t row p) →
      ∃ pre row post, rows = pre ++ row :: post ∧ RowOf t row p ∧ ∀ r ∈ pre, ¬ RowOf t r p := by
    intro rows
    induction rows with
    | nil => rintro ⟨r, h, _⟩; cases h
    | cons x rows ih =>
      rintro ⟨r, h, hr⟩
      by_cases hx : RowOf t x p
      · exact ⟨[], x, rows, rfl, hx, by simp⟩
      · rcases List.mem_cons.mp h with rfl | h
        · exact absurd hr hx
        · obtain ⟨pre, row, post, rfl, h1, h2⟩ := ih ⟨r, h, hr⟩
          refine ⟨x :: pre, row, post, rfl, h1, ?_⟩
          intro y hy
          rcases List.mem_cons.mp hy with rfl | hy
          · exact hx
          · exact h2 y hy
  obtain ⟨pre, row, post, e, h1, h2⟩ := key t.rows h
  refine ⟨row, pre, post, e, h1, ?_⟩
  intro r hr q hq hqp
  rw [text_inj (rowOf_ok hq) (rowOf_ok h1) hqp] at hq
  exact h2 r hr hq

theorem disVideo_iff {int : List Char → Option Int} {a : Args} {t : Table} (hw : TableWf t) (p : Pvs)
    (hrows : ∀ row ∈ t.rows, ∃ q, RowOf t row q) (hmem : ∃ row ∈ t.rows, RowOf t row p) (dv : DisVideo String ℚ) :
    disVideo int a t p.text = .ok dv ↔ ∃ row l, ∃ n m : ℕ, FirstRow t row p ∧ l ≠ [] ∧ RowRatings int t row l ∧
      NumberIn p.src n ∧ NumberIn p.hrc m ∧ dv = { contentId := n, assetId := m, path := String.ofList (join a.disDir (p.text ++ a.ext))
                                                   os := some (.dict (l.map fun kv => (String.ofList kv.1, .one (.fin (kv.2 : ℚ))))) } := by
  obtain ⟨row0, hrow0, hp0⟩ := hmem
  have hp := rowOf_ok hp0
  unfold disVideo
  rw [(getIds_iff _ _ _ _).mpr ⟨p, names_text hp, rfl, rfl, rfl⟩]
  dsimp only
  constructor
  · intro h
    split at h
    · cases h
    · cases h
    · cases h
    · rename_i l hne hl
      split at h
      · cases h
      · rename_i c hc
        split at h
        · cases h
        · rename_i n hn
          obtain ⟨n1, hn1, rfl⟩ := (firstNumber_iff _ _).mp hc
          obtain ⟨n2, hn2, rfl⟩ := (firstNumber_iff _ _).mp hn
          obtain ⟨pre, row, post, l', h1, h2, h3, h4, h5⟩ := (findRatings_iff hw p hp t.rows hrows ⟨row0, hrow0, hp0⟩ _).mp hl
          cases h5
          refine ⟨row, l, n1, n2, ⟨pre, post, h1, h2, h3⟩, ?_, (extract_iff int _ l).mp h4, hn1, hn2, (Except.ok.inj h).symm⟩
          intro hl0
          exact hne hl0
  · rintro ⟨row, l, n1, n2, ⟨pre, post, h1, h2, h3⟩, hne, hl, hn1, hn2, rfl⟩
    rw [(findRatings_iff hw p hp t.rows hrows ⟨row0, hrow0, hp0⟩ (some l)).mpr ⟨pre, row, post, l, h1, h2, h3, (extract_iff int _ l).mpr hl, rfl⟩]
    cases l with
    | nil => exact absurd rfl hne
    | cons x l =>
      dsimp only
      rw [(firstNumber_iff _ _).mpr ⟨n1, hn1, rfl⟩, (firstNumber_iff _ _).mpr ⟨n2, hn2, rfl⟩]

theorem refVideo_iff (a : Args) (src : List Char) (r : RefVideo) :
    refVideo a src = .ok r ↔ ∃ n : ℕ, NumberIn src n ∧ r = ⟨n, String.ofList (join a.refDir (src ++ a.ext)), [("content_name", String.ofList src)]⟩ := by
  unfold refVideo
  constructor
  · intro h
    split at h
    · cases h
    · rename_i n hn
      obtain ⟨m, hm, rfl⟩ := (firstNumber_iff _ _).mp hn
      exact ⟨m, hm, (Except.ok.inj h).symm⟩
  · rintro ⟨n, hn, rfl⟩
    rw [(firstNumber_iff _ _).mpr ⟨n, hn, rfl⟩]

/-- the conversion, piece by piece -/
theorem convert_iff {int : List Char → Option Int} {iter : List (List Char) → List (List Char)} {a : Args} {t : Table} {d : Dataset String ℚ} :
    convert int iter a t = .ok d ↔ pvsColumn ∈ t.columns ∧ ∃ ids refs diss, mapPy (rowIds t) t.rows = .ok ids ∧
      mapPy (refVideo a) (iter (ids.map (·.2.1))) = .ok refs ∧ mapPy (disVideo int a t) (iter (ids.map (·.1))) = .ok diss ∧
      d = { refVideos := refs, disVideos := diss, refScore := some (some a.refScore), datasetName := some a.name
            attrs := [("yuv_fmt", a.yuvFmt), ("width", a.width), ("height", a.height), ("ref_dir", ""), ("dis_dir", "")] } := by
  have e : convert int iter a t = if pvsColumn ∈ t.columns then
    match mapPy (rowIds t) t.rows with
    | .error e => .error e
    | .ok ids =>
      match mapPy (refVideo a) (iter (ids.map (·.2.1))) with
      | .error e => .error e
      | .ok refs =>
        match mapPy (disVideo int a t) (iter (ids.map (·.1))) with
        | .error e => .error e
        | .ok diss =>
          .ok { refVideos := refs, disVideos := diss, refScore := some (some a.refScore), datasetName := some a.name
                attrs := [("yuv_fmt", a.yuvFmt), ("width", a.width), ("height", a.height), ("ref_dir", ""), ("dis_dir", "")] }
    else .error .systemExit := rfl
  rw [e]
  constructor
  · intro h
    split at h
    · rename_i hc
      refine ⟨hc, ?_⟩
      split at h
      · cases h
      · rename_i ids hids
        split at h
        · cases h
        · rename_i refs hrefs
          split at h
          · cases h
          · rename_i diss hdiss
            exact ⟨ids, refs, diss, hids, hrefs, hdiss, (Except.ok.inj h).symm⟩
    · cases h
  · rintro ⟨hc, ids, refs, diss, h1, h2, h3, rfl⟩
    rw [if_pos hc, h1]
    dsimp only
    rw [h2]
    dsimp only
    rw [h3]

/-- the identifiers of the rows -/
theorem ids_iff {t : Table} (hw : TableWf t) {ids : List (List Char × List Char × List Char)} (h : mapPy (rowIds t) t.rows = .ok ids) :
    ∃ ps : List Pvs, List.Forall₂ (RowOf t) t.rows ps ∧ ids = ps.map fun p => (p.text, p.src, p.hrc) := by
  rw [mapPy_eq_ok_iff] at h
  generalize t.rows = rows at h
  induction h with
  | nil => exact ⟨[], .nil, rfl⟩
  | @cons row id rows ids h1 _ ih =>
    obtain ⟨ps, h2, rfl⟩ := ih
    obtain ⟨a, b, c⟩ := id
    obtain ⟨p, hp, rfl, rfl, rfl⟩ := (rowIds_iff hw row _ _ _).mp h1
    exact ⟨p :: ps, .cons hp h2, rfl⟩

end Sureal.MosTable
