import Verif.Spec.TwoPanels
import Verif.Props.AddedVote
import Verif.Props.TwoVideos
/-!
# C168: two panels that agree on an order, taken together
-/
set_option linter.unusedSectionVars false
namespace Sureal.Props
open Sureal Spec Spec.BT BtMath
variable {κ : Type} {E S S' R M : ℕ}

theorem together_clean {a : Arr3 (Fl ℝ) E S R} {b : Arr3 (Fl ℝ) E S' R} (ha : ∀ e s r, NumOrNan (a e s r)) (hb : ∀ e s r, NumOrNan (b e s r)) (e : Fin E)
    (s : Fin (S + S')) (r : Fin R) : NumOrNan (together a b e s r) := by
  unfold together
  induction s using Fin.addCases with
  | left s => rw [Fin.append_left]; exact ha e s r
  | right s => rw [Fin.append_right]; exact hb e s r

theorem together_cells (a : Arr3 (Fl ℝ) E S R) (b : Arr3 (Fl ℝ) E S' R) (e : Fin E) : videoCells (together a b) e = videoCells a e ++ videoCells b e := by
  have h : ∀ {n : ℕ} (c : Fin n → Fin R → Fl ℝ), (List.ofFn fun s => List.ofFn fun r => c s r) = (List.ofFn c).map List.ofFn := by
    intro n c
    rw [List.map_ofFn]
    rfl
  unfold videoCells
  rw [h, h, h, ← List.flatten_append, ← List.map_append]
  unfold together
  rw [List.ofFn_fin_append]

theorem together_present (a : Arr3 (Fl ℝ) E S R) (b : Arr3 (Fl ℝ) E S' R) (e : Fin E) :
    present (videoCells (together a b) e) = present (videoCells a e) ++ present (videoCells b e) := by
  rw [together_cells]
  unfold present
  rw [List.filterMap_append]

/-- the score of a video with votes -/
theorem mos_score_at {rd : Reader κ ℝ} {a : Arr3 (Fl ℝ) E S R} (ha : rd.scores = .ok ⟨E, S, R, a⟩) (hc : ∀ e s r, NumOrNan (a e s r)) {res : Result κ ℝ}
    (hr : runMOS rd {} = .ok res) (e : Fin E) (hn : (present (videoCells a e)).length ≠ 0) :
    res.qualityScores[e.val]? = some (.fin (mean (present (videoCells a e)))) := by
  rw [mos_scores ha hc hr, List.getElem?_ofFn, dif_pos e.isLt, meanOrNan_eq (by intro h; rw [h] at hn; exact hn rfl)]

/-- **C168, mean opinion scores.**  The score from both panels is the mean of the two scores weighted by the numbers of votes. -/
theorem C168_score {rd rd' rd'' : Reader κ ℝ} {a : Arr3 (Fl ℝ) E S R} {b : Arr3 (Fl ℝ) E S' R} (hc : ∀ e s r, NumOrNan (a e s r)) (hc' : ∀ e s r, NumOrNan (b e s r))
    (ha : rd.scores = .ok ⟨E, S, R, a⟩) (hb : rd'.scores = .ok ⟨E, S', R, b⟩) (hab : rd''.scores = .ok ⟨E, S + S', R, together a b⟩) {res res' res'' : Result κ ℝ}
    (hr : runMOS rd {} = .ok res) (hr' : runMOS rd' {} = .ok res') (hr'' : runMOS rd'' {} = .ok res'') (e : Fin E) {n n' : ℕ}
    (hn : (present (videoCells a e)).length = n) (hn' : (present (videoCells b e)).length = n') (hn0 : n ≠ 0) (hn0' : n' ≠ 0) :
    ∃ m m', res.qualityScores[e.val]? = some (.fin m) ∧ res'.qualityScores[e.val]? = some (.fin m') ∧
      res''.qualityScores[e.val]? = some (.fin ((n * m + n' * m') / (n + n'))) := by
  have h0 : (n : ℝ) ≠ 0 := by exact_mod_cast hn0
  have h0' : (n' : ℝ) ≠ 0 := by exact_mod_cast hn0'
  refine ⟨_, _, mos_score_at ha hc hr e (hn.trans_ne hn0), mos_score_at hb hc' hr' e (hn'.trans_ne hn0'), ?_⟩
  rw [mos_score_at hab (together_clean hc hc') hr'' e (by rw [together_present, List.length_append, hn, hn']; omega), together_present]
  unfold mean
  rw [List.sum_append, List.length_append, hn, hn']
  push_cast
  rw [mul_div_cancel₀ _ h0, mul_div_cancel₀ _ h0']

/-- **C168, mean opinion scores, the order (partial).**  If within each panel the two videos have equally many votes, and both panels score `e` at most as high as `f`, then so
do both together; and lower, if one of the panels does.

Missing: videos with different numbers of votes in the same panel, for which it is false, see below. -/
theorem C168_order_partial {rd rd' rd'' : Reader κ ℝ} {a : Arr3 (Fl ℝ) E S R} {b : Arr3 (Fl ℝ) E S' R} (hc : ∀ e s r, NumOrNan (a e s r))
    (hc' : ∀ e s r, NumOrNan (b e s r)) (ha : rd.scores = .ok ⟨E, S, R, a⟩) (hb : rd'.scores = .ok ⟨E, S', R, b⟩)
    (hab : rd''.scores = .ok ⟨E, S + S', R, together a b⟩) {res res' res'' : Result κ ℝ}
    (hr : runMOS rd {} = .ok res) (hr' : runMOS rd' {} = .ok res') (hr'' : runMOS rd'' {} = .ok res'') (e f : Fin E)
    (hn : (present (videoCells a e)).length = (present (videoCells a f)).length) (hn' : (present (videoCells b e)).length = (present (videoCells b f)).length)
    {x y x' y' : ℝ} (hx : res.qualityScores[e.val]? = some (.fin x)) (hy : res.qualityScores[f.val]? = some (.fin y))
    (hx' : res'.qualityScores[e.val]? = some (.fin x')) (hy' : res'.qualityScores[f.val]? = some (.fin y')) (hxy : x ≤ y) (hxy' : x' ≤ y') :
    ∃ u v, res''.qualityScores[e.val]? = some (.fin u) ∧ res''.qualityScores[f.val]? = some (.fin v) ∧ u ≤ v ∧ (x < y ∨ x' < y' → u < v) := by
  -- a video with a score has votes
  have votes : ∀ {S : ℕ} {rd : Reader κ ℝ} {a : Arr3 (Fl ℝ) E S R} (_ : ∀ e s r, NumOrNan (a e s r)) (_ : rd.scores = .ok ⟨E, S, R, a⟩) {res : Result κ ℝ}
      (_ : runMOS rd {} = .ok res) (e : Fin E) {x : ℝ} (_ : res.qualityScores[e.val]? = some (.fin x)), (present (videoCells a e)).length ≠ 0 := by
    intro S rd a hc ha res hr e x hx h
    rw [mos_scores ha hc hr, List.getElem?_ofFn, dif_pos e.isLt] at hx
    have hnil := List.length_eq_zero_iff.mp h
    unfold meanOrNan at hx
    rw [show (⟨e.val, e.isLt⟩ : Fin E) = e from rfl, hnil] at hx
    simp at hx
  have v1 := votes hc ha hr e hx
  have v2 := votes hc' hb hr' e hx'
  obtain ⟨m, m', k1, k2, k3⟩ := C168_score hc hc' ha hb hab hr hr' hr'' e rfl rfl v1 v2
  obtain ⟨l, l', g1, g2, g3⟩ := C168_score hc hc' ha hb hab hr hr' hr'' f hn.symm hn'.symm v1 v2
  rw [hx] at k1
  rw [hx'] at k2
  rw [hy] at g1
  rw [hy'] at g2
  obtain rfl : x = m := by simpa using k1
  obtain rfl : x' = m' := by simpa using k2
  obtain rfl : y = l := by simpa using g1
  obtain rfl : y' = l' := by simpa using g2
  have p1 : (0 : ℝ) < (present (videoCells a e)).length := by exact_mod_cast Nat.pos_of_ne_zero v1
  have p2 : (0 : ℝ) < (present (videoCells b e)).length := by exact_mod_cast Nat.pos_of_ne_zero v2
  refine ⟨_, _, k3, g3, ?_, ?_⟩
  · rw [div_le_div_iff_of_pos_right (by linarith)]
    have := mul_le_mul_of_nonneg_left hxy p1.le
    have := mul_le_mul_of_nonneg_left hxy' p2.le
    linarith
  · intro h
    rw [div_lt_div_iff_of_pos_right (by linarith)]
    have h1 := mul_le_mul_of_nonneg_left hxy p1.le
    have h2 := mul_le_mul_of_nonneg_left hxy' p2.le
    rcases h with h | h
    · have := mul_lt_mul_of_pos_left h p1
      linarith
    · have := mul_lt_mul_of_pos_left h p2
      linarith

/-- a strict panel: three observers have seen the first video, one of them the second -/
noncomputable def strictPanel : Arr3 (Fl ℝ) 2 3 1 := fun e s _ => ![![.fin 2, .fin 2, .fin 2], ![.fin 1, .nan, .nan]] e s

/-- a lenient panel: three observers have seen the second video, one of them the first -/
noncomputable def lenientPanel : Arr3 (Fl ℝ) 2 3 1 := fun e s _ => ![![.fin 5, .nan, .nan], ![.fin 4, .fin 4, .fin 4]] e s

theorem strict_clean (e s r) : NumOrNan (strictPanel e s r) := by
  fin_cases e <;> fin_cases s <;> simp [strictPanel, NumOrNan]

theorem lenient_clean (e s r) : NumOrNan (lenientPanel e s r) := by
  fin_cases e <;> fin_cases s <;> simp [lenientPanel, NumOrNan]

theorem strict_present : present (videoCells strictPanel 0) = [2, 2, 2] ∧ present (videoCells strictPanel 1) = [1] := by
  constructor <;> simp [videoCells, present, strictPanel, List.ofFn_succ, Fl.val?, List.filterMap_cons]

theorem lenient_present : present (videoCells lenientPanel 0) = [5] ∧ present (videoCells lenientPanel 1) = [4, 4, 4] := by
  constructor <;> simp [videoCells, present, lenientPanel, List.ofFn_succ, Fl.val?, List.filterMap_cons]

/-- the scores of two videos from their votes -/
theorem two_scores {a : Arr3 (Fl ℝ) 2 S R} (hc : ∀ e s r, NumOrNan (a e s r)) {l l' : List ℝ} (h : present (videoCells a 0) = l ∧ present (videoCells a 1) = l')
    (hl : l ≠ []) (hl' : l' ≠ []) {res : Result String ℝ} (hr : runMOS (arrReader 2 S R a) {} = .ok res) : res.qualityScores = [.fin (mean l), .fin (mean l')] := by
  rw [mos_scores rfl hc hr]
  simp only [List.ofFn_succ, List.ofFn_zero]
  have e1 : present (videoCells a (Fin.succ 0)) = l' := h.2
  rw [meanOrNan_eq (by rw [h.1]; exact hl), meanOrNan_eq (by rw [e1]; exact hl'), h.1, e1]

/-- **C168, mean opinion scores with missing votes, refuted.**  Both panels find the first video better, both together the second one. -/
theorem C168_missing_refuted : ∃ res res' res'' : Result String ℝ, runMOS (arrReader 2 3 1 strictPanel) {} = .ok res ∧
    runMOS (arrReader 2 3 1 lenientPanel) {} = .ok res' ∧ runMOS (arrReader 2 (3 + 3) 1 (together strictPanel lenientPanel)) {} = .ok res'' ∧
    res.qualityScores = [.fin 2, .fin 1] ∧ res'.qualityScores = [.fin 5, .fin 4] ∧ res''.qualityScores = [.fin (11 / 4), .fin (13 / 4)] := by
  obtain ⟨res, hr⟩ := mos_runs strictPanel
  obtain ⟨res', hr'⟩ := mos_runs lenientPanel
  obtain ⟨res'', hr''⟩ := mos_runs (together strictPanel lenientPanel)
  refine ⟨res, res', res'', hr, hr', hr'', ?_, ?_, ?_⟩
  · rw [two_scores strict_clean strict_present (by simp) (by simp) hr]
    norm_num [mean]
  · rw [two_scores lenient_clean lenient_present (by simp) (by simp) hr']
    norm_num [mean]
  · rw [two_scores (together_clean strict_clean lenient_clean) ⟨together_present _ _ _, together_present _ _ _⟩ (by rw [strict_present.1]; simp)
      (by rw [strict_present.2]; simp) hr'', strict_present.1, strict_present.2, lenient_present.1, lenient_present.2]
    norm_num [mean]

/-- the order theorem applies: two complete panels of two observers and of one -/
example : ∃ res res' res'' : Result String ℝ, runMOS (arrReader 2 2 1 fun e s _ => .fin (![![1, 2], ![3, 2]] e s)) {} = .ok res ∧
    runMOS (arrReader 2 1 1 fun e _ _ => .fin (![4, 5] e)) {} = .ok res' ∧
    runMOS (arrReader 2 (2 + 1) 1 (together (fun e s _ => .fin (![![1, 2], ![3, 2]] e s)) fun e _ _ => .fin (![4, 5] e))) {} = .ok res'' ∧
    ∃ u v, res''.qualityScores[0]? = some (.fin u) ∧ res''.qualityScores[1]? = some (.fin v) ∧ u < v := by
  have c1 : ∀ e s r, NumOrNan ((fun e s _ => .fin ((![![1, 2], ![3, 2]] : Fin 2 → Fin 2 → ℝ) e s) : Arr3 (Fl ℝ) 2 2 1) e s r) := fun _ _ _ => Or.inr ⟨_, rfl⟩
  have c2 : ∀ e s r, NumOrNan ((fun e _ _ => .fin ((![4, 5] : Fin 2 → ℝ) e) : Arr3 (Fl ℝ) 2 1 1) e s r) := fun _ _ _ => Or.inr ⟨_, rfl⟩
  have p1 : present (videoCells (fun e s _ => .fin ((![![1, 2], ![3, 2]] : Fin 2 → Fin 2 → ℝ) e s) : Arr3 (Fl ℝ) 2 2 1) 0) = [1, 2] ∧
      present (videoCells (fun e s _ => .fin ((![![1, 2], ![3, 2]] : Fin 2 → Fin 2 → ℝ) e s) : Arr3 (Fl ℝ) 2 2 1) 1) = [3, 2] := by
    constructor <;> simp [videoCells, present, List.ofFn_succ, Fl.val?, List.filterMap_cons]
  have p2 : present (videoCells (fun e _ _ => .fin ((![4, 5] : Fin 2 → ℝ) e) : Arr3 (Fl ℝ) 2 1 1) 0) = [4] ∧
      present (videoCells (fun e _ _ => .fin ((![4, 5] : Fin 2 → ℝ) e) : Arr3 (Fl ℝ) 2 1 1) 1) = [5] := by
    constructor <;> simp [videoCells, present, List.ofFn_succ, Fl.val?, List.filterMap_cons]
  obtain ⟨res, hr⟩ := mos_runs (fun e s _ => .fin ((![![1, 2], ![3, 2]] : Fin 2 → Fin 2 → ℝ) e s) : Arr3 (Fl ℝ) 2 2 1)
  obtain ⟨res', hr'⟩ := mos_runs (fun e _ _ => .fin ((![4, 5] : Fin 2 → ℝ) e) : Arr3 (Fl ℝ) 2 1 1)
  obtain ⟨res'', hr''⟩ := mos_runs (together (fun e s _ => .fin ((![![1, 2], ![3, 2]] : Fin 2 → Fin 2 → ℝ) e s) : Arr3 (Fl ℝ) 2 2 1)
    (fun e _ _ => .fin ((![4, 5] : Fin 2 → ℝ) e)))
  have q1 := two_scores c1 p1 (by simp) (by simp) hr
  have q2 := two_scores c2 p2 (by simp) (by simp) hr'
  obtain ⟨u, v, h1, h2, -, h3⟩ := C168_order_partial c1 c2 rfl rfl rfl hr hr' hr'' 0 1 (by rw [p1.1, p1.2]; rfl) (by rw [p2.1, p2.2]; rfl)
    (x := mean [1, 2]) (y := mean [3, 2]) (x' := mean [4]) (y' := mean [5]) (by rw [q1]; rfl) (by rw [q1]; rfl) (by rw [q2]; rfl) (by rw [q2]; rfl)
    (by norm_num [mean]) (by norm_num [mean])
  exact ⟨res, res', res'', hr, hr', hr'', u, v, h1, h2, h3 (Or.inl (by norm_num [mean]))⟩

/-! ## paired comparisons -/

/-- **C168, Bradley-Terry estimates, two videos (partial).**  If both panels find the first of two videos stronger, then so do both together.

Missing: more videos, for which it is false, see below. -/
theorem C168_two_partial {A B : Fin 2 → Fin 2 → ℝ} (hA : BothWon A) (hB : BothWon B) :
    ∃ p q o : Fin 2 → ℝ, (∀ r, Bt.Loop (mat A) (Bt.start 2) r ↔ r = .ok (vec p)) ∧ (∀ r, Bt.Loop (mat B) (Bt.start 2) r ↔ r = .ok (vec q)) ∧
      (∀ r, Bt.Loop (mat fun i j => A i j + B i j) (Bt.start 2) r ↔ r = .ok (vec o)) ∧ (p 1 < p 0 → q 1 < q 0 → o 1 < o 0) := by
  -- who is stronger has won more often
  have key : ∀ {C : Fin 2 → Fin 2 → ℝ} (_ : BothWon C) {p : Fin 2 → ℝ} (_ : IsMle C p), p 1 < p 0 ↔ C 1 0 < C 0 1 := by
    intro C hC p hp
    have h := mle_likEq (le_refl 2) hC.nonneg hC.ford hp 0
    have p0 := hp.1.pos 0
    have p1 := hp.1.pos 1
    have f := hC.first
    have s := hC.second
    simp only [Fin.sum_univ_two, games, wins, hC.diag, add_zero, zero_mul, zero_add] at h
    have : C 0 1 * p 1 = C 1 0 * p 0 := by
      field_simp at h
      linarith
    constructor <;> intro hlt <;> nlinarith
  have hAB : BothWon fun i j => A i j + B i j := ⟨add_pos hA.first hB.first, add_pos hA.second hB.second, fun i => by rw [hA.diag, hB.diag, add_zero]⟩
  obtain ⟨p, hp, hl⟩ := hA.reported
  obtain ⟨q, hq, hl'⟩ := hB.reported
  obtain ⟨o, ho, hl''⟩ := hAB.reported
  refine ⟨p, q, o, hl, hl', hl'', fun h1 h2 => (key hAB ho).mpr ?_⟩
  exact add_lt_add ((key hA hp).mp h1) ((key hB hq).mp h2)

/-- **C168, Bradley-Terry estimates that are the same.**  If both panels have the same estimate, then it is that of both together. -/
theorem C168_same {A B : Fin M → Fin M → ℝ} (hM : 2 ≤ M) (hA : ∀ i j, 0 ≤ A i j) (hB : ∀ i j, 0 ≤ B i j) (hf : Ford A) (hf' : Ford B) {p : Fin M → ℝ} (hp : IsMle A p)
    (hq : IsMle B p) {o : Fin M → ℝ} (ho : IsMle (fun i j => A i j + B i j) o) : o = p := by
  have h0 : ∀ i j, 0 ≤ A i j + B i j := fun i j => add_nonneg (hA i j) (hB i j)
  have hc : Connected fun i j => A i j + B i j := by
    intro a b
    refine Relation.ReflTransGen.mono (fun k l hkl => ?_) a b (hf a b)
    unfold games
    linarith [hA l k, hB k l, hB l k]
  have h1 := mle_likEq hM hA hf hp
  have h2 := mle_likEq hM hB hf' hq
  have h3 : LikEq (fun i j => A i j + B i j) p := by
    intro i
    have e1 := h1 i
    have e2 := h2 i
    unfold wins games at *
    rw [Finset.sum_add_distrib, ← e1, ← e2, ← Finset.sum_add_distrib]
    exact Finset.sum_congr rfl fun j _ => by ring
  exact likEq_unique h0 hc h3 hp.1 ho.1 (ho.2 _ hp.1.pos)

/-- the theorem applies: a panel that is twice as large -/
example : ∃ o, IsMle (fun i j => slow i j + slow i j) o ∧ o = ![3 / 8, 3 / 8, 1 / 8, 1 / 8] := by
  have h0 : ∀ i j, 0 ≤ slow i j + slow i j := fun i j => add_nonneg (slow_nonneg i j) (slow_nonneg i j)
  have hf : Ford fun i j => slow i j + slow i j := fun a b => Relation.ReflTransGen.mono (fun _ _ h => add_pos h h) a b (slow_ford a b)
  obtain ⟨o, -, ho, -⟩ := C99_converges h0 hf (by norm_num)
  exact ⟨o, ho, C168_same (by norm_num) slow_nonneg slow_nonneg slow_ford slow_ford slow_mle slow_mle ho⟩

/-- two videos compared with a third one that the panel finds weak, the second much more often -/
noncomputable def weakThird : Fin 3 → Fin 3 → ℝ := ![![0, 0, 4], ![0, 0, 30], ![1, 10, 0]]

/-- two videos compared with a third one that the panel finds strong, the first much more often -/
noncomputable def strongThird : Fin 3 → Fin 3 → ℝ := ![![0, 0, 10], ![0, 0, 1], ![30, 4, 0]]

theorem star_ford {A : Fin 3 → Fin 3 → ℝ} (h0 : 0 < A 0 2) (h1 : 0 < A 1 2) (h2 : 0 < A 2 0) (h3 : 0 < A 2 1) : Ford A := by
  have to2 : ∀ i, Relation.ReflTransGen (fun i j => 0 < A i j) i 2 := by
    intro i
    fin_cases i
    · exact .single h0
    · exact .single h1
    · exact .refl
  have from2 : ∀ j, Relation.ReflTransGen (fun i j => 0 < A i j) 2 j := by
    intro j
    fin_cases j
    · exact .single h2
    · exact .single h3
    · exact .refl
  exact fun i j => (to2 i).trans (from2 j)

theorem mle_of {A : Fin 3 → Fin 3 → ℝ} (hA : ∀ i j, 0 ≤ A i j) {p : Fin 3 → ℝ} (hp : PosProb p) (h : LikEq A p) : IsMle A p :=
  ⟨hp, fun _ hq => likEq_max hA h hp.pos hq⟩

/-- **C168, Bradley-Terry estimates of three videos, refuted.**  Both panels find the first video stronger than the second, both together find the second stronger. -/
theorem C168_three_refuted : Ford weakThird ∧ Ford strongThird ∧ ∃ p q o : Fin 3 → ℝ, IsMle weakThird p ∧ IsMle strongThird q ∧
    IsMle (fun i j => weakThird i j + strongThird i j) o ∧ p 1 < p 0 ∧ q 1 < q 0 ∧ o 0 < o 1 := by
  refine ⟨star_ford ?_ ?_ ?_ ?_, star_ford ?_ ?_ ?_ ?_, ![4 / 8, 3 / 8, 1 / 8], ![4 / 19, 3 / 19, 12 / 19], ![196 / 1591, 961 / 1591, 434 / 1591], mle_of ?_ ⟨?_, ?_⟩ ?_,
    mle_of ?_ ⟨?_, ?_⟩ ?_, mle_of ?_ ⟨?_, ?_⟩ ?_, ?_, ?_, ?_⟩
  any_goals simp [weakThird, strongThird]; done
  any_goals (intro i; fin_cases i <;> simp <;> done)
  any_goals (intro i j; fin_cases i <;> fin_cases j <;> simp [weakThird, strongThird] <;> norm_num; done)
  any_goals (intro i; fin_cases i <;> simp [weakThird, strongThird, games, wins, Fin.sum_univ_three] <;> norm_num; done)
  all_goals simp [Fin.sum_univ_three] <;> norm_num

end Sureal.Props
