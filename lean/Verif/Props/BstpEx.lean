import Verif.Props.BstpVideos
import Verif.Lemmas.BstpOnce
/-! # C89: what the intervals leave out; C90: where the intervals of the observers go wrong; concrete runs -/
set_option linter.unusedSectionVars false
namespace Sureal.Props
open Sureal Spec Mock
variable {κ K : Type} [LinearOrder κ] [Field K] [LinearOrder K] [IsStrictOrderedRing K] [MathFn K]

/-- **C89.** Of `N` estimates, fewer than `(N - 1) * p + 1` lie below their `p`-quantile, and fewer than `(N - 1) * (1 - p) + 1`
above it. -/
theorem C89_coverage (num den : ℕ) (hden : 0 < den) (hnum : num ≤ den) (ys : List K) (z : K) (h : Quantile num den ys z) :
    den * ys.countP (· < z) < (ys.length - 1) * num + den ∧
    den * ys.countP (z < ·) < (ys.length - 1) * (den - num) + den := by
  obtain ⟨s, hp, hs, i, t, a, b, h0, h1, h2, h3, h4, rfl⟩ := h
  rw [← hp.countP_eq, ← hp.countP_eq]
  have hl : s.length = ys.length := hp.length_eq
  obtain ⟨hi, ha⟩ := List.getElem?_eq_some_iff.mp h3
  have hdK : (0 : K) < den := by exact_mod_cast hden
  have hpos : (den : K) * i + den * t = ((ys.length - 1 : ℕ) : K) * num := by
    rw [← mul_add, h2]; field_simp
  set z := (1 - t) * a + t * b with hz
  have hmono : ∀ (j k : ℕ) (hj : j < s.length) (hk : k < s.length), j ≤ k → s[j] ≤ s[k] := by
    intro j k hj hk hjk
    rcases Nat.eq_or_lt_of_le hjk with rfl | hlt
    · exact le_rfl
    · exact List.pairwise_iff_getElem.mp hs j k hj hk hlt
  -- counts from the positions
  have hbelow : ∀ k, (∀ j (hj : j < s.length), k ≤ j → z ≤ s[j]) → s.countP (· < z) ≤ k := by
    intro k hk
    rw [← List.take_append_drop k s, List.countP_append]
    have : (s.drop k).countP (· < z) = 0 := by
      rw [List.countP_eq_zero]
      intro y hy
      obtain ⟨j, hj, rfl⟩ := List.getElem_of_mem hy
      have := hk (k + j) (by rw [List.length_drop] at hj; omega) (by omega)
      simp only [List.getElem_drop, decide_eq_true_eq, not_lt]
      exact this
    rw [this]
    have := List.countP_le_length (p := fun y => decide (y < z)) (l := s.take k)
    rw [List.length_take] at this
    omega
  have habove : ∀ k, (∀ j (hj : j < s.length), j < k → s[j] ≤ z) → s.countP (z < ·) ≤ s.length - k := by
    intro k hk
    rw [← List.take_append_drop k s, List.countP_append]
    have : (s.take k).countP (z < ·) = 0 := by
      rw [List.countP_eq_zero]
      intro y hy
      obtain ⟨j, hj, rfl⟩ := List.getElem_of_mem hy
      rw [List.length_take] at hj
      have := hk j (by omega) (by omega)
      simp only [List.getElem_take, decide_eq_true_eq, not_lt]
      exact this
    rw [this]
    have := List.countP_le_length (p := fun y => decide (z < y)) (l := s.drop k)
    rw [List.length_drop] at this
    rw [List.take_append_drop]
    omega
  have haz : a ≤ z := by
    rcases h4 with h4 | h4
    · obtain ⟨hi', hb⟩ := List.getElem?_eq_some_iff.mp h4
      have hab : a ≤ b := by rw [← ha, ← hb]; exact hmono _ _ _ _ (by omega)
      rw [hz]; nlinarith
    · rw [hz, h4]; simp
  have hhigh : s.countP (z < ·) ≤ s.length - (i + 1) := by
    apply habove
    intro j hj hji
    exact (hmono j i hj hi (by omega)).trans (ha.le.trans haz)
  have hlow : (t = 0 ∧ s.countP (· < z) ≤ i) ∨ (0 < t ∧ s.countP (· < z) ≤ i + 1) := by
    rcases h0.eq_or_lt with h0 | h0
    · left
      refine ⟨h0.symm, hbelow i fun j hj hij => ?_⟩
      rw [hz, ← h0]
      simp only [sub_zero, one_mul, zero_mul, add_zero]
      rw [← ha]; exact hmono _ _ _ _ hij
    · right
      refine ⟨h0, hbelow (i + 1) fun j hj hij => ?_⟩
      rcases h4 with h4 | h4
      · obtain ⟨hi', hb⟩ := List.getElem?_eq_some_iff.mp h4
        have hab : a ≤ b := by rw [← ha, ← hb]; exact hmono _ _ _ _ (by omega)
        have : z ≤ b := by rw [hz]; nlinarith
        exact this.trans (hb ▸ hmono _ _ _ _ hij)
      · exact absurd h4 h0.ne'
  constructor
  · rcases hlow with ⟨ht, hc⟩ | ⟨ht, hc⟩
    · rw [ht, mul_zero, add_zero] at hpos
      have hpos' : den * i = (ys.length - 1) * num := by exact_mod_cast hpos
      have := Nat.mul_le_mul_left den hc
      omega
    · have hlt : ((den * i : ℕ) : K) < (((ys.length - 1) * num : ℕ) : K) := by
        push_cast
        have : (0 : K) < den * t := mul_pos hdK ht
        linarith
      have hlt' : den * i < (ys.length - 1) * num := by exact_mod_cast hlt
      have := Nat.mul_le_mul_left den hc
      rw [Nat.mul_add, Nat.mul_one] at this
      omega
  · have hle : (((ys.length - 1) * num : ℕ) : K) < ((den * i + den : ℕ) : K) := by
      push_cast
      have : (den : K) * t < den * 1 := mul_lt_mul_of_pos_left h1 hdK
      push_cast at hpos
      linarith
    have hle' : (ys.length - 1) * num < den * i + den := by exact_mod_cast hle
    have := Nat.mul_le_mul_left den hhigh
    obtain ⟨k, rfl⟩ := Nat.exists_eq_add_of_le hnum
    obtain ⟨m, hm⟩ : ∃ m, ys.length = i + 1 + m := ⟨ys.length - (i + 1), by omega⟩
    have e1 : s.length - (i + 1) = m := by omega
    have e2 : ys.length - 1 = i + m := by omega
    rw [e1] at this
    rw [e2] at hle' ⊢
    have e3 : num + k - num = k := by omega
    rw [e3]
    nlinarith

/-- with the 30 passes made by default, at most one estimate lies below the interval and at most one above it -/
theorem C89_coverage_default (ys : List K) (hlen : ys.length = 30) (l u : K) (hl : Quantile 25 1000 ys l)
    (hu : Quantile 975 1000 ys u) : ys.countP (· < l) ≤ 1 ∧ ys.countP (u < ·) ≤ 1 := by
  have h1 := (C89_coverage 25 1000 (by norm_num) (by norm_num) ys l hl).1
  have h2 := (C89_coverage 975 1000 (by norm_num) (by norm_num) ys u hu).2
  rw [hlen] at h1 h2
  omega

/-- **C90, refuted.** If a number drawn is not the asset id of a video, the run does not complete. -/
theorem C90_refuted_missing (mode : Mle.Mode) (choice : ℕ → ℕ → List Int) (d : Dataset κ K) (o : Mle.Opts K) (kw : Bstp.Kw)
    (hkw : kw.boostrapDisVideos ≠ some false) (i : ℕ) (hi : (i : Int) < kw.nBootstrap.getD 30) (a : Int)
    (ha : a ∈ choice i d.disVideos.length) (hno : ∀ dv ∈ d.disVideos, dv.assetId ≠ a) (out : Bstp.Out κ K) :
    Bstp.run mode choice d o kw ≠ .ok out := by
  intro h
  obtain ⟨rd, r0, nSubj, ci, cis, r, res, hraw, h0, hn, hpos, -, hv, -⟩ := Bstp.run_inv h
  obtain ⟨hass, hrd⟩ := rawReader_inv hraw
  have hdv : rd.disVideos = d.disVideos := by rw [hrd]
  have hflag : kw.boostrapDisVideos.getD true = true := by
    rcases hk : kw.boostrapDisVideos with _ | (_ | _)
    · rfl
    · exact absurd hk hkw
    · rfl
  unfold Bstp.videosCi at hv
  rw [hflag, if_pos rfl, hdv] at hv
  unfold Bstp.bootstrapVideos at hv
  cases hmap : mapPy (fun i => Bstp.videosPass mode d (Bstp.unforced o) r0.qualityScores (choice i d.disVideos.length))
      (List.range (kw.nBootstrap.getD 30).toNat) with
  | error e => rw [hmap] at hv; cases hv
  | ok rows =>
    obtain ⟨g, -, hg⟩ := Bstp.mapPy_range ([], []) hmap
    have := hg i (by omega)
    unfold Bstp.videosPass at this
    rw [C73_unknown_id d _ a ha hno] at this
    cases this

/-- **C90, refuted.** If two draws of videos were rated by different numbers of observers, the run does not complete. -/
theorem C90_refuted_observer (mode : Mle.Mode) (hmode : mode ≠ .subjectOblivious) (choice : ℕ → ℕ → List Int) (d : Dataset κ K)
    (o : Mle.Opts K) (kw : Bstp.Kw) (hkw : kw.boostrapDisVideos ≠ some false) (i j : ℕ) (hi : (i : Int) < kw.nBootstrap.getD 30)
    (hj : (j : Int) < kw.nBootstrap.getD 30) (pi pj : Reader κ K) (ai aj : Arr3D (Fl K))
    (hpi : selectDisVideoReader d (some (choice i d.disVideos.length)) = .ok pi) (hai : pi.scores = .ok ai)
    (hpj : selectDisVideoReader d (some (choice j d.disVideos.length)) = .ok pj) (haj : pj.scores = .ok aj)
    (hne : ai.S ≠ aj.S) (out : Bstp.Out κ K) : Bstp.run mode choice d o kw ≠ .ok out := by
  intro h
  obtain ⟨rd, r0, nSubj, ci, cis, r, res, hraw, h0, hn, hpos, -, hv, -⟩ := Bstp.run_inv h
  obtain ⟨hass, hrd⟩ := rawReader_inv hraw
  have hdv : rd.disVideos = d.disVideos := by rw [hrd]
  have hflag : kw.boostrapDisVideos.getD true = true := by
    rcases hk : kw.boostrapDisVideos with _ | (_ | _)
    · rfl
    · exact absurd hk hkw
    · rfl
  unfold Bstp.videosCi at hv
  rw [hflag, if_pos rfl, hdv] at hv
  unfold Bstp.bootstrapVideos at hv
  cases hmap : mapPy (fun i => Bstp.videosPass mode d (Bstp.unforced o) r0.qualityScores (choice i d.disVideos.length))
      (List.range (kw.nBootstrap.getD 30).toNat) with
  | error e => rw [hmap] at hv; cases hv
  | ok rows =>
    rw [hmap] at hv
    dsimp only at hv
    obtain ⟨g, hrows, hg⟩ := Bstp.mapPy_range ([], []) hmap
    have hlen : ∀ (k : ℕ) (p : Reader κ K) (a : Arr3D (Fl K)), (k : Int) < kw.nBootstrap.getD 30 →
        selectDisVideoReader d (some (choice k d.disVideos.length)) = .ok p → p.scores = .ok a → (g k).1.length = a.S := by
      intro k p a hk hp ha
      have := hg k (by omega)
      unfold Bstp.videosPass at this
      rw [hp] at this
      dsimp only at this
      cases hr : Mle.runModelingWith mode p (Bstp.unforced o) with
      | error e => rw [hr] at this; cases this
      | ok rk =>
        rw [hr] at this
        dsimp only at this
        obtain ⟨E, S, x1, b1, m, fit', ⟨a', ha', hEE, hSS⟩, hq1, hb1, ⟨v1, hv1⟩, -⟩ := Bstp.unforce hmode hr
        rw [ha] at ha'
        cases ha'
        rw [hb1, hv1] at this
        cases hoff : Bstp.offset rk.qualityScores r0.qualityScores (choice k d.disVideos.length) with
        | error e => rw [hoff] at this; cases this
        | ok off =>
          rw [hoff] at this
          have e := congrArg (fun z => z.1.length) (Except.ok.inj this)
          dsimp only at e
          rw [← e, hSS]; simp
    have hil := hlen i pi ai hi hpi hai
    have hjl := hlen j pj aj hj hpj haj
    split at hv
    case h_1 => cases hv
    case h_2 =>
      rename_i heq
      split at heq
      · rename_i b v _ _
        cases hint : Bstp.interval b (rows.map Prod.fst) with
        | error e => rw [hint] at heq; cases heq
        | ok cb =>
          unfold Bstp.interval at hint
          cases hper : Bstp.percentiles 25 (rows.map Prod.fst) with
          | error e => rw [hper] at hint; cases hint
          | ok pl =>
            unfold Bstp.percentiles at hper
            dsimp only at hper
            split at hper
            · rename_i hall
              rw [List.all_eq_true] at hall
              have key : ∀ k : ℕ, (k : Int) < kw.nBootstrap.getD 30 →
                  (g k).1.length = ((rows.map Prod.fst).head?.getD []).length := by
                intro k hk
                have := hall (g k).1 (by
                  rw [hrows, List.map_map]
                  exact List.mem_map.mpr ⟨k, List.mem_range.mpr (by omega), rfl⟩)
                simpa using this
              exact hne (by rw [← hil, ← hjl, key i hi, key j hj])
            · cases hper
      · cases heq

/-! ### concrete runs

In these the standard deviations are 0 or 1, so `ratMath`, which has no square roots, does not matter. -/

def exVid (id : Int) (p : String) (v : List ℚ) : DisVideo String ℚ :=
  { contentId := 0, assetId := id, path := p, os := some (.seq false (v.map fun x => .one (.fin x))) }

/-- two videos, four observers -/
def exBstp (id0 id1 : Int) : Dataset String ℚ :=
  { refVideos := [⟨0, "r0", []⟩], disVideos := [exVid id0 "d0" [1, 3, 1, 3], exVid id1 "d1" [7, 5, 7, 5]] }

/-- two draws with replacement of four observers and of two videos -/
def exDraws (i n : ℕ) : List Int :=
  if n = 4 then (if i = 0 then [0, 1, 0, 1] else [3, 2, 1, 0])
  else if n = 2 then (if i = 0 then [0, 0] else [1, 0]) else []

def exFin (l : List ℚ) : List (Fl ℚ) := l.map Fl.fin

attribute [local instance] ratMath in
/-- the run that meets the hypotheses of C88, C89 and C90 -/
theorem exBstp_run : ∃ out, Bstp.run .default exDraws (exBstp 0 1) {} { nBootstrap := some 2 } = .ok out ∧
    out.res.qualityScores = exFin [2, 6] ∧ out.res.observerBias = some (exFin [0, 0, 0, 0]) ∧
    out.res.observerInconsistency = some (exFin [9/10, 9/10, 9/10, 9/10]) ∧
    out.res.qualityScoresCi95 = some (exFin [0, 0], exFin [0, 0]) ∧
    out.biasCi95 = some (exFin [39/400, -1/400, 39/400, -1/400], exFin [-1/400, 39/400, -1/400, 39/400]) ∧
    out.inconsistencyCi95 = some (exFin [351/400, 351/400, 351/400, 351/400], exFin [-9/400, -9/400, -9/400, -9/400]) := by
  have h : Bstp.once .default exDraws (exBstp 0 1) {} 2 = some ⟨⟨exFin [2, 6], exFin [0, 0, 0, 0], exFin [9/10, 9/10, 9/10, 9/10]⟩,
      (exFin [0, 0], exFin [0, 0]),
      (exFin [39/400, -1/400, 39/400, -1/400], exFin [-1/400, 39/400, -1/400, 39/400]),
      (exFin [351/400, 351/400, 351/400, 351/400], exFin [-9/400, -9/400, -9/400, -9/400])⟩ := by decide +kernel
  obtain ⟨out, h1, h2⟩ := Bstp.run_of_once rfl rfl h
  exact ⟨out, h1, h2⟩

attribute [local instance] ratMath in
/-- hypotheses of `C88_estimates`, `C89_score_intervals` and `C90_observer_intervals_partial` -/
example : ∃ (out : Bstp.Out String ℚ) (rd : Reader String ℚ) (base : Arr3D (Fl ℚ)) (β x w : List ℚ),
    Bstp.run .default exDraws (exBstp 0 1) {} { nBootstrap := some 2 } = .ok out ∧
    rawReader (exBstp 0 1) = .ok rd ∧ rd.scores = .ok base ∧ 0 < base.S ∧ (∀ i, IsResample base.S (exDraws i base.S)) ∧
    (∀ i, IsResample 2 (exDraws i 2)) ∧
    (∀ (j : ℕ) dv, (exBstp 0 1).disVideos[j]? = some dv → dv.assetId = j) ∧
    out.res.observerBias = some (β.map Fl.fin) ∧ out.res.qualityScores = x.map Fl.fin ∧
    out.res.observerInconsistency = some (w.map Fl.fin) ∧ β = [0, 0, 0, 0] ∧ x = [2, 6] := by
  obtain ⟨out, h1, h2, h3, h4, -⟩ := exBstp_run
  obtain ⟨rd, base, hrd, hb, hS⟩ : ∃ rd base, rawReader (exBstp 0 1) = .ok rd ∧ rd.scores = .ok base ∧ base.S = 4 :=
    ⟨_, _, rfl, rfl, rfl⟩
  refine ⟨out, rd, base, _, _, _, h1, hrd, hb, by omega, ?_, ?_, ?_, h3, h2, h4, rfl, rfl⟩
  · intro i
    rw [hS]
    unfold exDraws IsResample
    rcases i with _ | i <;> simp
  · intro i
    unfold exDraws IsResample
    rcases i with _ | i <;> simp
  · intro j dv hj
    rcases j with _ | _ | j
    · simp [exBstp, exVid] at hj; subst hj; rfl
    · simp [exBstp, exVid] at hj; subst hj; rfl
    · simp [exBstp] at hj

attribute [local instance] ratMath in
/-- **C90, refuted.** With asset ids 1 and 0 for the first and the second video, the draw `[0, 0]` takes the second video twice.
Its score is 6, with this panel as with all videos, and the panel's biases are `1/10` and `-1/10`, yet the interval of the
biases is moved by the difference to the score 2 of the first video: it is the single number `41/10` for a bias estimated
as 0. -/
theorem C90_refuted_ids : ∃ (choice : ℕ → ℕ → List Int) (d : Dataset String ℚ) (out : Bstp.Out String ℚ) (panel : Reader String ℚ)
    (fit : Result String ℚ) (second : DisVideo String ℚ),
    (∀ i n, IsResample n (choice i n)) ∧
    Bstp.run .default choice d {} { nBootstrap := some 1 } = .ok out ∧
    out.res.qualityScores = exFin [2, 6] ∧ out.res.observerBias = some (exFin [0, 0, 0, 0]) ∧
    d.disVideos[1]? = some second ∧ selectDisVideoReader d (some (choice 0 2)) = .ok panel ∧ panel.disVideos = [second, second] ∧
    Mle.run .default panel {} = .ok fit ∧ fit.qualityScores = exFin [6, 6] ∧
    fit.observerBias = some (exFin [1/10, -1/10, 1/10, -1/10]) ∧
    out.biasCi95 = some (exFin [-41/10, -39/10, -41/10, -39/10], exFin [41/10, 39/10, 41/10, 39/10]) := by
  let choice : ℕ → ℕ → List Int := fun _ n => if n = 4 then [0, 1, 2, 3] else List.replicate n 0
  have h : Bstp.once .default choice (exBstp 1 0) {} 1 = some ⟨⟨exFin [2, 6], exFin [0, 0, 0, 0], exFin [9/10, 9/10, 9/10, 9/10]⟩,
      (exFin [0, 0], exFin [0, 0]),
      (exFin [-41/10, -39/10, -41/10, -39/10], exFin [41/10, 39/10, 41/10, 39/10]),
      (exFin [9/10, 9/10, 9/10, 9/10], exFin [-9/10, -9/10, -9/10, -9/10])⟩ := by decide +kernel
  obtain ⟨out, h1, h2, h3, -, -, h4, -⟩ := Bstp.run_of_once rfl rfl h
  obtain ⟨panel, hp, hd⟩ : ∃ panel, selectDisVideoReader (exBstp 1 0) (some (choice 0 2)) = .ok panel ∧
    panel.disVideos = [exVid 0 "d1" [7, 5, 7, 5], exVid 0 "d1" [7, 5, 7, 5]] := ⟨_, rfl, rfl⟩
  have hf : (match selectDisVideoReader (exBstp 1 0) (some (choice 0 2)) with
    | .ok rd => Mle.once .default rd {}
    | .error _ => none) = some (exFin [6, 6], some (exFin [1/10, -1/10, 1/10, -1/10])) := by decide +kernel
  rw [hp] at hf
  obtain ⟨fit, f1, f2, f3, _⟩ := Mle.run_of_once hf
  refine ⟨choice, _, out, panel, fit, _, ?_, h1, h2, h3, rfl, hp, hd, f1, f2, f3, h4⟩
  intro i n
  unfold choice IsResample
  split
  · subst n; simp
  · constructor
    · simp
    · intro x hx
      obtain ⟨h1, rfl⟩ := List.mem_replicate.mp hx
      omega

attribute [local instance] ratMath in
/-- hypotheses of `C90_refuted_missing`: asset ids 1 and 2, on which the model without bootstrapping completes -/
example : ∃ (choice : ℕ → ℕ → List Int) (rd : Reader String ℚ) (r : Result String ℚ), (∀ i n, IsResample n (choice i n)) ∧
    rawReader (exBstp 1 2) = .ok rd ∧ Mle.run .default rd {} = .ok r ∧
    (0 : Int) ∈ choice 0 (exBstp 1 2).disVideos.length ∧ ∀ dv ∈ (exBstp 1 2).disVideos, dv.assetId ≠ 0 := by
  obtain ⟨rd, hrd⟩ : ∃ rd, rawReader (exBstp 1 2) = .ok rd := ⟨_, rfl⟩
  have h : (match rawReader (exBstp 1 2) with
    | .ok rd => Mle.once .default rd {}
    | .error _ => none) = some (exFin [2, 6], some (exFin [0, 0, 0, 0])) := by decide +kernel
  rw [hrd] at h
  obtain ⟨res, h1, _⟩ := Mle.run_of_once h
  refine ⟨fun _ n => List.replicate n 0, rd, res, ?_, hrd, h1, by simp [exBstp], by simp [exBstp, exVid]⟩
  intro i n
  refine ⟨by simp, fun x hx => ?_⟩
  obtain ⟨h1, rfl⟩ := List.mem_replicate.mp hx
  omega

/-- observer B rated the first video only, twice -/
def exLost : Dataset String ℚ :=
  { refVideos := [⟨0, "r0", []⟩]
    disVideos := [
      { contentId := 0, assetId := 0, path := "d0",
        os := some (.dict [("A", .one (.fin 1)), ("B", .many .list [.fin 1, .fin 3]), ("C", .one (.fin 3))]) },
      { contentId := 0, assetId := 1, path := "d1", os := some (.dict [("A", .one (.fin 3)), ("C", .one (.fin 1))]) }] }

attribute [local instance] ratMath in
/-- hypotheses of `C90_refuted_observer`: the model without bootstrapping completes, and the draw `[1, 1]` loses observer B -/
example : ∃ (rd p0 p1 : Reader String ℚ) (r : Result String ℚ) (a0 a1 : Arr3D (Fl ℚ)),
    rawReader exLost = .ok rd ∧ Mle.run .default rd {} = .ok r ∧
    selectDisVideoReader exLost (some [0, 1]) = .ok p0 ∧ p0.scores = .ok a0 ∧
    selectDisVideoReader exLost (some [1, 1]) = .ok p1 ∧ p1.scores = .ok a1 ∧ a0.S = 3 ∧ a1.S = 2 := by
  obtain ⟨rd, hrd⟩ : ∃ rd, rawReader exLost = .ok rd := ⟨_, rfl⟩
  have h : (match rawReader exLost with
    | .ok rd => Mle.once .default rd {}
    | .error _ => none) = some (exFin [2, 2], some (exFin [0, 0, 0])) := by decide +kernel
  rw [hrd] at h
  obtain ⟨res, h1, _⟩ := Mle.run_of_once h
  exact ⟨rd, _, _, res, _, _, hrd, h1, rfl, rfl, rfl, rfl, rfl, rfl⟩

/-- hypothesis of `C89_coverage`, with an interpolated quantile -/
example : Quantile 25 1000 [3, 1, 2] (1 + 1/20 : ℚ) :=
  ⟨[1, 2, 3], by decide, by decide +kernel, 0, 1/20, 1, 2, by norm_num, by norm_num, by norm_num, rfl, Or.inl rfl, by norm_num⟩

end Sureal.Props
