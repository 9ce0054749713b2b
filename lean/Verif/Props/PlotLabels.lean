import Verif.Lemmas.ScorePlots
import Verif.Lemmas.Mle
import Verif.Props.SampleStats
import Verif.Props.Ap
import Verif.Props.Mle
set_option linter.unusedSectionVars false
/-!
# C112: the labels of observers and contents in the plots
-/
namespace Sureal.Props
open Sureal.ScorePlots Sureal.Mock Spec
variable {κ K : Type}

theorem ticks_inv {n : ℕ} (refs : List RefVideo) (hid : ∀ rv ∈ refs, 0 ≤ rv.contentId ∧ rv.contentId.toNat < n)
    (hnd : (refs.map (·.contentId)).Nodup) (hname : ∀ rv ∈ refs, ∃ s, rv.extra.lookup "content_name" = some s)
    (t0 : List String) (h0 : t0.length = n) :
    ∃ t, refs.foldl tick (.ok t0) = .ok t ∧ t.length = n ∧
      (∀ rv ∈ refs, t[rv.contentId.toNat]? = rv.extra.lookup "content_name") ∧
      ∀ k : ℕ, (∀ rv ∈ refs, rv.contentId ≠ k) → t[k]? = t0[k]? := by
  induction refs generalizing t0 with
  | nil => exact ⟨t0, rfl, h0, by simp, fun _ _ => rfl⟩
  | cons rv refs ih =>
    obtain ⟨name, hn⟩ := hname rv (by simp)
    have hr := hid rv (by simp)
    have hstep : tick (.ok t0) rv = .ok (t0.set rv.contentId.toNat name) := by
      unfold tick
      dsimp only
      rw [hn]
      dsimp only
      rw [if_pos ⟨hr.1, by rw [h0]; exact hr.2⟩]
    rw [List.map_cons, List.nodup_cons] at hnd
    obtain ⟨t, h1, h2, h3, h4⟩ := ih (fun r h => hid r (by simp [h])) hnd.2 (fun r h => hname r (by simp [h]))
      (t0.set rv.contentId.toNat name) (by simp [h0])
    refine ⟨t, by rw [List.foldl_cons, hstep]; exact h1, h2, ?_, ?_⟩
    · intro r hmem
      rcases List.mem_cons.mp hmem with rfl | hmem
      · rw [h4 _ ?_, hn]
        · rw [List.getElem?_set_self (by rw [h0]; exact hr.2)]
        · intro r' hr' he
          apply hnd.1
          rw [List.mem_map]
          exact ⟨r', hr', by rw [he]; omega⟩
      · exact h3 r hmem
    · intro k hk
      rw [h4 k fun r hr => hk r (by simp [hr]), List.getElem?_set_ne]
      intro he
      apply hk rv (by simp)
      omega

theorem le_foldl_max {c : ℤ} {cs : List ℤ} {x : ℤ} (h : x ∈ c :: cs) : x ≤ cs.foldl max c := by
  induction cs generalizing c x with
  | nil => simp at h; simp [h]
  | cons b cs ih =>
    rw [List.foldl_cons]
    rcases List.mem_cons.mp h with rfl | h
    · exact (le_max_left x b).trans (ih (c := max x b) (by simp))
    · rcases List.mem_cons.mp h with rfl | h
      · exact (le_max_right c x).trans (ih (c := max c x) (by simp))
      · exact ih (c := max c b) (by simp [h])

section field
variable [Field K] [LinearOrder K] [IsStrictOrderedRing K] [MathFn K] [LinearOrder κ]

/-- **C112, contents.** For a dataset with distinct content ids and a name for each content, and an MLE model that reports the ambiguities `a` of the contents: the plot gets a label for each
point; the point of a content carries its name; points of ids no content has are not labelled. -/
theorem C112_contents_partial (d : Dataset κ K) (rd : Reader κ K) (hraw : rawReader d = .ok rd) (mode : Mle.Mode) (o : Mle.Opts K) (res : Result κ K)
    (hres : Mle.run mode rd o = .ok res) (a : List (Fl K)) (ha : res.contentAmbiguity = some a)
    (hnd : (d.refVideos.map (·.contentId)).Nodup) (hname : ∀ rv ∈ d.refVideos, ∃ s, rv.extra.lookup "content_name" = some s) :
    ∃ t, contentTicks a.length d.refVideos = .ok t ∧ t.length = a.length ∧
      (∀ rv ∈ d.refVideos, ∃ s, rv.extra.lookup "content_name" = some s ∧ t[rv.contentId.toNat]? = some s) ∧
      ∀ k < a.length, (∀ rv ∈ d.refVideos, rv.contentId ≠ (k : ℤ)) → t[k]? = some "" := by
  obtain ⟨hass, rfl⟩ := rawReader_inv hraw
  obtain ⟨p, C, m, mos, cid, f, dens, obs, hrun, hres⟩ := Mle.run_inv hres
  have hC := hrun.hC
  have hal : a.length = C := by
    rw [hres] at ha
    simp only [Mle.result] at ha
    split at ha
    · cases ha
    · rw [← Option.some.inj ha, List.length_ofFn]
  have hid : ∀ rv ∈ d.refVideos, 0 ≤ rv.contentId ∧ rv.contentId.toNat < C := by
    intro rv hrv
    refine ⟨((C01_accepts_iff_wellFormed d).mp hass).nonneg rv hrv, ?_⟩
    have hmem : rv.contentId ∈ d.refVideos.map (·.contentId) := List.mem_map_of_mem hrv
    unfold Mle.numContents at hC
    dsimp only at hC
    split at hC
    · cases hC
    · rename_i c cs hcs
      obtain rfl := Except.ok.inj hC
      rw [hcs] at hmem
      have h1 := le_foldl_max hmem
      have h0 := ((C01_accepts_iff_wellFormed d).mp hass).nonneg rv hrv
      omega
  obtain ⟨t, h1, h2, h3, h4⟩ := ticks_inv d.refVideos hid hnd hname (List.replicate C "") (by simp)
  rw [hal]
  refine ⟨t, h1, h2, ?_, ?_⟩
  · intro rv hrv
    obtain ⟨s, hs⟩ := hname rv hrv
    exact ⟨s, hs, by rw [h3 rv hrv, hs]⟩
  · intro k hk hno
    rw [h4 k hno, List.getElem?_replicate, if_pos hk]

end field

/-- **C112, refuted: no name.** The key `content_name` is not required by the reader, but if one content does not have it there is no plot
(`KeyError`). -/
theorem C112_refuted_unnamed (n : ℕ) (refs : List RefVideo) (hid : ∀ rv ∈ refs, 0 ≤ rv.contentId ∧ rv.contentId.toNat < n) (rv : RefVideo)
    (hrv : rv ∈ refs) (hname : rv.extra.lookup "content_name" = none) : contentTicks n refs = .error .key := by
  have herr : ∀ l : List RefVideo, l.foldl tick (.error .key) = .error .key := by
    intro l
    induction l with
    | nil => rfl
    | cons r rs ih => exact ih
  unfold contentTicks
  have : ∀ t : List String, t.length = n → refs.foldl tick (.ok t) = .error .key := by
    induction refs with
    | nil => cases hrv
    | cons r rs ih =>
      intro t ht
      rw [List.foldl_cons]
      unfold tick
      dsimp only
      cases hl : r.extra.lookup "content_name" with
      | none => exact herr rs
      | some name =>
        dsimp only
        rw [if_pos ⟨(hid r (by simp)).1, by rw [ht]; exact (hid r (by simp)).2⟩]
        have hne : rv ≠ r := by
          rintro rfl
          rw [hname] at hl
          cases hl
        exact ih (fun r hr => hid r (by simp [hr])) ((List.mem_cons.mp hrv).resolve_left hne) _ (by simp [ht])
  exact this _ (by simp)

/-- a named and an unnamed content -/
example : contentTicks 2 [{ contentId := 0, path := "r", extra := [("content_name", "Park")] }, { contentId := 1, path := "q" }] = .error .key :=
  C112_refuted_unnamed 2 _ (by intro rv h; simp at h; rcases h with rfl | rfl <;> decide) { contentId := 1, path := "q" } (by simp) rfl

/-- two contents with the same id and different names -/
def twoNames : Dataset ℕ ℚ :=
  { refVideos := [{ contentId := 0, path := "r", extra := [("content_name", "Park")] }, { contentId := 0, path := "q", extra := [("content_name", "River")] }],
    disVideos := [{ contentId := 0, assetId := 0, path := "a", os := some (.seq false [.one (.fin 1), .one (.fin 2)]) }] }

/-- **C112, refuted: an id twice.** The reader accepts it; the name of the first content is not shown. -/
theorem C112_refuted_ids : (∃ rd, rawReader twoNames = .ok rd) ∧ contentTicks 1 twoNames.refVideos = .ok ["River"] :=
  ⟨⟨_, rfl⟩, rfl⟩

section real
variable [LinearOrder κ]

/-- what the projection solver reports about the observers -/
theorem ap_bias_observers {rd : Reader κ ℝ} {a : Arr3D (Fl ℝ)} (ha : rd.scores = .ok a) {obs : List κ} (hobs : rd.observers = .ok obs)
    {res : Result κ ℝ} (hres : runAP rd {} = .ok res) : ∃ b, res.observerBias = some b ∧ b.length = a.S ∧ res.observers = some obs := by
  obtain ⟨p, f, h1, h2, h3⟩ := ap_run (sd := Ap.sStd) hres
  rw [preprocess_default ha] at h1
  obtain rfl := Except.ok.inj h1
  refine ⟨_, by rw [h3]; rfl, by simp, ?_⟩
  unfold runAP runAPWith runModeling at hres
  split at hres
  · cases hres
  · rw [hobs] at hres
    rw [← Except.ok.inj hres]

/-- **C112, observers.** For a dataset in dictionary style the plot of the biases labels point `i` with the observer of column `i` of the array, and there is a point for each observer. -/
theorem C112_observers_partial (d : Dataset κ ℝ) (rd : Reader κ ℝ) (hraw : rawReader d = .ok rd) (a : Arr3D (Fl ℝ)) (ha : rd.scores = .ok a)
    (hdict : ∀ dv ∈ d.disVideos, DictStyle dv) (hS : a.S ≠ 0) (res : Result κ ℝ) (hres : runAP rd {} = .ok res)
    (ci : Option (List (Fl ℝ) × List (Fl ℝ))) :
    ∃ b obs s, res.observerBias = some b ∧ listObservers d.disVideos = .ok obs ∧ obs.length = a.S ∧
      bias .errorbar 0 ci res = .ok (some (s, some obs)) ∧ s.ys = b ∧ s.err = ci := by
  obtain ⟨hass, rfl⟩ := rawReader_inv hraw
  have hsingle : ∀ dv ∈ d.disVideos, NdarraysSingle dv := by
    by_contra hc
    have := (C04_dict_cells d hass hdict).2 hc
    change opinionScores d.disVideos = .ok a at ha
    rw [this] at ha
    cases ha
  obtain ⟨obs, a', ho, ha', -, hS', -⟩ := (C04_dict_cells d hass hdict).1 hsingle
  obtain rfl : a' = a := Except.ok.inj (ha'.symm.trans ha)
  obtain ⟨b, h1, h2, h3⟩ := ap_bias_observers ha ho hres
  obtain ⟨x, xs, rfl⟩ := List.exists_cons_of_ne_nil (show b ≠ [] by rintro rfl; simp at h2; omega)
  obtain ⟨s, hs⟩ : ∃ s, series .errorbar 0 (x :: xs) ci = .ok s := ⟨_, rfl⟩
  obtain ⟨e1, -, e2, -⟩ := series_ok hs
  refine ⟨_, obs, s, h1, ho, hS'.symm, ?_, e1, e2⟩
  unfold bias
  rw [h1, h3]
  dsimp only
  rw [hs]
  change (if (x :: xs).length = obs.length then _ else _) = _
  rw [if_pos (by omega)]

/-- **C112, refuted for a selection of the observers.** The names of all observers are reported together with the biases of the selected ones: the plot ends with an AssertionError. -/
theorem C112_refuted_select (d : Dataset κ ℝ) (rd : Reader κ ℝ) (hraw : rawReader d = .ok rd) (base : Arr3D (Fl ℝ)) (hbase : rd.scores = .ok base)
    (hdict : ∀ dv ∈ d.disVideos, DictStyle dv) (sel : List ℤ) (hsel : ∀ x ∈ sel, 0 ≤ x ∧ x < base.S) (h0 : sel ≠ []) (hlen : sel.length ≠ base.S) :
    ∃ rd', selectSubjectReader d (some sel) = .ok rd' ∧ ∀ res, runAP rd' {} = .ok res → ∀ ci, bias .errorbar 0 ci res = .error .assertion := by
  obtain ⟨rd', arr, h1, -, h2, -, h3, -⟩ := C51_dict_partial d rd hraw base hbase hdict sel hsel
  refine ⟨rd', h1, ?_⟩
  intro res hres ci
  have hobs := select_observers hraw h1
  obtain ⟨hass, rfl⟩ := rawReader_inv hraw
  have hsingle : ∀ dv ∈ d.disVideos, NdarraysSingle dv := by
    by_contra hc
    have := (C04_dict_cells d hass hdict).2 hc
    change opinionScores d.disVideos = .ok base at hbase
    rw [this] at hbase
    cases hbase
  obtain ⟨obs, a', ho, ha', -, hS', -⟩ := (C04_dict_cells d hass hdict).1 hsingle
  obtain rfl : a' = base := Except.ok.inj (ha'.symm.trans hbase)
  obtain ⟨b, k1, k2, k3⟩ := ap_bias_observers h2 (hobs.trans ho) hres
  have hb : b.length = sel.length := by rw [k2, h3]
  obtain ⟨x, xs, rfl⟩ := List.exists_cons_of_ne_nil (show b ≠ [] by rintro rfl; simp at hb; exact h0 (List.length_eq_zero_iff.mp hb.symm))
  unfold bias
  rw [k1, k3]
  change (if (x :: xs).length = obs.length then _ else _) = _
  rw [if_neg (by omega)]

/-! ## Examples -/

/-- the selection of two of three observers: the model runs, the plot does not -/
example : ∃ rd' res, selectSubjectReader exSample (some [0, 2]) = .ok rd' ∧ runAP rd' {} = .ok res ∧ bias .errorbar 0 none res = .error .assertion := by
  obtain ⟨rd, hraw, hbase⟩ := exSample_reader
  have hdict : ∀ dv ∈ exSample.disVideos, DictStyle dv := by
    intro dv hdv
    simp only [exSample, List.mem_cons, List.not_mem_nil, or_false] at hdv
    rcases hdv with rfl | rfl <;> exact ⟨_, rfl, by decide⟩
  obtain ⟨rd', h1, h2⟩ := C112_refuted_select exSample rd hraw _ hbase hdict [0, 2] (by decide) (by simp) (by simp)
  obtain ⟨rd'', arr, k1, -, k2, k3, k4, k5, k6⟩ := C51_dict_partial exSample rd hraw _ hbase hdict [0, 2] (by decide)
  obtain rfl : rd'' = rd' := Except.ok.inj (k1.symm.trans h1)
  obtain ⟨E, S, R, get⟩ := arr
  obtain rfl : E = 2 := k3
  obtain rfl : S = 2 := k4
  obtain rfl : R = 1 := k5
  have hfin : ∀ e s r, ∃ v, get e s r = .fin v := by
    intro e s r
    obtain ⟨x, hx⟩ : ∃ x : ℤ, ([0, 2] : List ℤ)[s.val]? = some x := by
      match s with
      | 0 => exact ⟨0, rfl⟩
      | 1 => exact ⟨2, rfl⟩
    have hxn : x.toNat < 3 := by
      match s with
      | 0 => cases hx; decide
      | 1 => cases hx; decide
    have := k6 e.val s.val r.val x hx
    simp only [cell] at this
    rw [dif_pos ⟨e.isLt, s.isLt, r.isLt⟩, dif_pos ⟨e.isLt, hxn, r.isLt⟩] at this
    exact ⟨_, Option.some.inj this⟩
  have hob : ObserversHarmless rd'' := by
    rw [ObserversHarmless, select_observers hraw h1]
    rcases observers_cases hraw (.inr hdict) with h | h
    · exact .inl h
    · exact .inr (.inl h)
  obtain ⟨res, hres⟩ := (C27_succeeds_iff Ap.sStd rd'' hob ⟨2, 2, 1, get⟩ k2 (fun e s r => .inr (hfin e s r)) none).1
    (fun e => by
      obtain ⟨v, hv⟩ := hfin e 0 0
      exact ⟨0, 0, v, hv⟩)
  exact ⟨rd'', res, h1, hres, h2 res hres none⟩

end real

/-- two contents with a video each and two observers who disagree -/
def exNamed : Dataset String ℚ :=
  { refVideos := [⟨1, "r1", [("content_name", "River")]⟩, ⟨0, "r0", [("content_name", "Park")]⟩]
    disVideos := [
      { contentId := 0, assetId := 0, path := "d0", os := some (.seq false [.one (.fin 1), .one (.fin 3)]) },
      { contentId := 1, assetId := 1, path := "d1", os := some (.seq false [.one (.fin 3), .one (.fin 1)]) }] }

attribute [local instance] ratMath in
example : ∃ rd res a, rawReader exNamed = .ok rd ∧ Mle.run .default rd {} = .ok res ∧ res.contentAmbiguity = some a ∧
    ∃ t, contentTicks a.length exNamed.refVideos = .ok t ∧ t[0]? = some "Park" ∧ t[1]? = some "River" := by
  obtain ⟨rd, hrd⟩ : ∃ rd, rawReader exNamed = .ok rd := ⟨_, rfl⟩
  have h : (match rawReader exNamed with
    | .ok rd => Mle.once .default rd {}
    | .error _ => none) = some ([.fin 2, .fin 2], some [.fin 0, .fin 0]) := by decide +kernel
  rw [hrd] at h
  obtain ⟨res, h1, h2, h3, _⟩ := Mle.run_of_once h
  obtain ⟨a, ha⟩ : ∃ a, res.contentAmbiguity = some a := by
    obtain ⟨p, C, m, mos, cid, f, dens, obs, -, hres⟩ := Mle.run_inv h1
    rw [hres]
    exact ⟨_, rfl⟩
  obtain ⟨t, t1, -, t2, -⟩ := C112_contents_partial exNamed rd hrd .default {} res h1 a ha (by decide)
    (by intro rv hrv; simp only [exNamed, List.mem_cons, List.not_mem_nil, or_false] at hrv; rcases hrv with rfl | rfl <;> exact ⟨_, rfl⟩)
  refine ⟨rd, res, a, hrd, h1, ha, t, t1, ?_, ?_⟩
  · obtain ⟨s, hs, hs'⟩ := t2 ⟨0, "r0", [("content_name", "Park")]⟩ (by simp [exNamed])
    rw [show t[0]? = _ from hs', ← hs]; rfl
  · obtain ⟨s, hs, hs'⟩ := t2 ⟨1, "r1", [("content_name", "River")]⟩ (by simp [exNamed])
    rw [show t[1]? = _ from hs', ← hs]; rfl
end Sureal.Props
