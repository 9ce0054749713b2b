import Verif.Props.Written
/-!
# C141: how the program ends with the least squares model
-/
set_option linter.unusedSectionVars false
namespace Sureal.Props
open Sureal Routine Format Spec Spec.Json JsonOut Main Written

section
variable {κ : Type} [LinearOrder κ] {ppf : Fl ℝ → ℕ → Fl ℝ} {pinv : Pinv ℝ} {path : List Char} {readPy readJson : Py (Dataset κ ℝ)} {d : Dataset κ ℝ}
  {other : ModelClass → Reader κ ℝ → Py (Result κ ℝ)} {pc : List ModelClass → Py (Output (String ⊕ κ) (Fl ℝ))}

/-- one model that runs to the end -/
theorem main_one {T : String} {c : ModelClass} (hT : c.ownType = some T) (hu : Usable c) (hl : Loads path readPy readJson d) {rd : Reader κ ℝ}
    (hrd : rawReader d = .ok rd) (hdv : rd.disVideos = d.disVideos) {S : ℕ} {r : Result κ ℝ} (hg : Good other rd rd.disVideos.length S c r) :
    ∃ st out, main ppf other pc path readPy readJson [T] = .ok out ∧
      format observerName (refsOf d) [T] [resOf ppf ⟨r, d.disVideos.map (·.path), st⟩] = .ok out := by
  obtain ⟨reports, hf, hrun⟩ := runAll_good ppf other (cs := [c]) hl hrd (fun c' hcm => by
    rw [List.mem_singleton] at hcm
    subst hcm
    exact ⟨_, hg⟩)
  obtain ⟨out, hout⟩ := format_good ppf other (d := d) hf
  have hmain := main_raw ppf other pc (path := path) (readPy := readPy) (readJson := readJson)
    (models := [T]) (cs := [c]) (List.Forall₂.cons hT List.Forall₂.nil) (by simp) (by
      intro c' hcm
      rw [List.mem_singleton] at hcm
      subst hcm
      exact hu)
  rw [hrun, hout] at hmain
  rw [types_eq (models := [T]) (.cons hT .nil)] at hout
  cases hf with
  | cons h1 h3 =>
    cases h3
    rename_i rep
    obtain ⟨⟨h4, -⟩, h5⟩ := h1
    obtain ⟨res, names, st⟩ := rep
    dsimp only at h4 h5
    rw [hg.1] at h4
    cases h4
    subst h5
    refine ⟨st, out, hmain, ?_⟩
    rw [← hdv]
    exact hout

/-- what the least squares model returns: scores and biases, nothing else -/
noncomputable def lsResult (rd : Reader κ ℝ) (q b : List (Fl ℝ)) : Result κ ℝ := { qualityScores := q, observerBias := some b, observers := namesOf rd }

theorem ls_good {rd : Reader κ ℝ} {a : Arr3D (Fl ℝ)} (ha : rd.scores = .ok a) (hob : Named rd a.S) (hR : a.R = 1) (hE : 0 < a.E) :
    ∃ q b, q.length = a.E ∧ b.length = a.S ∧ runLS (@pinv) rd {} = .ok (lsResult rd q b) ∧
      Good (leastSquares (@pinv)) rd a.E a.S .LeastSquaresModel (lsResult rd q b) := by
  have hrun : ∃ q b, q.length = a.E ∧ b.length = a.S ∧ runLS (@pinv) rd {} = .ok (lsResult rd q b) := by
    have h1 : ∃ q b, q.length = a.E ∧ b.length = a.S ∧
        Ls.runModelingWith (@pinv) rd {} = .ok { qualityScores := q, observerBias := some b } := by
      unfold Ls.runModelingWith
      rw [if_neg (by simp [Flag.isTrue]), preprocess_default ha]
      dsimp only
      rw [dif_pos hR]
      unfold Ls.solve
      rw [dif_pos hE]
      exact ⟨_, _, List.length_ofFn, List.length_ofFn, rfl⟩
    obtain ⟨q, b, hq, hb, h1⟩ := h1
    exact ⟨q, b, hq, hb, runModeling_named hob (Ls.runModelingWith (@pinv)) {} rfl rfl h1 rfl⟩
  obtain ⟨q, b, hq, hb, hr⟩ := hrun
  refine ⟨q, b, hq, hb, hr, hr, ⟨none, rfl⟩, ?_, rfl⟩
  constructor <;> try (intro l h; cases h; done)
  · exact hq
  · intro l h
    cases h
    exact hb
  · intro x v sd h
    cases h
  · rfl
  · exact namesOf_length hob

/-- numbers in the output of the least squares model -/
theorem ls_numbers {rd : Reader κ ℝ} {q b : List (Fl ℝ)} {names : List String} {st : Option (RecStats ℝ)} {out : Output (String ⊕ κ) (Fl ℝ)}
    (hfmt : format observerName (refsOf d) ["LS"] [resOf ppf ⟨lsResult rd q b, names, st⟩] = .ok out) :
    (∀ i, numberIn out.disVideos i "LS" "quality_score" = q[i]?.map Cell.one) ∧
    (∀ i, numberIn out.observers i "LS" "observer_bias" = b[i]?.map Cell.one) ∧
    ((∀ x ∈ q, ∃ v, x = .fin v) → (∀ x ∈ b, ∃ v, x = .fin v) → AllFinite out) := by
  have hpl := fun i k => C69_placement_partial _ _ _ _ out hfmt (by simp) "LS" _ (List.mem_singleton_self _) i k
  refine ⟨fun i => (hpl i _).1, fun i => (hpl i _).2.1, fun hq hb => ?_⟩
  have hw := fun i T k => C69_written _ _ _ _ out hfmt i T k
  have hT : ∀ {α : Type} {x : α} {T : String} (f : Res (String ⊕ κ) (Fl ℝ) → Option α),
      ((["LS"].zip [resOf ppf ⟨lsResult rd q b, names, st⟩]).reverse.findSome? fun p => if T = p.1 then f p.2 else none)
        = some x → f (resOf ppf ⟨lsResult rd q b, names, st⟩) = some x := by
    intro α x T f hx
    simp only [List.zip_cons_cons, List.zip_nil_right, List.reverse_singleton, List.findSome?_cons, List.findSome?_nil] at hx
    by_cases hTT : T = "LS"
    · rw [if_pos hTT] at hx
      cases hfx : f (resOf ppf ⟨lsResult rd q b, names, st⟩) with
      | none => rw [hfx] at hx; exact hx
      | some y => rw [hfx] at hx; exact hx
    · rw [if_neg hTT] at hx
      cases hx
  have hone : ∀ (l : List (Fl ℝ)), (∀ x ∈ l, ∃ v, x = .fin v) → ∀ (i : ℕ) (c : Cell (Fl ℝ)), l[i]?.map Cell.one = some c → ∀ x ∈ numbersIn c, ∃ v, x = .fin v := by
    intro l hl i c hc x hx
    cases hli : l[i]? with
    | none => rw [hli] at hc; cases hc
    | some y =>
      rw [hli] at hc
      cases hc
      rw [numbersIn, List.mem_singleton] at hx
      subst hx
      exact hl _ (List.mem_of_getElem? hli)
  refine ⟨?_, ?_, ?_, ?_⟩
  · intro i T k c hcell
    rw [(hw i T k).1] at hcell
    have hval := hT (videoNumber · i k) hcell
    unfold videoNumber at hval
    split at hval
    · exact hone q hq i c hval
    · split at hval
      · cases hval
      · split at hval <;> cases hval
  · intro i T k c hcell
    rw [(hw i T k).2.1] at hcell
    have hval := hT (observerNumber · i k) hcell
    unfold observerNumber at hval
    rw [if_neg (by simp [resOf, entry, lsResult])] at hval
    split at hval
    · rename_i hk
      simp only [List.mem_cons, List.not_mem_nil, or_false] at hk
      rcases hk with rfl | rfl | rfl | rfl | rfl | rfl <;> first | cases hval; done | exact hone b hb i c hval
    · split at hval
      · rename_i hk
        simp only [List.mem_cons, List.not_mem_nil, or_false] at hk
        rcases hk with rfl | rfl <;> cases hval
      · cases hval
  · intro i T k c hcell
    rw [(hw i T k).2.2.1] at hcell
    have hval := hT (contentNumber · i k) hcell
    unfold contentNumber at hval
    rw [if_pos (by rfl)] at hval
    cases hval
  · intro T k x hcell
    rw [(hw 0 T k).2.2.2] at hcell
    have hval := hT (statNumber · k) hcell
    unfold statNumber at hval
    split at hval
    · rename_i hk
      rcases hk with rfl | rfl <;> cases hval
    · cases hval

/-- the array of the votes has one vote for each video and observer -/
theorem arr_eta (a : Arr3D (Fl ℝ)) (hR : a.R = 1) :
    a = ⟨a.E, a.S, 1, fun e s _ => a.get e s ⟨0, by rw [hR]; exact Nat.one_pos⟩⟩ := by
  obtain ⟨E, S, R, get⟩ := a
  dsimp only at hR
  subst hR
  congr 1
  funext e s r
  rw [Subsingleton.elim r ⟨0, Nat.one_pos⟩]

theorem maxReps_one {dvs : List (DisVideo κ ℝ)} (h : ∀ dv ∈ dvs, ∀ v ∈ entries dv, (votesOf v).length ≤ 1) : maxReps dvs = 1 := by
  unfold maxReps
  have : ∀ l : List ℕ, (∀ n ∈ l, n ≤ 1) → l.foldr max 1 = 1 := by
    intro l hl
    induction l with
    | nil => rfl
    | cons n l ih =>
      rw [List.foldr_cons, ih fun m hm => hl m (by simp [hm])]
      exact max_eq_right (hl n (by simp))
  refine this _ fun n hn => ?_
  obtain ⟨v, hv, rfl⟩ := List.mem_map.mp hn
  obtain ⟨dv, hdv, hv'⟩ := List.mem_flatMap.mp hv
  exact h dv hdv v hv'

/-- every entry is the entry of an observer -/
theorem entry_by (h : Readable d) {dv : DisVideo κ ℝ} (hdv : dv ∈ d.disVideos) {v : Vote ℝ} (hv : v ∈ entries dv) :
    ∃ w, IsObserver d w ∧ votesBy dv w = votesOf v := by
  rcases h.style with hs | hd
  · obtain ⟨t, l, hos⟩ := hs dv hdv
    have hent : entries dv = l := by unfold entries; rw [hos]
    obtain ⟨k, hk, hkv⟩ := List.getElem_of_mem hv
    refine ⟨.inr k, ⟨dv, hdv, ⟨t, l, hos⟩, hk⟩, ?_⟩
    subst hkv
    unfold votesBy
    simp only [hos]
    rw [List.getElem?_eq_getElem (by rw [← hent]; exact hk)]
    simp only [hent, Option.map_some, Option.getD_some]
  · obtain ⟨dd, hos, hnd⟩ := hd dv hdv
    have hent : entries dv = dd.map Prod.snd := by unfold entries; rw [hos]
    rw [hent] at hv
    obtain ⟨⟨o, v'⟩, hm, rfl⟩ := List.mem_map.mp hv
    refine ⟨.inl o, ⟨dv, hdv, ?_⟩, ?_⟩
    · unfold raters
      rw [hos]
      exact List.mem_map.mpr ⟨_, hm, rfl⟩
    · unfold votesBy
      simp only [hos]
      rw [(lookup_eq_some_iff hnd).mpr hm]
      rfl

/-- **C141, least squares.** If every observer gave one vote on every video, the program with LS ends without an error: the scores are the means of the
votes, as with MOS, and all numbers are finite. -/
theorem C141_ls (hpinv : IsPinv (@pinv)) (h : Readable d) (hl : Loads path readPy readJson d) (hw : ∃ w, IsObserver d w)
    (hv : ∀ w, IsObserver d w → ∀ dv ∈ d.disVideos, ∃ x : ℝ, votesBy dv w = [.fin x]) :
    ∃ out, main ppf (leastSquares (@pinv)) pc path readPy readJson ["LS"] = .ok out ∧ AllFinite out ∧
      ∀ (i : ℕ) (dv : DisVideo κ ℝ), d.disVideos[i]? = some dv →
        numberIn out.disVideos i "LS" "quality_score" = some (.one (meanOrNan (videoVotes dv))) := by
  obtain ⟨rd, a, hrd, hdv, ha, hE, hc, hp, hob⟩ := reads h
  obtain ⟨-, hR', hof, hto⟩ := cells_of h hrd ha
  have hR : a.R = 1 := by
    rw [hR']
    refine maxReps_one fun dv hdv v hve => ?_
    obtain ⟨w, hwo, hwv⟩ := entry_by h hdv hve
    obtain ⟨x, hx⟩ := hv w hwo dv hdv
    rw [← hwv, hx]
    simp
  have hEpos : 0 < a.E := by rw [hE]; exact List.length_pos_of_ne_nil h.wf.diss
  have hSpos : 0 < a.S := by
    obtain ⟨w, hwo⟩ := hw
    obtain ⟨s, -⟩ := hto w hwo
    exact s.pos
  have hcell : ∀ e s, ∃ x : ℝ, a.get e s ⟨0, by rw [hR]; exact Nat.one_pos⟩ = .fin x := by
    intro e s
    obtain ⟨w, hwo, hcw⟩ := hof s
    have hlt : e.val < d.disVideos.length := by rw [← hE]; exact e.isLt
    obtain ⟨x, hx⟩ := hv w hwo _ (List.getElem_mem hlt)
    refine ⟨x, ?_⟩
    rw [(hcw e _ (List.getElem?_eq_getElem hlt)).2 _, hx]
    rfl
  choose x hx using hcell
  have harr : a = ⟨a.E, a.S, 1, fun e s _ => .fin (x e s)⟩ := by
    have h1 := arr_eta a hR
    simp only [hx] at h1
    exact h1
  obtain ⟨q, b, hq, hb, hrun, hgood⟩ := ls_good (pinv := @pinv) ha hob hR hEpos
  obtain ⟨res, hres, hqual, hbias⟩ := C37_ls_equals_mos (@pinv) hpinv rd {} (by simp) a.E a.S hEpos hSpos x (mosResult rd a) (mos_run ha hob)
    (show some a = _ from congrArg some harr)
  rw [hrun] at hres
  cases hres
  change q = _ at hqual
  change some b = _ at hbias
  obtain ⟨st, out, hout, hfmt⟩ := main_one (ppf := ppf) (other := leastSquares (@pinv)) (pc := pc) (T := "LS") (c := .LeastSquaresModel) rfl
    (by decide +kernel) hl hrd hdv (S := a.S) (r := lsResult rd q b) ⟨hgood.1, hgood.2.1, Fits.cast (by rw [hE, hdv]) hgood.2.2.1, hgood.2.2.2⟩
  obtain ⟨n1, -, n3⟩ := ls_numbers hfmt
  have hqe : ∀ e : Fin a.E, meanAlongS a.get e = meanOrNan (videoCells a.get e) := fun e => meanAlongS_spec a.get _ (hc _)
  have hqi : q = List.ofFn fun e : Fin a.E => meanOrNan (videoCells a.get e) := by
    rw [hqual]
    show List.ofFn (meanAlongS a.get) = _
    congr 1
    funext e
    exact hqe e
  refine ⟨out, hout, n3 ?_ ?_, ?_⟩
  · intro y hy
    rw [hqi] at hy
    obtain ⟨e, rfl⟩ := (List.mem_ofFn' _ _).mp hy
    show ∃ v, meanOrNan (videoCells a.get e) = .fin v
    unfold meanOrNan
    split
    · rename_i hnil
      exfalso
      have : x e ⟨0, hSpos⟩ ∈ present (videoCells a.get e) := by
        rw [mem_present, ← hx]
        exact (mem_videoCells a.get e _).mpr ⟨_, _, rfl⟩
      rw [hnil] at this
      cases this
    · exact ⟨_, rfl⟩
  · intro y hy
    rw [Option.some.inj hbias] at hy
    obtain ⟨s, rfl⟩ := (List.mem_ofFn' _ _).mp hy
    exact ⟨_, rfl⟩
  · intro i dv hi
    have hlt : i < a.E := by rw [hE]; exact (List.getElem?_eq_some_iff.mp hi).1
    rw [n1, hqi, List.getElem?_ofFn, dif_pos hlt, meanOrNan_perm (l' := videoVotes dv) (hp ⟨i, hlt⟩ dv hi)]
    rfl

/-- **C141, least squares.** If nobody voted on a video twice, but a vote of an observer on a video is missing, the program with LS ends without an error and
every score is NaN. -/
theorem C141_ls_missing (h : Readable d) (hl : Loads path readPy readJson d) (h1 : ∀ dv ∈ d.disVideos, ∀ v ∈ entries dv, (votesOf v).length ≤ 1)
    (hm : ∃ w dv, IsObserver d w ∧ dv ∈ d.disVideos ∧ present (votesBy dv w) = []) :
    ∃ out, main ppf (leastSquares (@pinv)) pc path readPy readJson ["LS"] = .ok out ∧ ¬ AllFinite out ∧
      ∀ i < d.disVideos.length, numberIn out.disVideos i "LS" "quality_score" = some (.one .nan) := by
  obtain ⟨rd, a, hrd, hdv, ha, hE, hc, hp, hob⟩ := reads h
  obtain ⟨-, hR', hof, hto⟩ := cells_of h hrd ha
  have hR : a.R = 1 := by rw [hR', maxReps_one h1]
  have hEpos : 0 < a.E := by rw [hE]; exact List.length_pos_of_ne_nil h.wf.diss
  obtain ⟨w, dv, hwo, hdvm, hnil⟩ := hm
  obtain ⟨s, hs⟩ := hto w hwo
  obtain ⟨k, hk, rfl⟩ := List.getElem_of_mem hdvm
  have hkE : k < a.E := by rw [hE]; exact hk
  have hnan : a.get ⟨k, hkE⟩ s ⟨0, by rw [hR]; exact Nat.one_pos⟩ = .nan := by
    rw [(hs ⟨k, hkE⟩ _ (List.getElem?_eq_getElem hk)).2 _]
    cases hv : (votesBy d.disVideos[k] w)[0]? with
    | none => rfl
    | some y =>
      rcases hc ⟨k, hkE⟩ s ⟨0, by rw [hR]; exact Nat.one_pos⟩ with h0 | ⟨z, hz⟩
      · rw [(hs ⟨k, hkE⟩ _ (List.getElem?_eq_getElem hk)).2 _, hv] at h0
        exact h0
      · exfalso
        rw [(hs ⟨k, hkE⟩ _ (List.getElem?_eq_getElem hk)).2 _, hv] at hz
        change y = .fin z at hz
        subst hz
        have : z ∈ present (votesBy d.disVideos[k] w) := by
          rw [mem_present]
          exact List.mem_of_getElem? hv
        rw [hnil] at this
        cases this
  obtain ⟨q, b, hq, hb, hrun, hgood⟩ := ls_good (pinv := @pinv) ha hob hR hEpos
  obtain ⟨res, hres, hqual, -⟩ := C37_ls_missing_vote (@pinv) rd {} (by simp) ⟨rfl, rfl⟩ a.E a.S _ ⟨k, hkE⟩ s hnan (mosResult rd a) (mos_run ha hob)
    (show some a = _ from congrArg some (arr_eta a hR))
  rw [hrun] at hres
  cases hres
  change q = _ at hqual
  obtain ⟨st, out, hout, hfmt⟩ := main_one (ppf := ppf) (other := leastSquares (@pinv)) (pc := pc) (T := "LS") (c := .LeastSquaresModel) rfl
    (by decide +kernel) hl hrd hdv (S := a.S) (r := lsResult rd q b) ⟨hgood.1, hgood.2.1, Fits.cast (by rw [hE, hdv]) hgood.2.2.1, hgood.2.2.2⟩
  obtain ⟨n1, -, -⟩ := ls_numbers hfmt
  have hall : ∀ i < d.disVideos.length, numberIn out.disVideos i "LS" "quality_score" = some (.one .nan) := by
    intro i hi
    rw [n1, hqual, List.getElem?_replicate, if_pos (by rw [hE]; exact hi)]
    rfl
  refine ⟨out, hout, fun hf => ?_, hall⟩
  obtain ⟨v, hv⟩ := hf.videos k _ _ _ (hall k hk) .nan (by simp [numbersIn])
  cases hv

/-- **C141, least squares.** If somebody voted on a video twice, the program with LS ends with an AssertionError, prints nothing, and the file is what it was. -/
theorem C141_ls_repeated (h : Readable d) (hl : Loads path readPy readJson d) (h2 : ∃ dv ∈ d.disVideos, ∃ v ∈ entries dv, 2 ≤ (votesOf v).length)
    {name : String ⊕ κ → String} {repr : ℝ → List Char} {said : List Char} {before : Option (List Char)} :
    ending name repr before (scores ppf (@pinv) path readPy readJson ["LS"]) = ⟨some .assertion, [], before⟩ ∧
    endingDir name repr said before (scores ppf (@pinv) path readPy readJson ["LS"]) = ⟨some .assertion, [], before⟩ := by
  obtain ⟨rd, a, hrd, hdv, ha, hE, hc, hp, hob⟩ := reads h
  obtain ⟨-, hR', hof, hto⟩ := cells_of h hrd ha
  have hR : a.R ≠ 1 := by
    obtain ⟨dv, hdv, v, hv, h2⟩ := h2
    have := le_maxReps hdv hv
    omega
  have hrun := (C37_ls_refuses (@pinv) rd {}).2 (mosResult rd a) a (mos_run ha hob) rfl hR
  have hmain : main ppf (leastSquares (@pinv)) (fun _ => .error .type) path readPy readJson ["LS"] = .error .assertion := by
    obtain ⟨l1, l2⟩ := loads_read hl
    rw [main_raw ppf (leastSquares (@pinv)) _ (cs := [.LeastSquaresModel]) (List.Forall₂.cons rfl List.Forall₂.nil) (by simp) (by
      intro c hcm
      rw [List.mem_singleton] at hcm
      subst hcm
      decide +kernel)]
    unfold runAll Routine.run
    rw [l1]
    dsimp only
    rw [hrd]
    dsimp only
    have h1 : mapPy (fun m => m rd) ([ModelClass.LeastSquaresModel].map (runClass (leastSquares (@pinv)))) = .error .assertion := by
      simp only [List.map_cons, List.map_nil, mapPy]
      rw [show runClass (leastSquares (@pinv)) .LeastSquaresModel rd = .error .assertion from hrun]
    rw [h1]
  rw [scores_eq (by simp), hmain]
  exact ⟨rfl, rfl⟩

end

section
variable {ppf : Fl ℝ → ℕ → Fl ℝ} {pinv : Pinv ℝ} {path : List Char} {readPy readJson : Py (Dataset String ℝ)} {d : Dataset String ℝ}
  {repr : ℝ → List Char} {said : List Char} {before : Option (List Char)}

/-- **C141, least squares.** For votes without repetitions, the program with LS writes `output.json` and ends without an error, and the file is JSON if and only if
every observer voted on every video (and there are observers). -/
theorem C141_ls_json (hr : ∀ x, IsNumber (repr x)) (hpinv : IsPinv (@pinv)) (h : Readable d) (hl : Loads path readPy readJson d)
    (h1 : ∀ dv ∈ d.disVideos, ∀ v ∈ entries dv, (votesOf v).length ≤ 1) (hw : ∃ w, IsObserver d w) :
    ∃ t, endingDir nameText repr said before (scores ppf (@pinv) path readPy readJson ["LS"]) = ⟨none, said, some t⟩ ∧
      (IsJsonText repr t ↔ ∀ w, IsObserver d w → ∀ dv ∈ d.disVideos, ∃ x : ℝ, votesBy dv w = [.fin x]) := by
  have hfile := C141_file_partial (ppf := ppf) (pinv := @pinv) (path := path) (readPy := readPy) (readJson := readJson) (name := nameText) (repr := repr)
    (said := said) (before := before) (models := ["LS"]) (by simp)
  have key : ∀ {out}, main ppf (leastSquares (@pinv)) (fun _ => .error .type) path readPy readJson ["LS"] = .ok out →
      ∃ t, endingDir nameText repr said before (scores ppf (@pinv) path readPy readJson ["LS"]) = ⟨none, said, some t⟩ ∧ (IsJsonText repr t ↔ AllFinite out) := by
    intro out hout
    rcases hfile with ⟨out', ho', he⟩ | ⟨e, he, -⟩
    · rw [hout] at ho'
      cases ho'
      exact ⟨_, he, C140_program hr hout⟩
    · rw [hout] at he
      cases he
  by_cases hv : ∀ w, IsObserver d w → ∀ dv ∈ d.disVideos, ∃ x : ℝ, votesBy dv w = [.fin x]
  · obtain ⟨out, hout, hfin, -⟩ := C141_ls (ppf := ppf) (pc := fun _ => .error .type) hpinv h hl hw hv
    obtain ⟨t, ht, hj⟩ := key hout
    exact ⟨t, ht, fun _ => hv, fun _ => hj.mpr hfin⟩
  · have hm : ∃ w dv, IsObserver d w ∧ dv ∈ d.disVideos ∧ present (votesBy dv w) = [] := by
      push Not at hv
      obtain ⟨w, hwo, dv, hdv, hx⟩ := hv
      refine ⟨w, dv, hwo, hdv, ?_⟩
      rw [List.eq_nil_iff_forall_not_mem]
      intro x hxm
      rw [mem_present] at hxm
      have hlen : (votesBy dv w).length ≤ 1 := by
        cases w with
        | inl o =>
          unfold votesBy
          dsimp only
          split
          · rename_i dd hos
            cases ho : dd.lookup o with
            | none => simp
            | some v =>
              refine h1 dv hdv v ?_
              unfold entries
              rw [hos]
              obtain ⟨l1, l2, rfl, -⟩ := List.lookup_eq_some_iff.mp ho
              simp
          · simp
        | inr k =>
          unfold votesBy
          dsimp only
          split
          · rename_i t l hos
            cases ho : l[k]? with
            | none => simp
            | some v =>
              refine h1 dv hdv v ?_
              unfold entries
              rw [hos]
              exact List.mem_of_getElem? ho
          · simp
      match hvb : votesBy dv w, hlen, hxm with
      | [y], _, hxm =>
        rw [List.mem_singleton] at hxm
        exact hx x (by rw [hvb, hxm])
    obtain ⟨out, hout, hfin, -⟩ := C141_ls_missing (ppf := ppf) (pinv := @pinv) (pc := fun _ => .error .type) h hl h1 hm
    obtain ⟨t, ht, hj⟩ := key hout
    exact ⟨t, ht, fun hjt => absurd (hj.mp hjt) hfin, fun h => absurd h hv⟩

/-- two observers who voted on both videos: the file is JSON -/
example (hr : ∀ x, IsNumber (repr x)) : ∃ (pinv : Pinv ℝ) (t : List Char),
    endingDir nameText repr said before (scores ppf (@pinv) "scores.py".toList (.ok exComplete) (.error .assertion) ["LS"]) = ⟨none, said, some t⟩ ∧ IsJsonText repr t := by
  obtain ⟨pinv, hp⟩ := isPinv_exists (K := ℝ)
  obtain ⟨t, ht, hj⟩ := C141_ls_json (ppf := ppf) (said := said) (before := before) hr hp exComplete_readable (ex_loads _) (by
    intro dv hdv v hv
    simp only [exComplete, List.mem_cons, List.not_mem_nil, or_false] at hdv
    rcases hdv with rfl | rfl <;> simp only [entries, List.mem_cons, List.not_mem_nil, or_false] at hv <;> rcases hv with rfl | rfl <;> simp [votesOf])
    ⟨.inr 0, _, List.mem_cons_self, ⟨_, _, rfl⟩, by simp [entries]⟩
  refine ⟨pinv, t, ht, hj.mpr ?_⟩
  rintro (o | k) ⟨dv, hdv, hw⟩ dv' hdv'
  · simp only [exComplete, List.mem_cons, List.not_mem_nil, or_false] at hdv
    rcases hdv with rfl | rfl <;> simp [raters] at hw
  · have hk : k < 2 := by
      simp only [exComplete, List.mem_cons, List.not_mem_nil, or_false] at hdv
      rcases hdv with rfl | rfl <;> exact hw.2
    simp only [exComplete, List.mem_cons, List.not_mem_nil, or_false] at hdv'
    interval_cases k <;> rcases hdv' with rfl | rfl <;> exact ⟨_, rfl⟩

/-- a vote is missing: the program ends as if nothing had happened and the file is not JSON -/
example (hr : ∀ x, IsNumber (repr x)) : ∃ (pinv : Pinv ℝ) (t : List Char),
    endingDir nameText repr said before (scores ppf (@pinv) "scores.py".toList (.ok exScarce) (.error .assertion) ["LS"]) = ⟨none, said, some t⟩ ∧ ¬ IsJsonText repr t := by
  obtain ⟨pinv, hp⟩ := isPinv_exists (K := ℝ)
  obtain ⟨t, ht, hj⟩ := C141_ls_json (ppf := ppf) (said := said) (before := before) hr hp exScarce_readable (ex_loads _) (by
    intro dv hdv v hv
    simp only [exScarce, List.mem_cons, List.not_mem_nil, or_false] at hdv
    rcases hdv with rfl | rfl <;> simp only [entries, List.mem_cons, List.not_mem_nil, or_false] at hv <;> rcases hv with rfl | rfl <;> simp [votesOf])
    ⟨.inr 0, _, List.mem_cons_self, ⟨_, _, rfl⟩, by simp [entries]⟩
  refine ⟨pinv, t, ht, fun h => ?_⟩
  obtain ⟨x, hx⟩ := hj.mp h (.inr 1) ⟨_, List.mem_cons_self, ⟨_, _, rfl⟩, by simp [entries]⟩ _ (List.mem_cons_of_mem _ List.mem_cons_self)
  have : [Fl.nan] = [Fl.fin x] := hx
  cases this

/-- one video with two votes of an observer -/
def exRevoted : Dataset String ℝ :=
  { refVideos := [⟨0, "r0", []⟩]
    disVideos := [{ contentId := 0, assetId := 0, path := "r0", os := some (.dict [("a", .many .list [.fin 4, .fin 5]), ("b", .one (.fin 2))]) }] }

theorem exRevoted_readable : Readable exRevoted where
  wf := by
    refine ⟨by simp [exRevoted], by simp [exRevoted], by simp [exRevoted], by simp [exRevoted], ?_, ?_⟩
    · intro dv hdv
      rw [List.mem_singleton.mp hdv]
      exact ⟨_, rfl, by simp⟩
    · intro d0 h0 hs
      cases h0
      obtain ⟨t, l, h⟩ := hs
      cases h
  style := by
    right
    intro dv hdv
    rw [List.mem_singleton.mp hdv]
    exact ⟨_, rfl, by simp⟩
  single := by
    intro dv hdv xs hx
    rw [List.mem_singleton.mp hdv] at hx
    simp [entries] at hx
  clean := by
    intro dv hdv x hx
    rw [List.mem_singleton.mp hdv] at hx
    simp [videoVotes, entries, votesOf] at hx
    rcases hx with rfl | rfl | rfl <;> exact Or.inr ⟨_, rfl⟩

/-- the file is left as it was -/
example : endingDir nameText repr said (some "{}".toList) (scores ppf (@pinv) "scores.py".toList (.ok exRevoted) (.error .assertion) ["LS"]) =
    ⟨some .assertion, [], some "{}".toList⟩ :=
  (C141_ls_repeated exRevoted_readable (ex_loads _) ⟨_, List.mem_cons_self, _, List.mem_cons_self, by simp [votesOf]⟩).2

end

end Sureal.Props
