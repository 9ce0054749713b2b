import Verif.Props.Bstp
/-! # C90: the intervals of observer bias and inconsistency -/
set_option linter.unusedSectionVars false
namespace Sureal.Props
open Sureal Spec Mock
variable {κ K : Type} [LinearOrder κ] [Field K] [LinearOrder K] [IsStrictOrderedRing K] [MathFn K]

/-- **C90, partial.** The intervals of the biases and inconsistencies, when the numbers reported are finite, every video's asset
id is its position, and no draw of videos loses an observer: their ends are the 2.5% and the 97.5% quantile of the estimates
from `N` draws of videos.  The estimates are those of the model without bootstrapping under the same options; biases are moved
so that the drawn videos have the same mean score as with all videos.

Missing: other asset ids (`C90_refuted_ids`, `C90_refuted_missing`) and draws that lose an observer (`C90_refuted_observer`). -/
theorem C90_observer_intervals_partial (mode : Mle.Mode) (hmode : mode ≠ .subjectOblivious) (choice : ℕ → ℕ → List Int)
    (d : Dataset κ K) (o : Mle.Opts K) (hn : o.base.normalizeFinal = none) (ht : o.base.transformFinal = none)
    (kw : Bstp.Kw) (hkw : kw.boostrapDisVideos ≠ some false) (N : ℕ) (hN : kw.nBootstrap.getD 30 = N)
    (out : Bstp.Out κ K) (h : Bstp.run mode choice d o kw = .ok out)
    (hch : ∀ i, IsResample d.disVideos.length (choice i d.disVideos.length))
    (hid : ∀ (j : ℕ) dv, d.disVideos[j]? = some dv → dv.assetId = j)
    (β x w : List K) (hβ : out.res.observerBias = some (β.map Fl.fin)) (hx : out.res.qualityScores = x.map Fl.fin)
    (hw : out.res.observerInconsistency = some (w.map Fl.fin)) :
    ∃ (panel : ℕ → Reader κ K) (fit : ℕ → Result κ K) (lo hi vlo vhi : List (Fl K)),
      out.biasCi95 = some (lo, hi) ∧ out.inconsistencyCi95 = some (vlo, vhi) ∧
      (∀ i, i < N → (panel i).dataset = d ∧
        List.Forall₂ (fun j dv => d.disVideos[j.toNat]? = some dv) (choice i d.disVideos.length) (panel i).disVideos ∧
        (∃ rd0, rawReader { d with disVideos := (panel i).disVideos } = .ok rd0 ∧ (panel i).scores = rd0.scores ∧
          (panel i).observers = rd0.observers) ∧
        Mle.run mode (panel i) o = .ok (fit i)) ∧
      ∀ b q v : ℕ → List K,
        (∀ i, i < N → (fit i).observerBias = some ((b i).map Fl.fin) ∧ (fit i).qualityScores = (q i).map Fl.fin ∧
          (fit i).observerInconsistency = some ((v i).map Fl.fin) ∧ (b i).length = β.length) →
        (∃ ys : ℕ → List K, (∀ i, i < N → Aligned (choice i d.disVideos.length) x (q i) (b i) (ys i)) ∧
          ∀ (s : ℕ) (bs : K), β[s]? = some bs → ∃ l u : K, lo[s]? = some (.fin l) ∧ hi[s]? = some (.fin u) ∧
            Quantile 25 1000 ((List.range N).map fun i => ((ys i)[s]?).getD 0) (bs - l) ∧
            Quantile 975 1000 ((List.range N).map fun i => ((ys i)[s]?).getD 0) (bs + u)) ∧
        ∀ (s : ℕ) (ws : K), w[s]? = some ws → ∃ l u : K, vlo[s]? = some (.fin l) ∧ vhi[s]? = some (.fin u) ∧
          Quantile 25 1000 ((List.range N).map fun i => ((v i)[s]?).getD 0) (ws - l) ∧
          Quantile 975 1000 ((List.range N).map fun i => ((v i)[s]?).getD 0) (ws + u) := by
  obtain ⟨rd, r00, _, _, _, _, _, hraw, h00, -⟩ := Bstp.run_inv h
  obtain ⟨hass, hrd⟩ := rawReader_inv hraw
  have hdv : rd.disVideos = d.disVideos := by rw [hrd]
  have hne : d.disVideos ≠ [] := ((C01_accepts_iff_wellFormed d).mp hass).diss
  have hE : 0 < d.disVideos.length := List.length_pos_iff.mpr hne
  -- lengths of the reported lists
  have hlens : x.length = d.disVideos.length := by
    obtain ⟨rd', r, hrd', hrun, ⟨ci', rc, ll, aic, bic, hout⟩, -⟩ := C88_estimates mode hmode choice d o kw out h
    rw [hraw] at hrd'
    cases hrd'
    obtain ⟨E, S, x1, b1, m, r', ⟨a, ha, hEE, hSS⟩, hq0, hb0, -, hm, hr', hf, htt⟩ := Bstp.unforce hmode h00
    have ha' : opinionScores d.disVideos = .ok a := by rw [hrd] at ha; exact ha
    have haE := opinionScores_E ha'
    have hrun' := Mle.run_of_rm hr'
    rw [postprocess_none hn ht, hrun] at hrun'
    have hb : r.qualityScores = r'.qualityScores := by cases hrun'; rfl
    rw [hout] at hx
    dsimp only at hx
    rw [hb] at hx
    have : ∃ b2 : Fin E → Fl K, r'.qualityScores = List.ofFn b2 := by
      cases hfo : Ap.forced o.base with
      | false => rw [hf hfo]; exact ⟨_, hq0⟩
      | true =>
        obtain ⟨⟨_, _, _, _, hr1⟩, -⟩ := htt hfo
        rw [hr1]; exact ⟨_, rfl⟩
    obtain ⟨b2, hb2⟩ := this
    rw [hb2] at hx
    have := congrArg List.length hx
    simp only [List.length_ofFn, List.length_map] at this
    omega
  have hxne : x ≠ [] := by
    rintro rfl
    simp at hlens; omega
  obtain ⟨r0, nSubj, M, β0, x0, h0, hno, hpos, -, hv, hb0, hq0, hβ0, hx0, hinc⟩ :=
    parts mode hmode h hn ht hraw (Or.inr hxne) hβ hx
  rw [hw] at hinc
  have hNN : (kw.nBootstrap.getD 30).toNat = N := by rw [hN]; simp
  rw [hNN, hdv] at hv
  have hflag : kw.boostrapDisVideos.getD true = true := by
    rcases hk : kw.boostrapDisVideos with _ | (_ | _)
    · rfl
    · exact absurd hk hkw
    · rfl
  unfold Bstp.videosCi at hv
  rw [hflag, if_pos rfl] at hv
  unfold Bstp.bootstrapVideos at hv
  rw [hq0] at hv
  cases hmap : mapPy (fun i => Bstp.videosPass mode d (Bstp.unforced o) (x0.map Fl.fin) (choice i d.disVideos.length)) (List.range N) with
  | error e => rw [hmap] at hv; cases hv
  | ok rows =>
    rw [hmap] at hv
    dsimp only at hv
    rw [hb0, ← hinc] at hv
    dsimp only at hv
    obtain ⟨g, hrows, hg⟩ := Bstp.mapPy_range ([], []) hmap
    have hpass : ∀ i, ∃ (rd' : Reader κ K) (r' fit' : Result κ K), i < N →
        (rd'.dataset = d ∧
        List.Forall₂ (fun j dv => d.disVideos[j.toNat]? = some dv) (choice i d.disVideos.length) rd'.disVideos ∧
        (∃ rd0, rawReader { d with disVideos := rd'.disVideos } = .ok rd0 ∧ rd'.scores = rd0.scores ∧
          rd'.observers = rd0.observers)) ∧
        Mle.runModelingWith mode rd' (Bstp.unforced o) = .ok r' ∧ Mle.runModelingWith mode rd' o = .ok fit' ∧
        r'.qualityScores.length = d.disVideos.length ∧ fit'.observerInconsistency = r'.observerInconsistency ∧
        fit'.qualityScores.length = r'.qualityScores.length ∧
        ∃ (b vv : List (Fl K)) (off : Fl K), r'.observerBias = some b ∧ r'.observerInconsistency = some vv ∧ vv.length = b.length ∧
          Bstp.offset r'.qualityScores (x0.map Fl.fin) (choice i d.disVideos.length) = .ok off ∧
          g i = (b.map fun y => y + off, vv) := by
      intro i
      by_cases hi : i < N
      · have hgi := hg i hi
        unfold Bstp.videosPass at hgi
        cases hsel : selectDisVideoReader d (some (choice i d.disVideos.length)) with
        | error e => rw [hsel] at hgi; cases hgi
        | ok rd' =>
          rw [hsel] at hgi
          dsimp only at hgi
          cases hr' : Mle.runModelingWith mode rd' (Bstp.unforced o) with
          | error e => rw [hr'] at hgi; cases hgi
          | ok r' =>
            rw [hr'] at hgi
            dsimp only at hgi
            obtain ⟨dvs, rd0, p1, p2, p3, p4, p5, p6, p7⟩ := (C73_selected_videos d _ rd').mp hsel
            have hF : List.Forall₂ (fun (j : Int) dv => d.disVideos[j.toNat]? = some dv) (choice i d.disVideos.length) dvs := by
              refine p1.imp ?_
              rintro j dv ⟨k, hk, hj, -⟩
              have := hid k dv hk
              have hjk : j.toNat = k := by omega
              rw [hjk]; exact hk
            have hlen : dvs.length = d.disVideos.length := by rw [← hF.length_eq, (hch i).1]
            obtain ⟨E, S, x1, b1, m, fit', ⟨a, ha, hEE, hSS⟩, hq1, hb1, ⟨v1, hv1⟩, hm, hfit, hf, htt⟩ := Bstp.unforce hmode hr'
            obtain ⟨-, hrd0⟩ := rawReader_inv p2
            have haE : a.E = dvs.length := by
              rw [p6, hrd0] at ha
              exact opinionScores_E ha
            rw [hb1, hv1] at hgi
            cases hoff : Bstp.offset r'.qualityScores (x0.map Fl.fin) (choice i d.disVideos.length) with
            | error e => rw [hoff] at hgi; cases hgi
            | ok off =>
              rw [hoff] at hgi
              have hgi' := (Except.ok.inj hgi).symm
              refine ⟨rd', r', fit', fun _ => ⟨⟨p4, by rw [p5]; exact hF, rd0, by rw [p5]; exact p2, p6, p7⟩, hr', hfit, ?_, ?_, ?_, _, _, off, hb1, hv1, ?_, hoff, hgi'⟩⟩
              · rw [hq1, List.length_ofFn, ← hEE, haE, hlen]
              · cases hfo : Ap.forced o.base with
                | false => rw [hf hfo]
                | true => obtain ⟨⟨_, _, _, _, hr1⟩, -⟩ := htt hfo; rw [hr1]
              · cases hfo : Ap.forced o.base with
                | false => rw [hf hfo]
                | true =>
                  obtain ⟨⟨_, _, _, _, hr1⟩, -⟩ := htt hfo
                  rw [hr1, hq1]; simp
              · simp
      · exact ⟨rd, r0, r0, fun h => absurd h hi⟩
    choose panel fit0 fit hP using hpass
    have hrun : ∀ i, i < N → Mle.run mode (panel i) o = .ok (fit i) := by
      intro i hi
      have := Mle.run_of_rm (hP i hi).2.2.1
      rw [postprocess_none hn ht] at this
      exact this
    cases hint : Bstp.interval (β0.map Fl.fin) (rows.map Prod.fst) with
    | error e => rw [hint] at hv; cases hv
    | ok ci =>
      rw [hint] at hv
      dsimp only at hv
      cases hint2 : Bstp.interval (w.map Fl.fin) (rows.map Prod.snd) with
      | error e => rw [hint2] at hv; cases hv
      | ok cv =>
        rw [hint2] at hv
        dsimp only at hv
        have hv' := Except.ok.inj hv
        have hv1 := (congrArg Prod.fst hv').symm
        have hv2 := (congrArg Prod.snd hv').symm
        dsimp only at hv1 hv2
        refine ⟨panel, fit, ci.1, ci.2, cv.1, cv.2, hv1, hv2, fun i hi => ?_, ?_⟩
        · obtain ⟨⟨p1, p2, p3⟩, -⟩ := hP i hi
          exact ⟨p1, p2, p3, hrun i hi⟩
        · intro b q v hbq
          have hNpos : 0 < N := by omega
          have hwl : w.length = β0.length := by
            obtain ⟨E, S, x1, b1, m, fit', -, -, hb1, ⟨v1, hv1⟩, -⟩ := Bstp.unforce hmode h0
            rw [hb1] at hb0
            rw [hv1] at hinc
            have e1 := congrArg List.length (Option.some.inj hb0)
            have e2 := congrArg List.length (Option.some.inj hinc)
            simp only [List.length_ofFn, List.length_map] at e1 e2
            omega
          have hfin : ∀ i, ∃ (m c : K) (b0 q0 : List K), i < N → g i = ((b0.map (· + c)).map Fl.fin, (v i).map Fl.fin) ∧
              b i = b0.map (· - m) ∧ q i = q0.map (· + m) ∧ b0.length = β0.length ∧ q0.length = d.disVideos.length ∧
              (v i).length = β0.length ∧
              (q0.map (· - c)).sum = ((choice i d.disVideos.length).map fun x => (x0[x.toNat]?).getD 0).sum := by
            intro i
            by_cases hi : i < N
            · obtain ⟨-, h1, h2, h3, h4, h4', bb, vv, off, h5, h6, h6', h7, h8⟩ := hP i hi
              obtain ⟨hb', hq', hvi, hbl⟩ := hbq i hi
              have hqne : b i ≠ [] ∨ q i ≠ [] := by
                right
                intro hnil
                rw [hq', hnil] at h4'
                simp at h4'; omega
              obtain ⟨m, b0, q0, e1, e2, e3, e4, -⟩ := Bstp.finite_parts hmode h1 h2 hqne hb' hq'
              rw [h5] at e1
              have e1' := Option.some.inj e1
              have hq0l : q0.length = d.disVideos.length := by
                rw [e2, List.length_map] at h3; exact h3
              rw [e2] at h7
              obtain ⟨c, hc, hsum⟩ := Bstp.offset_fin (by rw [hq0l, (hch i).1])
                (by rintro rfl; simp at hq0l; omega) h7
              have hvv : vv = (v i).map Fl.fin := by
                rw [h4, h6] at hvi
                exact Option.some.inj hvi
              have hb0l : b0.length = β0.length := by
                rw [e3, hβ0, List.length_map, List.length_map] at hbl; exact hbl
              refine ⟨m, c, b0, q0, fun _ => ⟨?_, e3, e4, hb0l, hq0l, ?_, hsum⟩⟩
              · rw [h8, e1', hc, hvv, List.map_map, List.map_map]; rfl
              · rw [hvv, e1', List.length_map, List.length_map] at h6'; omega
            · exact ⟨0, 0, [], [], fun h => absurd h hi⟩
          choose m c b0 q0 hF using hfin
          have hrne : rows ≠ [] := by
            rw [hrows]
            intro hnil
            have := congrArg List.length hnil
            simp at this; omega
          have hx0l : x0.length = d.disVideos.length := by rw [hx0, List.length_map] at hlens; exact hlens
          constructor
          · refine ⟨fun i => ((b0 i).map (· + c i)).map (· + -M), ?_, ?_⟩
            · intro i hi
              obtain ⟨f1, f2, f3, f4, f5, f5', f6⟩ := hF i hi
              have := Bstp.aligned_shift (other0 := b0 i) (m := -m i) (M := -M) (hch i) hx0l (by rw [f5, (hch i).1]) f6
              simp only [sub_neg_eq_add] at this
              rw [f2, f3, hx0]
              simp only [sub_eq_add_neg]
              exact this
            · intro s bs hbs
              have hbs' : (β0.map (· - M))[s]? = some bs := by rw [← hβ0]; exact hbs
              rw [List.getElem?_map, Option.map_eq_some_iff] at hbs'
              obtain ⟨bs0, hbs0, rfl⟩ := hbs'
              have hsS : s < β0.length := (List.getElem?_eq_some_iff.mp hbs0).1
              have hcol : ((rows.map Prod.fst).map fun r => (r[s]?).getD Fl.nan) =
                  ((List.range N).map fun i => (((b0 i).map (· + c i))[s]?).getD 0).map Fl.fin := by
                rw [hrows, List.map_map, List.map_map, List.map_map]
                apply List.map_congr_left
                intro i hi
                obtain ⟨f1, f2, f3, f4, f5, f5', f6⟩ := hF i (List.mem_range.mp hi)
                have hl : s < (b0 i).length := by omega
                simp [f1, List.getElem?_eq_getElem hl]
              have hlr : ∀ r ∈ rows.map Prod.fst, r.length = (β0.map (Fl.fin : K → Fl K)).length := by
                intro r hr
                rw [hrows, List.map_map] at hr
                obtain ⟨i, hi, rfl⟩ := List.mem_map.mp hr
                obtain ⟨f1, f2, f3, f4, f5, f5', f6⟩ := hF i (List.mem_range.mp hi)
                simp [f1, f4]
              obtain ⟨l, u, h1, h2, h3, h4⟩ := Bstp.interval_fin (by simpa using hrne) hlr hint (e := s) (x := bs0)
                (by rw [List.getElem?_map, hbs0]; rfl) hcol
              have hys : ((List.range N).map fun i => ((((b0 i).map (· + c i)).map (· + -M))[s]?).getD 0) =
                  ((List.range N).map fun i => (((b0 i).map (· + c i))[s]?).getD 0).map (· + -M) := by
                rw [List.map_map]
                apply List.map_congr_left
                intro i hi
                obtain ⟨f1, f2, f3, f4, f5, f5', f6⟩ := hF i (List.mem_range.mp hi)
                have hl : s < (b0 i).length := by omega
                simp only [Function.comp]
                rw [List.getElem?_map, List.getElem?_map, List.getElem?_eq_getElem hl]
                rfl
              refine ⟨l, u, h1, h2, ?_, ?_⟩
              · rw [hys, show bs0 - M - l = (bs0 - l) + -M by ring]
                exact Bstp.Quantile.shift (-M) h3
              · rw [hys, show bs0 - M + u = (bs0 + u) + -M by ring]
                exact Bstp.Quantile.shift (-M) h4
          · intro s ws hws
            have hsS : s < β0.length := by
              have := (List.getElem?_eq_some_iff.mp hws).1
              omega
            have hcol : ((rows.map Prod.snd).map fun r => (r[s]?).getD Fl.nan) =
                ((List.range N).map fun i => ((v i)[s]?).getD 0).map Fl.fin := by
              rw [hrows, List.map_map, List.map_map, List.map_map]
              apply List.map_congr_left
              intro i hi
              obtain ⟨f1, f2, f3, f4, f5, f5', f6⟩ := hF i (List.mem_range.mp hi)
              have hl : s < (v i).length := by omega
              simp [f1, List.getElem?_eq_getElem hl]
            have hlr : ∀ r ∈ rows.map Prod.snd, r.length = (w.map (Fl.fin : K → Fl K)).length := by
              intro r hr
              rw [hrows, List.map_map] at hr
              obtain ⟨i, hi, rfl⟩ := List.mem_map.mp hr
              obtain ⟨f1, f2, f3, f4, f5, f5', f6⟩ := hF i (List.mem_range.mp hi)
              simp [f1, f5', hwl]
            exact Bstp.interval_fin (by simpa using hrne) hlr hint2 (e := s) (x := ws)
              (by rw [List.getElem?_map, hws]; rfl) hcol

end Sureal.Props
