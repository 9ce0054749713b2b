import Verif.Props.Corrupt
/-! # C54: synthetic data -/
set_option linter.unusedSectionVars false
namespace Sureal.Props
open Spec Mock
variable {κ K : Type} [LinearOrder κ] [Field K] [LinearOrder K] [IsStrictOrderedRing K]

/-- The parameters of a synthetic reader given as plain numbers. -/
def synthKw (q b sg mu dl : List K) (phi : Option (List K)) : SynthKw K :=
  ⟨some (q.map .fin), some (b.map .fin), some (sg.map .fin), some (mu.map .fin), some (dl.map .fin),
    phi.map fun l => l.map .fin⟩

theorem item_map {l : List K} {i : ℕ} {x : K} (h : l[i]? = some x) : item (l.map Fl.fin) i = .fin x := by
  unfold item
  rw [List.getD_eq_getElem?_getD, List.getElem?_map, h]
  rfl

theorem item_of {l : List (Fl K)} {i : ℕ} {x : Fl K} (h : l[i]? = some x) : item l i = x := by
  unfold item
  rw [List.getD_eq_getElem?_getD, h]
  rfl

theorem atContent_ok {l : List K} {c : Int} (h0 : 0 ≤ c) (h1 : c < l.length) :
    ∃ x, l[c.toNat]? = some x ∧ atContent (l.map Fl.fin) c = .ok (.fin x) := by
  have hlt : c.toNat < l.length := by omega
  refine ⟨l[c.toNat], List.getElem?_eq_getElem hlt, ?_⟩
  unfold atContent
  rw [if_pos (by simpa using And.intro h0 h1)]
  rw [List.getD_eq_getElem?_getD, List.getElem?_map, List.getElem?_eq_getElem hlt]
  rfl

theorem atContent_error {l : List K} {c : Int} (h1 : (l.length : Int) ≤ c) :
    atContent (l.map Fl.fin) c = .error .index := by
  unfold atContent
  rw [if_neg]
  rw [List.length_map]
  omega

/-- the array of the generative model -/
theorem synthetic_ok (sc : K) (hsc : sc ≠ 0) (g : ℕ → K) (cids : List Int) (q b sg mu dl : List K)
    (phi : Option (List K)) (hq : q.length = cids.length) (hsg : sg.length = b.length) (hdl : dl.length = mu.length)
    (hphi : ∀ l ∈ phi, l.length = cids.length) (hc : ∀ c ∈ cids, 0 ≤ c ∧ c < mu.length) :
    ∃ arr, synthetic (.fin sc) g cids (q.map .fin) (b.map .fin) (sg.map .fin) (mu.map .fin) (dl.map .fin)
        (phi.map fun l => l.map .fin) = .ok arr ∧ arr.E = cids.length ∧ arr.S = b.length ∧ arr.R = 1 ∧
      ∀ (e s : ℕ) (c : Int) qe bs sgs m dc, cids[e]? = some c → q[e]? = some qe → b[s]? = some bs →
        sg[s]? = some sgs → mu[c.toNat]? = some m → dl[c.toNat]? = some dc →
        cell arr e s 0 = some (.fin (qe + (bs + g (e * b.length + s) * (sgs / sc))
          + (m + g (cids.length * b.length + (e * b.length + s)) * (dc / sc))
          + ambiguityNoise phi (g (2 * (cids.length * b.length) + (e * b.length + s))) e)) := by
  have h1 : mapPy (atContent (mu.map Fl.fin)) cids = .ok (cids.map fun c => .fin (mu.getD c.toNat 0)) := by
    apply mapPy_ok
    intro c hcm
    obtain ⟨x, hx, h⟩ := atContent_ok (l := mu) (hc c hcm).1 (hc c hcm).2
    rw [h, List.getD_eq_getElem?_getD, hx]
    rfl
  have h2 : mapPy (atContent (dl.map Fl.fin)) cids = .ok (cids.map fun c => .fin (dl.getD c.toNat 0)) := by
    apply mapPy_ok
    intro c hcm
    obtain ⟨x, hx, h⟩ := atContent_ok (l := dl) (hc c hcm).1 (by rw [hdl]; exact (hc c hcm).2)
    rw [h, List.getD_eq_getElem?_getD, hx]
    rfl
  have hz : ∀ (e s : ℕ) (c : Int) qe bs sgs m dc, cids[e]? = some c → q[e]? = some qe → b[s]? = some bs →
        sg[s]? = some sgs → mu[c.toNat]? = some m → dl[c.toNat]? = some dc →
      item (q.map Fl.fin) e + (item (b.map Fl.fin) s + .fin (g (e * b.length + s)) * (item (sg.map Fl.fin) s / .fin sc))
        + (item (cids.map fun c => .fin (mu.getD c.toNat 0)) e +
          .fin (g (cids.length * b.length + (e * b.length + s))) *
            (item (cids.map fun c => .fin (dl.getD c.toNat 0)) e / .fin sc)) =
      .fin (qe + (bs + g (e * b.length + s) * (sgs / sc))
          + (m + g (cids.length * b.length + (e * b.length + s)) * (dc / sc))) := by
    intro e s c qe bs sgs m dc hce hqe hbs hsgs hm hd
    rw [item_map hqe, item_map hbs, item_map hsgs,
      item_of (x := .fin m) (by rw [List.getElem?_map, hce, Option.map_some, List.getD_eq_getElem?_getD, hm]; rfl),
      item_of (x := .fin dc) (by rw [List.getElem?_map, hce, Option.map_some, List.getD_eq_getElem?_getD, hd]; rfl)]
    simp only [Fl.fin_div hsc, Fl.fin_mul, Fl.fin_add]
  unfold synthetic
  rw [h1, h2]
  dsimp only
  cases phi with
  | none =>
    refine ⟨_, rfl, rfl, by simp, rfl, ?_⟩
    intro e s c qe bs sgs m dc hce hqe hbs hsgs hm hd
    have he := (List.getElem?_eq_some_iff.mp hce).1
    have hs := (List.getElem?_eq_some_iff.mp hbs).1
    have hsS : s < (b.map Fl.fin).length := by simpa using hs
    refine (cell_of_lt (Arr3D.mk _ _ _ _) he hsS (by decide : 0 < 1)).trans ?_
    refine congrArg some ?_
    simp only [List.length_map, ambiguityNoise, add_zero]
    exact hz e s c qe bs sgs m dc hce hqe hbs hsgs hm hd
  | some l =>
    have hl := hphi l rfl
    dsimp only [Option.map_some]
    rw [if_pos (by simpa using hl)]
    refine ⟨_, rfl, rfl, by simp, rfl, ?_⟩
    intro e s c qe bs sgs m dc hce hqe hbs hsgs hm hd
    have he := (List.getElem?_eq_some_iff.mp hce).1
    have hs := (List.getElem?_eq_some_iff.mp hbs).1
    have hsS : s < (b.map Fl.fin).length := by simpa using hs
    refine (cell_of_lt (Arr3D.mk _ _ _ _) he hsS (by decide : 0 < 1)).trans ?_
    refine congrArg some ?_
    simp only [List.length_map]
    rw [hz e s c qe bs sgs m dc hce hqe hbs hsgs hm hd]
    have hle : l[e]? = some (l.getD e 0) := by
      rw [List.getD_eq_getElem?_getD, List.getElem?_eq_getElem (by omega)]
      rfl
    rw [item_map hle, Fl.fin_mul, Fl.fin_add, two_mul]
    rfl

theorem synthOk_iff {nv nr : ℕ} {q b sg mu dl : List (Fl K)} : synthOk nv nr q b sg mu dl = true ↔
    sg.length = b.length ∧ dl.length = mu.length ∧ q.length = nv ∧ mu.length = nr := by
  simp [synthOk, and_assoc]

/-- **C54.** With rightly sized parameters and content ids below the number of reference videos, the synthetic array is
`q_e + (b_s + n1 * sigma_s) + (mu_c(e) + n2 * delta_c(e))`, plus `n3 * phi_e` if `quality_ambiguity` is given.  The three
noise terms of each cell are three different draws, and different cells use different draws. -/
theorem C54_model (d : Dataset κ K) (rd : Reader κ K) (hraw : rawReader d = .ok rd) (g : ℕ → K)
    (q b sg mu dl : List K) (phi : Option (List K)) (hq : q.length = d.disVideos.length)
    (hsg : sg.length = b.length) (hmu : mu.length = d.refVideos.length) (hdl : dl.length = mu.length)
    (hphi : ∀ l ∈ phi, l.length = d.disVideos.length)
    (hc : ∀ dv ∈ d.disVideos, 0 ≤ dv.contentId ∧ dv.contentId < d.refVideos.length) :
    ∃ rd' arr, syntheticReader d (synthKw q b sg mu dl phi) g = .ok rd' ∧ rd'.dataset = d ∧
      rd'.disVideos = rd.disVideos ∧ rd'.observers = rd.observers ∧ rd'.scores = .ok arr ∧
      arr.E = d.disVideos.length ∧ arr.S = b.length ∧ arr.R = 1 ∧
      ∀ (e s : ℕ) dv qe bs sgs m dc, d.disVideos[e]? = some dv → q[e]? = some qe → b[s]? = some bs →
        sg[s]? = some sgs → mu[dv.contentId.toNat]? = some m → dl[dv.contentId.toNat]? = some dc →
        cell arr e s 0 = some (.fin (qe + (bs + g (e * b.length + s) * sgs)
          + (m + g (d.disVideos.length * b.length + (e * b.length + s)) * dc)
          + ambiguityNoise phi (g (2 * (d.disVideos.length * b.length) + (e * b.length + s))) e)) := by
  obtain ⟨arr, ha, e1, e2, e3, hcell⟩ := synthetic_ok (1 : K) one_ne_zero g (contentIdOfDisVideos d.disVideos) q b sg mu dl
    phi (by simpa [contentIdOfDisVideos] using hq) hsg hdl (by simpa [contentIdOfDisVideos] using hphi) (by
      intro c hcm
      obtain ⟨dv, hdv, rfl⟩ := List.mem_map.mp hcm
      have := hc dv hdv
      omega)
  have hlen : (contentIdOfDisVideos d.disVideos).length = d.disVideos.length := by simp [contentIdOfDisVideos]
  refine ⟨{ rd with scores := .ok arr }, arr, ?_, (rawReader_inv hraw).2 ▸ rfl, rfl, rfl, rfl, by rw [e1, hlen], e2, e3, ?_⟩
  · unfold syntheticReader
    rw [hraw]
    dsimp only [synthKw]
    rw [if_pos (synthOk_iff.mpr (by simp [*]))]
    rw [Fl.one_def, ha]
  · intro e s dv qe bs sgs m dc hdv hqe hbs hsgs hm hd
    have := hcell e s dv.contentId qe bs sgs m dc (by simp [contentIdOfDisVideos, hdv]) hqe hbs hsgs hm hd
    simpa only [div_one, hlen] using this

/-- **C54.** Without noise scales the array is exactly additive. -/
theorem C54_additive (d : Dataset κ K) (rd : Reader κ K) (hraw : rawReader d = .ok rd) (g : ℕ → K)
    (q b mu : List K) (hq : q.length = d.disVideos.length) (hmu : mu.length = d.refVideos.length)
    (hc : ∀ dv ∈ d.disVideos, 0 ≤ dv.contentId ∧ dv.contentId < d.refVideos.length) :
    ∃ rd' arr, syntheticReader d (synthKw q b (b.map fun _ => 0) mu (mu.map fun _ => 0) none) g = .ok rd' ∧
      rd'.scores = .ok arr ∧ arr.E = d.disVideos.length ∧ arr.S = b.length ∧ arr.R = 1 ∧
      ∀ (e s : ℕ) dv qe bs m, d.disVideos[e]? = some dv → q[e]? = some qe → b[s]? = some bs →
        mu[dv.contentId.toNat]? = some m → cell arr e s 0 = some (.fin (qe + bs + m)) := by
  obtain ⟨rd', arr, h1, -, -, -, h2, h3, h4, h5, h6⟩ := C54_model d rd hraw g q b (b.map fun _ => 0) mu
    (mu.map fun _ => 0) none hq (by simp) hmu (by simp) (by simp) hc
  refine ⟨rd', arr, h1, h2, h3, h4, h5, ?_⟩
  intro e s dv qe bs m hdv hqe hbs hm
  rw [h6 e s dv qe bs 0 m 0 hdv hqe hbs (by rw [List.getElem?_map, hbs]; rfl) hm (by rw [List.getElem?_map, hm]; rfl)]
  simp [ambiguityNoise]

/-- **C54, logistic variant**: the same with noise divided by `sc` (= π/√3), if `quality_ambiguity` is not given; if it is,
reading the array raises. -/
theorem C54_logistic (d : Dataset κ K) (rd : Reader κ K) (hraw : rawReader d = .ok rd) (g : ℕ → K) (sc : K) (hsc : sc ≠ 0)
    (q b sg mu dl : List K) (hq : q.length = d.disVideos.length)
    (hsg : sg.length = b.length) (hmu : mu.length = d.refVideos.length) (hdl : dl.length = mu.length)
    (hc : ∀ dv ∈ d.disVideos, 0 ≤ dv.contentId ∧ dv.contentId < d.refVideos.length) :
    (∃ rd' arr, logisticReader (.fin sc) d (synthKw q b sg mu dl none) g = .ok rd' ∧ rd'.scores = .ok arr ∧
      arr.E = d.disVideos.length ∧ arr.S = b.length ∧ arr.R = 1 ∧
      ∀ (e s : ℕ) dv qe bs sgs m dc, d.disVideos[e]? = some dv → q[e]? = some qe → b[s]? = some bs →
        sg[s]? = some sgs → mu[dv.contentId.toNat]? = some m → dl[dv.contentId.toNat]? = some dc →
        cell arr e s 0 = some (.fin (qe + (bs + g (e * b.length + s) * (sgs / sc))
          + (m + g (d.disVideos.length * b.length + (e * b.length + s)) * (dc / sc))))) ∧
    ∀ phi, ∃ rd', logisticReader (.fin sc) d (synthKw q b sg mu dl (some phi)) g = .ok rd' ∧
      rd'.scores = .error .assertion := by
  obtain ⟨arr, ha, e1, e2, e3, hcell⟩ := synthetic_ok sc hsc g (contentIdOfDisVideos d.disVideos) q b sg mu dl
    none (by simpa [contentIdOfDisVideos] using hq) hsg hdl (by simp) (by
      intro c hcm
      obtain ⟨dv, hdv, rfl⟩ := List.mem_map.mp hcm
      have := hc dv hdv
      omega)
  have hlen : (contentIdOfDisVideos d.disVideos).length = d.disVideos.length := by simp [contentIdOfDisVideos]
  rw [Option.map_none] at ha
  constructor
  · refine ⟨{ rd with scores := .ok arr }, arr, ?_, rfl, by rw [e1, hlen], e2, e3, ?_⟩
    · unfold logisticReader
      rw [hraw]
      dsimp only [synthKw]
      rw [if_pos (synthOk_iff.mpr (by simp [*]))]
      rw [ha]
      rfl
    · intro e s dv qe bs sgs m dc hdv hqe hbs hsgs hm hd
      have := hcell e s dv.contentId qe bs sgs m dc (by simp [contentIdOfDisVideos, hdv]) hqe hbs hsgs hm hd
      simpa only [ambiguityNoise, add_zero, hlen] using this
  · intro phi
    refine ⟨{ rd with scores := .error .assertion }, ?_, rfl⟩
    unfold logisticReader
    rw [hraw]
    dsimp only [synthKw]
    rw [if_pos (synthOk_iff.mpr (by simp [*]))]
    rw [ha]
    rfl

/-- **C54.** Missing parameters and parameters of a wrong size raise. -/
theorem C54_wrong_sizes (d : Dataset κ K) (rd : Reader κ K) (hraw : rawReader d = .ok rd) (g : ℕ → K) (kw : SynthKw K)
    (h : kw.quality = none ∨ kw.bias = none ∨ kw.inconsistency = none ∨ kw.contentBias = none ∨
      kw.contentAmbiguity = none ∨
      ∃ q b sg mu dl, kw.quality = some q ∧ kw.bias = some b ∧ kw.inconsistency = some sg ∧ kw.contentBias = some mu ∧
        kw.contentAmbiguity = some dl ∧ (q.length ≠ d.disVideos.length ∨ sg.length ≠ b.length ∨
          mu.length ≠ d.refVideos.length ∨ dl.length ≠ mu.length)) :
    syntheticReader d kw g = .error .assertion ∧ ∀ sc, logisticReader sc d kw g = .error .assertion := by
  obtain ⟨q, b, sg, mu, dl, ph⟩ := kw
  have key : (q = none ∨ b = none ∨ sg = none ∨ mu = none ∨ dl = none) ∨
      ∃ q' b' sg' mu' dl', q = some q' ∧ b = some b' ∧ sg = some sg' ∧ mu = some mu' ∧ dl = some dl' ∧
        ¬ synthOk d.disVideos.length d.refVideos.length q' b' sg' mu' dl' = true := by
    rcases h with h | h | h | h | h | ⟨q', b', sg', mu', dl', h1, h2, h3, h4, h5, h6⟩
    · exact Or.inl (Or.inl h)
    · exact Or.inl (Or.inr (Or.inl h))
    · exact Or.inl (Or.inr (Or.inr (Or.inl h)))
    · exact Or.inl (Or.inr (Or.inr (Or.inr (Or.inl h))))
    · exact Or.inl (Or.inr (Or.inr (Or.inr (Or.inr h))))
    · refine Or.inr ⟨q', b', sg', mu', dl', h1, h2, h3, h4, h5, ?_⟩
      rw [synthOk_iff]
      rintro ⟨a1, a2, a3, a4⟩
      rcases h6 with h | h | h | h
      · exact h a3
      · exact h a1
      · exact h a4
      · exact h a2
  constructor
  · unfold syntheticReader
    rw [hraw]
    dsimp only
    rcases key with h | ⟨q', b', sg', mu', dl', rfl, rfl, rfl, rfl, rfl, hno⟩
    · rcases q with _ | q <;> rcases b with _ | b <;> rcases sg with _ | sg <;> rcases mu with _ | mu <;>
        rcases dl with _ | dl <;> first | rfl | (exfalso; simp at h)
    · dsimp only
      rw [if_neg hno]
  · intro sc
    unfold logisticReader
    rw [hraw]
    dsimp only
    rcases key with h | ⟨q', b', sg', mu', dl', rfl, rfl, rfl, rfl, rfl, hno⟩
    · rcases q with _ | q <;> rcases b with _ | b <;> rcases sg with _ | sg <;> rcases mu with _ | mu <;>
        rcases dl with _ | dl <;> first | rfl | (exfalso; simp at h)
    · dsimp only
      rw [if_neg hno]

/-- **C54.** The content parameters are looked up by content id, not by the position of the content: with rightly sized
parameters the array raises IndexError as soon as one content id is not below the number of reference videos. -/
theorem C54_content_id_gap (d : Dataset κ K) (rd : Reader κ K) (hraw : rawReader d = .ok rd) (g : ℕ → K)
    (q b sg mu dl : List K) (phi : Option (List K)) (hq : q.length = d.disVideos.length)
    (hsg : sg.length = b.length) (hmu : mu.length = d.refVideos.length) (hdl : dl.length = mu.length)
    (dv : DisVideo κ K) (hdv : dv ∈ d.disVideos) (hgap : (d.refVideos.length : Int) ≤ dv.contentId) :
    ∃ rd', syntheticReader d (synthKw q b sg mu dl phi) g = .ok rd' ∧ rd'.scores = .error .index := by
  have herr : ∀ cs : List Int, dv.contentId ∈ cs → mapPy (atContent (mu.map Fl.fin)) cs = .error .index := by
    intro cs hcs
    have hdisj : ∀ c, (∃ x, atContent (mu.map Fl.fin) c = .ok x) ∨ atContent (mu.map Fl.fin) c = .error .index := by
      intro c
      unfold atContent
      split
      · exact Or.inl ⟨_, rfl⟩
      · exact Or.inr rfl
    induction cs with
    | nil => simp at hcs
    | cons c cs ih =>
      unfold mapPy
      rcases hdisj c with ⟨x, hx⟩ | hx
      · rw [hx]
        dsimp only
        rw [ih]
        rcases List.mem_cons.mp hcs with h | h
        · rw [← h, atContent_error (by omega)] at hx
          cases hx
        · exact h
      · rw [hx]
  refine ⟨{ rd with scores := .error .index }, ?_, rfl⟩
  unfold syntheticReader
  rw [hraw]
  dsimp only [synthKw]
  rw [if_pos (synthOk_iff.mpr (by simp [*]))]
  unfold synthetic
  rw [herr (contentIdOfDisVideos d.disVideos) (List.mem_map.mpr ⟨dv, hdv, rfl⟩)]

/-- a synthetic array of two videos and two observers; the hypotheses of `C54_model` hold for it -/
example : (∃ rd, rawReader flipDs = .ok rd) ∧
    (∀ dv ∈ flipDs.disVideos, 0 ≤ dv.contentId ∧ dv.contentId < flipDs.refVideos.length) ∧
    ∃ rd arr, syntheticReader flipDs (synthKw [3, 4] [0, 1] [1, 2] [1 / 2] [1] none) (fun n => n) = .ok rd ∧
      rd.scores = .ok arr ∧ cell arr 1 1 0 = some (.fin (4 + (1 + 3 * 2) + (1 / 2 + 7 * 1))) := by
  refine ⟨⟨_, rfl⟩, by decide, ?_⟩
  obtain ⟨rd, h, hP⟩ := okWith_elim
    (x := syntheticReader flipDs (synthKw [3, 4] [0, 1] [1, 2] [1 / 2] [1] none) (fun n => n))
    (P := fun rd => okWith rd.scores fun b => decide (cell b 1 1 0 = some (.fin (4 + (1 + 3 * 2) + (1 / 2 + 7 * 1)))))
    (by decide +kernel)
  obtain ⟨arr, ha, hPa⟩ := okWith_elim hP
  exact ⟨rd, arr, h, ha, of_decide_eq_true hPa⟩

end Sureal.Props
