import Verif.Lemmas.Written
import Verif.Props.Json
import Verif.Props.Ls
/-!
# C141: how the program ends
-/
set_option linter.unusedSectionVars false
namespace Sureal.Props
open Sureal Routine Format Spec Spec.Json JsonOut Main Written

section
variable {κ : Type} [LinearOrder κ] {ppf : Fl ℝ → ℕ → Fl ℝ} {pinv : Pinv ℝ} {path : List Char} {readPy readJson : Py (Dataset κ ℝ)} {models : List String}

theorem floats_eq : (floats : Val (Fl ℝ) → Val (Obj ℝ)) = Val.map Obj.float := by
  funext v
  cases v <;> rfl

theorem find_type {t : String} {c : ModelClass} (h : known.find .SubjectiveModel t = .ok c) : c.ownType = some t := by
  unfold Classes.find at h
  split at h
  · rename_i d hd
    cases h
    have hm : c ∈ (known.subclasses .SubjectiveModel).filter (fun d => known.type d = some t) := by rw [hd]; exact List.mem_singleton_self _
    exact of_decide_eq_true (List.mem_filter.mp hm).2
  · cases h

theorem found {cs : List ModelClass} (h : known.findAll .SubjectiveModel models = .ok cs) : List.Forall₂ (fun t c => c.ownType = some t) models cs := by
  unfold Classes.findAll at h
  rw [mapPy_eq_ok_iff] at h
  exact h.imp fun _ _ h => find_type h

/-- other classes answer with lists of numbers -/
theorem answer_usual {c : ModelClass} (hc : c ≠ .PerSubjectModel) (rd : Reader κ ℝ) :
    answer (@pinv) c rd = onOk Answer.usual (runClass (leastSquares (@pinv)) c rd) := by
  unfold answer
  split
  · exact absurd rfl hc
  · split <;> rename_i h <;> rw [h] <;> rfl

theorem answers_usual {cs : List ModelClass} (hc : .PerSubjectModel ∉ cs) (rd : Reader κ ℝ) :
    mapPy (fun c => answer (@pinv) c rd) cs = onOk (List.map Answer.usual) (mapPy (fun m => m rd) (cs.map (runClass (leastSquares (@pinv))))) := by
  induction cs with
  | nil => rfl
  | cons c cs ih =>
    rw [List.map_cons, mapPy, mapPy, answer_usual (fun h => hc (by rw [h]; simp)), ih fun h => hc (by simp [h])]
    cases runClass (leastSquares (@pinv)) c rd with
    | error e => rfl
    | ok r =>
      dsimp only [onOk]
      cases mapPy (fun m => m rd) (cs.map (runClass (leastSquares (@pinv)))) with
      | error e => rfl
      | ok rs => rfl

theorem named_usual (rd : Reader κ ℝ) (r : Result κ ℝ) : named ppf rd (.usual r) = onOk (fun rep => (resOf ppf rep).map Obj.float) (report rd r) := by
  unfold named
  dsimp only
  rw [floats_eq]
  split <;> rename_i h <;> rw [h] <;> rfl

/-- the two models of the program agree -/
theorem scores_eq (hp : "PERSUBJECT" ∉ models) :
    scores ppf (@pinv) path readPy readJson models =
      onOk (Output.map Obj.float) (main ppf (leastSquares (@pinv)) (fun _ => .error .type) path readPy readJson models) := by
  unfold scores main
  cases hf : known.findAll .SubjectiveModel models with
  | error e => rfl
  | ok cs =>
    dsimp only
    cases chooseReader (inMro .SubjectiveModel) (inMro .PairedCompSubjectiveModel) cs with
    | error e => rfl
    | ok rc =>
      cases rc with
      | pairedComp => rfl
      | raw =>
        dsimp only
        have hc : .PerSubjectModel ∉ cs := by
          intro h
          obtain ⟨k, hk, hck⟩ := List.getElem_of_mem h
          have hf2 := found hf
          have := hf2.get (by rw [hf2.length_eq]; exact hk) hk
          simp only [List.get_eq_getElem] at this
          rw [hck] at this
          exact hp (by rw [Option.some.inj this]; exact List.getElem_mem _)
        unfold output runAll run
        dsimp only
        generalize hd : (if ['.', 'p', 'y'].isSuffixOf path then readPy else if ['.', 'j', 's', 'o', 'n'].isSuffixOf path then readJson else .error .assertion) = dd
        cases dd with
        | error e => rfl
        | ok d =>
          dsimp only
          have hd2 : (if ['.', 'p', 'y'].isSuffixOf path then readPy else readJson) = .ok d := by
            split at hd
            · rename_i h; rw [if_pos h]; exact hd
            · split at hd
              · rename_i h _; rw [if_neg h]; exact hd
              · cases hd
          cases rawReader d with
          | error e => rfl
          | ok rd =>
            dsimp only
            rw [answers_usual hc rd]
            cases mapPy (fun m => m rd) (cs.map (runClass (leastSquares (@pinv)))) with
            | error e => rfl
            | ok rs =>
              dsimp only [onOk]
              rw [mapPy_nat (g := report rd) (g' := named ppf rd) (h := Answer.usual) (k := fun rep => (resOf ppf rep).map Obj.float) (named_usual rd)]
              cases mapPy (report rd) rs with
              | error e => rfl
              | ok reports =>
                dsimp only [onOk]
                rw [hd2]
                dsimp only
                have := format_map Obj.float observerName (refsOf d) (cs.map fun c => (ModelClass.hierarchy.type c).getD "") (reports.map (resOf ppf))
                rw [List.map_map] at this
                exact this

variable {name : String ⊕ κ → String} {repr : ℝ → List Char} {said : List Char} {before : Option (List Char)}

theorem write_text (out : Output (String ⊕ κ) (Fl ℝ)) : write repr 0 (tree name (out.map Obj.float)) = (text name repr out, true) := by
  rw [tree_map, write_floats]
  rfl

/-- **C141, in part.** Without PERSUBJECT the program either ends without an error, and then the whole text of the output is in `output.json`, or it
ends with an error, and then the file is what it was before.  (The full claim is that about every model; it is refuted below.) -/
theorem C141_file_partial (hp : "PERSUBJECT" ∉ models) :
    (∃ out, main ppf (leastSquares (@pinv)) (fun _ => .error .type) path readPy readJson models = .ok out ∧
      endingDir name repr said before (scores ppf (@pinv) path readPy readJson models) = ⟨none, said, some (text name repr out)⟩) ∨
    ∃ e, main ppf (leastSquares (@pinv)) (fun _ => .error .type) path readPy readJson models = .error e ∧
      endingDir name repr said before (scores ppf (@pinv) path readPy readJson models) = ⟨some e, [], before⟩ := by
  rw [scores_eq hp]
  cases h : main ppf (leastSquares (@pinv)) (fun _ => .error .type) path readPy readJson models with
  | error e => exact Or.inr ⟨e, rfl, rfl⟩
  | ok out =>
    refine Or.inl ⟨out, rfl, ?_⟩
    unfold onOk endingDir
    dsimp only
    rw [write_text]
    rfl

/-- **C141, in part.** Without `--output-dir` the same text is printed, followed by the end of the line, or nothing and the program ends with an error. -/
theorem C141_print_partial (hp : "PERSUBJECT" ∉ models) :
    (∃ out, main ppf (leastSquares (@pinv)) (fun _ => .error .type) path readPy readJson models = .ok out ∧
      ending name repr before (scores ppf (@pinv) path readPy readJson models) = ⟨none, text name repr out ++ ['\n'], before⟩) ∨
    ∃ e, main ppf (leastSquares (@pinv)) (fun _ => .error .type) path readPy readJson models = .error e ∧
      ending name repr before (scores ppf (@pinv) path readPy readJson models) = ⟨some e, [], before⟩ := by
  rw [scores_eq hp]
  cases h : main ppf (leastSquares (@pinv)) (fun _ => .error .type) path readPy readJson models with
  | error e => exact Or.inr ⟨e, rfl, rfl⟩
  | ok out =>
    refine Or.inl ⟨out, rfl, ?_⟩
    unfold onOk ending
    dsimp only
    rw [write_text]
    rfl

/-! ## PERSUBJECT -/

theorem numberIn_mem {V : Type} {es : Option (List (Entry (String ⊕ κ) V))} {i : ℕ} {T k : String} {v : V} (h : numberIn es i T k = some (.one v)) :
    ∃ l, es = some l ∧ ∃ e ∈ l, ∃ d, (T, d) ∈ e.models ∧ (k, .one v) ∈ d := by
  unfold numberIn at h
  cases es with
  | none => simp at h
  | some l =>
    rw [Option.getD_some] at h
    cases hi : l[i]? with
    | none => rw [hi] at h; cases h
    | some e =>
      rw [hi, Option.bind_some] at h
      cases hT : e.models.lookup T with
      | none => rw [hT] at h; cases h
      | some d =>
        rw [hT, Option.bind_some] at h
        exact ⟨l, rfl, e, List.mem_of_getElem? hi, d, getKey_mem (by rw [getKey_lookup]; exact hT), getKey_mem (by rw [getKey_lookup]; exact h)⟩

/-- results of a type, all of which have an array for the first video -/
theorem first_array {rs : List (String × Res (String ⊕ κ) (Obj ℝ))} (hne : ∃ p ∈ rs, p.1 = "PERSUBJECT")
    (hall : ∀ p ∈ rs, p.1 = "PERSUBJECT" → ∃ a, videoNumber p.2 0 "quality_score" = some (.one (.array a))) :
    ∃ a, (rs.findSome? fun p => if "PERSUBJECT" = p.1 then videoNumber p.2 0 "quality_score" else none) = some (.one (.array a)) := by
  induction rs with
  | nil => obtain ⟨p, hp, -⟩ := hne; cases hp
  | cons p rs ih =>
    rw [List.findSome?_cons]
    by_cases ht : p.1 = "PERSUBJECT"
    · obtain ⟨a, ha⟩ := hall p (by simp) ht
      rw [if_pos ht.symm, ha]
      exact ⟨a, rfl⟩
    · rw [if_neg fun h => ht h.symm]
      refine ih ?_ fun q hq => hall q (by simp [hq])
      obtain ⟨q, hq, hqt⟩ := hne
      rcases List.mem_cons.mp hq with rfl | hq
      · exact absurd hqt ht
      · exact ⟨q, hq, hqt⟩

/-- with PERSUBJECT there is an array in the output, if there is an output -/
theorem persubject_array (hp : "PERSUBJECT" ∈ models) {out : Output (String ⊕ κ) (Obj ℝ)}
    (h : scores ppf (@pinv) path readPy readJson models = .ok out) : HasArray (tree name out) := by
  unfold scores at h
  split at h
  · cases h
  rename_i cs hf
  split at h
  · cases h
  · have hf2 := found hf
    unfold output at h
    split at h
    · cases h
    rename_i d hd
    split at h
    · cases h
    rename_i rd hrd
    split at h
    · cases h
    rename_i answers hans
    split at h
    · cases h
    rename_i rs hrs
    rw [types_eq hf2] at h
    rw [mapPy_eq_ok_iff] at hans hrs
    have hpair : ∀ k (h1 : k < models.length) (h2 : k < rs.length), models[k] = "PERSUBJECT" → ∃ a obs, rs[k] = { disVideoNames := some ((rd.disVideos.map (·.path)).map .inl), observers := obs, data := fun k => if k = "quality_scores" then some (.seq (List.ofFn fun e => .array (slice a e))) else none } := by
      intro k h1 h2 hk
      have h3 : k < cs.length := by rw [← hf2.length_eq]; exact h1
      have h4 : k < answers.length := by rw [← hans.length_eq]; exact h3
      have hc := hf2.get h1 h3
      have ha := hans.get h3 h4
      have hr := hrs.get h4 h2
      simp only [List.get_eq_getElem] at hc ha hr
      rw [hk] at hc
      rw [ownType_inj (c := cs[k]) (c' := .PerSubjectModel) hc rfl] at ha
      change runPerSubject rd = _ at ha
      unfold runPerSubject at ha
      split at ha
      · cases ha
      · split at ha <;> first | cases ha | (rw [← Except.ok.inj ha] at hr; exact ⟨_, _, (Except.ok.inj hr).symm⟩)
    have hlen : rs.length = models.length := by rw [← hrs.length_eq, ← hans.length_eq, hf2.length_eq]
    have hdv : rd.disVideos ≠ [] := by
      obtain ⟨hacc, hr⟩ := Mock.rawReader_inv hrd
      subst hr
      exact ((C01_accepts_iff_wellFormed d).mp hacc).diss
    obtain ⟨a, ha⟩ := first_array (rs := (models.zip rs).reverse) (by
        obtain ⟨k, hk, hmk⟩ := List.getElem_of_mem hp
        refine ⟨(models[k], rs[k]'(by rw [hlen]; exact hk)), List.mem_reverse.mpr (List.mem_iff_getElem.mpr ⟨k, by simp [hk, hlen], by simp⟩), hmk⟩) (by
        intro p hpm hpt
        obtain ⟨k, hk, rfl⟩ := List.getElem_of_mem (List.mem_reverse.mp hpm)
        rw [List.length_zip] at hk
        rw [List.getElem_zip] at hpt ⊢
        dsimp only at hpt ⊢
        obtain ⟨a, obs, hrk⟩ := hpair k (by omega) (by omega) hpt
        have hw := ((C69_errors _ _ _ _).mp ⟨out, h⟩).2.1 rs[k] (List.getElem_mem _)
        obtain ⟨⟨q, names, hq, hn, hlen', -⟩, -⟩ := hw
        rw [hrk] at hq hn
        change some (Val.seq (List.ofFn fun e => Obj.array (slice a e))) = some q at hq
        change some _ = some names at hn
        cases hq
        cases hn
        have hE : a.E = rd.disVideos.length := by
          rcases hlen' with ⟨l, hl, hll⟩ | ⟨l, hl, -⟩
          · cases hl; simpa using hll
          · cases hl
        have hpos : 0 < a.E := by rw [hE]; exact List.length_pos_of_ne_nil hdv
        rw [hrk]
        refine ⟨slice a ⟨0, hpos⟩, ?_⟩
        show (List.ofFn fun e => Obj.array (slice a e))[0]?.map Cell.one = _
        rw [List.getElem?_ofFn, dif_pos hpos]
        rfl)
    have hnum := (C69_written _ _ _ _ out h 0 "PERSUBJECT" "quality_score").1
    rw [ha] at hnum
    obtain ⟨l, hl, e, he, dd, hT, hk⟩ := numberIn_mem hnum
    exact ⟨a, (mem_tree name).mpr (.cell l (Or.inl hl) e he _ dd hT _ hk)⟩
  · cases h

/-- **C141, PERSUBJECT.** With PERSUBJECT among the models the program always ends with an error.  Then the file is what it was before, or it has been
overwritten with something that is not JSON, from which nothing can be read. -/
theorem C141_persubject_fails (hp : "PERSUBJECT" ∈ models) :
    (ending name repr before (scores ppf (@pinv) path readPy readJson models)).error ≠ none ∧
    (ending name repr before (scores ppf (@pinv) path readPy readJson models)).printed = [] ∧
    (endingDir name repr said before (scores ppf (@pinv) path readPy readJson models)).error ≠ none ∧
    (∀ t, (endingDir name repr said before (scores ppf (@pinv) path readPy readJson models)).file = some t → before = some t ∨ ¬ IsJsonText repr t) := by
  cases h : scores ppf (@pinv) path readPy readJson models with
  | error e => exact ⟨by simp [ending], rfl, by simp [endingDir], fun t ht => Or.inl ht⟩
  | ok out =>
    have hf := (write_sound repr 0 (tree name out)).2 (persubject_array hp h)
    unfold ending endingDir
    dsimp only
    rw [hf.1]
    refine ⟨by simp, rfl, by simp, fun t ht => Or.inr ?_⟩
    have ht' : (write repr 0 (tree name out)).1 = t := Option.some.inj ht
    rw [← ht']
    rcases hf.2 with h0 | h0
    · rw [h0]
      rintro ⟨w, u, w', x, -, -, hd, hu⟩
      obtain ⟨v, c, rfl, -⟩ := value_closed hd
      have := congrArg List.length hu
      simp at this
    · exact open_not_json h0

/-- **C141, PERSUBJECT alone.** On any dataset that can be read the program gets as far as the writing: it ends with a TypeError, prints nothing, and
leaves an `output.json` that is not JSON. -/
theorem C141_persubject {d : Dataset κ ℝ} (h : Readable d) (hl : Loads path readPy readJson d) :
    ending name repr before (scores ppf (@pinv) path readPy readJson ["PERSUBJECT"]) = ⟨some .type, [], before⟩ ∧
    ∃ t, endingDir name repr said before (scores ppf (@pinv) path readPy readJson ["PERSUBJECT"]) = ⟨some .type, [], some t⟩ ∧ ¬ IsJsonText repr t := by
  obtain ⟨rd, a, hrd, hdv, ha, hE, -, -, hob⟩ := reads h
  obtain ⟨l1, -⟩ := loads_read hl
  have hsc : ∃ out, scores ppf (@pinv) path readPy readJson ["PERSUBJECT"] = .ok out := by
    unfold scores
    rw [findAll_types (ts := ["PERSUBJECT"]) (cs := [.PerSubjectModel]) (.cons rfl .nil) (by decide)]
    dsimp only
    rw [((C78_reader (inMro .SubjectiveModel) (inMro .PairedCompSubjectiveModel) [.PerSubjectModel] (fun c _ => inMro_subj c)).1).mpr
      ⟨by simp, fun c hc => by rw [List.mem_singleton.mp hc]; decide +kernel⟩]
    dsimp only
    unfold output
    rw [l1]
    dsimp only
    rw [hrd]
    dsimp only
    have hp : ∃ obs, answer (@pinv) .PerSubjectModel rd = .ok (.array a obs) := by
      show ∃ obs, runPerSubject rd = _
      unfold runPerSubject
      rw [preprocess_default ha]
      rcases hob with ⟨obs, ho, -⟩ | ho <;> rw [ho] <;> exact ⟨_, rfl⟩
    obtain ⟨obs, hobs⟩ := hp
    rw [mapPy, hobs, mapPy]
    dsimp only
    rw [mapPy, mapPy]
    unfold named
    dsimp only
    rw [C69_errors]
    refine ⟨rfl, ?_, ?_, ?_, ?_⟩
    · intro r hr
      rw [List.mem_singleton.mp hr]
      refine ⟨⟨_, _, rfl, rfl, Or.inl ⟨_, rfl, by simp [hE, hdv]⟩, ?_, ?_⟩, ?_, ?_⟩
      · intro k hk v hv
        rw [List.mem_singleton.mp hk] at hv
        exact absurd hv (by simp)
      · intro k hk v hv
        rw [List.mem_singleton.mp hk] at hv
        exact absurd hv (by simp)
      · intro b hb
        exact absurd hb (by simp)
      · intro b hb
        exact absurd hb (by simp)
    all_goals
      intro l hl l' hl' i n n' hn hn'
      rw [List.map_singleton, List.mem_singleton] at hl hl'
      rw [hl] at hn
      rw [hl', hn] at hn'
      exact Option.some.inj hn'
  obtain ⟨out, hout⟩ := hsc
  have hf := (write_sound repr 0 (tree name out)).2 (persubject_array (name := name) (by simp) hout)
  obtain ⟨-, -, -, h4⟩ := C141_persubject_fails (ppf := ppf) (pinv := @pinv) (path := path) (readPy := readPy) (readJson := readJson) (name := name) (repr := repr)
    (said := said) (before := none) (models := ["PERSUBJECT"]) (by simp)
  rw [hout] at h4 ⊢
  unfold ending endingDir at *
  dsimp only at *
  rw [hf.1] at h4 ⊢
  exact ⟨rfl, _, rfl, (h4 _ rfl).resolve_left (by simp)⟩

end

/-- **C141 (refuted).** The program can fail and destroy an output that was there. -/
theorem C141_refuted {ppf : Fl ℝ → ℕ → Fl ℝ} {pinv : Pinv ℝ} {repr : ℝ → List Char} {said : List Char} :
    Readable exComplete ∧ IsJsonText repr "{}".toList ∧
    ∃ e t, endingDir nameText repr said (some "{}".toList) (scores ppf (@pinv) "scores.py".toList (.ok exComplete) (.error .assertion) ["PERSUBJECT"]) =
      ⟨some e, [], some t⟩ ∧ ¬ IsJsonText repr t := by
  refine ⟨exComplete_readable, ⟨[], "{}".toList, [], .obj [], fun c hc => absurd hc List.not_mem_nil, fun c hc => absurd hc List.not_mem_nil, ?_, rfl⟩, ?_⟩
  · exact .obj0 (w := []) fun c hc => absurd hc List.not_mem_nil
  · obtain ⟨-, t, h1, h2⟩ := C141_persubject (ppf := ppf) (pinv := @pinv) (repr := repr) (said := said) (name := nameText) (before := some "{}".toList)
      exComplete_readable (ex_loads _)
    exact ⟨_, t, h1, h2⟩

end Sureal.Props
