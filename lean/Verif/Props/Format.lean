import Verif.Lemmas.Format
import Mathlib.Tactic.NormNum
/-! # C69: formatted output -/
set_option linter.unusedSectionVars false
namespace Sureal.Props
open Sureal Spec Format
variable {ν V : Type} [DecidableEq ν]

/-- the outcome of the validation as a function -/
noncomputable def validated (dflt : ℕ → ν) (refs : List (ℤ × Option ν)) (r : Res ν V) : Res ν V × Option (List ν) :=
  match validate dflt refs r with
  | .ok x => x
  | .error _ => (r, none)

theorem validated_ok {dflt : ℕ → ν} {refs : List (ℤ × Option ν)} {r : Res ν V} (h : WellSized refs r) :
    validate dflt refs r = .ok (validated dflt refs r) := by
  obtain ⟨x, hx⟩ := (validate_ok dflt refs r).1.mpr h
  unfold validated
  rw [hx]

theorem mapPy_validate (dflt : ℕ → ν) (refs : List (ℤ × Option ν)) (results : List (Res ν V)) :
    ((∃ rs, mapPy (validate dflt refs) results = .ok rs) ↔ ∀ r ∈ results, WellSized refs r) ∧
    ∀ rs, mapPy (validate dflt refs) results = .ok rs → rs = results.map (validated dflt refs) := by
  have h1 : (∀ r ∈ results, WellSized refs r) → mapPy (validate dflt refs) results = .ok (results.map (validated dflt refs)) :=
    fun h => mapPy_ok fun r hr => validated_ok (h r hr)
  have h2 : ∀ rs, mapPy (validate dflt refs) results = .ok rs → ∀ r ∈ results, WellSized refs r := by
    intro rs hrs r hr
    rw [mapPy_eq_ok_iff] at hrs
    obtain ⟨n, hn, rfl⟩ := List.getElem_of_mem hr
    have hl := hrs.length_eq
    exact (validate_ok dflt refs _).1.mp ⟨rs[n]'(by omega), hrs.get hn (by omega)⟩
  refine ⟨⟨fun ⟨rs, hrs⟩ => h2 rs hrs, fun h => ⟨_, h1 h⟩⟩, fun rs hrs => ?_⟩
  have := h1 (h2 rs hrs)
  rw [hrs] at this
  exact Except.ok.inj this

/-- everything about a section -/
structure SecOk (sec : Section ν V) (L : List (String × Res ν V)) (N : Res ν V → List ν) (F : Res ν V → ℕ → String → Option (Cell V)) : Prop where
  dense : Dense sec
  length : ∀ i, i < sec.length ↔ ∃ p ∈ L, i < (N p.2).length
  look : ∀ i T k, look sec i T k = L.reverse.findSome? fun p => if T = p.1 then F p.2 i k else none
  nm : ∀ i n, nm sec i = some n ↔ ∃ p ∈ L, (N p.2)[i]? = some n

theorem secOk_of {L : List (String × Res ν V)} {w : String × Res ν V → Section ν V → Py (Section ν V)} {N : Res ν V → List ν}
    {F : Res ν V → ℕ → String → Option (Cell V)} (h : ∀ p ∈ L, StepSpec (w p) p.1 (N p.2) (F p.2)) :
    ((∃ s, foldSec (L.map w) [] = .ok s) ↔ Agree (L.map fun p => N p.2)) ∧ ∀ s, foldSec (L.map w) [] = .ok s → SecOk s L N F := by
  have hd : Dense ([] : Section ν V) := rfl
  obtain ⟨h1, h2⟩ := foldSec_spec w (fun p => p.1) (fun p => N p.2) (fun p => F p.2) L h hd
  refine ⟨?_, ?_⟩
  · rw [h1]
    constructor
    · exact fun h => h.2
    · exact fun h => ⟨fun _ _ i n m _ hm => (by cases hm), h⟩
  · intro s hs
    obtain ⟨h3, h4, h5, h6⟩ := h2 s hs
    refine ⟨h3, fun i => by rw [h4]; simp, fun i T k => ?_, fun i n => ?_⟩
    · rw [h5]
      have : look ([] : Section ν V) i T k = none := rfl
      rw [this, Option.or_none]
    · rw [h6]
      have : nm ([] : Section ν V) i = none := rfl
      rw [this]; simp

theorem format_iff (dflt : ℕ → ν) (refs : List (ℤ × Option ν)) (types : List String) (results : List (Res ν V)) :
    ((∃ out, format dflt refs types results = .ok out) ↔
      types.length = results.length ∧ (∀ r ∈ results, WellSized refs r) ∧ Agree (results.map videoNames) ∧
      Agree (results.map (observerNames dflt)) ∧ Agree (results.map (contentNames refs))) ∧
    ∀ out, format dflt refs types results = .ok out →
      ∃ vs os cs st, out = { disVideos := valuesOf vs, observers := valuesOf os, contents := valuesOf cs, stats := if st.isEmpty then none else some st } ∧
        SecOk vs (types.zip results) videoNames videoNumber ∧
        SecOk os (types.zip results) (observerNames dflt) observerNumber ∧
        SecOk cs (types.zip results) (contentNames refs) contentNumber ∧
        ∀ T k, lookStat st T k = (types.zip results).reverse.findSome? fun p => if T = p.1 then statNumber p.2 k else none := by
  unfold format
  by_cases hlen : types.length = results.length
  swap
  · rw [if_neg hlen]
    exact ⟨by simp [hlen], by rintro out ⟨⟩⟩
  rw [if_pos hlen]
  obtain ⟨hv1, hv2⟩ := mapPy_validate dflt refs results
  cases hm : mapPy (validate dflt refs) results with
  | error e =>
    refine ⟨?_, by rintro out ⟨⟩⟩
    constructor
    · rintro ⟨_, ⟨⟩⟩
    · rintro ⟨_, h, _⟩
      obtain ⟨rs, hrs⟩ := hv1.mpr h
      rw [hm] at hrs; cases hrs
  | ok rs =>
    have hws := hv1.mp ⟨rs, hm⟩
    have hrs := hv2 rs hm
    subst hrs
    dsimp only
    have hzip : types.zip (results.map (validated dflt refs)) = (types.zip results).map fun p => (p.1, validated dflt refs p.2) := by
      rw [List.zip_map_right]; rfl
    rw [hzip]
    have hmem : ∀ p ∈ types.zip results, p.2 ∈ results := fun p hp => (List.of_mem_zip hp).2
    have hfacts : ∀ p ∈ types.zip results, WellSized refs p.2 ∧ (validated dflt refs p.2).1.data = p.2.data ∧
        (validated dflt refs p.2).1.disVideoNames = p.2.disVideoNames ∧
        (∀ b, p.2.data "observer_bias" = some b → (validated dflt refs p.2).1.observers.getD [] = observerNames dflt p.2) ∧
        (∀ a, p.2.data "content_ambiguity" = some a → (validated dflt refs p.2).2.getD [] = contentNames refs p.2) := by
      intro p hp
      have hw := hws _ (hmem p hp)
      exact ⟨hw, (validate_ok dflt refs p.2).2 _ (validated_ok hw)⟩
    obtain ⟨v1, v2⟩ := secOk_of (w := fun p => writeVideos p.1 (validated dflt refs p.2).1) (N := videoNames) (F := videoNumber)
      (L := types.zip results) fun p hp => by
        obtain ⟨f1, f2, f3, f4, f5⟩ := hfacts p hp
        exact writeVideos_spec p.1 f1 f2 f3
    obtain ⟨o1, o2⟩ := secOk_of (w := fun p => writeObservers p.1 (validated dflt refs p.2).1) (N := observerNames dflt) (F := observerNumber)
      (L := types.zip results) fun p hp => by
        obtain ⟨f1, f2, f3, f4, f5⟩ := hfacts p hp
        exact writeObservers_spec dflt p.1 f1 f2 f4
    obtain ⟨c1, c2⟩ := secOk_of (w := fun p => writeContents p.1 (validated dflt refs p.2).1 (validated dflt refs p.2).2)
      (N := contentNames refs) (F := contentNumber)
      (L := types.zip results) fun p hp => by
        obtain ⟨f1, f2, f3, f4, f5⟩ := hfacts p hp
        exact writeContents_spec p.1 f1 f2 f5
    have hag : ∀ N : Res ν V → List ν, (types.zip results).map (fun p => N p.2) = results.map N := by
      intro N
      rw [show (fun p : String × Res ν V => N p.2) = N ∘ Prod.snd from rfl, ← List.map_map, List.map_snd_zip (by omega)]
    rw [hag] at v1 o1 c1
    have hwa := writeAll_iff ((types.zip results).map fun p => (p.1, validated dflt refs p.2)) ({} : Out ν V)
    simp only [List.map_map, Function.comp_def, List.foldl_map] at hwa
    constructor
    · constructor
      · rintro ⟨out, h⟩
        cases hwr : writeAll ((types.zip results).map fun p => (p.1, validated dflt refs p.2)) ({} : Out ν V) with
        | error e => rw [hwr] at h; cases h
        | ok o =>
          obtain ⟨h1, h2, h3, h4⟩ := (hwa o).mp hwr
          exact ⟨hlen, hws, v1.mp ⟨_, h1⟩, o1.mp ⟨_, h2⟩, c1.mp ⟨_, h3⟩⟩
      · rintro ⟨_, _, h1, h2, h3⟩
        obtain ⟨vs, hvs⟩ := v1.mpr h1
        obtain ⟨os, hos⟩ := o1.mpr h2
        obtain ⟨cs, hcs⟩ := c1.mpr h3
        have := (hwa ⟨vs, os, cs, _⟩).mpr ⟨hvs, hos, hcs, rfl⟩
        rw [this]
        exact ⟨_, rfl⟩
    · intro out h
      cases hwr : writeAll ((types.zip results).map fun p => (p.1, validated dflt refs p.2)) ({} : Out ν V) with
      | error e => rw [hwr] at h; cases h
      | ok o =>
        rw [hwr] at h
        obtain ⟨h1, h2, h3, h4⟩ := (hwa o).mp hwr
        refine ⟨o.videos, o.observers, o.contents, o.stats, (Except.ok.inj h).symm, v2 _ h1, o2 _ h2, c2 _ h3, ?_⟩
        intro T k
        rw [← h4]
        have hst : ∀ st : List (String × List (String × Val V)), (types.zip results).foldl (fun st p => putStat p.1 (validated dflt refs p.2).1 "bic"
            (putStat p.1 (validated dflt refs p.2).1 "aic" st)) st =
            (types.zip results).foldl (fun st p => putStat p.1 p.2 "bic" (putStat p.1 p.2 "aic" st)) st := by
          intro st
          refine List.foldl_ext _ _ st fun st p hp => ?_
          unfold putStat
          rw [(hfacts p hp).2.1]
        rw [hst, foldStat_look]
        have : lookStat ([] : List (String × List (String × Val V))) T k = none := rfl
        rw [this, Option.or_none]

/-- **C69.** The number in the output under a position, a model type and a key is the number of the last model of that type
that has one. -/
theorem C69_written (dflt : ℕ → ν) (refs : List (ℤ × Option ν)) (types : List String) (results : List (Res ν V)) (out : Output ν V)
    (h : format dflt refs types results = .ok out) (i : ℕ) (T k : String) :
    numberIn out.disVideos i T k = ((types.zip results).reverse.findSome? fun p => if T = p.1 then videoNumber p.2 i k else none) ∧
    numberIn out.observers i T k = ((types.zip results).reverse.findSome? fun p => if T = p.1 then observerNumber p.2 i k else none) ∧
    numberIn out.contents i T k = ((types.zip results).reverse.findSome? fun p => if T = p.1 then contentNumber p.2 i k else none) ∧
    statIn out T k = (types.zip results).reverse.findSome? fun p => if T = p.1 then statNumber p.2 k else none := by
  obtain ⟨vs, os, cs, st, rfl, h1, h2, h3, h4⟩ := (format_iff dflt refs types results).2 out h
  refine ⟨?_, ?_, ?_, ?_⟩
  · rw [numberIn_values h1.dense, h1.look]
  · rw [numberIn_values h2.dense, h2.look]
  · rw [numberIn_values h3.dense, h3.look]
  · rw [← h4]
    unfold statIn lookStat
    dsimp only
    have : ((if st.isEmpty then none else some st : Option (List (String × List (String × Val V))))).getD [] = st := by
      cases st <;> rfl
    rw [this]
    simp only [getKey_lookup]

theorem findSome_nodup {α β : Type} {types : List String} {rs : List α} (hn : types.Nodup) {T : String} {r : α}
    (hm : (T, r) ∈ types.zip rs) (F : α → Option β) :
    ((types.zip rs).reverse.findSome? fun p => if T = p.1 then F p.2 else none) = F r := by
  induction types generalizing rs with
  | nil => simp at hm
  | cons t types ih =>
    cases rs with
    | nil => simp at hm
    | cons a rs =>
      rw [List.nodup_cons] at hn
      rw [List.zip_cons_cons, List.reverse_cons, List.findSome?_append]
      rw [List.zip_cons_cons, List.mem_cons] at hm
      rcases hm with hm | hm
      · cases hm
        have : ((types.zip rs).reverse.findSome? fun p => if T = p.1 then F p.2 else none) = none := by
          rw [List.findSome?_eq_none_iff]
          intro p hp
          rw [List.mem_reverse] at hp
          rw [if_neg]
          rintro rfl
          exact hn.1 (List.of_mem_zip hp).1
        rw [this, Option.none_or, List.findSome?_cons, List.findSome?_nil]
        simp only [if_true]
        cases F r <;> rfl
      · rw [ih hn.2 hm, List.findSome?_cons, List.findSome?_nil]
        have hT : T ≠ t := by rintro rfl; exact hn.1 (List.of_mem_zip hm).1
        simp only [if_neg hT, Option.or_none]

/-- **C69, in part.** If the models have different types, the output holds, under every position, model and key, exactly
the number of that model for that video, observer or content, and nothing if the model has none.
The full claim drops the hypothesis `hn`; `C69_refuted` shows it is false. -/
theorem C69_placement_partial (dflt : ℕ → ν) (refs : List (ℤ × Option ν)) (types : List String) (results : List (Res ν V)) (out : Output ν V)
    (h : format dflt refs types results = .ok out) (hn : types.Nodup) (T : String) (r : Res ν V) (hr : (T, r) ∈ types.zip results)
    (i : ℕ) (k : String) :
    numberIn out.disVideos i T k = videoNumber r i k ∧ numberIn out.observers i T k = observerNumber r i k ∧
    numberIn out.contents i T k = contentNumber r i k ∧ statIn out T k = statNumber r k := by
  obtain ⟨h1, h2, h3, h4⟩ := C69_written dflt refs types results out h i T k
  rw [h1, h2, h3, h4]
  exact ⟨findSome_nodup hn hr (videoNumber · i k), findSome_nodup hn hr (observerNumber · i k),
    findSome_nodup hn hr (contentNumber · i k), findSome_nodup hn hr (statNumber · k)⟩

/-- **C69.** The names in the output are those of the results at the same positions, and the lists are as long as the longest
list of names. -/
theorem C69_names (dflt : ℕ → ν) (refs : List (ℤ × Option ν)) (types : List String) (results : List (Res ν V)) (out : Output ν V)
    (h : format dflt refs types results = .ok out) (i : ℕ) :
    (∀ n, nameIn out.disVideos i = some n ↔ ∃ r ∈ results, (videoNames r)[i]? = some n) ∧
    (∀ n, nameIn out.observers i = some n ↔ ∃ r ∈ results, (observerNames dflt r)[i]? = some n) ∧
    (∀ n, nameIn out.contents i = some n ↔ ∃ r ∈ results, (contentNames refs r)[i]? = some n) ∧
    (i < (out.disVideos.getD []).length ↔ ∃ r ∈ results, i < (videoNames r).length) ∧
    (i < (out.observers.getD []).length ↔ ∃ r ∈ results, i < (observerNames dflt r).length) ∧
    (i < (out.contents.getD []).length ↔ ∃ r ∈ results, i < (contentNames refs r).length) := by
  have hlen := ((format_iff dflt refs types results).1.mp ⟨out, h⟩).1
  obtain ⟨vs, os, cs, st, rfl, h1, h2, h3, -⟩ := (format_iff dflt refs types results).2 out h
  have hex : ∀ P : Res ν V → Prop, (∃ p ∈ types.zip results, P p.2) ↔ ∃ r ∈ results, P r := by
    intro P
    constructor
    · rintro ⟨p, hp, h⟩; exact ⟨p.2, (List.of_mem_zip hp).2, h⟩
    · rintro ⟨r, hr, h⟩
      rw [← List.map_snd_zip (l₁ := types) (l₂ := results) (by omega)] at hr
      obtain ⟨p, hp, rfl⟩ := List.mem_map.mp hr
      exact ⟨p, hp, h⟩
  refine ⟨fun n => ?_, fun n => ?_, fun n => ?_, ?_, ?_, ?_⟩
  · rw [nameIn_values h1.dense, h1.nm, hex (fun r => (videoNames r)[i]? = some n)]
  · rw [nameIn_values h2.dense, h2.nm, hex (fun r => (observerNames dflt r)[i]? = some n)]
  · rw [nameIn_values h3.dense, h3.nm, hex (fun r => (contentNames refs r)[i]? = some n)]
  · rw [valuesOf_getD, List.length_map, h1.length, hex (fun r => i < (videoNames r).length)]
  · rw [valuesOf_getD, List.length_map, h2.length, hex (fun r => i < (observerNames dflt r).length)]
  · rw [valuesOf_getD, List.length_map, h3.length, hex (fun r => i < (contentNames refs r).length)]

/-- **C69.** There is an output exactly if there is a result per model, all lists have the length they should have, and the
results agree on the names. -/
theorem C69_errors (dflt : ℕ → ν) (refs : List (ℤ × Option ν)) (types : List String) (results : List (Res ν V)) :
    (∃ out, format dflt refs types results = .ok out) ↔
      types.length = results.length ∧ (∀ r ∈ results, WellSized refs r) ∧ Agree (results.map videoNames) ∧
      Agree (results.map (observerNames dflt)) ∧ Agree (results.map (contentNames refs)) :=
  (format_iff dflt refs types results).1

/-! ### Examples -/

/-- a result with two videos, standard deviations and intervals, and one observer without a name -/
def fmtA : Res String ℕ where
  disVideoNames := some ["a", "b"]
  observers := none
  data := fun k =>
    if k = "quality_scores" then some (.seq [1, 2]) else if k = "quality_scores_std" then some (.seq [3, 4])
    else if k = "quality_scores_ci95" then some (.rows [[5, 6], [7, 8]]) else if k = "observer_bias" then some (.seq [9])
    else if k = "content_ambiguity" then some (.seq [10]) else if k = "aic" then some (.num 11) else none

/-- a result with scores only -/
def fmtB : Res String ℕ where
  disVideoNames := some ["a", "b"]
  observers := none
  data := fun k => if k = "quality_scores" then some (.seq [21, 22]) else none

def fmtRefs : List (ℤ × Option String) := [(0, some "c"), (0, some "d")]

theorem fmtA_sized : WellSized fmtRefs fmtA := by
  refine ⟨⟨.seq [1, 2], ["a", "b"], rfl, rfl, Or.inl ⟨_, rfl, rfl⟩, ?_, ?_⟩, ?_, ?_⟩
  · intro k hk v hv
    rw [List.mem_singleton] at hk
    subst hk
    cases hv
    exact Or.inl ⟨_, rfl, rfl⟩
  · intro k hk v hv
    rw [List.mem_singleton] at hk
    subst hk
    cases hv
    exact ⟨_, _, rfl, rfl⟩
  · intro b hb
    cases hb
    refine ⟨1, Or.inl ⟨_, rfl, rfl⟩, by rintro obs ⟨⟩, ?_, ?_⟩ <;>
    · intro k hk v hv
      simp only [List.mem_cons, List.not_mem_nil, or_false] at hk
      rcases hk with rfl | rfl | rfl | rfl | rfl <;> cases hv
  · intro a ha
    cases ha
    refine ⟨by simp [fmtRefs], Or.inl ⟨_, rfl, rfl⟩, ?_, ?_⟩ <;>
    · intro k hk v hv
      rw [List.mem_singleton] at hk
      subst hk
      cases hv

theorem fmtB_sized : WellSized fmtRefs fmtB := by
  refine ⟨⟨.seq [21, 22], ["a", "b"], rfl, rfl, Or.inl ⟨_, rfl, rfl⟩, ?_, ?_⟩, ?_, ?_⟩
  · intro k hk v hv
    rw [List.mem_singleton] at hk
    subst hk
    cases hv
  · intro k hk v hv
    rw [List.mem_singleton] at hk
    subst hk
    cases hv
  · intro b hb; cases hb
  · intro a ha; cases ha

theorem fmt_ok (S T : String) : ∃ out, format (fun n => s!"observer{n}") fmtRefs [S, T] [fmtA, fmtB] = .ok out := by
  rw [C69_errors]
  refine ⟨rfl, ?_, ?_, ?_, ?_⟩
  · intro r hr
    simp only [List.mem_cons, List.not_mem_nil, or_false] at hr
    rcases hr with rfl | rfl
    · exact fmtA_sized
    · exact fmtB_sized
  · have h1 : videoNames fmtA = ["a", "b"] := rfl
    have h2 : videoNames fmtB = ["a", "b"] := rfl
    intro l hl l' hl' i n n' hn hn'
    simp only [List.map_cons, List.map_nil, h1, h2, List.mem_cons, List.not_mem_nil, or_false, or_self] at hl hl'
    subst hl hl'
    rw [hn] at hn'
    exact Option.some.inj hn'
  · have h2 : observerNames (fun n => s!"observer{n}") fmtB = [] := rfl
    intro l hl l' hl' i n n' hn hn'
    simp only [List.map_cons, List.map_nil, h2, List.mem_cons, List.not_mem_nil, or_false] at hl hl'
    rcases hl with rfl | rfl <;> rcases hl' with rfl | rfl <;> first | exact Option.some.inj (hn.symm.trans hn') | simp at hn hn'
  · have h2 : contentNames fmtRefs fmtB = [] := rfl
    intro l hl l' hl' i n n' hn hn'
    simp only [List.map_cons, List.map_nil, h2, List.mem_cons, List.not_mem_nil, or_false] at hl hl'
    rcases hl with rfl | rfl <;> rcases hl' with rfl | rfl <;> first | exact Option.some.inj (hn.symm.trans hn') | simp at hn hn'

/-- the hypotheses of `C69_placement_partial` on two models of different types -/
example : ∃ out, format (fun n => s!"observer{n}") fmtRefs ["MLE", "MOS"] [fmtA, fmtB] = .ok out ∧
    numberIn out.disVideos 1 "MLE" "quality_score_ci95" = some (.row [6, 8]) ∧
    numberIn out.disVideos 1 "MOS" "quality_score_std" = none ∧ numberIn out.observers 0 "MLE" "observer_bias" = some (.one 9) ∧
    nameIn out.observers 0 = some "observer0" := by
  obtain ⟨out, h⟩ := fmt_ok "MLE" "MOS"
  have hA : ("MLE", fmtA) ∈ ["MLE", "MOS"].zip [fmtA, fmtB] := List.mem_cons_self
  have hB : ("MOS", fmtB) ∈ ["MLE", "MOS"].zip [fmtA, fmtB] := List.mem_cons_of_mem _ List.mem_cons_self
  have p1 := C69_placement_partial _ _ _ _ out h (by decide) "MLE" fmtA hA
  have p2 := C69_placement_partial _ _ _ _ out h (by decide) "MOS" fmtB hB
  refine ⟨out, h, ?_, ?_, ?_, ?_⟩
  · rw [(p1 1 _).1]; rfl
  · rw [(p2 1 _).1]; rfl
  · rw [(p1 0 _).2.1]; rfl
  · exact ((C69_names _ _ _ _ out h 0).2.1 _).mpr ⟨fmtA, List.mem_cons_self, rfl⟩

/-- **C69, refuted.** Two models of the same type: the output shows the score of the second beside the standard deviation
of the first, and the score of the first is lost. -/
theorem C69_refuted : ∃ out, format (fun n => s!"observer{n}") fmtRefs ["MLE", "MLE"] [fmtA, fmtB] = .ok out ∧
    numberIn out.disVideos 0 "MLE" "quality_score" = some (.one 21) ∧
    numberIn out.disVideos 0 "MLE" "quality_score_std" = some (.one 3) := by
  obtain ⟨out, h⟩ := fmt_ok "MLE" "MLE"
  refine ⟨out, h, ?_, ?_⟩
  · rw [(C69_written _ _ _ _ out h 0 _ _).1]; rfl
  · rw [(C69_written _ _ _ _ out h 0 _ _).1]; rfl

/-- **C69.** Content ids with a gap: three contents are fitted, two are named, and there is no output. -/
theorem C69_contentGap (dflt : ℕ → ν) (types : List String) (r : Res ν V) (rs : List (Res ν V)) (a b : ν) (v : List V)
    (hv : r.data "content_ambiguity" = some (.seq v)) (h3 : v.length = 3) :
    ¬ ∃ out, format dflt [(0, some a), (2, some b)] types (r :: rs) = .ok out := by
  rw [C69_errors]
  rintro ⟨_, h, _⟩
  obtain ⟨_, hl, _⟩ := (h r List.mem_cons_self).2.2 _ hv
  have := hasLen_size hl
  have h2 : (([((0 : ℤ), some a), (2, some b)] : List (ℤ × Option ν)).map (·.1)).toFinset.card = 2 := rfl
  rw [h2] at this
  have h3' : v.length = 2 := this
  omega

/-- **C69.** `None` under a key that should hold a list (as `BradleyTerryNewtonRaphsonPairedCompSubjectiveModel` reports for
the standard deviations) leaves no output. -/
theorem C69_none (dflt : ℕ → ν) (refs : List (ℤ × Option ν)) (types : List String) (r : Res ν V) (rs : List (Res ν V))
    (hv : r.data "quality_scores_std" = some .none) : ¬ ∃ out, format dflt refs types (r :: rs) = .ok out := by
  rw [C69_errors]
  rintro ⟨_, h, _⟩
  obtain ⟨q, names, _, _, _, hL⟩ := (h r List.mem_cons_self).1
  rcases hL.1 _ (List.mem_singleton_self _) _ hv with ⟨l, hl, _⟩ | ⟨l, hl, _⟩ <;> cases hl

end Sureal.Props
