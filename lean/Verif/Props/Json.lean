import Verif.Lemmas.JsonDict
import Verif.Props.Main
/-!
# C140: the text the program prints or writes

`repr` is `float.__repr__` on finite numbers, of which only is assumed that it gives JSON numbers, and, for `C140_lossless`, different ones for
different numbers.
-/
set_option linter.unusedSectionVars false
namespace Sureal.Props
open Sureal Format Spec Spec.Json JsonOut Main

section
variable {ν K : Type} {name : ν → String} {repr : K → List Char}

/-- **C140.** If all numbers of the output are finite, the text is JSON for the output: names are escaped as they have to be, every
bracket is closed, the commas and colons are where they belong. -/
theorem C140_denotes_partial (hr : ∀ x, IsNumber (repr x)) {out : Output ν (Fl K)} (h : ∀ v, NumberOf out v → ∃ x, v = .fin x) :
    Denotes repr (.value (tree name out)) (text name repr out) :=
  enc_spec hr 0 _ fun v hv => h v ((mem_tree name).mp hv)

/-- **C140.** Otherwise it is not JSON at all. -/
theorem C140_not_json (hr : ∀ x, IsNumber (repr x)) {out : Output ν (Fl K)} {v : Fl K} (hv : NumberOf out v) (hf : ∀ x, v ≠ .fin x) :
    ¬ IsJsonText repr (text name repr out) := by
  intro h
  obtain ⟨x, hx⟩ := (enc_json_iff hr 0 _).mp h v ((mem_tree name).mpr hv)
  exact hf x hx

/-- **C140, nothing is lost.** Different outputs (names, numbers, also NaN and infinity) have different texts. -/
theorem C140_lossless (hr : ∀ x, IsNumber (repr x)) (hi : Function.Injective repr) {out out' : Output String (Fl K)} (hs : NumStats out)
    (hs' : NumStats out') (h : text id repr out = text id repr out') : out = out' := by
  refine tree_inj hs hs' (enc_inj hr hi 0 _ _ [] [] (fun c hc => by cases hc) (fun c hc => by cases hc) ?_).1
  rw [List.append_nil, List.append_nil]
  exact h

/-- **C140, outputs of the formatting.** The text is JSON if and only if all numbers that can be looked up in the output are finite. -/
theorem C140_json_iff [DecidableEq ν] (hr : ∀ x, IsNumber (repr x)) {dflt : ℕ → ν} {refs : List (ℤ × Option ν)} {types : List String}
    {results : List (Res ν (Fl K))} {out : Output ν (Fl K)} (h : format dflt refs types results = .ok out)
    (hs : ∀ r ∈ results, ∀ k v, k = "aic" ∨ k = "bic" → r.data k = some v → ∃ x, v = .num x) :
    IsJsonText repr (text name repr out) ↔ AllFinite out := by
  have hok : ∃ o : Out ν (Fl K), OutOk (fun v => ∃ x, v = .num x) o ∧ out = ⟨valuesOf o.videos, valuesOf o.observers,
      valuesOf o.contents, if o.stats.isEmpty then none else some o.stats⟩ := by
    have hempty : OutOk (fun v => ∃ x, v = .num x) ({} : Out ν (Fl K)) := by
      refine ⟨?_, ?_, ?_, ⟨List.nodup_nil, ?_⟩, ?_⟩ <;> exact fun p hp => absurd hp List.not_mem_nil
    unfold format at h
    split at h
    · split at h
      · cases h
      · rename_i rs hrs
        split at h
        · cases h
        · rename_i o ho
          cases h
          refine ⟨o, writeAll_ok (fun p hp k v hk hv => ?_) hempty ho, rfl⟩
          obtain ⟨r, hr, hv'⟩ := mapPy_mem hrs (List.of_mem_zip (a := p.1) (b := p.2) hp).2
          rw [validate_data hv'] at hv
          exact hs r hr k v hk hv
    · cases h
  obtain ⟨o, hok, rfl⟩ := hok
  rw [text, enc_json_iff hr]
  have hvals : ∀ {sec : Section ν (Fl K)} {l : List (Entry ν (Fl K))}, JsonOut.SecOk sec → valuesOf sec = some l → ∀ e ∈ l, DictOk e.models := by
    intro sec l hsec hv e he
    unfold valuesOf at hv
    split at hv
    · cases hv
    · cases hv
      obtain ⟨p, hp, rfl⟩ := List.mem_map.mp he
      exact hsec p hp
  have hlook : ∀ {sec : Section ν (Fl K)} {l : List (Entry ν (Fl K))} {e : Entry ν (Fl K)} {T : String} {d : List (String × Cell (Fl K))} {k : String}
      {c : Cell (Fl K)}, JsonOut.SecOk sec → valuesOf sec = some l → e ∈ l → (T, d) ∈ e.models → (k, c) ∈ d → ∃ i, numberIn (valuesOf sec) i T k = some c := by
    intro sec l e T d k c hsec hv he hT hk
    obtain ⟨i, hi, rfl⟩ := List.getElem_of_mem he
    refine ⟨i, ?_⟩
    unfold numberIn
    rw [hv, Option.getD_some, List.getElem?_eq_getElem hi]
    exact (hvals hsec hv _ he).look hT hk
  have hmem : ∀ {sec : Section ν (Fl K)} {i : ℕ} {T k : String} {c : Cell (Fl K)}, numberIn (valuesOf sec) i T k = some c →
      ∃ l e d, valuesOf sec = some l ∧ e ∈ l ∧ (T, d) ∈ e.models ∧ (k, c) ∈ d := by
    intro sec i T k c h
    unfold numberIn at h
    cases hv : valuesOf sec with
    | none => rw [hv] at h; simp at h
    | some l =>
      rw [hv, Option.getD_some] at h
      cases hi : l[i]? with
      | none => rw [hi] at h; cases h
      | some e =>
        rw [hi, Option.bind_some] at h
        cases hT : e.models.lookup T with
        | none => rw [hT] at h; cases h
        | some d =>
          rw [hT, Option.bind_some] at h
          exact ⟨l, e, d, rfl, List.mem_of_getElem? hi, getKey_mem (by rw [getKey_lookup]; exact hT), getKey_mem (by rw [getKey_lookup]; exact h)⟩
  have hcell : ∀ {c : Cell (Fl K)} {x : Fl K}, x ∈ numbersIn c → c = .one x ∨ ∃ r, c = .row r ∧ x ∈ r := by
    intro c x hx
    cases c with
    | one v => exact Or.inl (by rw [List.mem_singleton.mp hx])
    | row r => exact Or.inr ⟨r, rfl, hx⟩
  constructor
  · intro hall
    have hfin : ∀ v : Fl K, NumberOf _ v → ∃ x, v = .fin x := fun v hv => hall v ((mem_tree name).mpr hv)
    refine ⟨?_, ?_, ?_, ?_⟩
    · intro i T k c hc x hx
      obtain ⟨l, e, d, hl, he, hT, hk⟩ := hmem hc
      rcases hcell hx with rfl | ⟨r, rfl, hx⟩
      · exact hfin _ (.cell l (Or.inl hl) e he T d hT k hk)
      · exact hfin _ (.row l (Or.inl hl) e he T d hT k r hk hx)
    · intro i T k c hc x hx
      obtain ⟨l, e, d, hl, he, hT, hk⟩ := hmem hc
      rcases hcell hx with rfl | ⟨r, rfl, hx⟩
      · exact hfin _ (.cell l (Or.inr (Or.inl hl)) e he T d hT k hk)
      · exact hfin _ (.row l (Or.inr (Or.inl hl)) e he T d hT k r hk hx)
    · intro i T k c hc x hx
      obtain ⟨l, e, d, hl, he, hT, hk⟩ := hmem hc
      rcases hcell hx with rfl | ⟨r, rfl, hx⟩
      · exact hfin _ (.cell l (Or.inr (Or.inr hl)) e he T d hT k hk)
      · exact hfin _ (.row l (Or.inr (Or.inr hl)) e he T d hT k r hk hx)
    · intro T k x hx
      unfold statIn at hx
      dsimp only at hx
      split at hx
      · simp at hx
      · rename_i hne
        rw [Option.getD_some] at hx
        cases hT : o.stats.lookup T with
        | none => rw [hT] at hx; cases hx
        | some d =>
          rw [hT, Option.bind_some] at hx
          exact hfin x (.stat o.stats (by dsimp only; rw [if_neg hne]) T d (getKey_mem (by rw [getKey_lookup]; exact hT)) k
            (getKey_mem (by rw [getKey_lookup]; exact hx)))
  · intro hall v hv
    have hvid : ∀ {c : Cell (Fl K)}, v ∈ numbersIn c → ∀ (l : List (Entry ν (Fl K))) (_ : valuesOf o.videos = some l ∨ valuesOf o.observers = some l ∨
        valuesOf o.contents = some l) (e) (_ : e ∈ l) (T d) (_ : (T, d) ∈ e.models) (k) (_ : (k, c) ∈ d), ∃ x, v = .fin x := by
      intro c hvc l hl e he T d hT k hk
      rcases hl with hl | hl | hl
      · obtain ⟨i, hi⟩ := hlook hok.videos hl he hT hk
        exact hall.videos i T k _ hi v hvc
      · obtain ⟨i, hi⟩ := hlook hok.observers hl he hT hk
        exact hall.observers i T k _ hi v hvc
      · obtain ⟨i, hi⟩ := hlook hok.contents hl he hT hk
        exact hall.contents i T k _ hi v hvc
    have hst : ∀ {st : List (String × List (String × Val (Fl K)))}, (if o.stats.isEmpty then none else some o.stats) = some st → st = o.stats := by
      intro st h
      split at h
      · cases h
      · exact (Option.some.inj h).symm
    rcases (mem_tree name).mp hv with ⟨l, hl, e, he, T, d, hT, k, hk⟩ | ⟨l, hl, e, he, T, d, hT, k, r, hk, hvr⟩ | ⟨st, hs, T, d, hT, k, hk⟩ |
      ⟨st, hs, T, d, hT, k, r, hk, -⟩ | ⟨st, hs, T, d, hT, k, rs, r, hk, -, -⟩
    · exact hvid (c := .one v) (List.mem_singleton_self v) l hl e he T d hT k hk
    · exact hvid (c := .row r) hvr l hl e he T d hT k hk
    · have he := hst hs
      subst he
      refine hall.stats T k v ?_
      unfold statIn
      rw [hs]
      exact hok.stats.look hT hk
    · obtain ⟨x, hx⟩ := hok.vals _ (hst hs ▸ hT) _ hk
      cases hx
    · obtain ⟨x, hx⟩ := hok.vals _ (hst hs ▸ hT) _ hk
      cases hx

end

section
variable {ppf : Fl ℝ → ℕ → Fl ℝ} {other : ModelClass → Reader String ℝ → Py (Result String ℝ)} {path : List Char}
  {readPy readJson : Py (Dataset String ℝ)} {models : List String} {repr : ℝ → List Char}

/-- the strings that the names in the output of the program are -/
def nameText : String ⊕ String → String := Sum.elim id id

/-- **C140, the program.** What the program prints, or writes to `output.json`, for any models of opinion scores and any dataset is JSON if and only if
all numbers in it are finite. -/
theorem C140_program {er : PyErr} (hr : ∀ x, IsNumber (repr x)) {out : Output (String ⊕ String) (Fl ℝ)}
    (h : main ppf other (fun _ => .error er) path readPy readJson models = .ok out) :
    IsJsonText repr (text nameText repr out) ↔ AllFinite out := by
  unfold main at h
  split at h
  · cases h
  · split at h
    · cases h
    · unfold runAll at h
      split at h
      · cases h
      · split at h
        · cases h
        · refine C140_json_iff hr h fun r hr k v hk hv => ?_
          obtain ⟨rep, -, rfl⟩ := List.mem_map.mp hr
          rcases hk with rfl | rfl
          · change entry ppf rep.result "aic" = some v at hv
            cases ha : rep.result.aic with
            | none => simp [entry, ha] at hv
            | some x => simp [entry, ha] at hv; exact ⟨x, hv.symm⟩
          · change entry ppf rep.result "bic" = some v at hv
            cases ha : rep.result.bic with
            | none => simp [entry, ha] at hv
            | some x => simp [entry, ha] at hv; exact ⟨x, hv.symm⟩
    · cases h

/-- **C140, mean opinion scores.** For the model MOS that is the case if and only if every video has at least two votes. -/
theorem C140_mos (hr : ∀ x, IsNumber (repr x)) {d : Dataset String ℝ} (h : Readable d) (hl : Loads path readPy readJson d) (h2 : 2 ≤ votesOverall d) :
    ∃ out, main ppf other (fun _ => .error .assertion) path readPy readJson ["MOS"] = .ok out ∧
      (IsJsonText repr (text nameText repr out) ↔ ∀ dv ∈ d.disVideos, 2 ≤ (numbersOf dv).length) := by
  obtain ⟨out, hout, hf⟩ := C119_finite_iff (ppf := ppf) (other := other) (pc := fun _ => .error .assertion) h hl h2
  exact ⟨out, hout, (C140_program hr hout).trans hf⟩

/-- **C140 (refuted).** A dataset in which every video has a vote, for which the program ends without an error and writes something that is not JSON. -/
theorem C140_refuted (hr : ∀ x, IsNumber (repr x)) : Readable exScarce ∧ (∀ dv ∈ exScarce.disVideos, numbersOf dv ≠ []) ∧
    ∃ out, main ppf other (fun _ => .error .assertion) "scores.py".toList (.ok exScarce) (.error .assertion) ["MOS"] = .ok out ∧
      ¬ IsJsonText repr (text nameText repr out) := by
  obtain ⟨h1, h2, out, hout, -, hf⟩ := C119_refuted (ppf := ppf) (other := other) (pc := fun _ => .error .assertion)
  exact ⟨h1, h2, out, hout, fun h => hf ((C140_program hr hout).mp h)⟩

/-- `C140_mos` applies, with a text that is JSON -/
example (hr : ∀ x, IsNumber (repr x)) : ∃ out, main ppf other (fun _ => .error .assertion) "scores.py".toList (.ok exComplete) (.error .assertion) ["MOS"] = .ok out ∧
    IsJsonText repr (text nameText repr out) := by
  obtain ⟨out, h1, h2⟩ := C140_mos (ppf := ppf) (other := other) hr exComplete_readable (ex_loads _) (by decide)
  refine ⟨out, h1, h2.mpr fun dv hdv => ?_⟩
  simp only [exComplete, List.mem_cons, List.not_mem_nil, or_false] at hdv
  rcases hdv with rfl | rfl <;> decide

end

/-! ## a case -/

/-- the numeral of an integer -/
def exRepr : ℕ → List Char
  | 0 => ['0']
  | n + 1 => '1' :: List.replicate n '0'

theorem exRepr_number (n : ℕ) : IsNumber (exRepr n) := by
  refine ⟨[], exRepr n, [], [], Or.inl rfl, ?_, Or.inl rfl, Or.inl rfl, by simp⟩
  cases n with
  | zero => exact Or.inl rfl
  | succ n =>
    refine Or.inr ⟨⟨by simp [exRepr], fun c hc => ?_⟩, by simp [exRepr]⟩
    rcases List.mem_cons.mp hc with rfl | hc
    · unfold IsDigit; decide
    · rw [List.eq_of_mem_replicate hc]; unfold IsDigit; decide

theorem exRepr_injective : Function.Injective exRepr := by
  intro a b h
  cases a with
  | zero => cases b with
    | zero => rfl
    | succ b => exact absurd (List.cons.inj h).1 (by decide)
  | succ a => cases b with
    | zero => exact absurd (List.cons.inj h).1 (by decide)
    | succ b =>
      have := congrArg List.length (List.cons.inj h).2
      rw [List.length_replicate, List.length_replicate] at this
      rw [this]

/-- one video whose name has a quotation mark and an umlaut, and a character beyond the first plane, with a score -/
def exOut (v : Fl ℕ) : Output String (Fl ℕ) :=
  { disVideos := some [{ name := some "\"ä𝄞", models := [("MOS", [("quality_score", .one v)])] }], observers := none, contents := none,
    stats := some [("MOS", [("aic", .num (.fin 0))])] }

/-- its text -/
theorem C140_case : text id exRepr (exOut (.fin 2)) = "{
    \"dis_videos\": [
        {
            \"dis_video_name\": \"\\\"\\u00e4\\ud834\\udd1e\",
            \"models\": {
                \"MOS\": {
                    \"quality_score\": 10
                }
            }
        }
    ],
    \"stats\": {
        \"models\": {
            \"MOS\": {
                \"aic\": 0
            }
        }
    }
}".toList := by decide +kernel

/-- the theorems apply to it -/
example : Denotes exRepr (.value (tree id (exOut (.fin 2)))) (text id exRepr (exOut (.fin 2))) ∧ ¬ IsJsonText exRepr (text id exRepr (exOut .nan)) ∧
    text id exRepr (exOut .nan) ≠ text id exRepr (exOut .pinf) := by
  have hs : ∀ v, NumStats (exOut v) := by
    intro v st hst p hp q hq
    cases hst
    rw [List.mem_singleton.mp hp] at hq
    rw [List.mem_singleton.mp hq]
    exact ⟨_, rfl⟩
  refine ⟨?_, ?_, ?_⟩
  · refine C140_denotes_partial exRepr_number fun v hv => ?_
    have := (mem_tree id).mpr hv
    have hn : nums (tree id (exOut (.fin 2))) = [.fin 2, .fin 0] := by rfl
    rw [hn] at this
    simp only [List.mem_cons, List.not_mem_nil, or_false] at this
    rcases this with rfl | rfl <;> exact ⟨_, rfl⟩
  · exact C140_not_json exRepr_number (v := .nan) (.cell _ (Or.inl rfl) _ (List.mem_singleton_self _) _ _ (List.mem_singleton_self _) _
      (List.mem_singleton_self _)) (by intro x hx; cases hx)
  · intro h
    have := C140_lossless exRepr_number exRepr_injective (hs _) (hs _) h
    simp [exOut] at this

end Sureal.Props
