import Verif.Lemmas.Ascii
import Verif.Props.Written
/-!
# C145: the output is plain text

`output.json` is opened without naming an encoding.  This does no harm: whatever the names of videos and observers are, only printable characters of
ASCII and line ends are written.
-/
set_option linter.unusedSectionVars false
namespace Sureal.Props
open Sureal Spec Spec.Json Written Main JsonOut Format

section
variable {κ : Type} [LinearOrder κ] {ppf : Fl ℝ → ℕ → Fl ℝ} {pinv : Pinv ℝ} {path : List Char} {readPy readJson : Py (Dataset κ ℝ)} {models : List String}
  {name : String ⊕ κ → String} {repr : ℝ → List Char} {said : List Char} {before : Option (List Char)}

/-- **C145.** With any models, on any dataset with any names, and also if it fails halfway, the program prints plain text only, and what is in
`output.json` afterwards is plain text, or it is what was there before. -/
theorem C145_plain (hr : ∀ x, IsNumber (repr x)) :
    PlainText (ending name repr before (scores ppf (@pinv) path readPy readJson models)).printed ∧
    ((endingDir name repr said before (scores ppf (@pinv) path readPy readJson models)).file = before ∨
      ∃ t, (endingDir name repr said before (scores ppf (@pinv) path readPy readJson models)).file = some t ∧ PlainText t) := by
  cases h : scores ppf (@pinv) path readPy readJson models with
  | error e => exact ⟨Ascii.nil, Or.inl rfl⟩
  | ok out =>
    have hw := Ascii.write_plain hr 0 (tree name out)
    unfold ending endingDir
    dsimp only
    constructor
    · split
      · exact Ascii.append hw (Ascii.lit (by decide))
      · exact Ascii.nil
    · right
      split <;> exact ⟨_, rfl, hw⟩

/-- **C145**, for the text of any output -/
theorem C145_text (hr : ∀ x, IsNumber (repr x)) (out : Output (String ⊕ κ) (Fl ℝ)) : PlainText (text name repr out) := by
  have := Ascii.write_plain hr 0 (tree name (out.map Obj.float))
  rwa [write_text] at this

end

/-- the hypothesis is met, and a name with a quotation mark, an umlaut, a delete character and a clef is written in plain text -/
example : (∀ x : ℝ, IsNumber ((fun _ => ['0']) x)) ∧ encStr "\"ä\x7f𝄞".toList = "\"\\\"\\u00e4\\u007f\\ud834\\udd1e\"".toList ∧
    ¬ PlainText "\"ä\x7f𝄞".toList :=
  ⟨fun _ => ⟨[], ['0'], [], [], Or.inl rfl, Or.inl rfl, Or.inl rfl, Or.inl rfl, rfl⟩, by decide +kernel, fun h => by
    rcases h 'ä' (by decide) with h | ⟨-, h⟩
    · exact absurd h (by decide)
    · exact absurd h (by decide)⟩

end Sureal.Props
