import Verif.Model.ArgvPc
import Verif.Lemmas.MainPcPlots
/-! # Lemmas: one result per command line -/
set_option linter.unusedSectionVars false
namespace Sureal.ArgvPc
open Sureal Spec Format MainPlots

variable {ppf : Fl ℝ → ℕ → Fl ℝ} {L : MainPc.Lib ℝ} {path : List Char} {readPy : Py (Dataset (String × Int) ℝ)} {readJson : Py (Dataset String ℝ)}

/-- the program with plots has one result -/
theorem program_det {asked : Asked} {cs : List ModelClass} {r r' : Py (Output String (Fl ℝ) × List (Figure String ℝ))}
    (h : MainPcPlots.Program ppf L path readPy readJson asked cs r) (h' : MainPcPlots.Program ppf L path readPy readJson asked cs r') : r = r' := by
  have ok_inj : ∀ {α : Type} {x : Py α} {a b : α}, x = .ok a → x = .ok b → a = b := fun h h' => by rw [h] at h'; cases h'; rfl
  cases h with
  | unread h1 =>
    cases h' with
    | unread h2 => rw [h1] at h2; cases h2; rfl
    | fail h2 _ => rw [h1] at h2; cases h2
    | undrawn h2 _ _ => rw [h1] at h2; cases h2
    | unwritten h2 _ _ _ => rw [h1] at h2; cases h2
    | done h2 _ _ _ => rw [h1] at h2; cases h2
  | fail h1 k1 =>
    cases h' with
    | unread h2 => rw [h1] at h2; cases h2
    | fail h2 k2 => cases ok_inj h1 h2; cases MainPc.runEach_det k1 k2; rfl
    | undrawn h2 k2 _ => cases ok_inj h1 h2; cases MainPc.runEach_det k1 k2
    | unwritten h2 k2 _ _ => cases ok_inj h1 h2; cases MainPc.runEach_det k1 k2
    | done h2 k2 _ _ => cases ok_inj h1 h2; cases MainPc.runEach_det k1 k2
  | undrawn h1 k1 d1 =>
    cases h' with
    | unread h2 => rw [h1] at h2; cases h2
    | fail h2 k2 => cases ok_inj h1 h2; cases MainPc.runEach_det k1 k2
    | undrawn h2 k2 d2 => cases ok_inj h1 h2; cases MainPc.runEach_det k1 k2; rw [d1] at d2; cases d2; rfl
    | unwritten h2 k2 d2 _ => cases ok_inj h1 h2; cases MainPc.runEach_det k1 k2; rw [d1] at d2; cases d2
    | done h2 k2 d2 _ => cases ok_inj h1 h2; cases MainPc.runEach_det k1 k2; rw [d1] at d2; cases d2
  | unwritten h1 k1 d1 f1 =>
    cases h' with
    | unread h2 => rw [h1] at h2; cases h2
    | fail h2 k2 => cases ok_inj h1 h2; cases MainPc.runEach_det k1 k2
    | undrawn h2 k2 d2 => cases ok_inj h1 h2; cases MainPc.runEach_det k1 k2; rw [d1] at d2; cases d2
    | unwritten h2 k2 d2 f2 => cases ok_inj h1 h2; cases MainPc.runEach_det k1 k2; rw [f1] at f2; cases f2; rfl
    | done h2 k2 d2 f2 => cases ok_inj h1 h2; cases MainPc.runEach_det k1 k2; rw [f1] at f2; cases f2
  | done h1 k1 d1 f1 =>
    cases h' with
    | unread h2 => rw [h1] at h2; cases h2
    | fail h2 k2 => cases ok_inj h1 h2; cases MainPc.runEach_det k1 k2
    | undrawn h2 k2 d2 => cases ok_inj h1 h2; cases MainPc.runEach_det k1 k2; rw [d1] at d2; cases d2
    | unwritten h2 k2 d2 f2 => cases ok_inj h1 h2; cases MainPc.runEach_det k1 k2; rw [f1] at f2; cases f2
    | done h2 k2 d2 f2 => cases ok_inj h1 h2; cases MainPc.runEach_det k1 k2; rw [d1] at d2; cases d2; rw [f1] at f2; cases f2; rfl

/-- from the class lookup on -/
theorem main_det {asked : Asked} {models : List String} {r r' : Py (Output String (Fl ℝ) × List (Figure String ℝ))}
    (h : MainPcPlots.Main ppf L path readPy readJson asked models r) (h' : MainPcPlots.Main ppf L path readPy readJson asked models r') : r = r' := by
  cases h with
  | unknown h1 =>
    cases h' with
    | unknown h2 => rw [h1] at h2; cases h2; rfl
    | refused h2 _ => rw [h1] at h2; cases h2
    | run h2 _ _ => rw [h1] at h2; cases h2
  | refused h1 c1 =>
    cases h' with
    | unknown h2 => rw [h1] at h2; cases h2
    | refused h2 c2 => rw [h1] at h2; cases h2; rw [c1] at c2; cases c2; rfl
    | run h2 c2 _ => rw [h1] at h2; cases h2; rw [c1] at c2; cases c2
  | run h1 c1 p1 =>
    cases h' with
    | unknown h2 => rw [h1] at h2; cases h2
    | refused h2 c2 => rw [h1] at h2; cases h2; rw [c1] at c2; cases c2
    | run h2 _ p2 => rw [h1] at h2; cases h2; exact program_det p1 p2

/-- with plots the program gives no other output than without -/
theorem main_output {asked : Asked} {models : List String} {out : Output String (Fl ℝ)} {figs : List (Figure String ℝ)}
    (h : MainPcPlots.Main ppf L path readPy readJson asked models (.ok (out, figs))) : MainPc.Main L path readPy readJson models (.ok out) := by
  generalize hg : (Except.ok (out, figs) : Py (Output String (Fl ℝ) × List (Figure String ℝ))) = g at h
  cases h with
  | unknown _ => cases hg
  | refused _ _ => cases hg
  | run h1 h2 h3 =>
    refine .run h1 h2 ?_
    cases h3 with
    | unread _ => cases hg
    | fail _ _ => cases hg
    | undrawn _ _ _ => cases hg
    | unwritten _ _ _ _ => cases hg
    | done h4 h5 _ h6 =>
      cases hg
      have := MainPc.Program.done (L := L) (path := path) (readPy := readPy) (readJson := readJson) h4 h5
      rw [h6] at this
      exact this

/-- where the program without plots fails, it also fails with plots -/
theorem main_fails {asked : Asked} {models : List String} {e : PyErr} (h : MainPc.Main L path readPy readJson models (.error e)) :
    ∃ e', MainPcPlots.Main ppf L path readPy readJson asked models (.error e') := by
  generalize hg : (Except.error e : Py (Output String (Fl ℝ))) = g at h
  cases h with
  | unknown h1 => exact ⟨_, .unknown h1⟩
  | refused h1 h2 => exact ⟨_, .refused h1 h2⟩
  | run h1 h2 h3 =>
    cases h3 with
    | unread h4 => exact ⟨_, .run h1 h2 (.unread h4)⟩
    | fail h4 h5 => exact ⟨_, .run h1 h2 (.fail h4 h5)⟩
    | @done rd os h4 h5 =>
      cases hd : MainPcPlots.drawAll ppf rd os asked with
      | error e' => exact ⟨e', .run h1 h2 (.undrawn h4 h5 hd)⟩
      | ok figs => exact ⟨e, .run h1 h2 (.unwritten h4 h5 hd hg.symm)⟩

end Sureal.ArgvPc
