import Verif.Lemmas.Preproc
import Verif.Props.Mos
/-!
# Differential scoring: C13
-/
set_option linter.unusedSectionVars false
namespace Sureal.Props
open Sureal Spec
variable {κ K : Type} [Field K] [LinearOrder K] [IsStrictOrderedRing K] [MathFn K] [LinearOrder κ]

theorem rawReader_ok {d : Dataset κ K} {rd : Reader κ K} (h : rawReader d = .ok rd) :
    assertRaw d = .ok () ∧ rd = ⟨d, d.disVideos, opinionScores d.disVideos, listObservers d.disVideos⟩ := by
  unfold rawReader at h
  split at h
  · cases h
  · cases h; exact ⟨by assumption, rfl⟩

/-- The observer list either exists or is refused by an assertion; it never stops a run of an accepted
dataset. -/
theorem observers_harmless {d : Dataset κ K} (h : assertRaw d = .ok ()) :
    (∃ o, listObservers d.disVideos = .ok o) ∨ listObservers d.disVideos = .error .assertion := by
  have w := (C01_accepts_iff_wellFormed d).mp h
  unfold listObservers
  have key : ∀ l : List (DisVideo κ K), (∀ dv ∈ l, ∃ os, dv.os = some os ∧ os ≠ .other) →
      (∃ ds, mapPy osDict l = .ok ds) ∨ mapPy osDict l = .error .assertion := by
    intro l
    induction l with
    | nil => intro _; exact Or.inl ⟨_, rfl⟩
    | cons dv l ih =>
      intro hl
      obtain ⟨os, ho, hne⟩ := hl dv (by simp)
      unfold mapPy osDict
      rw [ho]
      cases os with
      | seq t l => exact Or.inr rfl
      | other => exact absurd rfl hne
      | dict dd =>
        dsimp only
        rcases ih (fun x hx => hl x (by simp [hx])) with ⟨ds, h⟩ | h
        · unfold osDict at h
          rw [h]; exact Or.inl ⟨_, rfl⟩
        · unfold osDict at h
          rw [h]; exact Or.inr rfl
  rcases key _ w.hasOs with ⟨ds, h⟩ | h
  · rw [h]; exact Or.inl ⟨_, rfl⟩
  · rw [h]; exact Or.inr rfl

/-- **C13.** Differential scoring of a dataset with a numeric `ref_score`.
1. If every rated video's content has exactly one hidden reference, the run succeeds and each video's score is
   its MOS plus `ref_score` minus the MOS of that hidden reference (NaN if one of the two is).
2. Hence a hidden reference that has votes gets exactly `ref_score`.
3. If some video's content has no or several hidden references, the run raises an assertion error. -/
theorem C13_dscore (d : Dataset κ K) (rd : Reader κ K) (hacc : rawReader d = .ok rd) (a : Arr3D (Fl K))
    (ha : rd.scores = .ok a) (hc : ∀ e s r, NumOrNan (a.get e s r)) (rs : K) (hrs : d.refScore = some (some (.fin rs))) :
    ((∀ dv ∈ d.disVideos, ∃ i, HiddenRef d dv.contentId i ∧ ∀ j, HiddenRef d dv.contentId j → j = i) →
      ∃ res, runDMOS rd {} = .ok res ∧ res.qualityScores.length = a.E ∧
        ∀ (e i : Fin a.E) (dv : DisVideo κ K), d.disVideos[e.val]? = some dv → HiddenRef d dv.contentId i →
          res.qualityScores[e.val]?
            = some (meanOrNan (videoCells a.get e) + .fin rs - meanOrNan (videoCells a.get i)) ∧
          (e = i → (∃ s r v, a.get e s r = .fin v) → res.qualityScores[e.val]? = some (.fin rs))) ∧
    ((∃ dv ∈ d.disVideos, ¬ ∃ i, HiddenRef d dv.contentId i ∧ ∀ j, HiddenRef d dv.contentId j → j = i) →
      runDMOS rd {} = .error .assertion) := by
  obtain ⟨hass, rfl⟩ := rawReader_ok hacc
  dsimp only at ha
  have w := (C01_accepts_iff_wellFormed d).mp hass
  have hE : a.E = d.disVideos.length := opinionScores_E ha
  obtain ⟨bs, hb, -, -⟩ := disvideoIsRefvideo_ok w.hasRef
  have hs := fun c i => refSearch w.hasRef hb c i
  -- one lookup
  have hone : ∀ dv ∈ d.disVideos, ∀ (i : Nat), HiddenRef d dv.contentId i →
      (∀ j, HiddenRef d dv.contentId j → j = i) → ∃ m, (List.ofFn (meanAlongS a.get))[i]? = some m := by
    intro dv _ i hi _
    obtain ⟨dv', _, hdv', _⟩ := hi
    have : i < d.disVideos.length := (List.getElem?_eq_some_iff.mp hdv').1
    exact ⟨_, List.getElem?_eq_getElem (by simp; omega)⟩
  refine ⟨fun hall => ?_, fun ⟨dv, hdv, hno⟩ => ?_⟩
  · -- the reference MOS vector
    have hrm : ∃ rm, refMos (⟨d, d.disVideos, opinionScores d.disVideos, listObservers d.disVideos⟩ : Reader κ K)
        (List.ofFn (meanAlongS a.get)) = .ok rm ∧ rm.length = d.disVideos.length ∧
        ∀ (k : Nat) (dv : DisVideo κ K) (i : Fin a.E), d.disVideos[k]? = some dv → HiddenRef d dv.contentId i →
          rm[k]? = some (meanAlongS a.get i) := by
      unfold refMos
      dsimp only
      rw [hb]
      dsimp only
      have : ∀ l : List (DisVideo κ K), (∀ x ∈ l, x ∈ d.disVideos) →
          ∃ rm, mapPy (fun dv : DisVideo κ K =>
            match indices ((contentIdOfDisVideos d.disVideos).zip bs) (fun p => p.2 && decide (p.1 = dv.contentId)) with
            | [i] => match (List.ofFn (meanAlongS a.get))[i]? with
              | some m => (.ok m : Py (Fl K))
              | none => .error .index
            | _ => .error .assertion) l = .ok rm ∧ rm.length = l.length ∧
          ∀ (k : Nat) (dv : DisVideo κ K) (i : Fin a.E), l[k]? = some dv → HiddenRef d dv.contentId i →
          rm[k]? = some (meanAlongS a.get i) := by
        intro l
        induction l with
        | nil => intro _; exact ⟨[], rfl, rfl, by simp⟩
        | cons x l ih =>
          intro hl
          obtain ⟨rm, h1, h2, h3⟩ := ih (fun y hy => hl y (by simp [hy]))
          have hx := hl x (by simp)
          obtain ⟨i, hi, hu⟩ := hall x hx
          obtain ⟨m, hm⟩ := hone x hx i hi hu
          refine ⟨m :: rm, ?_, by simp [h2], ?_⟩
          · unfold mapPy
            rw [(hs x.contentId i).mpr ⟨hi, hu⟩]
            dsimp only
            rw [hm, h1]
          · intro k dv j hk hj
            cases k with
            | zero =>
              simp only [List.getElem?_cons_zero, Option.some.injEq] at hk
              subst hk
              have hji := hu j hj
              simp only [List.getElem?_cons_zero]
              rw [← hm, ← hji, List.getElem?_ofFn, dif_pos j.isLt]
            | succ k =>
              simp only [List.getElem?_cons_succ] at hk ⊢
              exact h3 k dv j hk hj
      exact this d.disVideos (fun x hx => hx)
    obtain ⟨rm, hrm, hlen, hval⟩ := hrm
    obtain ⟨b, hb1, hb2⟩ : ∃ b : Arr3D (Fl K),
        preprocess (⟨d, d.disVideos, opinionScores d.disVideos, listObservers d.disVideos⟩ : Reader κ K)
          { dscoreMode := yes } = .ok { arr := b, orig := a } ∧
        b = { a with get := fun e s r => a.get e s r + .fin rs - (rm[e.val]?).getD .nan } := by
      refine ⟨_, ?_, rfl⟩
      have hds : dscoreStep (⟨d, d.disVideos, opinionScores d.disVideos, listObservers d.disVideos⟩ : Reader κ K) a
          = .ok { a with get := fun e s r => a.get e s r + .fin rs - (rm[e.val]?).getD .nan } := by
        unfold dscoreStep
        dsimp only
        rw [hrs]
        dsimp only
        rw [hrm]
        dsimp only
        rw [if_pos (by omega)]
      rw [preprocess_dscore ha, hds]
    obtain ⟨res, hr1, hr2⟩ : ∃ res,
        runDMOS (⟨d, d.disVideos, opinionScores d.disVideos, listObservers d.disVideos⟩ : Reader κ K) {} = .ok res ∧
        res.qualityScores = List.ofFn (meanAlongS b.get) := by
      have hnot : (({} : Opts K).dscoreMode.isTrue) = false := rfl
      unfold runDMOS runModeling mosRunModeling
      simp only [hnot, hb1]
      rcases observers_harmless hass with ⟨o, ho⟩ | ho <;> rw [ho]
      · exact ⟨_, rfl, rfl⟩
      · exact ⟨_, rfl, rfl⟩
    have hbE : b.E = a.E := by rw [hb2]
    refine ⟨res, hr1, by rw [hr2]; simp [hbE], ?_⟩
    intro e i dv he hi
    have hmain : res.qualityScores[e.val]?
            = some (meanOrNan (videoCells a.get e) + .fin rs - meanOrNan (videoCells a.get i)) := by
      rw [hr2]
      subst hb2
      rw [List.getElem?_ofFn, dif_pos e.isLt]
      congr 1
      have hloc : ∀ s r, a.get e s r + .fin rs - (rm[e.val]?).getD .nan
          = a.get e s r + .fin rs - meanOrNan (videoCells a.get i) := by
        intro s r
        rw [hval e.val dv i he hi, Option.getD_some, meanAlongS_spec _ _ (hc i)]
      have h2 := meanAlongS_shift a.get e (hc e) rs _ (meanOrNan_clean (videoCells a.get i))
      rw [← h2]
      unfold meanAlongS
      congr 1
      rw [rowL_stack1, rowL_stack1]
      simp only [hloc]
    refine ⟨hmain, ?_⟩
    rintro rfl ⟨s, r, v, hv⟩
    rw [hmain]
    have : ∃ x xs, present (videoCells a.get e) = x :: xs := by
      have hm : v ∈ present (videoCells a.get e) := by
        unfold present
        rw [List.mem_filterMap]
        exact ⟨_, (mem_videoCells _ _ _).mpr ⟨s, r, rfl⟩, by rw [hv]; rfl⟩
      exact List.exists_cons_of_ne_nil (List.ne_nil_of_mem hm)
    obtain ⟨x, xs, hx⟩ := this
    simp [meanOrNan, hx]
  · have herr : refMos (⟨d, d.disVideos, opinionScores d.disVideos, listObservers d.disVideos⟩ : Reader κ K)
        (List.ofFn (meanAlongS a.get)) = .error .assertion := by
      unfold refMos
      dsimp only
      rw [hb]
      dsimp only
      refine mapPy_error hdv ?_ ?_
      · intro y hy e he
        split at he
        · rename_i i hi
          obtain ⟨h1, h2⟩ := (hs y.contentId i).mp hi
          obtain ⟨m, hm⟩ := hone y hy i h1 h2
          rw [hm] at he
          cases he
        · cases he; rfl
      · split
        · rename_i i hi
          exact absurd ⟨i, (hs dv.contentId i).mp hi⟩ hno
        · exact ⟨_, rfl⟩
    have hnot : (({} : Opts K).dscoreMode.isTrue) = false := rfl
    have hp : preprocess (⟨d, d.disVideos, opinionScores d.disVideos, listObservers d.disVideos⟩ : Reader κ K)
        { dscoreMode := yes } = .error .assertion := by
      rw [preprocess_dscore ha]
      unfold dscoreStep
      dsimp only
      rw [hrs]
      dsimp only
      rw [herr]
    unfold runDMOS runModeling mosRunModeling
    simp only [hnot, hp]
    simp

/-- the example dataset has `ref_score` 5; content 0 has exactly one hidden reference (video 0), content 1 has
none, so a run on all three videos raises and a run on the first two succeeds -/
example : HiddenRef exSeq 0 0 ∧ (∀ j, HiddenRef exSeq 0 j → j = 0) ∧ ¬ ∃ i, HiddenRef exSeq 1 i := by
  have hr0 : RefFor exSeq.refVideos 0 ⟨0, "r0", []⟩ := ⟨[], [⟨1, "r1", []⟩], rfl, rfl, by decide⟩
  have hr1 : RefFor exSeq.refVideos 1 ⟨1, "r1", []⟩ := ⟨[⟨0, "r0", []⟩], [], rfl, rfl, by decide⟩
  refine ⟨⟨_, _, rfl, rfl, hr0, rfl⟩, ?_, ?_⟩
  · rintro j ⟨dv, r, hj, hc, hr, hp⟩
    rw [refFor_unique hr hr0] at hp
    match j with
    | 0 => rfl
    | 1 => cases hj; simp at hp
    | 2 => cases hj; simp at hc
    | n + 3 => simp [exSeq] at hj
  · rintro ⟨j, dv, r, hj, hc, hr, hp⟩
    rw [refFor_unique hr hr1] at hp
    match j with
    | 0 => cases hj; simp at hc
    | 1 => cases hj; simp at hc
    | 2 => cases hj; simp at hp
    | n + 3 => simp [exSeq] at hj

/-- a dataset on which case 1 applies: one content, its hidden reference and a distorted version of it -/
def exDscore : Dataset String ℚ := { exSeq with disVideos := exSeq.disVideos.take 2 }

/-- Placeholder elementary functions on ℚ, so that the model can be evaluated in the kernel on examples whose
outcome does not involve them. -/
@[reducible] def ratMath : MathFn ℚ := ⟨id, id, id, 3⟩

attribute [local instance] ratMath in
example : (match rawReader exDscore with
    | .ok rd => match runDMOS rd {} with
      | .ok res => res.qualityScores
      | .error _ => []
    | .error _ => []) = [.fin 5, .fin (2 + 5 - 14/3)] := by
  decide +kernel

attribute [local instance] ratMath in
example : (match rawReader exSeq with
    | .ok rd => match runDMOS rd {} with
      | .ok _ => none
      | .error e => some e
    | .error _ => none) = some .assertion := by
  decide +kernel

end Sureal.Props
