import Verif.Model.RandState
import Verif.Lemmas.Readings
import Verif.Lemmas.BstpOnce
/-! Helper lemmas about readings of votes that pass on the state of the generator. -/
set_option linter.unusedSectionVars false
namespace Sureal.Routine
open Sureal Mock
variable {κ K σ : Type} [LinearOrder κ] [Field K] [LinearOrder K] [IsStrictOrderedRing K] [MathFn K]

/-- the readings of a source one after the other -/
def Chain (src : VoteSource σ κ K) (st : ℕ → σ) (rdr : ℕ → Reader κ K) : Prop := ∀ i, src.read (st i) = .ok (rdr i, st (i + 1))

theorem Chain.nth {src : VoteSource σ κ K} {st : ℕ → σ} {rdr : ℕ → Reader κ K} (h : Chain src st rdr) (k i : ℕ) :
    src.nth k (st i) = .ok (rdr (i + k), st (i + k + 1)) := by
  induction k generalizing i with
  | zero => exact h i
  | succ k ih =>
    unfold VoteSource.nth
    rw [h i]
    dsimp only
    rw [ih]
    congr 3 <;> omega

theorem Chain.skip {src : VoteSource σ κ K} {st : ℕ → σ} {rdr : ℕ → Reader κ K} (h : Chain src st rdr) (k i : ℕ) :
    src.skip k (st i) = .ok (st (i + k)) := by
  induction k generalizing i with
  | zero => rfl
  | succ k ih =>
    unfold VoteSource.skip
    rw [h i]
    dsimp only
    rw [ih]
    congr 2; omega

theorem Chain.model {src : VoteSource σ κ K} {st : ℕ → σ} {rdr : ℕ → Reader κ K} (h : Chain src st rdr) (m : Modelled κ K) (i : ℕ) :
    m.st src (st i) = (m.run fun k => .ok (rdr (i + k))).map fun fit => (fit, st (i + m.reads)) := by
  unfold Modelled.st
  simp only [h.nth, h.skip]
  show (match m.run fun k => (.ok (rdr (i + k)) : Py (Reader κ K)) with | .error e => _ | .ok fit => _) = _
  cases (m.run fun k => (.ok (rdr (i + k)) : Py (Reader κ K))) <;> rfl

theorem Chain.fitAll {src : VoteSource σ κ K} {st : ℕ → σ} {rdr : ℕ → Reader κ K} (h : Chain src st rdr) (models : List (String × Modelled κ K))
    (i : ℕ) :
    fitAllSt src (models.map fun p => (p.1, p.2.st)) (st i) =
      (fitAll (fun j => .ok (rdr j)) i models).map fun fits => (fits, st (i + (models.map fun p => p.2.reads).sum)) := by
  induction models generalizing i with
  | nil => rfl
  | cons p models ih =>
    obtain ⟨ty, m⟩ := p
    rw [List.map_cons]
    unfold fitAllSt
    dsimp only
    rw [h.model]
    unfold Routine.fitAll
    cases (m.run fun k => (.ok (rdr (i + k)) : Py (Reader κ K))) with
    | error e => rfl
    | ok fit =>
      simp only [Except.map]
      rw [ih]
      cases Routine.fitAll (fun j => .ok (rdr j)) (i + m.reads) models with
      | error e => rfl
      | ok rest =>
        simp only [Except.map]
        congr 3
        simp only [List.map_cons, List.sum_cons]
        omega

/-- with the same readings, both ways to validate give the same -/
theorem Chain.written {src : VoteSource σ κ K} {st : ℕ → σ} {rdr : ℕ → Reader κ K} (h : Chain src st rdr) (write : Bool) :
    writtenSt write src (st 0) = (writtenDataset write (rdr 0)).map fun d => (d, st (if write then 1 else 0)) := by
  unfold writtenSt writtenDataset
  cases write
  · rfl
  · simp only [if_true, h 0]
    cases toDataset (rdr 0) <;> rfl

/-! ### creation does not depend on the draws -/

theorem syntheticReader_ok {d : Dataset κ K} {kw : SynthKw K} {g : ℕ → K} {rd : Reader κ K} (h : syntheticReader d kw g = .ok rd) (g' : ℕ → K) :
    ∃ rd', syntheticReader d kw g' = .ok rd' := by
  unfold syntheticReader at h ⊢
  split at h
  · cases h
  · split at h
    · split at h
      · rename_i hk; rw [if_pos hk]; exact ⟨_, rfl⟩
      · cases h
    · cases h

theorem logisticReader_ok {sc : Fl K} {d : Dataset κ K} {kw : SynthKw K} {g : ℕ → K} {rd : Reader κ K} (h : logisticReader sc d kw g = .ok rd)
    (g' : ℕ → K) : ∃ rd', logisticReader sc d kw g' = .ok rd' := by
  unfold logisticReader at h ⊢
  split at h
  · cases h
  · split at h
    · split at h
      · rename_i hk; rw [if_pos hk]; exact ⟨_, rfl⟩
      · cases h
    · cases h

theorem missingReader_ok {d : Dataset κ K} {p : Fl K} {u : ℕ → K} {rd : Reader κ K} (h : missingReader d (some p) u = .ok rd) (u' : ℕ → K) :
    ∃ rd', missingReader d (some p) u' = .ok rd' ∧ cells rd'.scores = cells rd.scores := by
  unfold missingReader at h ⊢
  split at h
  · cases h
  · rename_i rd0 h0
    cases h
    refine ⟨_, rfl, ?_⟩
    dsimp only
    cases rd0.scores <;> rfl

/-- the state after `i` readings of the synthetic votes -/
def synthState (g : Gen σ K) (cls : SynthClass) (seed : Option Int) (n : ℕ) (s : σ) : ℕ → σ
  | 0 => s
  | i + 1 =>
    match cls with
    | .normal => g.afterNormal (g.reseed seed (synthState g cls seed n s i)) n
    | .logistic => g.afterLogistic (synthState g cls seed n s i) n

/-- the draws of the readings of the synthetic votes -/
def synthNoise (g : Gen σ K) (cls : SynthClass) (seed : Option Int) (n : ℕ) (s : σ) (i : ℕ) : ℕ → K :=
  match cls with
  | .normal => g.normal (synthState g cls seed n s i)
  | .logistic => g.logistic (synthState g cls seed n s i)

/-- the state after `i` readings of the votes with missing votes -/
def missingState (g : Gen σ K) (seed : Option Int) (n : ℕ) (s : σ) : ℕ → σ
  | 0 => s
  | i + 1 => g.afterUniform (g.reseed seed (missingState g seed n s i)) n

theorem synthRead_eq (g : Gen σ K) (cls : SynthClass) (seed : Option Int) (d : Dataset κ K) (kw : SynthKw K) (s : σ) (w : Rand K)
    (hn : w.noise = synthNoise g cls seed (synthDraws d kw) s) (hs : ∀ k, w.seededNoise k = g.normal (g.seed k)) (i : ℕ) :
    synthRead g cls seed d kw (synthState g cls seed (synthDraws d kw) s i) =
      (synthAt cls w (seed.map some) d kw i).map fun rd => (rd, synthState g cls seed (synthDraws d kw) s (i + 1)) := by
  have hdraw : cls = .normal →
      w.noiseAt .normal (seed.map some) i = g.normal (g.reseed seed (synthState g cls seed (synthDraws d kw) s i)) := by
    rintro rfl
    cases seed with
    | none => show w.noise i = _; rw [hn]; rfl
    | some k => exact hs k
  unfold synthRead synthAt
  cases cls with
  | normal =>
    dsimp only
    rw [hdraw rfl]
    cases syntheticReader d kw _ <;> rfl
  | logistic =>
    dsimp only
    have : w.noiseAt .logistic (seed.map some) i = g.logistic (synthState g .logistic seed (synthDraws d kw) s i) := by
      show w.noise i = _; rw [hn]; rfl
    rw [this]
    cases logisticReader _ d kw _ <;> rfl

theorem synthAt_ok {cls : SynthClass} {w : Rand K} {seed : Option (Option Int)} {d : Dataset κ K} {kw : SynthKw K} {i : ℕ} {rd : Reader κ K}
    (h : synthAt cls w seed d kw i = .ok rd) (j : ℕ) : ∃ rd', synthAt cls w seed d kw j = .ok rd' := by
  unfold synthAt at h ⊢
  cases cls with
  | normal => exact syntheticReader_ok h _
  | logistic => exact logisticReader_ok h _

/-- The source and its state correspond to the streams of `Model/Validate`. -/
theorem source_streams (g : Gen σ K) (cls : SynthClass) (seed : Option Int) (d : Dataset κ K) (kw : SynthKw K) (missing : Option (Fl K)) (s : σ) :
    ∃ w : Rand K, w.noise 0 = synthNoise g cls seed (synthDraws d kw) s 0 ∧ (∀ k, w.seededNoise k = g.normal (g.seed k)) ∧
      (∀ k, w.seededUniform k = g.uniform (g.seed k)) ∧
      ((∃ e, source g cls seed d kw missing s = .error e ∧ readerAt cls w (seed.map some) d kw missing 0 = .error e) ∨
       ∃ src st rdr, source g cls seed d kw missing s = .ok (src, st 0) ∧ Chain src st rdr ∧
        ∀ i, readerAt cls w (seed.map some) d kw missing i = .ok (rdr i)) := by
  set n := synthDraws d kw with hn
  let w0 : Rand K := ⟨synthNoise g cls seed n s, fun _ _ => 0, fun k => g.normal (g.seed k), fun k => g.uniform (g.seed k)⟩
  have hread := fun (w : Rand K) (h1 : w.noise = synthNoise g cls seed n s) (h2 : ∀ k, w.seededNoise k = g.normal (g.seed k)) =>
    synthRead_eq g cls seed d kw s w h1 h2
  cases missing with
  | none =>
    refine ⟨w0, rfl, fun _ => rfl, fun _ => rfl, ?_⟩
    have h0 := hread w0 rfl (fun _ => rfl) 0
    cases hr : synthAt cls w0 (seed.map some) d kw 0 with
    | error e =>
      left
      rw [hr] at h0
      refine ⟨e, ?_, hr⟩
      unfold source
      rw [show synthRead g cls seed d kw s = _ from h0]
      rfl
    | ok rd0 =>
      right
      rw [hr] at h0
      choose rdr hrdr using fun i => synthAt_ok hr i
      refine ⟨⟨synthRead g cls seed d kw, .ok (kw.bias.getD []).length⟩, synthState g cls seed n s, rdr, ?_, ?_, hrdr⟩
      · unfold source
        rw [show synthRead g cls seed d kw s = _ from h0]
        rfl
      · intro i
        have := hread w0 rfl (fun _ => rfl) i
        rw [hrdr i] at this
        exact this
  | some p =>
    cases hr : synthAt cls w0 (seed.map some) d kw 0 with
    | error e =>
      refine ⟨w0, rfl, fun _ => rfl, fun _ => rfl, Or.inl ⟨e, ?_, ?_⟩⟩
      · have h0 := hread w0 rfl (fun _ => rfl) 0
        rw [hr] at h0
        unfold source
        rw [show synthRead g cls seed d kw s = _ from h0]
        rfl
      · unfold readerAt; dsimp only; rw [hr]
    | ok rd0 =>
      have h0 : synthRead g cls seed d kw s = .ok (rd0, synthState g cls seed n s 1) := by
        have h0 := hread w0 rfl (fun _ => rfl) 0
        rw [hr] at h0
        exact h0
      cases hto : toDataset rd0 with
      | error e =>
        refine ⟨w0, rfl, fun _ => rfl, fun _ => rfl, Or.inl ⟨e, ?_, ?_⟩⟩
        · unfold source
          rw [h0]
          dsimp only
          rw [hto]
        · unfold readerAt; dsimp only; rw [hr]; dsimp only; rw [hto]
      | ok d2 =>
        set s1 := synthState g cls seed n s 1 with hs1
        let m : ℕ := match missingReader d2 (some p) (g.uniform (g.reseed seed s1)) with | .ok rd => cells rd.scores | .error _ => 0
        let w : Rand K := ⟨synthNoise g cls seed n s, fun i => g.uniform (missingState g seed m s1 i), fun k => g.normal (g.seed k),
          fun k => g.uniform (g.seed k)⟩
        have hr' : synthAt cls w (seed.map some) d kw 0 = .ok rd0 := by
          rw [← hr]; rfl
        have hu : ∀ i, w.uniformAt (seed.map some) i = g.uniform (g.reseed seed (missingState g seed m s1 i)) := by
          intro i
          cases seed <;> rfl
        refine ⟨w, rfl, fun _ => rfl, fun _ => rfl, ?_⟩
        have hat : ∀ i, readerAt cls w (seed.map some) d kw (some p) i =
            missingReader d2 (some p) (g.uniform (g.reseed seed (missingState g seed m s1 i))) := by
          intro i
          unfold readerAt
          dsimp only
          rw [hr']
          dsimp only
          rw [hto]
          dsimp only
          rw [hu]
        cases hm : missingReader d2 (some p) (g.uniform (g.reseed seed s1)) with
        | error e =>
          left
          refine ⟨e, ?_, ?_⟩
          · unfold source
            rw [h0]
            dsimp only
            rw [hto]
            dsimp only
            unfold missingRead
            rw [hm]
          · rw [hat]; exact hm
        | ok rdm =>
          right
          have hmval : m = cells rdm.scores := by
            show (match missingReader d2 (some p) (g.uniform (g.reseed seed s1)) with | .ok rd => cells rd.scores | .error _ => 0) = _
            rw [hm]
          choose rdr hrdr hcells using fun i => missingReader_ok hm (g.uniform (g.reseed seed (missingState g seed m s1 i)))
          refine ⟨⟨missingRead g seed d2 p, numObservers d2.disVideos⟩, missingState g seed m s1, rdr, ?_, ?_, fun i => by rw [hat]; exact hrdr i⟩
          · unfold source
            rw [h0]
            dsimp only
            rw [hto]
            dsimp only
            unfold missingRead
            rw [hm]
            rfl
          · intro i
            show missingRead g seed d2 p _ = _
            unfold missingRead
            rw [hrdr i]
            dsimp only
            rw [hcells i, ← hmval]
            rfl

end Sureal.Routine
