import Verif.Lemmas.PcLoop
import Verif.Lemmas.Stopping
import Verif.Spec.PcRandom
/-!
# Lemmas on the random settings of the paired-comparison conversion
-/
set_option linter.unusedSectionVars false
namespace Sureal.Pc
open Sureal Spec MeasureTheory ProbabilityTheory Stop
variable {κ : Type} [DecidableEq κ]

/-! ### the stream of draws, shifted -/
section shift
variable {K : Type} [Zero K] [One K] [Add K] [Neg K] [Sub K] [Mul K] [Div K] [NatCast K]
  [LT K] [LE K] [DecidableLT K] [DecidableLE K]

def Draws.shift (dr : Draws K) (k : ℕ) : Draws K := ⟨fun n => dr.unif (k + n), fun n => dr.gauss (k + n)⟩

def bump {α : Type} (k : ℕ) : Py (ℕ × α) → Py (ℕ × α)
  | .ok (n, w) => .ok (k + n, w)
  | .error e => .error e

theorem unif_shift (dr : Draws K) (k n : ℕ) : dr.unif (k + n) = (dr.shift k).unif n := rfl

theorem toss_shift (dr : Draws K) (j : Job κ K) (k n : ℕ) :
    toss dr j (k + n) = (k + (toss (dr.shift k) j n).1, (toss (dr.shift k) j n).2) := by
  unfold toss
  simp only [Draws.shift]
  split
  · rename_i hh; simp only [hh]; rfl
  · rename_i hh; simp only [hh]; rfl

theorem settle_shift (kw : PcKw K) (dr : Draws K) (j : Job κ K) (a b : Fl K) (k n : ℕ) :
    settle kw dr j a b (k + n) = (k + (settle kw (dr.shift k) j a b n).1, (settle kw (dr.shift k) j a b n).2) := by
  unfold settle
  split
  · rfl
  split
  · rfl
  split
  · rfl
  · exact toss_shift _ _ _ _

theorem compareScores_shift (kw : PcKw K) (dr : Draws K) (j : Job κ K) (a b : Fl K) (k n : ℕ) :
    compareScores kw dr j a b (k + n) = bump k (compareScores kw (dr.shift k) j a b n) := by
  unfold compareScores
  cases kw.noiseLevel with
  | some s =>
    dsimp only
    rw [show k + n + 2 = k + (n + 2) by omega, show k + n + 1 = k + (n + 1) by omega]
    rw [settle_shift]
    rfl
  | none =>
    cases kw.perAssetNoise with
    | none => dsimp only; rw [settle_shift]; rfl
    | some l =>
      dsimp only
      cases pyGet l j.idx <;> cases pyGet l j.idx2
      all_goals try rfl
      dsimp only
      rw [show k + n + 2 = k + (n + 2) by omega, show k + n + 1 = k + (n + 1) by omega, settle_shift]
      rfl

theorem byScores_shift (kw : PcKw K) (dr : Draws K) (j : Job κ K) (k n : ℕ) :
    byScores kw dr j (k + n) = bump k (byScores kw (dr.shift k) j n) := by
  unfold byScores
  cases baseScores kw j with
  | error e => rfl
  | ok p => exact compareScores_shift _ _ _ _ _ _ _

theorem trial_shift (kw : PcKw K) (dr : Draws K) (j : Job κ K) (k n : ℕ) :
    trial kw dr j (k + n) = bump k (trial kw (dr.shift k) j n) := by
  unfold trial
  cases pairSetting kw.cointossRate kw.perAssetCointoss j with
  | error e => rfl
  | ok r =>
    cases r with
    | none => exact byScores_shift _ _ _ _ _
    | some r =>
      dsimp only
      rw [show k + n + 1 = k + (n + 1) by omega, toss_shift, byScores_shift]
      rw [unif_shift]
      split
      · rfl
      · rfl

theorem sample_shift (kw : PcKw K) (dr : Draws K) (j : Job κ K) (k : ℕ) : ∀ (fuel : ℕ) (rate : Fl K) (n : ℕ),
    sample kw dr j fuel rate (k + n) = bump k (sample kw (dr.shift k) j fuel rate n)
  | 0, rate, n => by
    unfold sample
    split <;> rfl
  | fuel + 1, rate, n => by
    unfold sample
    split
    · dsimp only
      split
      · rw [trial_shift]
        cases trial kw (dr.shift k) j n with
        | error e => rfl
        | ok r =>
          simp only [bump]
          rw [sample_shift kw dr j k fuel]
          cases sample kw (dr.shift k) j fuel (rate - 1) r.1 <;> rfl
      · rw [show k + n + 1 = k + (n + 1) by omega, trial_shift]
        rw [unif_shift]
        split
        · rfl
        · rfl
    · rfl

theorem runJob_shift (kw : PcKw K) (dr : Draws K) (fuel : ℕ) (j : Job κ K) (k n : ℕ) :
    runJob kw dr fuel j (k + n) = bump k (runJob kw (dr.shift k) fuel j n) := by
  unfold runJob
  split
  · rfl
  · cases pairSetting kw.samplingRate kw.perAssetSampling j with
    | error e => rfl
    | ok r => exact sample_shift _ _ _ _ _ _ _

/-! ### only the draws before the end are read -/

def Agree (dr dr' : Draws K) (m : ℕ) : Prop := ∀ i < m, dr.unif i = dr'.unif i ∧ dr.gauss i = dr'.gauss i

theorem Agree.mono {dr dr' : Draws K} {m m' : ℕ} (h : Agree dr dr' m') (hm : m ≤ m') : Agree dr dr' m :=
  fun i hi => h i (by omega)

theorem toss_local (dr dr' : Draws K) (j : Job κ K) (n : ℕ) (h : Agree dr dr' (n + 1)) :
    toss dr j n = toss dr' j n ∧ n ≤ (toss dr j n).1 := by
  unfold toss
  rw [(h n (by omega)).1]
  refine ⟨rfl, ?_⟩
  split <;> simp

theorem toss_fst (dr : Draws K) (j : Job κ K) (n : ℕ) : (toss dr j n).1 = n + 1 := by
  unfold toss; split <;> rfl

theorem settle_local {kw : PcKw K} {dr dr' : Draws K} {j : Job κ K} {a b : Fl K} {n : ℕ}
    (h : Agree dr dr' (settle kw dr j a b n).1) :
    settle kw dr' j a b n = settle kw dr j a b n ∧ n ≤ (settle kw dr j a b n).1 := by
  unfold settle at *
  split
  · exact ⟨rfl, le_refl _⟩
  split
  · exact ⟨rfl, le_refl _⟩
  split
  · exact ⟨rfl, le_refl _⟩
  · rename_i h1 h2 h3
    rw [if_neg h1, if_neg h2, if_neg h3, toss_fst] at h
    obtain ⟨h4, h5⟩ := toss_local dr dr' j n h
    exact ⟨h4.symm, h5⟩

theorem noisy_local {dr dr' : Draws K} {n m : ℕ} (h : Agree dr dr' m) (hn : n < m) (a s : Fl K) :
    noisy dr' n a s = noisy dr n a s := by
  unfold noisy; rw [(h n hn).2]

theorem settle_le (kw : PcKw K) (dr : Draws K) (j : Job κ K) (a b : Fl K) (n : ℕ) : n ≤ (settle kw dr j a b n).1 := by
  unfold settle
  split
  · exact le_refl _
  split
  · exact le_refl _
  split
  · exact le_refl _
  · rw [toss_fst]; omega

theorem settle_noisy_local {kw : PcKw K} {dr dr' : Draws K} {j : Job κ K} {a b s s2 : Fl K} {n n' : ℕ} {w}
    (hr : (.ok (settle kw dr j (noisy dr n a s) (noisy dr (n + 1) b s2) (n + 2)) : Py _) = .ok (n', w)) (h : Agree dr dr' n') :
    (.ok (settle kw dr' j (noisy dr' n a s) (noisy dr' (n + 1) b s2) (n + 2)) : Py _) = .ok (n', w) ∧ n ≤ n' := by
  have hr' := Except.ok.inj hr
  have hn : n' = (settle kw dr j (noisy dr n a s) (noisy dr (n + 1) b s2) (n + 2)).1 := by rw [hr']
  have hle := settle_le kw dr j (noisy dr n a s) (noisy dr (n + 1) b s2) (n + 2)
  rw [← hn] at hle
  rw [noisy_local h (by omega), noisy_local h (by omega), (settle_local (by rw [← hn]; exact h)).1]
  exact ⟨hr, by omega⟩

theorem compareScores_local {kw : PcKw K} {dr dr' : Draws K} {j : Job κ K} {a b : Fl K} {n n' : ℕ} {w}
    (hr : compareScores kw dr j a b n = .ok (n', w)) (h : Agree dr dr' n') :
    compareScores kw dr' j a b n = .ok (n', w) ∧ n ≤ n' := by
  unfold compareScores at hr ⊢
  cases hs : kw.noiseLevel with
  | some s =>
    rw [hs] at hr
    exact settle_noisy_local hr h
  | none =>
    rw [hs] at hr
    cases hp : kw.perAssetNoise with
    | none =>
      rw [hp] at hr
      have hr' := Except.ok.inj hr
      have hn : n' = (settle kw dr j a b n).1 := by rw [hr']
      obtain ⟨h1, h2⟩ := settle_local (kw := kw) (j := j) (a := a) (b := b) (n := n) (by rw [← hn]; exact h)
      refine ⟨?_, by omega⟩
      dsimp only
      rw [h1]
      exact hr
    | some l =>
      rw [hp] at hr
      dsimp only at hr ⊢
      cases h1 : pyGet l j.idx <;> cases h2 : pyGet l j.idx2 <;> rw [h1, h2] at hr
      all_goals try (cases hr; done)
      exact settle_noisy_local hr h

theorem byScores_local {kw : PcKw K} {dr dr' : Draws K} {j : Job κ K} {n n' : ℕ} {w}
    (hr : byScores kw dr j n = .ok (n', w)) (h : Agree dr dr' n') : byScores kw dr' j n = .ok (n', w) ∧ n ≤ n' := by
  unfold byScores at hr ⊢
  cases hb : baseScores kw j with
  | error e => rw [hb] at hr; cases hr
  | ok p => rw [hb] at hr; exact compareScores_local hr h

theorem trial_local {kw : PcKw K} {dr dr' : Draws K} {j : Job κ K} {n n' : ℕ} {w}
    (hr : trial kw dr j n = .ok (n', w)) (h : Agree dr dr' n') : trial kw dr' j n = .ok (n', w) ∧ n ≤ n' := by
  unfold trial at hr ⊢
  cases hp : pairSetting kw.cointossRate kw.perAssetCointoss j with
  | error e => rw [hp] at hr; cases hr
  | ok r =>
    rw [hp] at hr
    cases r with
    | none => exact byScores_local hr h
    | some r =>
      dsimp only at hr ⊢
      split at hr
      · rename_i hu
        have hr' := Except.ok.inj hr
        have hn : n' = n + 2 := by
          have := toss_fst dr j (n + 1)
          rw [hr'] at this
          exact this
        rw [← (h n (by omega)).1, if_pos hu, ← (toss_local dr dr' j (n + 1) (h.mono (by omega))).1]
        exact ⟨hr, by omega⟩
      · rename_i hu
        obtain ⟨h1, h2⟩ := byScores_local hr h
        rw [← (h n (by omega)).1, if_neg hu]
        exact ⟨h1, by omega⟩

theorem sample_local {kw : PcKw K} {dr dr' : Draws K} {j : Job κ K} : ∀ {fuel : ℕ} {rate : Fl K} {n n' : ℕ} {w},
    sample kw dr j fuel rate n = .ok (n', w) → Agree dr dr' n' → sample kw dr' j fuel rate n = .ok (n', w) ∧ n ≤ n'
  | 0, rate, n, n', w, hr, h => by
    unfold sample at hr ⊢
    split at hr
    · cases hr
    · rename_i h1
      rw [if_neg h1]
      cases hr
      exact ⟨rfl, le_refl _⟩
  | fuel + 1, rate, n, n', w, hr, h => by
    unfold sample at hr ⊢
    split at hr
    · rename_i h1
      rw [if_pos h1]
      dsimp only at hr ⊢
      split at hr
      · rename_i h2
        rw [if_pos h2]
        cases ht : trial kw dr j n with
        | error e => rw [ht] at hr; cases hr
        | ok r =>
          rw [ht] at hr
          dsimp only at hr
          cases hs : sample kw dr j fuel (rate - 1) r.1 with
          | error e => rw [hs] at hr; cases hr
          | ok r2 =>
            rw [hs] at hr
            cases hr
            obtain ⟨h3, h4⟩ := sample_local hs h
            obtain ⟨h5, h6⟩ := trial_local ht (h.mono h4)
            rw [h5]
            dsimp only
            rw [h3]
            exact ⟨rfl, by omega⟩
      · rename_i h2
        rw [if_neg h2]
        split at hr
        · rename_i h3
          cases hr
          rw [← (h n (by omega)).1, if_pos h3]
          exact ⟨rfl, by omega⟩
        · rename_i h3
          obtain ⟨h4, h5⟩ := trial_local hr h
          rw [← (h n (by omega)).1, if_neg h3]
          exact ⟨h4, by omega⟩
    · rename_i h1
      rw [if_neg h1]
      cases hr
      exact ⟨rfl, le_refl _⟩

theorem runJob_local {kw : PcKw K} {dr dr' : Draws K} {fuel : ℕ} {j : Job κ K} {n n' : ℕ} {w}
    (hr : runJob kw dr fuel j n = .ok (n', w)) (h : Agree dr dr' n') : runJob kw dr' fuel j n = .ok (n', w) ∧ n ≤ n' := by
  unfold runJob at hr ⊢
  split at hr
  · rename_i h1
    rw [if_pos h1]
    cases hr
    exact ⟨rfl, le_refl _⟩
  · rename_i h1
    rw [if_neg h1]
    cases hp : pairSetting kw.samplingRate kw.perAssetSampling j with
    | error e => rw [hp] at hr; cases hr
    | ok r => rw [hp] at hr; exact sample_local hr h

end shift

end Sureal.Pc
