import Verif.Lemmas.Pc
import Verif.Lemmas.Fl
/-!
# Lemmas on the sampling loop of the paired-comparison conversion
-/
set_option linter.unusedSectionVars false
namespace Sureal.Pc
open Sureal.Conv Sureal.Spec
variable {κ K : Type} [DecidableEq κ]

section ops
variable [Zero K] [One K] [Add K] [Neg K] [Sub K] [Mul K] [Div K] [NatCast K]
  [LT K] [LE K] [DecidableLT K] [DecidableLE K]

/-- the assignments of one decided comparison -/
def Outcome (j : Job κ K) (w : List (Write κ K)) : Prop :=
  w = [winX j] ∨ w = [winY j] ∨
  w = [⟨j.x.asset, (j.subj, j.y.asset), Fl.dec 1 2⟩, ⟨j.y.asset, (j.subj, j.x.asset), Fl.dec 1 2⟩]

theorem toss_outcome (dr : Draws K) (j : Job κ K) (n : ℕ) : Outcome j (toss dr j n).2 := by
  unfold toss
  split
  · exact .inl rfl
  · exact .inr (.inl rfl)

theorem settle_outcome (kw : PcKw K) (dr : Draws K) (j : Job κ K) (a b : Fl K) (n : ℕ) :
    Outcome j (settle kw dr j a b n).2 := by
  unfold settle
  split
  · exact .inl rfl
  split
  · exact .inr (.inl rfl)
  split
  · exact .inr (.inr rfl)
  · exact toss_outcome _ _ _

theorem settle_outcome' {kw : PcKw K} {dr : Draws K} {j : Job κ K} {a b : Fl K} {n n' : ℕ} {w}
    (h : (.ok (settle kw dr j a b n) : Py _) = .ok (n', w)) : Outcome j w := by
  have := settle_outcome kw dr j a b n
  rw [Except.ok.inj h] at this
  exact this

theorem compareScores_outcome {kw : PcKw K} {dr : Draws K} {j : Job κ K} {a b : Fl K} {n n' : ℕ} {w}
    (h : compareScores kw dr j a b n = .ok (n', w)) : Outcome j w := by
  unfold compareScores at h
  split at h
  · exact settle_outcome' h
  · split at h
    · exact settle_outcome' h
    · cases h
    · cases h
  · exact settle_outcome' h

theorem byScores_outcome {kw : PcKw K} {dr : Draws K} {j : Job κ K} {n n' : ℕ} {w}
    (h : byScores kw dr j n = .ok (n', w)) : Outcome j w := by
  unfold byScores at h
  split at h
  · cases h
  · exact compareScores_outcome h

theorem trial_outcome {kw : PcKw K} {dr : Draws K} {j : Job κ K} {n n' : ℕ} {w}
    (h : trial kw dr j n = .ok (n', w)) : Outcome j w := by
  unfold trial at h
  split at h
  · cases h
  · exact byScores_outcome h
  · split at h
    · have h' := Except.ok.inj h
      have := toss_outcome dr j (n + 1)
      rw [h'] at this
      exact this
    · exact byScores_outcome h

/-- the assignments of one comparison repeated any number of times -/
def Outcomes (j : Job κ K) (w : List (Write κ K)) : Prop :=
  ∃ ws : List (List (Write κ K)), w = ws.flatten ∧ ∀ o ∈ ws, Outcome j o

theorem sample_outcomes {kw : PcKw K} {dr : Draws K} {j : Job κ K} :
    ∀ {fuel : ℕ} {rate : Fl K} {n n' : ℕ} {w}, sample kw dr j fuel rate n = .ok (n', w) → Outcomes j w := by
  intro fuel
  induction fuel with
  | zero =>
    intro rate n n' w h
    unfold sample at h
    split at h
    · cases h
    · cases h; exact ⟨[], rfl, by simp⟩
  | succ fuel ih =>
    intro rate n n' w h
    unfold sample at h
    split at h
    · dsimp only at h
      split at h
      · split at h
        · cases h
        · rename_i ht
          split at h
          · cases h
          · rename_i hs
            cases h
            obtain ⟨ws, rfl, hw⟩ := ih hs
            exact ⟨_ :: ws, rfl, by
              intro o ho
              rcases List.mem_cons.mp ho with rfl | ho
              · exact trial_outcome ht
              · exact hw o ho⟩
      · split at h
        · cases h; exact ⟨[], rfl, by simp⟩
        · exact ⟨[w], by simp, by
            intro o ho
            rw [List.mem_singleton] at ho
            subst ho
            exact trial_outcome h⟩
    · cases h; exact ⟨[], rfl, by simp⟩

/-- one comparison was run somewhere in the stream and made these assignments -/
def Ran (kw : PcKw K) (dr : Draws K) (fuel : ℕ) (j : Job κ K) (w : List (Write κ K)) : Prop :=
  ∃ n n', runJob kw dr fuel j n = .ok (n', w)

theorem runJob_outcomes {kw : PcKw K} {dr : Draws K} {fuel : ℕ} {j : Job κ K} {w} (h : Ran kw dr fuel j w) :
    Outcomes j w ∧ (w ≠ [] → kw.type = "within_subject_within_content" → j.x.content = j.y.content) := by
  obtain ⟨n, n', h⟩ := h
  unfold runJob at h
  split at h
  · cases h
    exact ⟨⟨[], rfl, by simp⟩, fun h => absurd rfl h⟩
  · rename_i hc
    refine ⟨?_, fun _ ht => ?_⟩
    · split at h
      · cases h
      · exact sample_outcomes h
    · rw [ht] at hc
      simpa using hc

theorem runJobs_split {kw : PcKw K} {dr : Draws K} {fuel : ℕ} : ∀ {l : List (Job κ K)} {n : ℕ} {ws},
    runJobs kw dr fuel l n = .ok ws → ∃ wss, List.Forall₂ (Ran kw dr fuel) l wss ∧ ws = wss.flatten
  | [], n, ws, h => by
    cases h
    exact ⟨[], .nil, rfl⟩
  | j :: l, n, ws, h => by
    unfold runJobs at h
    split at h
    · cases h
    · rename_i hj
      split at h
      · cases h
      · rename_i hl
        cases h
        obtain ⟨wss, hf, rfl⟩ := runJobs_split hl
        exact ⟨_ :: wss, .cons ⟨_, _, hj⟩ hf, rfl⟩

theorem runJobs_ok {kw : PcKw K} {dr : Draws K} {fuel : ℕ} : ∀ {l : List (Job κ K)},
    (∀ j ∈ l, ∀ n, ∃ r, runJob kw dr fuel j n = .ok r) → ∀ n, ∃ ws, runJobs kw dr fuel l n = .ok ws
  | [], _, n => ⟨[], rfl⟩
  | j :: l, h, n => by
    obtain ⟨⟨n', w⟩, hj⟩ := h j (by simp) n
    obtain ⟨ws, hl⟩ := runJobs_ok (l := l) (fun j hj => h j (by simp [hj])) n'
    exact ⟨w ++ ws, by unfold runJobs; rw [hj]; dsimp only; rw [hl]⟩

theorem outcomes_mem {j : Job κ K} {w : List (Write κ K)} (h : Outcomes j w) {wr : Write κ K} (hw : wr ∈ w) :
    ((wr.video = j.x.asset ∧ wr.key = (j.subj, j.y.asset)) ∨ (wr.video = j.y.asset ∧ wr.key = (j.subj, j.x.asset))) ∧
    (wr.val = 1 ∨ wr.val = Fl.dec 1 2) := by
  obtain ⟨ws, rfl, ho⟩ := h
  obtain ⟨o, hom, hwo⟩ := List.mem_flatten.mp hw
  rcases ho o hom with rfl | rfl | rfl
  · simp only [List.mem_singleton] at hwo
    subst hwo
    exact ⟨.inl ⟨rfl, rfl⟩, .inl rfl⟩
  · simp only [List.mem_singleton] at hwo
    subst hwo
    exact ⟨.inr ⟨rfl, rfl⟩, .inl rfl⟩
  · simp only [List.mem_cons, List.not_mem_nil, or_false] at hwo
    rcases hwo with rfl | rfl
    · exact ⟨.inl ⟨rfl, rfl⟩, .inr rfl⟩
    · exact ⟨.inr ⟨rfl, rfl⟩, .inr rfl⟩

theorem flat_filter {R : Job κ K → List (Write κ K) → Prop} {P : Write κ K → Bool} {t : κ × Int × Int}
    (hP : ∀ j w, R j w → j.id ≠ t → w.filter P = []) : ∀ {J : List (Job κ K)} {wss},
    List.Forall₂ R J wss → J.Pairwise (fun j j' => j.id ≠ j'.id) →
    (∃ j ∈ J, ∃ w, j.id = t ∧ R j w ∧ wss.flatten.filter P = w.filter P) ∨
    ((∀ j ∈ J, j.id ≠ t) ∧ wss.flatten.filter P = []) := by
  intro J wss h
  induction h with
  | nil => intro _; exact .inr ⟨by simp, rfl⟩
  | @cons j w J wss hr hf ih =>
    intro hp
    rw [List.pairwise_cons] at hp
    rw [List.flatten_cons, List.filter_append]
    by_cases hj : j.id = t
    · left
      refine ⟨j, by simp, w, hj, hr, ?_⟩
      rcases ih hp.2 with ⟨j', hj', _, he, _⟩ | ⟨_, he⟩
      · exact absurd (hj.trans he.symm) (hp.1 j' hj')
      · rw [he, List.append_nil]
    · rw [hP j w hr hj, List.nil_append]
      rcases ih hp.2 with ⟨j', hj', w', h1, h2, h3⟩ | ⟨h1, h2⟩
      · exact .inl ⟨j', by simp [hj'], w', h1, h2, h3⟩
      · refine .inr ⟨?_, h2⟩
        intro j' hj'
        rcases List.mem_cons.mp hj' with rfl | hj'
        · exact hj
        · exact h1 j' hj'

/-- the comparison of two assets by a subject, in either order -/
def Between (j : Job κ K) (s : κ) (a b : Int) : Prop :=
  j.subj = s ∧ ((j.x.asset = a ∧ j.y.asset = b) ∨ (j.y.asset = a ∧ j.x.asset = b))

/-- the assignments that concern a pair of assets and a subject -/
def onPair (s : κ) (a b : Int) (wr : Write κ K) : Bool :=
  decide ((wr.video = a ∧ wr.key = (s, b)) ∨ (wr.video = b ∧ wr.key = (s, a)))

/-- all assignments on a pair come from the one comparison concerned, if there is one -/
theorem flat_pair_of {R : Job κ K → List (Write κ K) → Prop} (hR : ∀ j w, R j w → Outcomes j w) {dvs : List (DisVideo κ K)}
    {m : List (κ × List (Rating K))} (t : TableOf dvs m) {wss : List (List (Write κ K))}
    (hf : List.Forall₂ R (jobs m) wss) (s : κ) (a b : Int) :
    (∃ j ∈ jobs m, ∃ w, Between j s a b ∧ R j w ∧ wss.flatten.filter (onPair s a b) = w.filter (onPair s a b)) ∨
    ((∀ j ∈ jobs m, ¬ Between j s a b) ∧ wss.flatten.filter (onPair s a b) = []) := by
  have hlt : ∀ j ∈ jobs m, j.y.asset < j.x.asset := fun j hj => (t.job hj).2.2
  have key := flat_filter (R := fun j w => R j w ∧ j.y.asset < j.x.asset)
    (P := onPair s a b) (t := (s, max a b, min a b)) (by
      intro j w hjw hne
      rw [List.filter_eq_nil_iff]
      intro wr hwr
      have := (outcomes_mem (hR _ _ hjw.1) hwr).1
      simp only [onPair, decide_eq_true_eq]
      intro hon
      apply hne
      have hl := hjw.2
      rcases this with ⟨h3, h4⟩ | ⟨h3, h4⟩ <;> rcases hon with ⟨h1, h2⟩ | ⟨h1, h2⟩ <;> rw [h4] at h2 <;>
        obtain ⟨rfl, rfl⟩ := Prod.mk.inj h2 <;> rw [h3] at h1 <;> subst h1 <;>
        simp only [Job.id, max_eq_left hl.le, min_eq_right hl.le, max_eq_right hl.le, min_eq_left hl.le])
    (J := jobs m) (wss := wss) (by
      have : ∀ {J : List (Job κ K)} {wss}, List.Forall₂ R J wss → (∀ j ∈ J, j.y.asset < j.x.asset) →
          List.Forall₂ (fun j w => R j w ∧ j.y.asset < j.x.asset) J wss := by
        intro J wss h
        induction h with
        | nil => intro _; exact .nil
        | cons h1 h2 ih => intro hh; exact .cons ⟨h1, hh _ (by simp)⟩ (ih fun j hj => hh j (by simp [hj]))
      exact this hf hlt) t.pairwise
  have hbet : ∀ j ∈ jobs m, (j.id = (s, max a b, min a b) ↔ Between j s a b) := by
    intro j hj
    have := hlt j hj
    simp only [Job.id, Prod.mk.injEq, Between]
    rcases le_total a b with h | h
    · rw [max_eq_right h, min_eq_left h]
      constructor
      · rintro ⟨h1, h2, h3⟩; exact ⟨h1, .inr ⟨h3, h2⟩⟩
      · rintro ⟨h1, ⟨h2, h3⟩ | ⟨h2, h3⟩⟩
        · omega
        · exact ⟨h1, h3, h2⟩
    · rw [max_eq_left h, min_eq_right h]
      constructor
      · rintro ⟨h1, h2, h3⟩; exact ⟨h1, .inl ⟨h2, h3⟩⟩
      · rintro ⟨h1, ⟨h2, h3⟩ | ⟨h2, h3⟩⟩
        · exact ⟨h1, h2, h3⟩
        · omega
  rcases key with ⟨j, hj, w, hid, ⟨hran, -⟩, he⟩ | ⟨hno, he⟩
  · exact .inl ⟨j, hj, w, (hbet j hj).mp hid, hran, he⟩
  · exact .inr ⟨fun j hj hb => hno j hj ((hbet j hj).mpr hb), he⟩

/-- all assignments on a pair come from the one comparison concerned, if there is one -/
theorem flat_pair {kw : PcKw K} {dr : Draws K} {fuel : ℕ} {dvs : List (DisVideo κ K)}
    {m : List (κ × List (Rating K))} (t : TableOf dvs m) {ws : List (Write κ K)}
    (hr : runJobs kw dr fuel (jobs m) 0 = .ok ws) (s : κ) (a b : Int) :
    (∃ j ∈ jobs m, ∃ w, Between j s a b ∧ Ran kw dr fuel j w ∧ ws.filter (onPair s a b) = w.filter (onPair s a b)) ∨
    ((∀ j ∈ jobs m, ¬ Between j s a b) ∧ ws.filter (onPair s a b) = []) := by
  obtain ⟨wss, hf, rfl⟩ := runJobs_split hr
  exact flat_pair_of (fun _ _ h => (runJob_outcomes h).1) t hf s a b

/-- the last value assigned for `b` at the video of `a` -/
def lastFor (s : κ) (a b : Int) (w : List (Write κ K)) : Option (Vote K) :=
  ((w.filter fun wr => decide (wr.video = a ∧ wr.key = (s, b))).getLast?).map fun w => .one w.val

theorem dictAt_last {dvs : List (DisVideo κ K)} {a : Int} {i : ℕ} (hi : videoIdx dvs a = some i)
    (ws : List (Write κ K)) (s : κ) (b : Int) : dictGet (dictAt dvs ws i) (s, b) = lastFor s a b ws := by
  rw [dictAt_lookup]
  have hidx : ∀ a', videoIdx dvs a' = some i ↔ a' = a := by
    intro a'
    constructor
    · intro h
      obtain ⟨v, hv, hva, -⟩ := (videoIdx_iff dvs a' i).mp h
      obtain ⟨v', hv', hva', -⟩ := (videoIdx_iff dvs a i).mp hi
      rw [hv] at hv'
      cases hv'
      rw [← hva, ← hva']
    · rintro rfl; exact hi
  simp only [hidx, lastFor]

theorem lastFor_pair (s : κ) (a b : Int) (w : List (Write κ K)) :
    lastFor s a b w = lastFor s a b (w.filter (onPair s a b)) ∧
    lastFor s b a w = lastFor s b a (w.filter (onPair s a b)) := by
  unfold lastFor
  rw [List.filter_filter, List.filter_filter]
  constructor
  · congr 2
    apply List.filter_congr
    intro wr _
    by_cases h : wr.video = a ∧ wr.key = (s, b)
    · simp [onPair, h]
    · simp [h]
  · congr 2
    apply List.filter_congr
    intro wr _
    by_cases h : wr.video = b ∧ wr.key = (s, a)
    · simp [onPair, h]
    · simp [h]

/-- what the new videos record about a pair is decided by the one comparison concerned, if there is one -/
theorem pair_char {kw : PcKw K} {dr : Draws K} {fuel : ℕ} {dvs : List (DisVideo κ K)}
    {m : List (κ × List (Rating K))} (t : TableOf dvs m) {ws : List (Write κ K)}
    (hr : runJobs kw dr fuel (jobs m) 0 = .ok ws) (s : κ) (a b : Int) :
    (∃ j ∈ jobs m, ∃ w, Between j s a b ∧ Ran kw dr fuel j w ∧ lastFor s a b ws = lastFor s a b w ∧
      lastFor s b a ws = lastFor s b a w) ∨
    ((∀ j ∈ jobs m, ¬ Between j s a b) ∧ lastFor s a b ws = none ∧ lastFor s b a ws = none) := by
  rcases flat_pair t hr s a b with ⟨j, hj, w, hb, hran, he⟩ | ⟨hno, he⟩
  · left
    refine ⟨j, hj, w, hb, hran, ?_, ?_⟩
    · rw [(lastFor_pair s a b ws).1, (lastFor_pair s a b w).1, he]
    · rw [(lastFor_pair s a b ws).2, (lastFor_pair s a b w).2, he]
  · right
    refine ⟨hno, ?_, ?_⟩
    · rw [(lastFor_pair s a b ws).1, he]; rfl
    · rw [(lastFor_pair s a b ws).2, he]; rfl

theorem lastFor_winX (j : Job κ K) (hlt : j.y.asset < j.x.asset) :
    lastFor j.subj j.x.asset j.y.asset [winX j] = some (.one 1) ∧ lastFor j.subj j.y.asset j.x.asset [winX j] = none := by
  have : ¬ j.x.asset = j.y.asset := by omega
  constructor <;> simp [lastFor, winX, this]

theorem lastFor_winY (j : Job κ K) (hlt : j.y.asset < j.x.asset) :
    lastFor j.subj j.x.asset j.y.asset [winY j] = none ∧ lastFor j.subj j.y.asset j.x.asset [winY j] = some (.one 1) := by
  have : ¬ j.y.asset = j.x.asset := by omega
  constructor <;> simp [lastFor, winY, this]

theorem lastFor_split (j : Job κ K) (hlt : j.y.asset < j.x.asset) (h : Fl K) :
    lastFor j.subj j.x.asset j.y.asset [⟨j.x.asset, (j.subj, j.y.asset), h⟩, ⟨j.y.asset, (j.subj, j.x.asset), h⟩] =
      some (.one h) ∧
    lastFor j.subj j.y.asset j.x.asset [⟨j.x.asset, (j.subj, j.y.asset), h⟩, ⟨j.y.asset, (j.subj, j.x.asset), h⟩] =
      some (.one h) := by
  have h1 : ¬ j.y.asset = j.x.asset := by omega
  have h2 : ¬ j.x.asset = j.y.asset := by omega
  constructor <;> simp [lastFor, h1, h2]

/-- something was assigned: one of the two records is there -/
theorem lastFor_ne {j : Job κ K} {w : List (Write κ K)} (ho : Outcomes j w) (hne : w ≠ []) :
    lastFor j.subj j.x.asset j.y.asset w ≠ none ∨ lastFor j.subj j.y.asset j.x.asset w ≠ none := by
  obtain ⟨wr, hwr⟩ := List.exists_mem_of_ne_nil _ hne
  rcases (outcomes_mem ho hwr).1 with h | h
  · left
    unfold lastFor
    rw [Ne, Option.map_eq_none_iff, List.getLast?_eq_none_iff, List.filter_eq_nil_iff]
    intro hh
    exact hh wr hwr (by simpa using h)
  · right
    unfold lastFor
    rw [Ne, Option.map_eq_none_iff, List.getLast?_eq_none_iff, List.filter_eq_nil_iff]
    intro hh
    exact hh wr hwr (by simpa using h)

end ops

/-! ### when the loop returns -/

theorem pyGet_ok {α : Type} {l : List α} {i : ℕ} (h : i < l.length) : ∃ x ∈ l, pyGet l (i : Int) = .ok x := by
  refine ⟨l[i], List.getElem_mem h, ?_⟩
  unfold pyGet
  rw [if_pos (by omega), Int.toNat_natCast, List.getElem?_eq_getElem h]

theorem pyGet_int {α : Type} {l : List α} {i : Int} (h0 : 0 ≤ i) (h : i < l.length) : ∃ x ∈ l, pyGet l i = .ok x := by
  obtain ⟨k, rfl⟩ := Int.eq_ofNat_of_zero_le h0
  exact pyGet_ok (by omega)

section ops
variable [Zero K] [One K] [Add K] [Neg K] [Sub K] [Mul K] [Div K] [NatCast K]
  [LT K] [LE K] [DecidableLT K] [DecidableLE K]

theorem settingOk_iff {legal : Fl K → Bool} {n : ℕ} {one per} : settingOk legal n one per = true ↔
    (one = none ∨ per = none) ∧ (∀ r, one = some r → legal r = true) ∧
    (∀ l, per = some l → l.length = n ∧ ∀ r ∈ l, legal r = true) := by
  unfold settingOk
  cases one <;> cases per <;> simp

/-- what `trial` needs of a comparison -/
structure JobOk (kw : PcKw K) (n : ℕ) (j : Job κ K) : Prop where
  idx : j.idx < n
  idx2 : j.idx2 < n
  x : (∃ v, j.x.score = .one v) ∨ kw.perAssetMean ≠ none
  y : (∃ v, j.y.score = .one v) ∨ kw.perAssetMean ≠ none
  mx : kw.perAssetMean ≠ none → 0 ≤ j.x.asset ∧ j.x.asset < n
  my : kw.perAssetMean ≠ none → 0 ≤ j.y.asset ∧ j.y.asset < n

theorem pairSetting_ok {legal : Fl K → Bool} {n : ℕ} {one per} (h : settingOk legal n one per = true) {j : Job κ K}
    (h1 : j.idx < n) (h2 : j.idx2 < n) : ∃ r, pairSetting one per j = .ok r := by
  obtain ⟨-, -, hl⟩ := settingOk_iff.mp h
  cases one with
  | some r => exact ⟨some r, by unfold pairSetting; rfl⟩
  | none =>
    cases per with
    | none => exact ⟨none, rfl⟩
    | some l =>
      obtain ⟨hlen, -⟩ := hl l rfl
      obtain ⟨a, -, ha⟩ := pyGet_ok (l := l) (i := j.idx) (by omega)
      obtain ⟨b, -, hb⟩ := pyGet_ok (l := l) (i := j.idx2) (by omega)
      exact ⟨some ((a + b) / ((2 : ℕ) : Fl K)), by unfold pairSetting; dsimp only; rw [ha, hb]⟩

theorem kwOk_iff {kw : PcKw K} {n : ℕ} : kwOk kw n = true ↔
    (kw.type = "within_subject_within_content" ∨ kw.type = "within_subject") ∧
    (kw.tie = "even_split" ∨ kw.tie = "coin_toss") ∧
    settingOk (fun r => (0 : Fl K).le r) n kw.samplingRate kw.perAssetSampling = true ∧
    settingOk (fun r => (0 : Fl K).le r && r.le 1) n kw.cointossRate kw.perAssetCointoss = true ∧
    settingOk (fun r => (0 : Fl K).le r) n kw.noiseLevel kw.perAssetNoise = true ∧
    settingOk (fun _ => true) n none kw.perAssetMean = true := by
  unfold kwOk
  simp only [Bool.and_eq_true, Bool.or_eq_true, beq_iff_eq]
  tauto

theorem compareScores_ok {kw : PcKw K} {n : ℕ} (hk : kwOk kw n = true) (dr : Draws K) {j : Job κ K}
    (hj : JobOk kw n j) (a b : Fl K) (k : ℕ) : ∃ r, compareScores kw dr j a b k = .ok r := by
  obtain ⟨-, -, -, -, h, -⟩ := kwOk_iff.mp hk
  obtain ⟨-, -, hl⟩ := settingOk_iff.mp h
  unfold compareScores
  cases h1 : kw.noiseLevel with
  | some s => exact ⟨_, rfl⟩
  | none =>
    cases h2 : kw.perAssetNoise with
    | none => exact ⟨_, rfl⟩
    | some l =>
      obtain ⟨hlen, -⟩ := hl l h2
      obtain ⟨s, -, hs⟩ := pyGet_ok (l := l) (i := j.idx) (by have := hj.idx; omega)
      obtain ⟨s2, -, hs2⟩ := pyGet_ok (l := l) (i := j.idx2) (by have := hj.idx2; omega)
      dsimp only
      rw [hs, hs2]
      exact ⟨_, rfl⟩

theorem byScores_ok {kw : PcKw K} {n : ℕ} (hk : kwOk kw n = true) (dr : Draws K) {j : Job κ K}
    (hj : JobOk kw n j) (k : ℕ) : ∃ r, byScores kw dr j k = .ok r := by
  obtain ⟨-, -, -, -, -, h⟩ := kwOk_iff.mp hk
  obtain ⟨-, -, hl⟩ := settingOk_iff.mp h
  have hb : ∃ p, baseScores kw j = .ok p := by
    unfold baseScores
    cases h2 : kw.perAssetMean with
    | none =>
      obtain ⟨v, hv⟩ := hj.x.resolve_right (by simp [h2])
      obtain ⟨v2, hv2⟩ := hj.y.resolve_right (by simp [h2])
      dsimp only
      rw [hv, hv2]
      exact ⟨_, rfl⟩
    | some l =>
      obtain ⟨hlen, -⟩ := hl l h2
      obtain ⟨a1, a2⟩ := hj.mx (by simp [h2])
      obtain ⟨b1, b2⟩ := hj.my (by simp [h2])
      obtain ⟨s, -, hs⟩ := pyGet_int (l := l) a1 (by omega)
      obtain ⟨s2, -, hs2⟩ := pyGet_int (l := l) b1 (by omega)
      dsimp only
      rw [hs, hs2]
      exact ⟨_, rfl⟩
  obtain ⟨⟨m, m2⟩, hb⟩ := hb
  unfold byScores
  rw [hb]
  exact compareScores_ok hk dr hj m m2 k

theorem trial_ok {kw : PcKw K} {n : ℕ} (hk : kwOk kw n = true) (dr : Draws K) {j : Job κ K}
    (hj : JobOk kw n j) (k : ℕ) : ∃ r, trial kw dr j k = .ok r := by
  obtain ⟨r, hr⟩ := pairSetting_ok (kwOk_iff.mp hk).2.2.2.1 hj.idx hj.idx2
  unfold trial
  rw [hr]
  cases r with
  | none => exact byScores_ok hk dr hj k
  | some r =>
    dsimp only
    split
    · exact ⟨_, rfl⟩
    · exact byScores_ok hk dr hj (k + 1)

end ops

section field
variable [Field K] [LinearOrder K] [IsStrictOrderedRing K]

theorem outcome_ne {j : Job κ K} {w} (h : Outcome j w) : w ≠ [] := by
  rcases h with rfl | rfl | rfl <;> simp

theorem sample_zero (kw : PcKw K) (dr : Draws K) (j : Job κ K) (fuel n : ℕ) {q : K} (h : q ≤ 0) :
    sample kw dr j fuel (.fin q) n = .ok (n, []) := by
  unfold sample
  rw [if_neg (by rw [Fl.zero_def, Fl.lt_fin]; simpa using h)]

/-- the loop with a rate not above 1 decides the pair at most once -/
theorem sample_le_one {kw : PcKw K} {dr : Draws K} {j : Job κ K} {fuel n n' : ℕ} {q : K} {w} (h : q ≤ 1)
    (hs : sample kw dr j fuel (.fin q) n = .ok (n', w)) : w = [] ∨ Outcome j w := by
  unfold sample at hs
  split at hs
  · cases fuel with
    | zero => cases hs
    | succ fuel =>
      dsimp only at hs
      split at hs
      · split at hs
        · cases hs
        · rename_i ht
          rw [Fl.one_def, Fl.fin_sub, sample_zero kw dr j fuel _ (by linarith)] at hs
          cases hs
          rw [List.append_nil]
          exact .inr (trial_outcome ht)
      · split at hs
        · cases hs; exact .inl rfl
        · exact .inr (trial_outcome hs)
  · cases hs; exact .inl rfl

/-- the loop returns as soon as the fuel is at least the rate -/
theorem sample_ok {kw : PcKw K} {dr : Draws K} {j : Job κ K} (ht : ∀ k, ∃ r, trial kw dr j k = .ok r) :
    ∀ (fuel : ℕ) (q : K) (n : ℕ), q ≤ fuel → ∃ r, sample kw dr j fuel (.fin q) n = .ok r
  | 0, q, n, h => ⟨_, sample_zero kw dr j 0 n (by simpa using h)⟩
  | fuel + 1, q, n, h => by
    unfold sample
    split
    · dsimp only
      split
      · obtain ⟨⟨n', w⟩, hn⟩ := ht n
        rw [hn]
        dsimp only
        obtain ⟨⟨n'', w'⟩, hs⟩ := sample_ok ht fuel (q - 1) n' (by push_cast at h; linarith)
        rw [Fl.one_def, Fl.fin_sub, hs]
        exact ⟨_, rfl⟩
      · split
        · exact ⟨_, rfl⟩
        · exact ht (n + 1)
    · exact ⟨_, rfl⟩

/-- with a rate of at least 1 something is recorded -/
theorem sample_ge_one {kw : PcKw K} {dr : Draws K} {j : Job κ K} {fuel n n' : ℕ} {q : K} {w} (h : 1 ≤ q)
    (hs : sample kw dr j fuel (.fin q) n = .ok (n', w)) : w ≠ [] := by
  unfold sample at hs
  rw [if_pos (by rw [Fl.zero_def, Fl.lt_fin]; exact decide_eq_true (by linarith))] at hs
  cases fuel with
  | zero => cases hs
  | succ fuel =>
    dsimp only at hs
    rw [if_pos (by rw [Fl.one_def, Fl.le_fin]; exact decide_eq_true h)] at hs
    split at hs
    · cases hs
    · rename_i ht
      split at hs
      · cases hs
      · cases hs
        have := outcome_ne (trial_outcome ht)
        simp [this]

/-- an infinite rate never ends -/
theorem sample_inf (kw : PcKw K) (dr : Draws K) (j : Job κ K) : ∀ (fuel n : ℕ),
    (∀ k, ∃ r, trial kw dr j k = .ok r) → sample kw dr j fuel .pinf n = .error .notImplemented
  | 0, n, _ => by
    unfold sample
    rfl
  | fuel + 1, n, ht => by
    unfold sample
    rw [if_pos (by rfl)]
    dsimp only
    rw [if_pos (by rfl)]
    obtain ⟨⟨n', w⟩, hn⟩ := ht n
    rw [hn]
    dsimp only
    rw [show (Fl.pinf - 1 : Fl K) = .pinf from rfl, sample_inf kw dr j fuel n' ht]

/-- one comparison with the default settings -/
theorem runJob_default {kw : PcKw K} (h1 : kw.samplingRate = none) (h2 : kw.perAssetSampling = none)
    (h3 : kw.cointossRate = none) (h4 : kw.perAssetCointoss = none) (h5 : kw.noiseLevel = none)
    (h6 : kw.perAssetNoise = none) (h7 : kw.perAssetMean = none) (dr : Draws K) (fuel : ℕ) (j : Job κ K) (n : ℕ)
    {a b : Fl K} (ha : j.x.score = .one a) (hb : j.y.score = .one b) : runJob kw dr (fuel + 1) j n =
      if kw.type = "within_subject_within_content" ∧ j.x.content ≠ j.y.content then .ok (n, [])
      else .ok (settle kw dr j a b n) := by
  unfold runJob
  by_cases hc : kw.type = "within_subject_within_content" ∧ j.x.content ≠ j.y.content
  · rw [if_pos (by simpa using hc), if_pos hc]
  · rw [if_neg (by simpa using hc), if_neg hc]
    have ht : trial kw dr j n = .ok (settle kw dr j a b n) := by
      simp only [trial, pairSetting, h3, h4, byScores, baseScores, h7, ha, hb, number, compareScores, h5, h6]
    simp only [pairSetting, h1, h2, Option.getD_none]
    unfold sample
    rw [if_pos (by rw [Fl.zero_def, Fl.one_def, Fl.lt_fin]; exact decide_eq_true zero_lt_one)]
    dsimp only
    rw [if_pos (by rw [Fl.one_def, Fl.le_fin]; exact decide_eq_true (le_refl _)), ht]
    dsimp only
    rw [Fl.one_def, Fl.fin_sub, sample_zero kw dr j fuel _ (by simp)]
    dsimp only
    rw [List.append_nil]

end field
end Sureal.Pc
