import Verif.Lemmas.PcLoop
import Verif.Props.Overlap
/-!
# Properties of the conversion to paired comparisons: C45-C48
-/
set_option linter.unusedSectionVars false
namespace Sureal.Props
open Sureal Spec Conv Pc
variable {K : Type}

section generic
variable [Field K] [LinearOrder K] [IsStrictOrderedRing K]

theorem dictVideos_dict {dvs : List (DisVideo String K)} (hne : dvs ≠ []) (h : ∀ dv ∈ dvs, DictStyle dv) :
    dictVideos dvs = .ok dvs := by
  cases dvs with
  | nil => exact absurd rfl hne
  | cons dv l =>
    obtain ⟨d, hd, -⟩ := h dv (by simp)
    unfold dictVideos
    dsimp only
    rw [hd]
    dsimp only
    rw [if_pos]
    rw [List.all_eq_true]
    intro v hv
    obtain ⟨e, he, -⟩ := h v hv
    simp [isDict, he]

/-- the dictionary-style version used for a list-style video -/
def numbered (dv : DisVideo String K) : DisVideo String K :=
  { dv with os := some (.dict ((entries dv).mapIdx fun i v => (toString i, v))) }

theorem numbered_dict (dv : DisVideo String K) : DictStyle (numbered dv) := by
  refine ⟨_, rfl, ?_⟩
  have : ((entries dv).mapIdx fun i v => (toString i, v)).map Prod.fst =
      (List.range (entries dv).length).map fun i => toString i := by
    apply List.ext_getElem
    · simp
    · intro i h1 h2; simp
  rw [this]
  exact List.nodup_range.map fun a b h => toString_nat_inj h

theorem dictVideos_seq {dvs : List (DisVideo String K)} (hne : dvs ≠ []) (h : ∀ dv ∈ dvs, SeqStyle dv) :
    dictVideos dvs = .ok (dvs.map numbered) := by
  cases dvs with
  | nil => exact absurd rfl hne
  | cons dv l =>
    obtain ⟨t, e, hd⟩ := h dv (by simp)
    unfold dictVideos
    dsimp only
    rw [hd]
    dsimp only
    apply mapPy_ok
    intro v hv
    obtain ⟨t', e', he⟩ := h v hv
    simp only [listToDict, he, numbered, entries]

/-- an accepted dataset in one of the two styles, converted to dictionary style -/
theorem dictVideos_ok {d : Dataset String K} {rd : Reader String K} (hacc : rawReader d = .ok rd)
    (hstyle : (∀ dv ∈ d.disVideos, DictStyle dv) ∨ ∀ dv ∈ d.disVideos, SeqStyle dv) :
    rd.dataset = d ∧ rd.disVideos = d.disVideos ∧ d.disVideos ≠ [] ∧ ∃ dvs, dictVideos d.disVideos = .ok dvs ∧
      (∀ dv ∈ dvs, DictStyle dv) ∧ dvs.length = d.disVideos.length ∧ dvs.map entries = d.disVideos.map entries ∧
      dvs.map (·.assetId) = d.disVideos.map (·.assetId) := by
  obtain ⟨hass, rfl⟩ : assertRaw d = .ok () ∧
      rd = ⟨d, d.disVideos, opinionScores d.disVideos, listObservers d.disVideos⟩ := by
    unfold rawReader at hacc
    split at hacc
    · cases hacc
    · cases hacc; exact ⟨by assumption, rfl⟩
  have hne := ((C01_accepts_iff_wellFormed d).mp hass).diss
  refine ⟨rfl, rfl, hne, ?_⟩
  rcases hstyle with h | h
  · exact ⟨_, dictVideos_dict hne h, h, rfl, rfl, rfl⟩
  · refine ⟨_, dictVideos_seq hne h, ?_, by simp, ?_, by rw [List.map_map]; rfl⟩
    · intro dv hdv
      obtain ⟨v, _, rfl⟩ := List.mem_map.mp hdv
      exact numbered_dict v
    · rw [List.map_map]
      apply List.map_congr_left
      intro dv _
      exact mapIdx_snd _ _

/-- what a successful conversion consists of -/
theorem toPc_inv {rd : Reader String K} {kw : PcKw K} {dr : Draws K} {fuel : ℕ} {src new}
    (h : toPc rd kw dr fuel = .ok (src, new)) : kwOk kw rd.disVideos.length = true ∧
    ∃ dvs m ws, dictVideos rd.disVideos = .ok dvs ∧ subjRatings dvs = .ok m ∧
      runJobs kw dr fuel (jobs m) 0 = .ok ws ∧ src = { rd.dataset with disVideos := dvs } ∧
      new.refVideos = rd.dataset.refVideos ∧ MetaKept rd.dataset new kw.toPrepareKw ∧
      new.disVideos = dvs.mapIdx fun i dv => pcVideo dv (dictAt dvs ws i) := by
  unfold toPc at h
  dsimp only at h
  split at h
  · rename_i hk
    refine ⟨hk, ?_⟩
    split at h
    · cases h
    · rename_i dvs h1
      split at h
      · cases h
      · rename_i m h2
        split at h
        · cases h
        · rename_i ws h3
          cases h
          have hm := prepare_meta rd.dataset kw.toPrepareKw
          exact ⟨dvs, m, ws, h1, h2, h3, rfl, rfl, ⟨hm.1, hm.2, hm.3⟩, rfl⟩
  · cases h

theorem toPc_of {rd : Reader String K} {kw : PcKw K} {dr : Draws K} {fuel : ℕ} {dvs m ws}
    (hk : kwOk kw rd.disVideos.length = true) (h1 : dictVideos rd.disVideos = .ok dvs)
    (h2 : subjRatings dvs = .ok m) (h3 : runJobs kw dr fuel (jobs m) 0 = .ok ws) :
    ∃ src new, toPc rd kw dr fuel = .ok (src, new) := by
  unfold toPc
  dsimp only
  rw [if_pos hk, h1]
  dsimp only
  rw [h2]
  dsimp only
  rw [show (m.flatMap fun p => jobsOf p.1 p.2) = jobs m from rfl, h3]
  exact ⟨_, _, rfl⟩

theorem tableOf {dvs : List (DisVideo String K)} (hd : ∀ v ∈ dvs, DictStyle v) {m} (hm : subjRatings dvs = .ok m) :
    NoRepeat dvs ∧ TableOf dvs m := by
  have hr : NoRepeat dvs := by
    by_contra hc
    rw [subjRatings_err hd hc] at hm
    cases hm
  obtain ⟨m', h1, h2, h3⟩ := subjRatings_ok hd hr
  rw [h1] at hm
  cases hm
  exact ⟨hr, h2, h3, (noRepeat_iff dvs).mp hr⟩

/-- a video of the converted dataset, read through the comparisons -/
theorem pc_entry {dvs : List (DisVideo String K)} {ws : List (Write String K)} {new : Dataset (String × Int) K}
    (hnew : new.disVideos = dvs.mapIdx fun i dv => pcVideo dv (dictAt dvs ws i)) {i : ℕ} {v'}
    (hv : new.disVideos[i]? = some v') : ∃ dv, dvs[i]? = some dv ∧ SameVideo dv v' ∧ DictStyle v' ∧
      (∀ k, entryOf v' k = dictGet (dictAt dvs ws i) k) ∧ entries v' = (dictAt dvs ws i).map Prod.snd := by
  rw [hnew, List.getElem?_mapIdx] at hv
  cases hd : dvs[i]? with
  | none => rw [hd] at hv; cases hv
  | some dv =>
    rw [hd] at hv
    cases hv
    exact ⟨dv, rfl, ⟨rfl, rfl, rfl, rfl, rfl, rfl⟩, ⟨_, rfl, dictAt_nodup _ _ _⟩, fun k => rfl, rfl⟩

theorem videoIdx_of_last {dvs : List (DisVideo String K)} {i : ℕ} (h : LastWithId dvs i) {dv}
    (hd : dvs[i]? = some dv) : videoIdx dvs dv.assetId = some i := by
  obtain ⟨v, hv, hl⟩ := h
  rw [hd] at hv
  cases hv
  exact (videoIdx_iff _ _ _).mpr ⟨dv, hd, rfl, hl⟩

theorem dictAt_of_not_last {dvs : List (DisVideo String K)} {i : ℕ} (h : ¬ LastWithId dvs i) (ws : List (Write String K)) :
    dictAt dvs ws i = [] := by
  have : ∀ w ∈ ws, ¬ videoIdx dvs w.video = some i := by
    intro w _ hw
    obtain ⟨v, hv, hva, hl⟩ := (videoIdx_iff _ _ _).mp hw
    exact h ⟨v, hv, fun k v' hk hv' => by rw [hva]; exact hl k v' hk hv'⟩
  unfold dictAt
  induction ws with
  | nil => rfl
  | cons w ws ih =>
    rw [List.foldl_cons, if_neg (this w (by simp))]
    exact ih fun w hw => this w (by simp [hw])

/-- the restriction to pairs of the same content -/
def withinContent (kw : PcKw K) : Bool :=
  decide (kw.pcType = none ∨ kw.pcType = some "within_subject_within_content")

theorem withinContent_iff (kw : PcKw K) : withinContent kw = true ↔ kw.type = "within_subject_within_content" := by
  unfold withinContent PcKw.type
  rw [decide_eq_true_iff]
  cases kw.pcType <;> simp

theorem between_comparable {dvs : List (DisVideo String K)} {m} (t : TableOf dvs m) {j : Job String K}
    (hj : j ∈ jobs m) {s : String} {a b : Int} (hb : Between j s a b) {within : Bool}
    (hc : within = true → j.x.content = j.y.content) : Comparable within dvs s a b := by
  obtain ⟨hx, hy, hlt⟩ := t.job hj
  obtain ⟨rfl, ⟨rfl, rfl⟩ | ⟨rfl, rfl⟩⟩ := hb
  · exact ⟨by omega, _, _, _, _, (ratingOf_iff (t.once _)).mpr hx, (ratingOf_iff (t.once _)).mpr hy, hc⟩
  · exact ⟨by omega, _, _, _, _, (ratingOf_iff (t.once _)).mpr hy, (ratingOf_iff (t.once _)).mpr hx,
      fun h => (hc h).symm⟩

/-- **C47.** For every random stream and all settings: whatever a converted dataset records is a 1 or a 0.5,
for a pair of different assets both rated by that subject, of the same content under the content restriction. -/
theorem C47_legal (d : Dataset String K) (rd : Reader String K) (hacc : rawReader d = .ok rd)
    (hstyle : (∀ dv ∈ d.disVideos, DictStyle dv) ∨ ∀ dv ∈ d.disVideos, SeqStyle dv)
    (kw : PcKw K) (dr : Draws K) (fuel : ℕ) (src : Dataset String K) (new : Dataset (String × Int) K)
    (h : toPc rd kw dr fuel = .ok (src, new)) :
    ∀ v' ∈ new.disVideos, DictStyle v' ∧ ∀ s b val, entryOf v' (s, b) = some val →
      (val = .one (.fin 1) ∨ val = .one (.fin (1 / 2))) ∧
      Comparable (withinContent kw) src.disVideos s v'.assetId b := by
  obtain ⟨e1, e2, hne, dvs, hdv, hds, hlen, -⟩ := dictVideos_ok hacc hstyle
  obtain ⟨hk, dvs', m, ws, h1, h2, h3, rfl, -, -, hnew⟩ := toPc_inv h
  rw [e2, hdv] at h1
  cases h1
  obtain ⟨-, t⟩ := tableOf hds h2
  intro v' hv'
  obtain ⟨i, hi⟩ := List.mem_iff_getElem?.mp hv'
  obtain ⟨dv, hdvi, hsame, hstyle', hent, -⟩ := pc_entry hnew hi
  refine ⟨hstyle', ?_⟩
  intro s b val hval
  dsimp only
  rw [hent] at hval
  by_cases hlast : LastWithId dvs i
  · rw [hsame.asset]
    rw [dictAt_last (videoIdx_of_last hlast hdvi)] at hval
    rcases pair_char t h3 s dv.assetId b with ⟨j, hj, w, hb, hran, he, -⟩ | ⟨-, he, -⟩
    · rw [he] at hval
      obtain ⟨wr, hg, hval⟩ := Option.map_eq_some_iff.mp hval
      have hmem : wr ∈ w := List.mem_of_mem_filter (List.mem_of_getLast? hg)
      obtain ⟨ho, hcont⟩ := runJob_outcomes hran
      have hv := (outcomes_mem ho hmem).2
      refine ⟨?_, between_comparable t hj hb fun hw =>
        hcont (List.ne_nil_of_mem hmem) ((withinContent_iff kw).mp hw)⟩
      rcases hv with hv | hv
      · left; rw [← hval, hv]; rfl
      · right; rw [← hval, hv]; simp [Fl.dec]
    · rw [he] at hval; cases hval
  · rw [dictAt_of_not_last hlast] at hval
    cases hval

/-! ### rates -/

/-- the sampling rate of one comparison is the number `q` -/
def JobRate (kw : PcKw K) (j : Job String K) (q : K) : Prop :=
  ∃ r, pairSetting kw.samplingRate kw.perAssetSampling j = .ok r ∧ r.getD 1 = .fin q

/-- one and the same sampling rate for all pairs, 1 by default -/
def OneRate (kw : PcKw K) (q : K) : Prop :=
  kw.samplingRate = some (.fin q) ∨ (kw.samplingRate = none ∧ kw.perAssetSampling = none ∧ q = 1)

theorem OneRate.job {kw : PcKw K} {q : K} (h : OneRate kw q) (j : Job String K) : JobRate kw j q := by
  rcases h with h | ⟨h1, h2, rfl⟩
  · exact ⟨some (.fin q), by rw [h]; rfl, rfl⟩
  · exact ⟨none, by rw [h1, h2]; rfl, rfl⟩

theorem ran_rate {kw : PcKw K} {dr : Draws K} {fuel : ℕ} {j : Job String K} {w} (h : Ran kw dr fuel j w) {q : K}
    (hq : JobRate kw j q) : (kw.type = "within_subject_within_content" ∧ j.x.content ≠ j.y.content ∧ w = []) ∨
      ∃ n n', sample kw dr j fuel (.fin q) n = .ok (n', w) := by
  obtain ⟨n, n', h⟩ := h
  obtain ⟨r, hr, hrq⟩ := hq
  unfold runJob at h
  split at h
  · rename_i hc
    cases h
    left
    simpa using hc
  · right
    rw [hr] at h
    dsimp only at h
    rw [hrq] at h
    exact ⟨n, n', h⟩

theorem comparable_job {dvs : List (DisVideo String K)} {m} (t : TableOf dvs m) {within : Bool} {s : String} {a b : Int}
    (h : Comparable within dvs s a b) : ∃ j ∈ jobs m, Between j s a b ∧ (within = true → j.x.content = j.y.content) := by
  obtain ⟨hne, x, cx, y, cy, hx, hy, hc⟩ := h
  rw [ratingOf_iff (t.once s)] at hx hy
  rcases lt_or_gt_of_ne hne with hlt | hgt
  · obtain ⟨j, hj, hs, h1, h2⟩ := t.job_exists hy hx hlt
    exact ⟨j, hj, ⟨hs, .inr ⟨by rw [h2], by rw [h1]⟩⟩, by rw [h1, h2]; exact fun h => (hc h).symm⟩
  · obtain ⟨j, hj, hs, h1, h2⟩ := t.job_exists hx hy hgt
    exact ⟨j, hj, ⟨hs, .inl ⟨by rw [h1], by rw [h2]⟩⟩, by rw [h1, h2]; exact hc⟩

/-- the comparison of two assets by a subject is unique -/
theorem between_unique {dvs : List (DisVideo String K)} {m} (t : TableOf dvs m) {j j' : Job String K}
    (hj : j ∈ jobs m) (hj' : j' ∈ jobs m) {s : String} {a b : Int} (h : Between j s a b) (h' : Between j' s a b) :
    j = j' := by
  have hid : j.id = j'.id := by
    have l := (t.job hj).2.2
    have l' := (t.job hj').2.2
    obtain ⟨h1, h2⟩ := h
    obtain ⟨h1', h2'⟩ := h'
    simp only [Job.id, Prod.mk.injEq]
    refine ⟨h1.trans h1'.symm, ?_, ?_⟩ <;> omega
  by_contra hne
  have hp := t.pairwise
  haveI : Std.Symm (fun j j' : Job String K => j.id ≠ j'.id) := ⟨fun _ _ h e => h e.symm⟩
  exact hp.forall hj hj' hne hid

/-- a converted dataset in terms of its comparisons -/
theorem toPc_pair {d : Dataset String K} {rd : Reader String K} (hacc : rawReader d = .ok rd)
    (hstyle : (∀ dv ∈ d.disVideos, DictStyle dv) ∨ ∀ dv ∈ d.disVideos, SeqStyle dv)
    {kw : PcKw K} {dr : Draws K} {fuel : ℕ} {src : Dataset String K} {new : Dataset (String × Int) K}
    (h : toPc rd kw dr fuel = .ok (src, new)) : ∃ m, TableOf src.disVideos m ∧
      ∀ i k va vb, new.disVideos[i]? = some va → new.disVideos[k]? = some vb →
        LastWithId src.disVideos i → LastWithId src.disVideos k → ∀ s,
        (∃ j ∈ jobs m, ∃ w, Between j s va.assetId vb.assetId ∧ Ran kw dr fuel j w ∧
          entryOf va (s, vb.assetId) = lastFor s va.assetId vb.assetId w ∧
          entryOf vb (s, va.assetId) = lastFor s vb.assetId va.assetId w) ∨
        ((∀ j ∈ jobs m, ¬ Between j s va.assetId vb.assetId) ∧
          entryOf va (s, vb.assetId) = none ∧ entryOf vb (s, va.assetId) = none) := by
  obtain ⟨e1, e2, hne, dvs, hdv, hds, hlen, -⟩ := dictVideos_ok hacc hstyle
  obtain ⟨hk, dvs', m, ws, h1, h2, h3, rfl, -, -, hnew⟩ := toPc_inv h
  rw [e2, hdv] at h1
  cases h1
  obtain ⟨-, t⟩ := tableOf hds h2
  refine ⟨m, t, ?_⟩
  intro i k va vb hi hk hli hlk s
  obtain ⟨dva, hdva, hsa, -, henta, -⟩ := pc_entry hnew hi
  obtain ⟨dvb, hdvb, hsb, -, hentb, -⟩ := pc_entry hnew hk
  rw [henta, hentb, hsa.asset, hsb.asset, dictAt_last (videoIdx_of_last hli hdva),
    dictAt_last (videoIdx_of_last hlk hdvb)]
  exact pair_char t h3 s dva.assetId dvb.assetId

theorem between_outcome {j : Job String K} {w} {s : String} {a b : Int} (hb : Between j s a b)
    (hlt : j.y.asset < j.x.asset) (ho : Outcome j w) :
    (lastFor s a b w = some (.one (.fin 1)) ∧ lastFor s b a w = none) ∨
    (lastFor s a b w = none ∧ lastFor s b a w = some (.one (.fin 1))) ∨
    (lastFor s a b w = some (.one (.fin (1 / 2))) ∧ lastFor s b a w = some (.one (.fin (1 / 2)))) := by
  have hd : (Fl.dec 1 2 : Fl K) = .fin (1 / 2) := by simp [Fl.dec]
  obtain ⟨rfl, ⟨rfl, rfl⟩ | ⟨rfl, rfl⟩⟩ := hb
  · rcases ho with rfl | rfl | rfl
    · exact .inl (lastFor_winX j hlt)
    · exact .inr (.inl (lastFor_winY j hlt))
    · rw [← hd]; exact .inr (.inr (lastFor_split j hlt _))
  · rcases ho with rfl | rfl | rfl
    · exact .inr (.inl (lastFor_winX j hlt).symm)
    · exact .inl (lastFor_winY j hlt).symm
    · rw [← hd]; exact .inr (.inr (lastFor_split j hlt _).symm)

section rates
variable (d : Dataset String K) (rd : Reader String K) (hacc : rawReader d = .ok rd)
    (hstyle : (∀ dv ∈ d.disVideos, DictStyle dv) ∨ ∀ dv ∈ d.disVideos, SeqStyle dv)
    (kw : PcKw K) (dr : Draws K) (fuel : ℕ) (src : Dataset String K) (new : Dataset (String × Int) K)
    (h : toPc rd kw dr fuel = .ok (src, new))
include hacc hstyle h

/-- **C47.** A sampling rate of 0 records nothing. -/
theorem C47_rate_zero (hq : OneRate kw 0) : ∀ v' ∈ new.disVideos, entries v' = [] := by
  obtain ⟨e1, e2, hne, dvs, hdv, hds, hlen, -⟩ := dictVideos_ok hacc hstyle
  obtain ⟨hk, dvs', m, ws, h1, h2, h3, rfl, -, -, hnew⟩ := toPc_inv h
  rw [e2, hdv] at h1
  cases h1
  have hws : ws = [] := by
    obtain ⟨wss, hf, rfl⟩ := runJobs_split h3
    rw [List.flatten_eq_nil_iff]
    intro w hw
    have : ∀ {J : List (Job String K)} {wss : List (List (Write String K))}, List.Forall₂ (Ran kw dr fuel) J wss →
        ∀ w ∈ wss, w = [] := by
      intro J wss hf
      induction hf with
      | nil => simp
      | cons hr _ ih =>
        intro w hw
        rcases List.mem_cons.mp hw with rfl | hw
        · rcases ran_rate hr (hq.job _) with ⟨-, -, e⟩ | ⟨n, n', e⟩
          · exact e
          · rw [sample_zero _ _ _ _ _ (le_refl _)] at e
            cases e; rfl
        · exact ih w hw
    exact this hf w hw
  intro v' hv'
  obtain ⟨i, hi⟩ := List.mem_iff_getElem?.mp hv'
  obtain ⟨-, -, -, -, -, he⟩ := pc_entry hnew hi
  rw [he, hws]
  rfl

/-- **C47.** A (finite) sampling rate of at least 1 decides every comparable pair: at least one of the two
videos has a record about the other, whatever the random draws and the other settings. -/
theorem C47_rate_one {q : K} (hq : OneRate kw q) (h1 : 1 ≤ q) (i k : ℕ) (va vb : DisVideo (String × Int) K)
    (hi : new.disVideos[i]? = some va) (hk : new.disVideos[k]? = some vb)
    (hli : LastWithId src.disVideos i) (hlk : LastWithId src.disVideos k) (s : String)
    (hcomp : Comparable (withinContent kw) src.disVideos s va.assetId vb.assetId) :
    entryOf va (s, vb.assetId) ≠ none ∨ entryOf vb (s, va.assetId) ≠ none := by
  obtain ⟨m, t, hp⟩ := toPc_pair hacc hstyle h
  obtain ⟨j0, hj0, hb0, hc0⟩ := comparable_job t hcomp
  rcases hp i k va vb hi hk hli hlk s with ⟨j, hj, w, hb, hran, e1, e2⟩ | ⟨hno, -, -⟩
  · have hjj := between_unique t hj hj0 hb hb0
    subst hjj
    rw [e1, e2]
    have hw : w ≠ [] := by
      rcases ran_rate hran (hq.job _) with ⟨ht, hne, -⟩ | ⟨n, n', e⟩
      · exact absurd (hc0 ((withinContent_iff kw).mpr ht)) hne
      · exact sample_ge_one h1 e
    have := lastFor_ne (runJob_outcomes hran).1 hw
    obtain ⟨rfl, ⟨h2, h3⟩ | ⟨h2, h3⟩⟩ := hb
    · rw [← h2, ← h3]; exact this
    · rw [← h2, ← h3]; exact this.symm
  · exact absurd hb0 (hno j0 hj0)

/-- **C47.** With a sampling rate of at most 1 (so also with the default) a pair is decided at most once: no
record, a win of one side, or a half for each side. -/
theorem C47_rate_at_most_one {q : K} (hq : OneRate kw q) (h1 : q ≤ 1) (i k : ℕ) (va vb : DisVideo (String × Int) K)
    (hi : new.disVideos[i]? = some va) (hk : new.disVideos[k]? = some vb)
    (hli : LastWithId src.disVideos i) (hlk : LastWithId src.disVideos k) (s : String) :
    let r := (entryOf va (s, vb.assetId), entryOf vb (s, va.assetId))
    r = (none, none) ∨ r = (some (.one (.fin 1)), none) ∨ r = (none, some (.one (.fin 1))) ∨
      r = (some (.one (.fin (1 / 2))), some (.one (.fin (1 / 2)))) := by
  obtain ⟨m, t, hp⟩ := toPc_pair hacc hstyle h
  intro r
  rcases hp i k va vb hi hk hli hlk s with ⟨j, hj, w, hb, hran, e1, e2⟩ | ⟨-, e1, e2⟩
  · have hw : w = [] ∨ Outcome j w := by
      rcases ran_rate hran (hq.job _) with ⟨-, -, e⟩ | ⟨n, n', e⟩
      · exact .inl e
      · exact sample_le_one h1 e
    simp only [r, e1, e2, Prod.mk.injEq]
    rcases hw with rfl | ho
    · exact .inl ⟨rfl, rfl⟩
    · exact .inr (between_outcome hb (t.job hj).2.2 ho)
  · exact .inl (by simp only [r, e1, e2])

end rates

theorem mem_ratings {dvs : List (DisVideo String K)} {s : String} {r : Rating K} (h : r ∈ ratings dvs s) :
    ∃ dv ∈ dvs, r.asset = dv.assetId ∧ r.score ∈ entries dv := by
  obtain ⟨dv, hdv, hr⟩ := List.mem_filterMap.mp h
  obtain ⟨x, hx, rfl⟩ := Option.map_eq_some_iff.mp hr
  refine ⟨dv, hdv, rfl, ?_⟩
  unfold entryOf at hx
  split at hx
  · rename_i d ho
    simp only [entries, ho]
    exact List.mem_map_of_mem (f := Prod.snd) (mem_of_lookup' hx)
  · cases hx

theorem job_idx {dvs : List (DisVideo String K)} {m} (t : TableOf dvs m) {j : Job String K} (hj : j ∈ jobs m) :
    j.idx < dvs.length ∧ j.idx2 < dvs.length := by
  obtain ⟨-, hlt, hx, -⟩ := mem_jobsOf.mp (t.job_mem hj)
  obtain ⟨h1, -⟩ := List.getElem?_eq_some_iff.mp hx
  have h2 : (sorted (ratings dvs j.subj)).length = (ratings dvs j.subj).length := List.length_insertionSort _ _
  have h3 : (ratings dvs j.subj).length ≤ dvs.length := List.length_filterMap_le _ _
  omega

/-- the given sampling rates are finite and at most `n` -/
def RatesWithin (kw : PcKw K) (n : ℕ) : Prop :=
  (∀ r, kw.samplingRate = some r → ∃ q : K, r = .fin q ∧ q ≤ n) ∧
  (∀ l, kw.perAssetSampling = some l → ∀ r ∈ l, ∃ q : K, r = .fin q ∧ q ≤ n)

/-- **C47.** The conversion returns for every random stream: the settings legal, the rates finite, no subject
with two videos of the same asset id, and single numbers as votes (or mean scores given for asset ids
`0, ..., n-1`).  The amount of fuel needed is the largest rate (1 by default). -/
theorem C47_returns (d : Dataset String K) (rd : Reader String K) (hacc : rawReader d = .ok rd)
    (hstyle : (∀ dv ∈ d.disVideos, DictStyle dv) ∨ ∀ dv ∈ d.disVideos, SeqStyle dv)
    (kw : PcKw K) (dr : Draws K) (fuel : ℕ) (hk : kwOk kw d.disVideos.length = true) (hf : 1 ≤ fuel)
    (hq : RatesWithin kw fuel) (hrep : ∀ dvs, dictVideos d.disVideos = .ok dvs → NoRepeat dvs)
    (hone : (∀ dv ∈ d.disVideos, ∀ v ∈ entries dv, ∃ x, v = .one x) ∨ kw.perAssetMean ≠ none)
    (hids : kw.perAssetMean ≠ none → ∀ dv ∈ d.disVideos, 0 ≤ dv.assetId ∧ dv.assetId < d.disVideos.length) :
    ∃ src new, toPc rd kw dr fuel = .ok (src, new) := by
  obtain ⟨e1, e2, hne, dvs, hdv, hds, hlen, hent, hass⟩ := dictVideos_ok hacc hstyle
  obtain ⟨m, hm, -⟩ := subjRatings_ok hds (hrep dvs hdv)
  obtain ⟨-, t⟩ := tableOf hds hm
  have hscore : ∀ {s : String} {r : Rating K}, r ∈ ratings dvs s →
      ((∃ v, r.score = .one v) ∨ kw.perAssetMean ≠ none) ∧
      (kw.perAssetMean ≠ none → 0 ≤ r.asset ∧ r.asset < d.disVideos.length) := by
    intro s r hr
    obtain ⟨dv, hdv', ha, hs⟩ := mem_ratings hr
    constructor
    · refine hone.imp_left fun h1 => ?_
      have : entries dv ∈ d.disVideos.map entries := hent ▸ List.mem_map_of_mem hdv'
      obtain ⟨dv', hd', e'⟩ := List.mem_map.mp this
      exact h1 dv' hd' _ (e' ▸ hs)
    · intro hm
      have : dv.assetId ∈ d.disVideos.map (·.assetId) := hass ▸ List.mem_map_of_mem (f := (·.assetId)) hdv'
      obtain ⟨dv', hd', e'⟩ := List.mem_map.mp this
      rw [ha, ← e']
      exact hids hm dv' hd'
  have hjob : ∀ j ∈ jobs m, ∀ n, ∃ r, runJob kw dr fuel j n = .ok r := by
    intro j hj n
    obtain ⟨hi, hi2⟩ := job_idx t hj
    rw [hlen] at hi hi2
    obtain ⟨hx, hy, -⟩ := t.job hj
    have hok : JobOk kw d.disVideos.length j :=
      ⟨hi, hi2, (hscore hx).1, (hscore hy).1, (hscore hx).2, (hscore hy).2⟩
    have ht := trial_ok hk dr hok
    obtain ⟨-, -, hset, -⟩ := kwOk_iff.mp hk
    have hrate : ∃ q : K, JobRate kw j q ∧ q ≤ fuel := by
      have h1f : (1 : K) ≤ fuel := by exact_mod_cast hf
      cases hs : kw.samplingRate with
      | some r =>
        obtain ⟨q, rfl, hqn⟩ := hq.1 r hs
        exact ⟨q, (OneRate.job (.inl hs) j), hqn⟩
      | none =>
        cases hp : kw.perAssetSampling with
        | none => exact ⟨1, (OneRate.job (.inr ⟨hs, hp, rfl⟩) j), h1f⟩
        | some l =>
          obtain ⟨hl, -⟩ := (settingOk_iff.mp hset).2.2 l hp
          obtain ⟨a, ha, ea⟩ := pyGet_ok (l := l) (i := j.idx) (by omega)
          obtain ⟨b, hb, eb⟩ := pyGet_ok (l := l) (i := j.idx2) (by omega)
          obtain ⟨qa, rfl, hqa⟩ := hq.2 l hp a ha
          obtain ⟨qb, rfl, hqb⟩ := hq.2 l hp b hb
          refine ⟨(qa + qb) / 2, ⟨some (.fin ((qa + qb) / 2)), ?_, rfl⟩, by linarith⟩
          rw [hs, hp]
          unfold pairSetting
          dsimp only
          rw [ea, eb]
          dsimp only
          rw [Fl.fin_add, Fl.natCast_def, Fl.fin_div (by norm_num)]
          norm_num
    obtain ⟨q, ⟨r, hr, hrq⟩, hqf⟩ := hrate
    unfold runJob
    split
    · exact ⟨_, rfl⟩
    · rw [hr]
      dsimp only
      rw [hrq]
      exact sample_ok ht fuel q n hqf
  obtain ⟨ws, hws⟩ := runJobs_ok hjob 0
  exact toPc_of (by rw [e2]; exact hk) (by rw [e2]; exact hdv) hm hws

/-- **C47.** A subject who rated two videos with the same asset id is refused. -/
theorem C47_repeat_refused (d : Dataset String K) (rd : Reader String K) (hacc : rawReader d = .ok rd)
    (hdict : ∀ dv ∈ d.disVideos, DictStyle dv) (kw : PcKw K) (dr : Draws K) (fuel : ℕ)
    (hrep : ¬ NoRepeat d.disVideos) : toPc rd kw dr fuel = .error .assertion := by
  obtain ⟨e1, e2, hne, dvs, hdv, hds, -⟩ := dictVideos_ok hacc (.inl hdict)
  rw [dictVideos_dict hne hdict] at hdv
  cases hdv
  unfold toPc
  dsimp only
  rw [e2]
  split
  · rw [dictVideos_dict hne hdict]
    dsimp only
    rw [subjRatings_err hds hrep]
  · rfl

/-- **C47.** The assertion on the settings accepts an infinite sampling rate, and the loop then never ends: no
amount of fuel is enough as soon as there is one comparable pair of numbers. -/
theorem C47_infinite_rate (d : Dataset String K) (rd : Reader String K) (hacc : rawReader d = .ok rd)
    (hdict : ∀ dv ∈ d.disVideos, DictStyle dv) (hone : ∀ dv ∈ d.disVideos, ∀ v ∈ entries dv, ∃ x, v = .one x)
    (hrep : NoRepeat d.disVideos) (dr : Draws K) (fuel : ℕ) (s : String) (a b : Int)
    (hc : Comparable true d.disVideos s a b) :
    kwOk { samplingRate := some .pinf : PcKw K } d.disVideos.length = true ∧
    toPc rd { samplingRate := some .pinf } dr fuel = .error .notImplemented := by
  have hk : kwOk { samplingRate := some .pinf : PcKw K } d.disVideos.length = true := by
    rw [kwOk_iff]
    refine ⟨.inl rfl, .inl rfl, ?_, ?_, ?_, ?_⟩ <;> rw [settingOk_iff] <;> simp [Fl.le, Fl.zero_def]
  refine ⟨hk, ?_⟩
  obtain ⟨e1, e2, hne, dvs, hdv, hds, hlen, hent, hass⟩ := dictVideos_ok hacc (.inl hdict)
  rw [dictVideos_dict hne hdict] at hdv
  cases hdv
  obtain ⟨m, hm, -⟩ := subjRatings_ok hds hrep
  obtain ⟨-, t⟩ := tableOf hds hm
  have hscore : ∀ {s : String} {r : Rating K}, r ∈ ratings d.disVideos s → ∃ v, r.score = .one v := by
    intro s r hr
    obtain ⟨dv, hdv', -, hs⟩ := mem_ratings hr
    exact hone dv hdv' _ hs
  have ht : ∀ j ∈ jobs m, ∀ k, ∃ r, trial { samplingRate := some .pinf : PcKw K } dr j k = .ok r := by
    intro j hj
    obtain ⟨hi, hi2⟩ := job_idx t hj
    obtain ⟨hx, hy, -⟩ := t.job hj
    exact trial_ok hk dr (j := j) ⟨hi, hi2, .inl (hscore hx), .inl (hscore hy), fun h => absurd rfl h, fun h => absurd rfl h⟩
  have hrun : ∀ (J : List (Job String K)) (n : ℕ), (∀ j ∈ J, j ∈ jobs m) →
      (∃ j ∈ J, j.x.content = j.y.content) →
      runJobs { samplingRate := some .pinf : PcKw K } dr fuel J n = .error .notImplemented := by
    intro J
    induction J with
    | nil => rintro n _ ⟨j, hj, _⟩; cases hj
    | cons j J ih =>
      intro n hsub hex
      unfold runJobs
      by_cases hcj : j.x.content = j.y.content
      · have : runJob { samplingRate := some .pinf : PcKw K } dr fuel j n = .error .notImplemented := by
          unfold runJob
          rw [if_neg (by simp [hcj])]
          exact sample_inf _ dr j fuel n (ht j (hsub j (by simp)))
        rw [this]
      · have : runJob { samplingRate := some .pinf : PcKw K } dr fuel j n = .ok (n, []) := by
          unfold runJob
          rw [if_pos (by simp [PcKw.type, hcj])]
        rw [this]
        dsimp only
        rw [ih n (fun j' hj' => hsub j' (by simp [hj'])) (by
          obtain ⟨j', hj', hc'⟩ := hex
          rcases List.mem_cons.mp hj' with rfl | hj'
          · exact absurd hc' hcj
          · exact ⟨j', hj', hc'⟩)]
  obtain ⟨j0, hj0, -, hc0⟩ := comparable_job t hc
  unfold toPc
  dsimp only
  rw [e2, if_pos hk, dictVideos_dict hne hdict]
  dsimp only
  rw [hm]
  dsimp only
  rw [show (m.flatMap fun p => jobsOf p.1 p.2) = jobs m from rfl,
    hrun (jobs m) 0 (fun j hj => hj) ⟨j0, hj0, hc0 rfl⟩]

/-- **C45.** With the default options (any `pc_type`), whatever the random stream: the source is unchanged;
references, attributes and every field of every video but the scores are kept; and the video of asset `a` (the
last one, if asset ids repeat) records about asset `b` for a subject exactly what their two scores say: 1 if `a` is
higher, 0.5 if equal, nothing if lower, and nothing at all for pairs that are not comparable. -/
theorem C45_outcomes (d : Dataset String K) (rd : Reader String K) (hacc : rawReader d = .ok rd)
    (hdict : ∀ dv ∈ d.disVideos, DictStyle dv)
    (hone : ∀ dv ∈ d.disVideos, ∀ v ∈ entries dv, ∃ x : K, v = .one (.fin x)) (hrep : NoRepeat d.disVideos)
    (pk : PrepareKw) (pt : Option String)
    (hpt : pt = none ∨ pt = some "within_subject_within_content" ∨ pt = some "within_subject")
    (dr : Draws K) (fuel : ℕ) :
    let kw : PcKw K := { toPrepareKw := pk, pcType := pt }
    ∃ new, toPc rd kw dr (fuel + 1) = .ok (d, new) ∧ new.refVideos = d.refVideos ∧ MetaKept d new pk ∧
      new.disVideos.length = d.disVideos.length ∧
      ∀ i dv v', d.disVideos[i]? = some dv → new.disVideos[i]? = some v' → SameVideo dv v' ∧ DictStyle v' ∧
        (¬ LastWithId d.disVideos i → entries v' = []) ∧
        (LastWithId d.disVideos i → ∀ s b,
          (∀ x cx y cy, dv.assetId ≠ b → ratingOf d.disVideos s dv.assetId = some (.one (.fin x), cx) →
            ratingOf d.disVideos s b = some (.one (.fin y), cy) → (withinContent kw = true → cx = cy) →
            entryOf v' (s, b) = (share x y).map .one) ∧
          (¬ Comparable (withinContent kw) d.disVideos s dv.assetId b → entryOf v' (s, b) = none)) := by
  intro kw
  have hk : kwOk kw d.disVideos.length = true := by
    rw [kwOk_iff]
    refine ⟨?_, .inl rfl, ?_, ?_, ?_, ?_⟩
    · rcases hpt with h | h | h <;> simp [kw, PcKw.type, h]
    all_goals rw [settingOk_iff]; simp [kw]
  obtain ⟨src, new, h⟩ := C47_returns d rd hacc (.inl hdict) kw dr (fuel + 1) hk (by omega)
    ⟨by simp [kw], by simp [kw]⟩ (by
      intro dvs hdvs
      rw [dictVideos_dict (dictVideos_ok hacc (.inl hdict)).2.2.1 hdict] at hdvs
      cases hdvs
      exact hrep)
    (.inl fun dv hdv v hv => (hone dv hdv v hv).imp' _ fun _ h => h) (by simp [kw])
  obtain ⟨e1, e2, hne, dvs, hdv, hds, hlen, -⟩ := dictVideos_ok hacc (.inl hdict)
  rw [dictVideos_dict hne hdict] at hdv
  cases hdv
  obtain ⟨-, dvs, m, ws, h1, h2, h3, hsrc, href, hmeta, hnew⟩ := toPc_inv h
  rw [e2, dictVideos_dict hne hdict] at h1
  cases h1
  obtain ⟨-, t⟩ := tableOf hds h2
  have hsrc' : src = d := by rw [hsrc, e1]
  subst hsrc'
  rw [e1] at href hmeta
  refine ⟨new, h, href, hmeta, by rw [hnew]; simp, ?_⟩
  intro i dv v' hi hv'
  obtain ⟨dv', hdi, hsame, hst, hent, hentries⟩ := pc_entry hnew hv'
  rw [hi] at hdi
  cases hdi
  refine ⟨hsame, hst, fun hl => by rw [hentries, dictAt_of_not_last hl]; rfl, ?_⟩
  intro hl s b
  rw [hent, dictAt_last (videoIdx_of_last hl hi)]
  have hnum : ∀ {s : String} {r : Rating K}, r ∈ ratings src.disVideos s → ∃ x : K, r.score = .one (.fin x) := by
    intro s r hr
    obtain ⟨dv, hdv', -, hs⟩ := mem_ratings hr
    exact hone dv hdv' _ hs
  have hran : ∀ j ∈ jobs m, ∀ w, Ran kw dr (fuel + 1) j w → ∀ x y : K, j.x.score = .one (.fin x) →
      j.y.score = .one (.fin y) →
      (kw.type = "within_subject_within_content" ∧ j.x.content ≠ j.y.content → w = []) ∧
      (¬ (kw.type = "within_subject_within_content" ∧ j.x.content ≠ j.y.content) →
        w = (settle kw dr j (.fin x) (.fin y) 0).2) := by
    rintro j hj w ⟨n, n', hr⟩ x y hx hy
    rw [runJob_default rfl rfl rfl rfl rfl rfl rfl dr fuel j n hx hy] at hr
    constructor
    · intro hc
      rw [if_pos hc] at hr
      cases hr; rfl
    · intro hc
      rw [if_neg hc] at hr
      have hw : w = (settle kw dr j (.fin x) (.fin y) n).2 := by rw [Except.ok.inj hr]
      rw [hw]
      unfold settle
      split
      · rfl
      split
      · rfl
      rw [if_pos (by rfl), if_pos (by rfl)]
  have hd : (Fl.dec 1 2 : Fl K) = .fin (1 / 2) := by simp [Fl.dec]
  constructor
  · intro x cx y cy hne' hx hy hc
    obtain ⟨j0, hj0, hb0, hc0⟩ := comparable_job t (within := withinContent kw) ⟨hne', _, _, _, _, hx, hy, hc⟩
    rcases pair_char t h3 s dv.assetId b with ⟨j, hj, w, hb, hr, he, -⟩ | ⟨hno, -⟩
    · have hjj := between_unique t hj hj0 hb hb0
      subst hjj
      obtain ⟨hjx, hjy, hlt⟩ := t.job hj
      rw [he]
      have hnc : ¬ (kw.type = "within_subject_within_content" ∧ j.x.content ≠ j.y.content) :=
        fun h => h.2 (hc0 ((withinContent_iff kw).mpr h.1))
      obtain ⟨rfl, ⟨ha, hb'⟩ | ⟨ha, hb'⟩⟩ := hb
      · have sx : j.x.score = .one (.fin x) := by
          have := (ratingOf_iff (t.once _)).mpr hjx
          rw [ha, hx] at this
          exact (Prod.mk.inj (Option.some.inj this)).1.symm
        have sy : j.y.score = .one (.fin y) := by
          have := (ratingOf_iff (t.once _)).mpr hjy
          rw [hb', hy] at this
          exact (Prod.mk.inj (Option.some.inj this)).1.symm
        rw [(hran j hj w hr x y sx sy).2 hnc, ← ha, ← hb']
        unfold settle share
        rw [Fl.lt_fin, Fl.lt_fin]
        by_cases h1 : y < x
        · rw [if_pos (by simpa using h1), if_pos h1]
          exact (lastFor_winX j hlt).1
        · rw [if_neg (by simpa using h1), if_neg h1]
          by_cases h2 : x < y
          · rw [if_pos (by simpa using h2), if_pos h2]
            exact (lastFor_winY j hlt).1
          · rw [if_neg (by simpa using h2), if_neg h2, if_pos (by rfl)]
            dsimp only
            rw [← hd]
            exact (lastFor_split j hlt _).1
      · have sy : j.y.score = .one (.fin x) := by
          have := (ratingOf_iff (t.once _)).mpr hjy
          rw [ha, hx] at this
          exact (Prod.mk.inj (Option.some.inj this)).1.symm
        have sx : j.x.score = .one (.fin y) := by
          have := (ratingOf_iff (t.once _)).mpr hjx
          rw [hb', hy] at this
          exact (Prod.mk.inj (Option.some.inj this)).1.symm
        rw [(hran j hj w hr y x sx sy).2 hnc, ← ha, ← hb']
        unfold settle share
        rw [Fl.lt_fin, Fl.lt_fin]
        by_cases h1 : x < y
        · rw [if_pos (by simpa using h1), if_neg (not_lt.mpr h1.le), if_pos h1]
          exact (lastFor_winX j hlt).2
        · rw [if_neg (by simpa using h1)]
          by_cases h2 : y < x
          · rw [if_pos (by simpa using h2), if_pos h2]
            exact (lastFor_winY j hlt).2
          · rw [if_neg (by simpa using h2), if_neg h2, if_neg h1, if_pos (by rfl)]
            dsimp only
            rw [← hd]
            exact (lastFor_split j hlt _).2
    · exact absurd hb0 (hno j0 hj0)
  · intro hnc
    rcases pair_char t h3 s dv.assetId b with ⟨j, hj, w, hb, hr, he, -⟩ | ⟨-, he, -⟩
    · rw [he]
      obtain ⟨hjx, hjy, hlt⟩ := t.job hj
      obtain ⟨x, hx⟩ := hnum hjx
      obtain ⟨y, hy⟩ := hnum hjy
      have hw : w = [] := by
        apply (hran j hj w hr x y hx hy).1
        by_contra hcon
        push Not at hcon
        exact hnc (between_comparable t hj hb fun hwc => hcon ((withinContent_iff kw).mp hwc))
      rw [hw]
      rfl
    · exact he

/-- **C46 (partial).** A successful conversion leaves the source dataset as it was exactly when it is in
dictionary style; the list-style scores are replaced by dictionaries with keys "0", "1", ... and the same entries
in the same order, everything else being kept.
Missing: the property claims an unchanged source for all datasets, which is false for list style. -/
theorem C46_unchanged_iff_partial (d : Dataset String K) (rd : Reader String K) (hacc : rawReader d = .ok rd)
    (hstyle : (∀ dv ∈ d.disVideos, DictStyle dv) ∨ ∀ dv ∈ d.disVideos, SeqStyle dv)
    (kw : PcKw K) (dr : Draws K) (fuel : ℕ) (src : Dataset String K) (new : Dataset (String × Int) K)
    (h : toPc rd kw dr fuel = .ok (src, new)) :
    (src = d ↔ ∀ dv ∈ d.disVideos, DictStyle dv) ∧
    ((∀ dv ∈ d.disVideos, SeqStyle dv) → src = { d with disVideos := d.disVideos.map fun dv =>
      { dv with os := some (.dict ((entries dv).mapIdx fun i v => (toString i, v))) } }) := by
  obtain ⟨e1, e2, hne, -⟩ := dictVideos_ok hacc hstyle
  obtain ⟨-, dvs, m, ws, h1, -, -, hsrc, -⟩ := toPc_inv h
  rw [e2] at h1
  rw [e1] at hsrc
  have hseq : (∀ dv ∈ d.disVideos, SeqStyle dv) → dvs = d.disVideos.map numbered := by
    intro hs
    rw [dictVideos_seq hne hs] at h1
    exact (Except.ok.inj h1).symm
  constructor
  · constructor
    · intro he
      rcases hstyle with h | hs
      · exact h
      · have hd : d.disVideos = d.disVideos.map numbered := by
          rw [← hseq hs]
          rw [hsrc] at he
          exact (congrArg Dataset.disVideos he).symm
        intro dv hdv
        rw [hd] at hdv
        obtain ⟨v, _, rfl⟩ := List.mem_map.mp hdv
        exact numbered_dict v
    · intro hd
      rw [dictVideos_dict hne hd] at h1
      cases h1
      rw [hsrc]
  · intro hs
    rw [hsrc, hseq hs]
    rfl

/-- **C48 (partial).** When the asset ids are the positions 0, 1, ... of the videos and every subject who rated
anything rated every video, the settings used for a comparison of assets `a` and `b` (those at positions `idx` and
`idx2`) are those of `a` and `b`.
Missing: the property claims it for every pattern of ratings, which is false (`C48_refuted`). -/
theorem C48_positions_partial {dvs : List (DisVideo String K)} {m} (t : TableOf dvs m)
    (hids : dvs.map (·.assetId) = (List.range dvs.length).map fun (n : ℕ) => (n : Int))
    (hall : ∀ s, ratings dvs s ≠ [] → ∀ v ∈ dvs, entryOf v s ≠ none) {j : Job String K} (hj : j ∈ jobs m) :
    (j.idx : Int) = j.x.asset ∧ (j.idx2 : Int) = j.y.asset := by
  obtain ⟨hx, hy, -⟩ := t.job hj
  obtain ⟨-, hlt, gx, gy⟩ := mem_jobsOf.mp (t.job_mem hj)
  have hass : (ratings dvs j.subj).map (·.asset) = (List.range dvs.length).map fun (n : ℕ) => (n : Int) := by
    rw [ratings_assets, ← hids, List.filter_eq_self.mpr]
    intro v hv
    have := hall j.subj (List.ne_nil_of_mem hx) v hv
    exact Option.isSome_iff_ne_none.mpr this
  have hsort : sorted (ratings dvs j.subj) = ratings dvs j.subj := by
    unfold sorted
    apply List.Pairwise.insertionSort_eq
    have : ((ratings dvs j.subj).map (·.asset)).Pairwise (· ≤ ·) := by
      rw [hass, List.pairwise_map]
      exact List.pairwise_lt_range.imp fun h => by omega
    exact List.pairwise_map.mp this
  rw [hsort] at gx gy
  have hget : ∀ (i : ℕ) (r : Rating K), (ratings dvs j.subj)[i]? = some r → (i : Int) = r.asset := by
    intro i r hr
    have h1 : ((ratings dvs j.subj).map (·.asset))[i]? = some r.asset := by rw [List.getElem?_map, hr]; rfl
    rw [hass, List.getElem?_map] at h1
    obtain ⟨n, hn, hn'⟩ := Option.map_eq_some_iff.mp h1
    obtain ⟨hi, rfl⟩ := List.getElem?_eq_some_iff.mp hn
    rw [List.getElem_range] at hn'
    exact hn'
  exact ⟨hget _ _ gx, hget _ _ gy⟩

/-- **C48 (partial).** Observable consequence on the sampling rates, for complete datasets whose asset ids are the
positions: the mean of the rates *of the two assets* decides the pair surely when it is at least 1, never when it
is 0, and at most once when it is at most 1. -/
theorem C48_sampling_partial (d : Dataset String K) (rd : Reader String K) (hacc : rawReader d = .ok rd)
    (hdict : ∀ dv ∈ d.disVideos, DictStyle dv) (kw : PcKw K) (dr : Draws K) (fuel : ℕ) (src : Dataset String K)
    (new : Dataset (String × Int) K) (h : toPc rd kw dr fuel = .ok (src, new))
    (hids : d.disVideos.map (·.assetId) = (List.range d.disVideos.length).map fun (n : ℕ) => (n : Int))
    (hall : ∀ s, (∃ v ∈ d.disVideos, entryOf v s ≠ none) → ∀ v ∈ d.disVideos, entryOf v s ≠ none)
    (l : List K) (hper : kw.perAssetSampling = some (l.map Fl.fin)) (hone : kw.samplingRate = none)
    (i k : ℕ) (va vb : DisVideo (String × Int) K) (hi : new.disVideos[i]? = some va) (hk : new.disVideos[k]? = some vb)
    (s : String) (hcomp : Comparable (withinContent kw) d.disVideos s va.assetId vb.assetId) :
    let q := (l.getD i 0 + l.getD k 0) / 2
    (1 ≤ q → entryOf va (s, vb.assetId) ≠ none ∨ entryOf vb (s, va.assetId) ≠ none) ∧
    (q ≤ 0 → entryOf va (s, vb.assetId) = none ∧ entryOf vb (s, va.assetId) = none) := by
  intro q
  have hsrc := ((C46_unchanged_iff_partial d rd hacc (.inl hdict) kw dr fuel src new h).1).mpr hdict
  subst hsrc
  obtain ⟨m, t, hp⟩ := toPc_pair hacc (.inl hdict) h
  obtain ⟨e1, e2, hne, dvs, hdv, hds, -⟩ := dictVideos_ok hacc (.inl hdict)
  obtain ⟨hkw, dvs', m', ws, h1, h2, h3, hsrc', -, -, hnew⟩ := toPc_inv h
  rw [e2, dictVideos_dict hne hdict] at h1
  cases h1
  have hidx : ∀ (i : ℕ) v', new.disVideos[i]? = some v' → (v'.assetId = (i : Int)) ∧ i < src.disVideos.length ∧
      LastWithId src.disVideos i := by
    intro i v' hv
    obtain ⟨dv, hd, hs, -⟩ := pc_entry hnew hv
    have hget : ∀ (i : ℕ) dv, src.disVideos[i]? = some dv → dv.assetId = (i : Int) := by
      intro i dv hd
      have h1 : (src.disVideos.map (·.assetId))[i]? = some dv.assetId := by rw [List.getElem?_map, hd]; rfl
      rw [hids, List.getElem?_map] at h1
      obtain ⟨n, hn, hn'⟩ := Option.map_eq_some_iff.mp h1
      obtain ⟨_, rfl⟩ := List.getElem?_eq_some_iff.mp hn
      rw [List.getElem_range] at hn'
      exact hn'.symm
    refine ⟨by rw [hs.asset, hget i dv hd], (List.getElem?_eq_some_iff.mp hd).1, dv, hd, ?_⟩
    intro j v2 hj hv2
    rw [hget i dv hd, hget j v2 hv2]
    omega
  obtain ⟨ha, hil, hli⟩ := hidx i va hi
  obtain ⟨hb, hkl, hlk⟩ := hidx k vb hk
  obtain ⟨j0, hj0, hb0, hc0⟩ := comparable_job t hcomp
  rcases hp i k va vb hi hk hli hlk s with ⟨j, hj, w, hbt, hran, he1, he2⟩ | ⟨hno, -, -⟩
  swap
  · exact absurd hb0 (hno j0 hj0)
  have hjj := between_unique t hj hj0 hbt hb0
  subst hjj
  obtain ⟨hx, hy, hlt⟩ := t.job hj
  have hpos := C48_positions_partial t hids (by
    intro s hs v hv
    apply hall s _ v hv
    obtain ⟨r, hr⟩ := List.exists_mem_of_ne_nil _ hs
    obtain ⟨v', hv', hr'⟩ := List.mem_filterMap.mp hr
    exact ⟨v', hv', by intro e; rw [e] at hr'; cases hr'⟩) hj
  have hlen : (l.map Fl.fin).length = src.disVideos.length := by
    have hset := (kwOk_iff.mp hkw).2.2.1
    have := ((settingOk_iff.mp hset).2.2 _ hper).1
    rw [this, e2]
  rw [List.length_map] at hlen
  have hq : JobRate kw j q := by
    have hij : (j.idx = i ∧ j.idx2 = k) ∨ (j.idx = k ∧ j.idx2 = i) := by
      obtain ⟨-, ⟨h5, h6⟩ | ⟨h5, h6⟩⟩ := hbt
      · left; omega
      · right; omega
    have hg : ∀ (n : ℕ), n < src.disVideos.length → pyGet (l.map Fl.fin) (n : Int) = .ok (.fin (l.getD n 0)) := by
      intro n hn
      unfold pyGet
      rw [if_pos (by omega), Int.toNat_natCast, List.getElem?_map, List.getElem?_eq_getElem (by omega)]
      simp only [Option.map_some]
      rw [List.getD_eq_getElem?_getD, List.getElem?_eq_getElem (by omega)]
      rfl
    refine ⟨some (.fin q), ?_, rfl⟩
    rw [hone, hper]
    unfold pairSetting
    dsimp only
    have h2 : ((2 : ℕ) : K) ≠ 0 := by norm_num
    rcases hij with ⟨h5, h6⟩ | ⟨h5, h6⟩
    · rw [h5, h6, hg i hil, hg k hkl]
      dsimp only
      rw [Fl.fin_add, Fl.natCast_def, Fl.fin_div h2]
      norm_num [q]
    · rw [h5, h6, hg i hil, hg k hkl]
      dsimp only
      rw [Fl.fin_add, Fl.natCast_def, Fl.fin_div h2, add_comm]
      norm_num [q]
  rw [he1, he2]
  constructor
  · intro h1
    have hw : w ≠ [] := by
      rcases ran_rate hran hq with ⟨ht, hne, -⟩ | ⟨n, n', e⟩
      · exact absurd (hc0 ((withinContent_iff kw).mpr ht)) hne
      · exact sample_ge_one h1 e
    have := lastFor_ne (runJob_outcomes hran).1 hw
    obtain ⟨rfl, ⟨h2, h3⟩ | ⟨h2, h3⟩⟩ := hbt
    · rw [← h2, ← h3]; exact this
    · rw [← h2, ← h3]; exact this.symm
  · intro h0
    have hw : w = [] := by
      rcases ran_rate hran hq with ⟨-, -, e⟩ | ⟨n, n', e⟩
      · exact e
      · rw [sample_zero _ _ _ _ _ h0] at e
        cases e; rfl
    rw [hw]
    exact ⟨rfl, rfl⟩

end generic

/-! ### concrete cases -/

/-- a computation that succeeds with a result passing a test -/
def okWith {α : Type} (x : Py α) (P : α → Bool) : Bool :=
  match x with
  | .ok a => P a
  | .error _ => false

theorem okWith_elim {α : Type} {x : Py α} {P : α → Bool} (h : okWith x P = true) : ∃ a, x = .ok a ∧ P a = true := by
  unfold okWith at h
  split at h
  · exact ⟨_, rfl, h⟩
  · cases h

/-- three videos of content 7 with asset ids 0, 1, 2: Ann rated all, Bob only the last two -/
def pcData : Dataset String ℚ :=
  ovData [ovVideo 0 "a" [("Ann", .one (.fin 5))],
    ovVideo 1 "b" [("Ann", .one (.fin 3)), ("Bob", .one (.fin 4))],
    ovVideo 2 "c" [("Bob", .one (.fin 2)), ("Ann", .one (.fin 3))]]

theorem pcData_dict : ∀ dv ∈ pcData.disVideos, DictStyle dv := by
  intro dv hdv
  simp only [pcData, ovData, List.mem_cons, List.not_mem_nil, or_false] at hdv
  rcases hdv with rfl | rfl | rfl <;> exact ⟨_, rfl, by decide⟩

theorem pcData_one : ∀ dv ∈ pcData.disVideos, ∀ v ∈ entries dv, ∃ x : ℚ, v = .one (.fin x) := by
  intro dv hdv v hv
  simp only [pcData, ovData, List.mem_cons, List.not_mem_nil, or_false] at hdv
  rcases hdv with rfl | rfl | rfl <;> simp [entries, ovVideo] at hv
  · exact ⟨5, hv⟩
  · rcases hv with rfl | rfl <;> exact ⟨_, rfl⟩
  · rcases hv with rfl | rfl <;> exact ⟨_, rfl⟩

theorem pcData_once : NoRepeat pcData.disVideos := by
  intro s
  have : ((pcData.disVideos.filter fun v => (entryOf v s).isSome).map (·.assetId)).Sublist
      (pcData.disVideos.map (·.assetId)) := List.filter_sublist.map _
  exact this.nodup (by decide)

/-- C45 applies to it ... -/
example (dr : Draws ℚ) : ∃ rd new, rawReader pcData = .ok rd ∧ toPc rd {} dr 1 = .ok (pcData, new) := by
  obtain ⟨rd, hrd⟩ : ∃ rd, rawReader pcData = .ok rd := ⟨_, rfl⟩
  obtain ⟨new, h, -⟩ := C45_outcomes pcData rd hrd pcData_dict pcData_one pcData_once {} none (.inl rfl) dr 0
  exact ⟨rd, new, hrd, h⟩

/-- ... and the outcomes are: Ann prefers 0 over 1 and 2 and ties 1 with 2; Bob prefers 1 over 2. -/
example : ∃ rd src new, rawReader pcData = .ok rd ∧ toPc rd {} ⟨fun _ => 0, fun _ => 0⟩ 1 = .ok (src, new) ∧
    new.disVideos.map (·.os) = [some (.dict [(("Ann", 1), .one (.fin 1)), (("Ann", 2), .one (.fin 1))]),
      some (.dict [(("Ann", 2), .one (.fin (1 / 2))), (("Bob", 2), .one (.fin 1))]),
      some (.dict [(("Ann", 1), .one (.fin (1 / 2)))])] := by
  obtain ⟨⟨src, new⟩, h, hP⟩ := okWith_elim (x := toPc (K := ℚ)
      ⟨pcData, pcData.disVideos, opinionScores pcData.disVideos, listObservers pcData.disVideos⟩ {}
      ⟨fun _ => 0, fun _ => 0⟩ 1) (P := fun r => decide (r.2.disVideos.map (·.os) =
    [some (.dict [(("Ann", 1), .one (.fin 1)), (("Ann", 2), .one (.fin 1))]),
      some (.dict [(("Ann", 2), .one (.fin (1 / 2))), (("Bob", 2), .one (.fin 1))]),
      some (.dict [(("Ann", 1), .one (.fin (1 / 2)))])])) (by decide +kernel)
  exact ⟨_, src, new, rfl, h, of_decide_eq_true hP⟩

/-- **C46, refuted.** Converting a list-style dataset changes it: the lists of scores become dictionaries. -/
theorem C46_refuted : ∃ rd src new, rawReader exSeq = .ok rd ∧
    toPc rd { samplingRate := some (.fin 0) } ⟨fun _ => 0, fun _ => 0⟩ 1 = .ok (src, new) ∧ src ≠ exSeq := by
  refine ⟨_, _, _, rfl, rfl, ?_⟩
  decide +kernel

/-- **C48, refuted.** Both assets rated by Bob have sampling rate 1, so the pair should be decided; the code uses
the rates at positions 0 and 1 (0 and 1) instead, and with the draw 0.9 records nothing for Bob. -/
theorem C48_refuted : ∃ rd src new, rawReader pcData = .ok rd ∧
    toPc rd { perAssetSampling := some [.fin 0, .fin 1, .fin 1] } ⟨fun _ => 9 / 10, fun _ => 0⟩ 1 = .ok (src, new) ∧
    Comparable true pcData.disVideos "Bob" 1 2 ∧
    new.disVideos.map (fun v => (entryOf v ("Bob", 1), entryOf v ("Bob", 2))) =
      [(none, none), (none, none), (none, none)] := by
  obtain ⟨⟨src, new⟩, h, hP⟩ := okWith_elim (x := toPc (K := ℚ)
      ⟨pcData, pcData.disVideos, opinionScores pcData.disVideos, listObservers pcData.disVideos⟩
      { perAssetSampling := some [.fin 0, .fin 1, .fin 1] } ⟨fun _ => 9 / 10, fun _ => 0⟩ 1)
    (P := fun r => decide (r.2.disVideos.map (fun v => (entryOf v ("Bob", 1), entryOf v ("Bob", 2))) =
      [(none, none), (none, none), (none, none)])) (by decide +kernel)
  exact ⟨_, src, new, rfl, h, ⟨by decide, .one (.fin 4), 7, .one (.fin 2), 7, rfl, rfl, fun _ => rfl⟩,
    of_decide_eq_true hP⟩

/-- with all the settings at once, on the same data: the hypotheses of `C47_returns` are met -/
example (dr : Draws ℚ) : ∃ rd src new, rawReader pcData = .ok rd ∧
    toPc rd { perAssetSampling := some [.fin 0, .fin (3 / 2), .fin 3], cointossRate := some (.fin (1 / 2)),
              perAssetNoise := some [.fin 1, .fin 0, .fin 2], perAssetMean := some [.fin 5, .fin 4, .nan],
              tiebreak := some "coin_toss" } dr 3 = .ok (src, new) := by
  obtain ⟨rd, hrd⟩ : ∃ rd, rawReader pcData = .ok rd := ⟨_, rfl⟩
  obtain ⟨src, new, h⟩ := C47_returns pcData rd hrd (.inl pcData_dict)
    { perAssetSampling := some [.fin 0, .fin (3 / 2), .fin 3], cointossRate := some (.fin (1 / 2)),
      perAssetNoise := some [.fin 1, .fin 0, .fin 2], perAssetMean := some [.fin 5, .fin 4, .nan],
      tiebreak := some "coin_toss" } dr 3 (by decide +kernel) (by omega)
    ⟨by simp, by
      intro l hl r hr
      cases hl
      simp only [List.mem_cons, List.not_mem_nil, or_false] at hr
      rcases hr with rfl | rfl | rfl
      · exact ⟨0, rfl, by norm_num⟩
      · exact ⟨3 / 2, rfl, by norm_num⟩
      · exact ⟨3, rfl, by norm_num⟩⟩
    (by
      intro dvs hdvs
      rw [dictVideos_dict (by simp [pcData, ovData]) pcData_dict] at hdvs
      cases hdvs
      exact pcData_once)
    (.inr (by simp)) (by
      intro _ dv hdv
      simp only [pcData, ovData, List.mem_cons, List.not_mem_nil, or_false] at hdv
      rcases hdv with rfl | rfl | rfl <;> simp [ovVideo, pcData, ovData])
  exact ⟨rd, src, new, hrd, h⟩

end Sureal.Props
