import Verif.Lemmas.Life
import Verif.Props.Dscore
import Verif.Props.Pc
/-!
# C106: model objects made from dataset files
-/
set_option linter.unusedSectionVars false
namespace Sureal.Props
open Sureal Life
variable {κ K : Type} [LinearOrder κ] {A : Type}

/-- **C106, partial.** The full claim, that every model object works on the content of its file whatever else is loaded, is refuted by
`C106_refuted_filter` and `C106_refuted_stale`.  Proved: if the files a program loads have different names (without directory and
extension), none of them the name of a module loaded before, then every operation returns what it returns for model objects that
own their dataset: `from_dataset_file` the next object, or the exception of the file; `run_modeling` the result on the content of
the object's own file, restricted to the ids asked for; `to_aggregated_dataset` the content with the scores of the last
`run_modeling` of this object that did not raise, AssertionError if there was none. -/
theorem C106_owned_partial (fs : Files κ K) (model : Reader κ K → A → Py (Result κ K)) (s : State κ K) (hs : s.models = [])
    (ops : List (Op κ K A)) (hnd : (Life.Spec.names ops).Nodup) (hfresh : ∀ n ∈ Life.Spec.names ops, s.sysModules.lookup n = none) :
    trace fs model s ops = Life.Spec.trace fs model [] ops :=
  trace_rel fs model ops ⟨by rw [hs]; rfl, fun i o a ho => by rw [hs] at ho; simp at ho⟩ hnd hfresh

theorem exe_snoc (fs : Files κ K) (model : Reader κ K → A → Py (Result κ K)) (s : State κ K) (ops : List (Op κ K A)) (op : Op κ K A) :
    exe fs model s (ops ++ [op]) = step fs model (exe fs model s ops) op := by
  unfold exe; rw [List.foldl_append]; rfl

theorem importPy_models (fs : Files κ K) (path : List Char) (s : State κ K) : (importPy fs path s).2.models = s.models := by
  unfold importPy
  cases fs path with
  | none => rfl
  | some f =>
    dsimp only
    cases s.sysModules.lookup (FileName.withoutExtension path) <;> cases f.err <;> rfl

theorem fromFile_models (fs : Files κ K) (path : List Char) (cids aids : Option (List Int)) (s : State κ K) :
    (fromFile fs path cids aids s).2.models = s.models ∨ ∃ r, (fromFile fs path cids aids s).2.models = s.models ++ [{ ref := r }] := by
  have h := importPy_models fs path s
  unfold fromFile
  rcases hi : importPy fs path s with ⟨_ | r, s1⟩
  · rw [hi] at h
    exact Or.inl h
  · rw [hi] at h
    dsimp only at h ⊢
    cases s1.heap[r]? with
    | none => exact Or.inl h
    | some m =>
      dsimp only
      cases filterMod m cids aids with
      | error e => exact Or.inl h
      | ok m' =>
        dsimp only
        cases view m' with
        | error e => exact Or.inl h
        | ok d =>
          dsimp only
          cases assertRaw d with
          | error e => exact Or.inl h
          | ok u => exact Or.inr ⟨r, by dsimp only; rw [h]⟩

/-- the run of object `i` in state `s` returned `res` -/
def RunReturns (model : Reader κ K → A → Py (Result κ K)) (s : State κ K) (i : Nat) (opts : A) (res : Result κ K) : Prop :=
  (run model i opts s).1 = .ok res

theorem run_ok {model : Reader κ K → A → Py (Result κ K)} {s : State κ K} {i : Nat} {opts : A} {res : Result κ K}
    (h : RunReturns model s i opts res) :
    ∃ o, s.models[i]? = some o ∧ (run model i opts s).2.models = s.models.set i { o with result := some res } := by
  unfold RunReturns run at h
  unfold run
  cases hm : s.models[i]? with
  | none => rw [hm] at h; cases h
  | some o =>
    rw [hm] at h
    dsimp only at h ⊢
    cases hd : datasetOf s o with
    | error e => rw [hd] at h; cases h
    | ok d =>
      rw [hd] at h
      dsimp only at h ⊢
      cases hr : model (readerOf d) opts with
      | error e => rw [hr] at h; cases h
      | ok r =>
        rw [hr] at h
        dsimp only at h ⊢
        cases h
        exact ⟨o, rfl, rfl⟩

theorem run_error {model : Reader κ K → A → Py (Result κ K)} {s : State κ K} {i : Nat} {opts : A} 
    (h : ∀ res, ¬RunReturns model s i opts res) : (run model i opts s).2 = s := by
  unfold RunReturns run at h
  unfold run
  cases hm : s.models[i]? with
  | none => rfl
  | some o =>
    rw [hm] at h
    dsimp only at h ⊢
    cases hd : datasetOf s o with
    | error e => rfl
    | ok d =>
      rw [hd] at h
      dsimp only at h ⊢
      cases hr : model (readerOf d) opts with
      | error e => rfl
      | ok r =>
        rw [hr] at h
        exact absurd rfl (h r)

theorem step_length (fs : Files κ K) (model : Reader κ K → A → Py (Result κ K)) (s : State κ K) (op : Op κ K A) :
    s.models.length ≤ (step fs model s op).models.length := by
  cases op with
  | fromFile path cids aids =>
    rcases fromFile_models fs path cids aids s with h | ⟨r, h⟩
    · exact le_of_eq (congrArg List.length h.symm)
    · change s.models.length ≤ (fromFile fs path cids aids s).2.models.length
      rw [h]; simp
  | run i opts =>
    by_cases h : ∃ res, RunReturns model s i opts res
    · obtain ⟨res, h⟩ := h
      obtain ⟨o, _, h2⟩ := run_ok h
      change s.models.length ≤ (run model i opts s).2.models.length
      rw [h2]; simp
    · change s.models.length ≤ (run model i opts s).2.models.length
      rw [run_error (not_exists.mp h)]
  | toAggregated i kw => exact le_refl _

theorem exe_length (fs : Files κ K) (model : Reader κ K → A → Py (Result κ K)) (s : State κ K) (l m : List (Op κ K A)) :
    (exe fs model s l).models.length ≤ (exe fs model s (l ++ m)).models.length := by
  induction m using List.reverseRecOn with
  | nil => simp
  | append_singleton m op ih =>
    rw [← List.append_assoc, exe_snoc]
    exact ih.trans (step_length fs model _ op)

/-- **C106.** Whatever the files are called: the result an object holds is the one its last run that did not raise returned; runs
that raise leave it alone. -/
theorem C106_last_run (fs : Files κ K) (model : Reader κ K → A → Py (Result κ K)) (s : State κ K) (hs : s.models = [])
    (ops : List (Op κ K A)) (i : Nat) (o : Obj κ K) (ho : (exe fs model s ops).models[i]? = some o) (res : Result κ K) :
    o.result = some res ↔ ∃ (l : List (Op κ K A)) (opts : A) (l' : List (Op κ K A)), ops = l ++ .run i opts :: l' ∧
      RunReturns model (exe fs model s l) i opts res ∧
      ∀ (m : List (Op κ K A)) (opts' : A) (m' : List (Op κ K A)), l' = m ++ .run i opts' :: m' →
        ∀ res', ¬RunReturns model (exe fs model s (l ++ .run i opts :: m)) i opts' res' := by
  induction ops using List.reverseRecOn generalizing o with
  | nil =>
    simp only [exe, List.foldl_nil, hs] at ho
    simp at ho
  | append_singleton ops op ih =>
    rw [exe_snoc] at ho
    -- an operation that neither runs the object successfully nor changes its result
    have keep : ∀ o' : Obj κ K, (exe fs model s ops).models[i]? = some o' → o'.result = o.result →
        (∀ opts', op = .run i opts' → ∀ res', ¬RunReturns model (exe fs model s ops) i opts' res') →
        (o.result = some res ↔ ∃ (l : List (Op κ K A)) (opts : A) (l' : List (Op κ K A)), ops ++ [op] = l ++ .run i opts :: l' ∧
          RunReturns model (exe fs model s l) i opts res ∧
          ∀ (m : List (Op κ K A)) (opts' : A) (m' : List (Op κ K A)), l' = m ++ .run i opts' :: m' →
            ∀ res', ¬RunReturns model (exe fs model s (l ++ .run i opts :: m)) i opts' res') := by
      intro o' ho' hr hno
      rw [← hr, ih o' ho']
      constructor
      · rintro ⟨l, opts, l', rfl, h1, h2⟩
        refine ⟨l, opts, l' ++ [op], by simp, h1, fun m opts' m' hm res' => ?_⟩
        rcases List.eq_nil_or_concat m' with rfl | ⟨m'', x, rfl⟩
        · have h := List.append_inj' hm rfl
          have h3 : op = .run i opts' := by simpa using h.2
          rw [← h.1]
          exact hno opts' h3 res'
        · rw [List.concat_eq_append, ← List.cons_append, ← List.append_assoc] at hm
          exact h2 m opts' m'' (List.append_inj' hm rfl).1 res'
      · rintro ⟨l, opts, l', heq, h1, h2⟩
        rcases List.eq_nil_or_concat l' with rfl | ⟨l'', x, rfl⟩
        · have h := List.append_inj' heq rfl
          have h3 : op = .run i opts := by simpa using h.2
          rw [← h.1] at h1
          exact absurd h1 (hno opts h3 res)
        · rw [List.concat_eq_append, ← List.cons_append, ← List.append_assoc] at heq
          refine ⟨l, opts, l'', (List.append_inj' heq rfl).1, h1, fun m opts' m' hm res' => ?_⟩
          exact h2 m opts' (m' ++ [x]) (by rw [List.concat_eq_append, hm]; simp) res'
    cases op with
    | fromFile path cids aids =>
      rcases fromFile_models fs path cids aids (exe fs model s ops) with h | ⟨r, h⟩
      · have ho1 : (exe fs model s ops).models[i]? = some o := by
          rw [← h]; exact ho
        exact keep o ho1 rfl fun _ h => by cases h
      · have ho1 : ((exe fs model s ops).models ++ [{ ref := r }])[i]? = some o := by rw [← h]; exact ho
        by_cases hi : i < (exe fs model s ops).models.length
        · rw [List.getElem?_append_left hi] at ho1
          exact keep o ho1 rfl fun _ h => by cases h
        · -- the object is new
          have hnone : ∀ l m : List (Op κ K A), l ++ m = ops → ∀ opts res', ¬RunReturns model (exe fs model s l) i opts res' := by
            rintro l m rfl opts res' hr
            obtain ⟨o', h1, -⟩ := run_ok hr
            exact hi (((List.getElem?_eq_some_iff.mp h1).1).trans_le (exe_length fs model s l m))
          rw [List.getElem?_append_right (not_lt.mp hi)] at ho1
          have hnew : o.result = none := by
            rcases hk : i - (exe fs model s ops).models.length with _ | k
            · rw [hk] at ho1
              simp only [List.getElem?_cons_zero, Option.some.injEq] at ho1
              rw [← ho1]
            · rw [hk] at ho1
              simp at ho1
          rw [hnew]
          refine iff_of_false (by simp) ?_
          rintro ⟨l, opts, l', heq, h1, -⟩
          rcases List.eq_nil_or_concat l' with rfl | ⟨l'', x, rfl⟩
          · have h := List.append_inj' heq rfl
            simp at h
          · rw [List.concat_eq_append, ← List.cons_append, ← List.append_assoc] at heq
            exact hnone l _ (List.append_inj' heq rfl).1.symm opts res h1
    | run j opts =>
      by_cases hji : j = i
      · subst hji
        by_cases hr : ∃ res0, RunReturns model (exe fs model s ops) j opts res0
        · obtain ⟨res0, hr⟩ := hr
          obtain ⟨o', h1, h2⟩ := run_ok hr
          have ho1 : ((exe fs model s ops).models.set j { o' with result := some res0 })[j]? = some o := by rw [← h2]; exact ho
          rw [List.getElem?_set_self (List.getElem?_eq_some_iff.mp h1).1, Option.some.injEq] at ho1
          rw [← ho1]
          constructor
          · intro h
            have h : res0 = res := Option.some.inj h
            subst h
            exact ⟨ops, opts, [], rfl, hr, fun m _ m' hm => by simp at hm⟩
          · rintro ⟨l, opts', l', heq, h3, h4⟩
            rcases List.eq_nil_or_concat l' with rfl | ⟨l'', x, rfl⟩
            · have h := List.append_inj' heq rfl
              have h5 : opts = opts' := by simpa using h.2
              rw [← h.1, ← h5] at h3
              unfold RunReturns at hr h3
              rw [hr] at h3
              exact congrArg some (Except.ok.inj h3)
            · rw [List.concat_eq_append, ← List.cons_append, ← List.append_assoc] at heq
              have h := List.append_inj' heq rfl
              have h5 : Op.run j opts = x := by simpa using h.2
              have h6 := h4 l'' opts [] (by rw [List.concat_eq_append, h5]) res0
              rw [← h.1] at h6
              exact absurd hr h6
        · have ho1 : (exe fs model s ops).models[j]? = some o := by
            have hs' : step fs model (exe fs model s ops) (.run j opts) = exe fs model s ops := run_error (not_exists.mp hr)
            rw [hs'] at ho
            exact ho
          refine keep o ho1 rfl fun opts' h res' => ?_
          have h5 : opts = opts' := by simpa using h
          rw [← h5]
          exact fun h => hr ⟨res', h⟩
      · refine keep o ?_ rfl fun opts' h => ?_
        · by_cases hr : ∃ res0, RunReturns model (exe fs model s ops) j opts res0
          · obtain ⟨res0, hr⟩ := hr
            obtain ⟨o', h1, h2⟩ := run_ok hr
            have ho1 : ((exe fs model s ops).models.set j { o' with result := some res0 })[i]? = some o := by rw [← h2]; exact ho
            rw [List.getElem?_set_ne hji] at ho1
            exact ho1
          · have hs' : step fs model (exe fs model s ops) (.run j opts) = exe fs model s ops := run_error (not_exists.mp hr)
            rw [hs'] at ho
            exact ho
        · simp only [Op.run.injEq] at h
          exact absurd h.1 hji
    | toAggregated j kw => exact keep o ho rfl fun _ h => by cases h

/-- **C106.** Without a result, `to_aggregated_dataset` raises AssertionError. -/
theorem C106_not_modeled (s : State κ K) (i : Nat) (o : Obj κ K) (ho : s.models[i]? = some o) (h : o.result = none) (kw : Conv.AggKw K) :
    toAggregated i kw s = .error .assertion := by
  unfold toAggregated
  rw [ho]
  dsimp only
  rw [h]

/-- **C106, refuted.** Loading a file whose name (without directory and extension) is that of a file loaded before changes what the
earlier model objects see: they see the dataset of the new object. -/
theorem C106_refuted_shared (fs : Files κ K) (path : List Char) (cids aids : Option (List Int)) (s : State κ K) (r i : Nat)
    (o : Obj κ K) (ho : s.models[i]? = some o) (hr : s.sysModules.lookup (FileName.withoutExtension path) = some o.ref)
    (h : (fromFile fs path cids aids s).1 = .ok r) :
    ∃ new, (fromFile fs path cids aids s).2.models[r]? = some new ∧ (fromFile fs path cids aids s).2.models[i]? = some o ∧ i ≠ r ∧
      datasetOf (fromFile fs path cids aids s).2 o = datasetOf (fromFile fs path cids aids s).2 new := by
  have hlt := (List.getElem?_eq_some_iff.mp ho).1
  unfold fromFile importPy at h ⊢
  cases hf : fs path with
  | none => rw [hf] at h; cases h
  | some f =>
    simp only [hf, hr] at h ⊢
    cases he : f.err with
    | some e => simp only [he] at h; cases h
    | none =>
      simp only [he] at h ⊢
      cases hm : (s.heap.modify o.ref fun m => exec m f.body)[o.ref]? with
      | none => simp only [hm] at h; cases h
      | some m =>
        simp only [hm] at h ⊢
        cases hfm : filterMod m cids aids with
        | error e => simp only [hfm] at h; cases h
        | ok m' =>
          simp only [hfm] at h ⊢
          cases hv : view m' with
          | error e => simp only [hv] at h; cases h
          | ok d =>
            simp only [hv] at h ⊢
            cases ha : assertRaw d with
            | error e => simp only [ha] at h; cases h
            | ok u =>
              simp only [ha] at h ⊢
              cases h
              refine ⟨{ ref := o.ref }, by simp, ?_, hlt.ne, rfl⟩
              rw [List.getElem?_append_left hlt]
              exact ho

section examples
attribute [local instance] ratMath

/-- a video with the votes 1 and 4 (content 0), one with 2 and 2 (content 1) -/
def lifeFile : File String ℚ :=
  { body := [.refVideos [{ contentId := 0, path := "r0" }, { contentId := 1, path := "r1" }],
      .disVideos [{ contentId := 0, assetId := 0, path := "a", os := some (.seq false [.one (.fin 1), .one (.fin 4)]) },
        { contentId := 1, assetId := 1, path := "b", os := some (.seq false [.one (.fin 2), .one (.fin 2)]) }],
      .refScore (some (.fin 5))] }

/-- the second video alone, without a reference score -/
def lifeFile2 : File String ℚ :=
  { body := [.refVideos [{ contentId := 0, path := "r0" }],
      .disVideos [{ contentId := 0, assetId := 1, path := "b", os := some (.seq false [.one (.fin 3), .one (.fin 3)]) }]] }

def lifeFs : Files String ℚ := fun p =>
  if p = "x/data.py".toList then some lifeFile else if p = "y/data.py".toList then some lifeFile2
  else if p = "y/other.py".toList then some lifeFile2 else none

/-- what the runs return: the quality scores -/
def lifeScores : List (Out String ℚ) → List (Option (List (Fl ℚ)))
  | [] => []
  | .result (.ok r) :: l => some r.qualityScores :: lifeScores l
  | .result (.error _) :: l => none :: lifeScores l
  | _ :: l => lifeScores l

/-- **C106, refuted.** A model of content 0 alone; then the same file is loaded without restriction: from now on the first model
scores both videos. -/
theorem C106_refuted_filter :
    let ops : List (Op String ℚ (Opts ℚ)) := [.fromFile "x/data.py".toList (some [0]) none, .run 0 {}, .fromFile "x/data.py".toList none none, .run 0 {}]
    lifeScores (trace lifeFs runMOS {} ops) = [some [.fin (5 / 2)], some [.fin (5 / 2), .fin 2]] ∧
    lifeScores (Life.Spec.trace lifeFs runMOS [] ops) = [some [.fin (5 / 2)], some [.fin (5 / 2)]] := by
  decide +kernel

/-- **C106, refuted.** A file of the same name in another directory: attributes the second file does not set stay from the first, and the
first model scores the videos of the second file. -/
theorem C106_refuted_stale :
    let ops : List (Op String ℚ (Opts ℚ)) := [.fromFile "x/data.py".toList none none, .fromFile "y/data.py".toList none none]
    let s := exe lifeFs runMOS {} ops
    (s.models.map fun o => (okWith (datasetOf s o) fun d => d.refScore == some (some (.fin 5)))) = [true, true] ∧
    (okWith (Life.Spec.content lifeFs "y/data.py".toList none none) fun d => d.refScore == none) = true ∧
    lifeScores (trace lifeFs runMOS {} (ops ++ [.run 0 {}])) = [some [.fin 3]] ∧
    lifeScores (Life.Spec.trace lifeFs runMOS [] (ops ++ [.run 0 {}])) = [some [.fin (5 / 2), .fin 2]] := by
  decide +kernel

/-- files of different names: the hypotheses of C106_owned_partial hold, and two objects are loaded and run -/
example :
    let ops : List (Op String ℚ (Opts ℚ)) := [.fromFile "x/data.py".toList (some [0]) none, .fromFile "y/other.py".toList none none, .run 0 {}, .run 1 {}]
    (Life.Spec.names ops).Nodup ∧ lifeScores (trace lifeFs runMOS {} ops) = [some [.fin (5 / 2)], some [.fin 3]] := by
  decide +kernel

end examples

end Sureal.Props
