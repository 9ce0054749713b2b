import Verif.Spec.Life
/-! Lemmas on model objects made from files. -/
set_option linter.unusedSectionVars false
namespace Sureal.Life
open Spec
variable {κ K : Type} [LinearOrder κ] {A : Type}

theorem lastOf_nil {α β : Type} (pick : α → Option β) : lastOf pick [] = none := rfl

theorem lastOf_snoc {α β : Type} (pick : α → Option β) (l : List α) (a : α) :
    lastOf pick (l ++ [a]) = (pick a).or (lastOf pick l) := by
  unfold lastOf
  rw [List.filterMap_append]
  cases h : pick a <;> simp [h]

/-- the attributes of a new module after the execution of a file -/
theorem exec_new (f : List (Assign κ K)) :
    exec {} f = { refVideos := refVideosOf f, disVideos := disVideosOf f, refScore := refScoreOf f, datasetName := datasetNameOf f,
                  attrs := attrsOf f } := by
  induction f using List.reverseRecOn with
  | nil => rfl
  | append_singleton l a ih =>
    have : exec ({} : Module κ K) (l ++ [a]) = assign (exec {} l) a := by unfold exec; rw [List.foldl_append]; rfl
    rw [this, ih]
    unfold refVideosOf disVideosOf refScoreOf datasetNameOf attrsOf
    simp only [lastOf_snoc, List.filterMap_append, List.foldl_append]
    cases a <;> simp [assign]

theorem selectIds_wanted (key : DisVideo κ K → Int) (ids : Option (List Int)) (l : List (DisVideo κ K)) :
    Conv.selectIds key ids l = l.filter fun v => wanted ids (key v) := by
  cases ids with
  | none => exact (List.filter_true l).symm
  | some x => rfl

theorem select_both (cids aids : Option (List Int)) (l : List (DisVideo κ K)) :
    Conv.selectIds (·.assetId) aids (Conv.selectIds (·.contentId) cids l) =
      l.filter fun v => wanted cids v.contentId && wanted aids v.assetId := by
  rw [selectIds_wanted, selectIds_wanted, List.filter_filter]
  congr 1
  funext v
  exact Bool.and_comm _ _

theorem filterMod_eq (m : Module κ K) (cids aids : Option (List Int)) :
    filterMod m cids aids =
      match m.disVideos with
      | none => if cids = none ∧ aids = none then .ok m else .error .attribute
      | some l => .ok { m with disVideos := some (l.filter fun v => wanted cids v.contentId && wanted aids v.assetId) } := by
  have hs := fun l : List (DisVideo κ K) => select_both cids aids l
  rcases h : m.disVideos with _ | l
  · cases cids <;> cases aids <;> simp [filterMod, h]
  · cases cids with
    | none =>
      cases aids with
      | none =>
        simp only [filterMod, wanted, Bool.and_true]
        congr 1
        rw [List.filter_true, ← h]
      | some x => simp only [filterMod, h, hs]
    | some y => simp only [filterMod, h, hs]

theorem lookup_cons_ne {α : Type} {n k : List Char} {v : α} {l : List (List Char × α)} (h : n ≠ k) :
    ((k, v) :: l).lookup n = l.lookup n := by
  rw [List.lookup_cons, beq_false_of_ne h]

/-- a file of a name not loaded yet: the model object owns a new module -/
theorem fromFile_fresh (fs : Files κ K) (path : List Char) (cids aids : Option (List Int)) (s : State κ K)
    (h : s.sysModules.lookup (FileName.withoutExtension path) = none) :
    (∃ d m sys, content fs path cids aids = .ok d ∧ view m = .ok d ∧ (sys = s.sysModules ∨ sys = (FileName.withoutExtension path, s.heap.length) :: s.sysModules) ∧
      fromFile fs path cids aids s = (.ok s.models.length,
        { heap := s.heap ++ [m], sysModules := sys, models := s.models ++ [{ ref := s.heap.length }] })) ∨
    (∃ e l sys, content fs path cids aids = .error e ∧ (sys = s.sysModules ∨ sys = (FileName.withoutExtension path, s.heap.length) :: s.sysModules) ∧
      (sys = (FileName.withoutExtension path, s.heap.length) :: s.sysModules → l ≠ []) ∧
      fromFile fs path cids aids s = (.error e, { heap := s.heap ++ l, sysModules := sys, models := s.models })) := by
  unfold fromFile importPy content
  rcases hf : fs path with _ | f
  · right
    refine ⟨.os, [], s.sysModules, rfl, Or.inl rfl, fun h => ?_, ?_⟩
    · have := congrArg List.length h
      simp at this
    · simp
  · rcases he : f.err with _ | e
    · simp only [h, he]
      have hget : (s.heap ++ [exec {} f.body])[s.heap.length]? = some (exec {} f.body) := by simp
      simp only [hget]
      rw [filterMod_eq, exec_new]
      dsimp only
      rcases hd : disVideosOf f.body with _ | l
      · right
        refine ⟨.attribute, [exec {} f.body], _, ?_, Or.inr rfl, fun _ => by simp, ?_⟩
        · cases refVideosOf f.body <;> rfl
        · rw [exec_new, hd]
          by_cases hc : cids = none ∧ aids = none
          · rw [if_pos hc]
            simp [view]
          · rw [if_neg hc]
      · rcases hr : refVideosOf f.body with _ | r
        · right
          refine ⟨.attribute, [{ refVideos := none, disVideos := some (l.filter fun v => wanted cids v.contentId && wanted aids v.assetId), refScore := refScoreOf f.body, datasetName := datasetNameOf f.body, attrs := attrsOf f.body }], _, rfl, Or.inr rfl, fun _ => by simp, ?_⟩
          simp [view]
        · simp only [view]
          rcases ha : assertRaw ({ refVideos := r, disVideos := l.filter fun v => wanted cids v.contentId && wanted aids v.assetId, refScore := refScoreOf f.body, datasetName := datasetNameOf f.body, attrs := attrsOf f.body } : Dataset κ K) with e | u
          · right
            refine ⟨e, [{ refVideos := some r, disVideos := some (l.filter fun v => wanted cids v.contentId && wanted aids v.assetId), refScore := refScoreOf f.body, datasetName := datasetNameOf f.body, attrs := attrsOf f.body }], _, rfl, Or.inr rfl, fun _ => by simp, ?_⟩
            simp
          · left
            refine ⟨_, { refVideos := some r, disVideos := some (l.filter fun v => wanted cids v.contentId && wanted aids v.assetId), refScore := refScoreOf f.body, datasetName := datasetNameOf f.body, attrs := attrsOf f.body }, _, rfl, rfl, Or.inr rfl, ?_⟩
            simp
    · right
      simp only [h, he]
      refine ⟨e, [], s.sysModules, rfl, Or.inl rfl, fun h => ?_, ?_⟩
      · have := congrArg List.length h
        simp at this
      · simp

/-- concrete and abstract model objects agree -/
structure Rel (s : State κ K) (t : List (Owner κ K)) : Prop where
  len : s.models.length = t.length
  objs : ∀ (i : Nat) (o : Obj κ K) (a : Owner κ K), s.models[i]? = some o → t[i]? = some a → o.result = a.result ∧ ∃ m, s.heap[o.ref]? = some m ∧ view m = .ok a.data

theorem Rel.datasetOf {s : State κ K} {t : List (Owner κ K)} (h : Rel s t) {i : Nat} {o : Obj κ K} {a : Owner κ K}
    (ho : s.models[i]? = some o) (ha : t[i]? = some a) : datasetOf s o = .ok a.data := by
  obtain ⟨_, m, hm, hv⟩ := h.objs i o a ho ha
  unfold Life.datasetOf
  rw [hm]
  exact hv

theorem Rel.get {s : State κ K} {t : List (Owner κ K)} (h : Rel s t) (i : Nat) :
    (s.models[i]? = none ∧ t[i]? = none) ∨ ∃ o a, s.models[i]? = some o ∧ t[i]? = some a := by
  by_cases hi : i < s.models.length
  · right
    exact ⟨_, _, List.getElem?_eq_getElem hi, List.getElem?_eq_getElem (h.len ▸ hi)⟩
  · left
    exact ⟨List.getElem?_eq_none (by omega), List.getElem?_eq_none (by have := h.len; omega)⟩

/-- new modules do not matter to the model objects there are -/
theorem Rel.grow {s : State κ K} {t : List (Owner κ K)} (h : Rel s t) (l : List (Module κ K)) (sys : List (List Char × Nat)) :
    Rel { heap := s.heap ++ l, sysModules := sys, models := s.models } t where
  len := h.len
  objs i o a ho ha := by
    obtain ⟨h1, m, hm, hv⟩ := h.objs i o a ho ha
    refine ⟨h1, m, ?_, hv⟩
    have hlt : o.ref < s.heap.length := (List.getElem?_eq_some_iff.mp hm).1
    change (s.heap ++ l)[o.ref]? = some m
    rw [List.getElem?_append_left hlt]
    exact hm

theorem Rel.snoc {s : State κ K} {t : List (Owner κ K)} (h : Rel s t) (m : Module κ K) {d : Dataset κ K} (hv : view m = .ok d)
    (sys : List (List Char × Nat)) :
    Rel { heap := s.heap ++ [m], sysModules := sys, models := s.models ++ [{ ref := s.heap.length }] } (t ++ [{ data := d }]) where
  len := by simp [h.len]
  objs i o a ho ha := by
    dsimp only at ho
    by_cases hi : i < s.models.length
    · rw [List.getElem?_append_left hi] at ho
      rw [List.getElem?_append_left (h.len ▸ hi)] at ha
      exact (h.grow [m] sys).objs i o a ho ha
    · have hi' : s.models.length ≤ i := by omega
      rw [List.getElem?_append_right hi'] at ho
      rw [List.getElem?_append_right (by have := h.len; omega)] at ha
      have h0 : i - s.models.length = 0 := by
        have := (List.getElem?_eq_some_iff.mp ho).1
        simp at this
        omega
      have h0' : i - t.length = 0 := by have := h.len; omega
      rw [h0] at ho
      rw [h0'] at ha
      simp only [List.getElem?_cons_zero, Option.some.injEq] at ho ha
      subst ho ha
      exact ⟨rfl, m, by simp, hv⟩

theorem Rel.setResult {s : State κ K} {t : List (Owner κ K)} (h : Rel s t) {i : Nat} {o : Obj κ K} {a : Owner κ K}
    (ho : s.models[i]? = some o) (ha : t[i]? = some a) (res : Result κ K) :
    Rel { s with models := s.models.set i { o with result := some res } } (t.set i { a with result := some res }) where
  len := by simp [h.len]
  objs j o' a' ho' ha' := by
    dsimp only at ho'
    by_cases hij : i = j
    · subst hij
      have hi := (List.getElem?_eq_some_iff.mp ho).1
      have hi' := (List.getElem?_eq_some_iff.mp ha).1
      rw [List.getElem?_set_self hi] at ho'
      rw [List.getElem?_set_self hi'] at ha'
      simp only [Option.some.injEq] at ho' ha'
      subst ho' ha'
      exact ⟨rfl, (h.objs i o a ho ha).2⟩
    · rw [List.getElem?_set_ne hij] at ho' ha'
      exact h.objs j o' a' ho' ha'

/-- one operation, when a file to be loaded has a new name -/
theorem step_rel (fs : Files κ K) (model : Reader κ K → A → Py (Result κ K)) {s : State κ K} {t : List (Owner κ K)} (h : Rel s t)
    (op : Op κ K A) (hop : ∀ n ∈ names [op], s.sysModules.lookup n = none) :
    out fs model s op = Spec.out fs model t op ∧ Rel (step fs model s op) (Spec.step fs model t op) ∧
    ∀ n, n ∉ names [op] → s.sysModules.lookup n = none → (step fs model s op).sysModules.lookup n = none := by
  cases op with
  | fromFile path cids aids =>
    have hl : s.sysModules.lookup (FileName.withoutExtension path) = none := hop _ (by simp [names])
    have hsys : ∀ {sys : List (List Char × Nat)}, (sys = s.sysModules ∨ sys = (FileName.withoutExtension path, s.heap.length) :: s.sysModules) →
        ∀ n, n ∉ names [Op.fromFile path cids aids (A := A) (κ := κ) (K := K)] → s.sysModules.lookup n = none → sys.lookup n = none := by
      rintro sys (rfl | rfl) n hn hs
      · exact hs
      · rw [lookup_cons_ne]
        · exact hs
        · rintro rfl; exact hn (by simp [names])
    rcases fromFile_fresh fs path cids aids s hl with ⟨d, m, sys, hc, hv, hs, hf⟩ | ⟨e, l, sys, hc, hs, -, hf⟩
    · simp only [out, step, Spec.out, Spec.step, hf, hc]
      exact ⟨by rw [h.len], h.snoc m hv sys, hsys hs⟩
    · simp only [out, step, Spec.out, Spec.step, hf, hc]
      exact ⟨trivial, h.grow l sys, hsys hs⟩
  | run i opts =>
    rcases h.get i with ⟨h1, h2⟩ | ⟨o, a, h1, h2⟩
    · simp only [out, step, Spec.out, Spec.step, run, h1, h2]
      exact ⟨trivial, h, fun n _ hn => hn⟩
    · simp only [out, step, Spec.out, Spec.step, run, h1, h2, h.datasetOf h1 h2]
      cases hm : model (readerOf a.data) opts with
      | error e => exact ⟨rfl, h, fun n _ hn => hn⟩
      | ok res => exact ⟨rfl, h.setResult h1 h2 res, fun n _ hn => hn⟩
  | toAggregated i kw =>
    refine ⟨?_, h, fun n _ hn => hn⟩
    rcases h.get i with ⟨h1, h2⟩ | ⟨o, a, h1, h2⟩
    · simp only [out, Spec.out, toAggregated, h1, h2]
    · simp only [out, Spec.out, toAggregated, h1, h2, (h.objs i o a h1 h2).1, h.datasetOf h1 h2]
      cases a.result with
      | none => rfl
      | some res =>
        dsimp only
        cases Conv.modelToAggregated (readerOf a.data) res kw <;> rfl

theorem names_cons (op : Op κ K A) (ops : List (Op κ K A)) : names (op :: ops) = names [op] ++ names ops := by
  unfold names
  rw [← List.filterMap_append]
  rfl

theorem trace_rel (fs : Files κ K) (model : Reader κ K → A → Py (Result κ K)) (ops : List (Op κ K A)) :
    ∀ {s : State κ K} {t : List (Owner κ K)}, Rel s t → (names ops).Nodup → (∀ n ∈ names ops, s.sysModules.lookup n = none) →
      trace fs model s ops = Spec.trace fs model t ops := by
  induction ops with
  | nil => intros; rfl
  | cons op ops ih =>
    intro s t h hnd hfresh
    rw [names_cons] at hnd hfresh
    obtain ⟨h1, h2, h3⟩ := step_rel fs model h op fun n hn => hfresh n (List.mem_append_left _ hn)
    simp only [trace, Spec.trace]
    rw [h1, ih h2 (List.nodup_append.mp hnd).2.1 fun n hn => h3 n ?_ (hfresh n (List.mem_append_right _ hn))]
    intro hn'
    exact (List.nodup_append.mp hnd).2.2 n hn' n hn rfl

end Sureal.Life
