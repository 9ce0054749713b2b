import Verif.Lemmas.ParMap
/-!
# C61, C62: `parallel_map` under every schedule

The statements speak about the states reached by any interleaving of the parent with its workers (`Reachable`), where
workers may die at any point.  `f : α → Option β` is the mapped function, `none` where it raises.
-/
namespace Sureal.Props
open ParMap
variable {α β : Type} {n : Nat} {f : α → Option β} {args : Fin n → α} {lim : Int}

/-- C61 (results): whenever `parallel_map` returns a list, under whatever schedule, that list is the list of the values of
the function in the order of the arguments. -/
theorem C61_order {s : St β n} {l : List β} (h : Reachable f args lim s) (hd : s.pc = .done (.ok l)) :
    l.map some = List.ofFn (fun i => f (args i)) := by
  have hi := inv_reachable h
  obtain ⟨_, hr⟩ := hi.done _ hd
  have hc := collect_ok hr.symm
  rw [hc]
  congr 1
  funext i
  cases hdi : s.dict i with
  | none => rw [collect_none hdi] at hr; cases hr
  | some b => exact (hi.value i b hdi).symm

/-- C61 (once): no task is ever started twice, and when `parallel_map` ends every task was started exactly once. -/
theorem C61_once {s : St β n} (h : Reachable f args lim s) (i : Fin n) :
    s.starts i ≤ 1 ∧ (∀ r, s.pc = .done r → s.starts i = 1) := by
  have hi := inv_reachable h
  refine ⟨?_, ?_⟩
  · rw [hi.starts i]; split <;> omega
  · intro r hr
    rw [hi.starts i, (hi.done r hr).1 i]; simp

/-- C61 (limit): at every moment at most `lim` workers are alive (none if `lim` is negative). -/
theorem C61_limit {s : St β n} (h : Reachable f args lim s) :
    ((Finset.univ.filter (fun i => (s.worker i).alive = true)).card : Int) ≤ max lim 0 := by
  have hi := inv_reachable h
  have hsub : Finset.univ.filter (fun i => (s.worker i).alive = true) ⊆ s.active := by
    intro i hm
    by_contra hn
    have ha := (Finset.mem_filter.mp hm).2
    by_cases hw : i ∈ s.waiting
    · rw [(hi.idle i).mp hw] at ha; cases ha
    · rw [hi.out i hw hn] at ha; cases ha
  have hc := Finset.card_le_card hsub
  rcases hi.card with h1 | h1
  · omega
  · rw [h1] at hc; simp at hc; simp [hc]

/-- C61 (end): with a limit of at least one, the only infinite executions are those in which some started worker never
ends. -/
theorem C61_terminates (hl : 1 ≤ lim) (e : ℕ → St β n) (h0 : e 0 = init β n)
    (hs : ∀ k, Step f args lim (e k) (e (k + 1))) :
    ∃ k i, ∀ m ≥ k, (e k).worker i ≠ .idle ∧ (e m).worker i ≠ .dead := by
  by_contra hc
  refine no_infinite hl e h0 hs ?_
  intro k i ha
  by_contra hn
  apply hc
  refine ⟨k, i, fun m hm => ⟨?_, fun hd => hn ⟨m, hm, hd⟩⟩⟩
  intro e'; rw [e'] at ha; cases ha

/-- C61 (no deadlock): the parent can always take a step until it has finished. -/
theorem C61_no_deadlock {s : St β n} (h : Reachable f args lim s) (hd : ∀ r, s.pc ≠ .done r) :
    ∃ t, Step f args lim s t :=
  parent_moves (inv_reachable h) hd

/-- C61 (completeness): when the function has a value on every argument, the list of all the values is an outcome. -/
theorem C61_possible (hl : 1 ≤ lim) (g : α → β) :
    ∃ s : St β n, Reachable (fun a => some (g a)) args lim s ∧ s.pc = .done (.ok (List.ofFn (fun i => g (args i)))) := by
  obtain ⟨s, r, h1, h2, h3⟩ := can_finish (f := fun a => some (g a)) (args := args) hl _ (init β n) inv_init
    (by intro i hi; simp [init] at hi) rfl
  have hi := inv_reachable h1
  obtain ⟨hdead, hr⟩ := hi.done _ h3
  obtain ⟨l, hl'⟩ := collect_some (d := s.dict) (fun i => (h2 i (hdead i)).resolve_right (by simp))
  rw [hl'] at hr
  subst hr
  have ho := C61_order h1 h3
  have : l = List.ofFn (fun i => g (args i)) := by
    have h4 : (List.ofFn fun i => some (g (args i))) = (List.ofFn (fun i => g (args i))).map some := by
      rw [List.map_ofFn]; rfl
    rw [h4] at ho
    exact List.map_injective_iff.mpr (Option.some_injective _) ho
  exact ⟨s, h1, by rw [h3, this]⟩

/-- three tasks, two at a time -/
example : ∃ s : St Nat 3, Reachable (fun a : Nat => some (a * a)) (fun i => i.val + 4) 2 s ∧ s.pc = .done (.ok [16, 25, 36]) :=
  C61_possible (by decide) (fun a => a * a)

/-- C61 (boundary): with a limit of zero or less and at least one task, `parallel_map` never ends. -/
theorem C61_no_workers (hl : lim ≤ 0) (hn : 0 < n) {s : St β n} (h : Reachable f args lim s) (r : Py (List β)) :
    s.pc ≠ .done r := by
  have key : (∀ i, s.worker i = .idle) ∧ ∀ r, s.pc ≠ .done r := by
    unfold Reachable at h
    generalize hi : init β n = s0 at h
    induction h with
    | refl => subst hi; exact ⟨fun _ => rfl, fun r e => by cases e⟩
    | @tail b c h1 h2 ih =>
      have hr := (show Reachable f args lim b from (show Relation.ReflTransGen (Step f args lim) (init β n) b by rw [hi]; exact h1))
      have hv := inv_reachable hr
      obtain ⟨hw, hd⟩ := ih
      cases h2 with
      | @store i b hw' hf => rw [hw i] at hw'; cases hw'
      | @finish i hw' => rw [hw i] at hw'; cases hw'
      | @die i hw' => rw [hw i] at hw'; cases hw'
      | start hp hl' hm => omega
      | dropMissing hp hm ha hin => exact absurd (hv.todo _ hp hm) hin
      | leave hp hw' ha =>
        have := (hv.idle ⟨0, hn⟩).mpr (hw _)
        rw [hw'] at this; simp at this
      | _ => exact ⟨hw, fun r e => by cases e⟩
  exact key.2 r

/-- C62: once a worker has died without having stored its result, whatever happens afterwards, `parallel_map` can only
end by raising KeyError. -/
theorem C62_raises {s t : St β n} {i : Fin n} {r : Py (List β)} (h : Reachable f args lim s) (hdead : s.worker i = .dead)
    (hnone : s.dict i = none) (hst : Relation.ReflTransGen (Step f args lim) s t) (hd : t.pc = .done r) :
    r = .error .key := by
  have key : t.worker i = .dead ∧ t.dict i = none ∧ Reachable f args lim t := by
    clear hd
    induction hst with
    | refl => exact ⟨hdead, hnone, h⟩
    | tail _ h2 ih =>
      obtain ⟨hw, hn, hr⟩ := ih
      refine ⟨?_, ?_, hr.tail h2⟩
      · cases h2 with
        | @store j b hw' hf =>
          have e : i ≠ j := fun e => by rw [e, hw'] at hw; cases hw
          simp only [upd_ne _ _ e]; exact hw
        | @finish j hw' =>
          have e : i ≠ j := fun e => by rw [e, hw'] at hw; cases hw
          simp only [upd_ne _ _ e]; exact hw
        | @die j hw' =>
          have e : i ≠ j := fun e => by rw [e, hw'] at hw; cases hw
          simp only [upd_ne _ _ e]; exact hw
        | @start p hp hl hm =>
          have e : i ≠ p := fun e => by rw [e, ((inv_reachable hr).idle p).mp hm] at hw; cases hw
          simp only [upd_ne _ _ e]; exact hw
        | _ => exact hw
      · cases h2 with
        | @store j b hw' hf =>
          have e : i ≠ j := fun e => by rw [e, hw'] at hw; cases hw
          simp only [upd_ne _ _ e]; exact hn
        | _ => exact hn
  obtain ⟨_, hr⟩ := (inv_reachable key.2.2).done _ hd
  rw [hr, collect_none key.2.1]

/-- C62 (function raising): if the function raises on some argument, `parallel_map` never returns a list. -/
theorem C62_function_raises {s : St β n} {i : Fin n} {r : Py (List β)} (h : Reachable f args lim s)
    (hf : f (args i) = none) (hd : s.pc = .done r) : r = .error .key := by
  have hi := inv_reachable h
  obtain ⟨_, hr⟩ := hi.done _ hd
  cases hdi : s.dict i with
  | none => rw [hr, collect_none hdi]
  | some b => have := hi.value i b hdi; rw [hf] at this; cases this

/-- C62 (converse): `parallel_map` raises only KeyError, and only if some worker died without storing a result. -/
theorem C62_only_then {s : St β n} {e : PyErr} (h : Reachable f args lim s) (hd : s.pc = .done (.error e)) :
    e = .key ∧ ∃ i, s.worker i = .dead ∧ s.dict i = none := by
  have hi := inv_reachable h
  obtain ⟨hdead, hr⟩ := hi.done _ hd
  by_cases hn : ∃ i, s.dict i = none
  · obtain ⟨i, hni⟩ := hn
    rw [collect_none hni] at hr
    cases hr
    exact ⟨rfl, i, hdead i, hni⟩
  · push Not at hn
    obtain ⟨l, hl⟩ := collect_some hn
    rw [hl] at hr; cases hr

/-- a function that raises on one of two arguments: the end is reached, and it is the error -/
example : ∃ s : St Nat 2, Reachable (fun a : Nat => if a = 1 then none else some a) (fun i => i.val) 1 s ∧
    s.pc = .done (.error .key) := by
  obtain ⟨s, r, h1, _, h3⟩ := can_finish (n := 2) (f := fun a : Nat => if a = 1 then none else some a)
    (args := fun i => i.val) (lim := 1) (by decide) _ (init Nat 2) inv_init (by intro i hi; simp [init] at hi) rfl
  have := C62_function_raises (i := 1) h1 (by simp) h3
  exact ⟨s, h1, by rw [h3, this]⟩

end Sureal.Props
