import Verif.Model.ParMap
import Verif.Lemmas.Dataset
import Verif.Lemmas.Corr
import Mathlib.Algebra.BigOperators.Fin
import Mathlib.Algebra.Order.BigOperators.Group.Finset
import Mathlib.Logic.Relation
import Mathlib.Data.Prod.Lex
import Mathlib.Order.WellFounded
/-! Invariant and termination measure of the `parallel_map` transition system. -/
namespace Sureal.ParMap
variable {α β : Type} {n : Nat} {f : α → Option β} {args : Fin n → α} {lim : Int}

theorem upd_same {γ : Type} (g : Fin n → γ) (i : Fin n) (x : γ) : upd g i x i = x := by simp [upd]
theorem upd_ne {γ : Type} (g : Fin n → γ) {i j : Fin n} (x : γ) (h : j ≠ i) : upd g i x j = g j := by simp [upd, h]

structure Inv (f : α → Option β) (args : Fin n → α) (lim : Int) (s : St β n) : Prop where
  idle : ∀ i, i ∈ s.waiting ↔ s.worker i = .idle
  out : ∀ i, i ∉ s.waiting → i ∉ s.active → s.worker i = .dead
  act : ∀ i, i ∈ s.active → s.worker i ≠ .idle
  todo : ∀ t, s.pc = .scan t → t ⊆ s.active
  card : (s.active.card : Int) ≤ lim ∨ s.active = ∅
  starts : ∀ i, s.starts i = if s.worker i = .idle then 0 else 1
  value : ∀ i b, s.dict i = some b → f (args i) = some b
  stored : ∀ i, s.worker i = .stored → s.dict i ≠ none
  empty : ∀ i, s.worker i = .idle ∨ s.worker i = .running → s.dict i = none
  done : ∀ r, s.pc = .done r → (∀ i, s.worker i = .dead) ∧ r = collect s.dict

theorem inv_init : Inv f args lim (init β n) := by
  constructor <;> simp [init]

/-- a worker step: the worker of `i` goes from alive to alive or dead -/
theorem inv_worker {s : St β n} (h : Inv f args lim s) (i : Fin n) (w : Worker) (d : Fin n → Option β)
    (hw : s.worker i = .running ∨ s.worker i = .stored) (hw' : w = .stored ∨ w = .dead)
    (hd : ∀ j, j ≠ i → d j = s.dict j) (hv : ∀ b, d i = some b → f (args i) = some b) (hs : w = .stored → d i ≠ none) :
    Inv f args lim { s with worker := upd s.worker i w, dict := d } := by
  have hni : s.worker i ≠ .idle := by rcases hw with e | e <;> rw [e] <;> decide
  have hwi : w ≠ .idle := by rcases hw' with e | e <;> rw [e] <;> decide
  have hwr : w ≠ .running := by rcases hw' with e | e <;> rw [e] <;> decide
  have hnd : s.worker i ≠ .dead := by rcases hw with e | e <;> rw [e] <;> decide
  constructor
  · intro j
    by_cases e : j = i
    · subst e; simp only [upd_same]; rw [h.idle]; simp [hni, hwi]
    · simp only [upd_ne _ _ e]; exact h.idle j
  · intro j h1 h2
    by_cases e : j = i
    · subst e; exact absurd (h.out j h1 h2) hnd
    · simp only [upd_ne _ _ e]; exact h.out j h1 h2
  · intro j hj
    by_cases e : j = i
    · subst e; simpa only [upd_same] using hwi
    · simp only [upd_ne _ _ e]; exact h.act j hj
  · exact h.todo
  · exact h.card
  · intro j
    by_cases e : j = i
    · subst e; simp only [upd_same]; rw [h.starts]; simp [hni, hwi]
    · simp only [upd_ne _ _ e]; exact h.starts j
  · intro j b hb
    by_cases e : j = i
    · subst e; exact hv b hb
    · exact h.value j b (by rw [← hd j e]; exact hb)
  · intro j hj
    by_cases e : j = i
    · subst e; exact hs (by simpa only [upd_same] using hj)
    · simp only [upd_ne _ _ e] at hj; show d j ≠ none; rw [hd j e]; exact h.stored j hj
  · intro j hj
    by_cases e : j = i
    · subst e; simp only [upd_same] at hj; rcases hj with hj | hj
      · exact absurd hj hwi
      · exact absurd hj hwr
    · simp only [upd_ne _ _ e] at hj; show d j = none; rw [hd j e]; exact h.empty j hj
  · intro r hr
    exact absurd ((h.done r hr).1 i) hnd

theorem inv_step {s t : St β n} (h : Inv f args lim s) (hst : Step f args lim s t) : Inv f args lim t := by
  cases hst with
  | @store i b hw hf =>
    exact inv_worker h i .stored (upd s.dict i (some b)) (Or.inl hw) (Or.inl rfl) (fun j e => upd_ne _ _ e)
      (fun b' hb => by rw [upd_same] at hb; rw [hf]; exact hb) (fun _ => by simp [upd_same])
  | @finish i hw =>
    exact inv_worker h i .dead s.dict (Or.inr hw) (Or.inr rfl) (fun _ _ => rfl) (h.value i) (fun e => by cases e)
  | @die i hw =>
    exact inv_worker h i .dead s.dict (Or.inl hw) (Or.inr rfl) (fun _ _ => rfl) (h.value i) (fun e => by cases e)
  | begin hp => exact { h with todo := by intro t e; cases e; exact subset_rfl, done := by intro r e; cases e }
  | keep hp hm ha =>
    exact { h with todo := by intro t e; cases e; exact (Finset.erase_subset _ _).trans (h.todo _ hp),
                   done := by intro r e; cases e }
  | @drop todo p hp hm ha hin =>
    have hdead : s.worker p = .dead := by
      have := h.act p hin
      revert ha this
      cases s.worker p <;> simp [Worker.alive]
    refine { h with out := ?_, act := ?_, todo := ?_, card := ?_, done := ?_ }
    · intro j h1 h2
      by_cases e : j = p
      · rw [e]; exact hdead
      · exact h.out j h1 (fun hj => h2 (Finset.mem_erase.mpr ⟨e, hj⟩))
    · intro j hj; exact h.act j (Finset.mem_of_mem_erase hj)
    · intro t e; cases e; exact Finset.erase_subset_erase _ (h.todo _ hp)
    · rcases h.card with hc | hc
      · left
        have := Finset.card_erase_le (s := s.active) (a := p)
        show ((s.active.erase p).card : Int) ≤ lim
        omega
      · rw [hc] at hin; simp at hin
    · intro r e; cases e
  | dropMissing hp hm ha hin => exact absurd (h.todo _ hp hm) hin
  | scanned hp => exact { h with todo := by intro t e; (cases e), done := by intro r e; cases e }
  | @start p hp hl hm =>
    have hidle : s.worker p = .idle := (h.idle p).mp hm
    constructor
    · intro j
      by_cases e : j = p
      · subst e; simp [upd_same]
      · simp only [upd_ne _ _ e, Finset.mem_erase]; rw [h.idle]; simp [e]
    · intro j h1 h2
      have e : j ≠ p := fun e => h2 (by rw [e]; exact Finset.mem_insert_self _ _)
      simp only [upd_ne _ _ e]
      exact h.out j (fun hj => h1 (Finset.mem_erase.mpr ⟨e, hj⟩)) (fun hj => h2 (Finset.mem_insert_of_mem hj))
    · intro j hj
      by_cases e : j = p
      · subst e; simp [upd_same]
      · simp only [upd_ne _ _ e]
        exact h.act j ((Finset.mem_insert.mp hj).resolve_left e)
    · intro t e; cases e
    · left
      have := Finset.card_insert_le p s.active
      show ((insert p s.active).card : Int) ≤ lim
      omega
    · intro j
      by_cases e : j = p
      · subst e; simp only [upd_same]; rw [h.starts]; simp [hidle]
      · simp only [upd_ne _ _ e]; exact h.starts j
    · exact h.value
    · intro j hj
      by_cases e : j = p
      · subst e; simp [upd_same] at hj
      · simp only [upd_ne _ _ e] at hj; exact h.stored j hj
    · intro j hj
      by_cases e : j = p
      · subst e; exact h.empty j (Or.inl hidle)
      · simp only [upd_ne _ _ e] at hj; exact h.empty j hj
    · intro r e; cases e
  | full hp hl => exact { h with todo := by intro t e; (cases e), done := by intro r e; cases e }
  | again hp hl => exact { h with todo := by intro t e; (cases e), done := by intro r e; cases e }
  | leave hp hw ha =>
    refine { h with todo := by intro t e; (cases e), done := ?_ }
    intro r e
    cases e
    exact ⟨fun i => h.out i (by rw [hw]; simp) (by rw [ha]; simp), rfl⟩

theorem inv_reachable {s : St β n} (h : Reachable f args lim s) : Inv f args lim s := by
  unfold Reachable at h
  generalize hi : init β n = s0 at h
  induction h with
  | refl => subst hi; exact inv_init
  | tail _ h2 ih => exact inv_step ih h2

/-! ### the collected results -/

theorem collect_ok {d : Fin n → Option β} {l : List β} (h : collect d = .ok l) : l.map some = List.ofFn d := by
  obtain ⟨g, hg, rfl⟩ := mapPy_ok_ofFn h
  rw [List.map_ofFn]
  congr 1
  funext i
  have := hg i
  unfold entry at this
  split at this
  · rename_i b hb; cases this; simp [hb]
  · cases this

theorem collect_none {d : Fin n → Option β} {i : Fin n} (h : d i = none) : collect d = .error .key := by
  unfold collect
  have hi := List.mem_finRange i
  revert hi
  generalize List.finRange n = l
  intro hi
  induction l with
  | nil => simp at hi
  | cons j l ih =>
    unfold mapPy
    cases hj : d j with
    | none => simp [entry, hj]
    | some b =>
      have : i ∈ l := by
        rcases List.mem_cons.mp hi with rfl | h'
        · rw [h] at hj; cases hj
        · exact h'
      simp [entry, hj, ih this]

theorem collect_some {d : Fin n → Option β} (h : ∀ i, d i ≠ none) : ∃ l, collect d = .ok l := by
  have hs : ∀ i, ∃ b, d i = some b := fun i => Option.ne_none_iff_exists'.mp (h i)
  choose g hg using hs
  exact ⟨_, mapPy_ok (g := g) (fun i _ => by simp [entry, hg i])⟩

/-! ### termination -/

def weight : Worker → Nat
  | .idle => 3
  | .running => 2
  | .stored => 1
  | .dead => 0

def total (s : St β n) : Nat := ∑ i, weight (s.worker i)

theorem total_lt (w : Fin n → Worker) (i : Fin n) (x : Worker) (h : weight x < weight (w i)) :
    ∑ j, weight (upd w i x j) < ∑ j, weight (w j) := by
  apply Finset.sum_lt_sum
  · intro j _
    by_cases e : j = i
    · subst e; rw [upd_same]; exact h.le
    · rw [upd_ne _ _ e]
  · exact ⟨i, Finset.mem_univ _, by rw [upd_same]; exact h⟩

open Classical in
noncomputable def rank (s : St β n) : Nat :=
  if s.active = ∅ then
    if s.waiting = ∅ then
      match s.pc with | .top => 4 | .scan _ => 3 | .add => 2 | .test => 1 | .done _ => 0
    else
      match s.pc with | .test => 4 | .top => 3 | .scan _ => 2 | .add => 1 | .done _ => 0
  else
    match s.pc with
    | .scan t => if t = ∅ then 4 else 0
    | .add => 3
    | .test => 2
    | .top => 1
    | .done _ => 0

theorem total_mono {s t : St β n} (h : Inv f args lim s) (hst : Step f args lim s t) : total t ≤ total s := by
  cases hst with
  | store hw hf => exact (total_lt _ _ _ (by rw [hw]; decide)).le
  | finish hw => exact (total_lt _ _ _ (by rw [hw]; decide)).le
  | die hw => exact (total_lt _ _ _ (by rw [hw]; decide)).le
  | start hp hl hm => exact (total_lt _ _ _ (by rw [(h.idle _).mp hm]; decide)).le
  | _ => exact le_refl _

/-- when no worker is alive, every step makes progress -/
theorem progress {s t : St β n} (h : Inv f args lim s) (hl : 1 ≤ lim) (hq : ∀ i, (s.worker i).alive = false)
    (hst : Step f args lim s t) :
    total t < total s ∨ (total t = total s ∧ (t.active.card < s.active.card ∨ (t.active = s.active ∧ rank t < rank s))) := by
  cases hst with
  | @store i b hw hf => have := hq i; rw [hw] at this; cases this
  | @finish i hw => have := hq i; rw [hw] at this; cases this
  | @die i hw => have := hq i; rw [hw] at this; cases this
  | begin hp =>
    right; refine ⟨rfl, Or.inr ⟨rfl, ?_⟩⟩
    by_cases ha : s.active = ∅ <;> by_cases hw : s.waiting = ∅ <;> simp [rank, ha, hw, hp]
  | keep hp hm ha => rw [hq _] at ha; cases ha
  | @drop todo p hp hm ha hin =>
    right; exact ⟨rfl, Or.inl (Finset.card_erase_lt_of_mem hin)⟩
  | dropMissing hp hm ha hin => exact absurd (h.todo _ hp hm) hin
  | scanned hp =>
    right; refine ⟨rfl, Or.inr ⟨rfl, ?_⟩⟩
    by_cases ha : s.active = ∅ <;> by_cases hw : s.waiting = ∅ <;> simp [rank, ha, hw, hp]
  | start hp hl hm => exact Or.inl (total_lt _ _ _ (by rw [(h.idle _).mp hm]; decide))
  | full hp hf =>
    right; refine ⟨rfl, Or.inr ⟨rfl, ?_⟩⟩
    by_cases ha : s.active = ∅ <;> by_cases hw : s.waiting = ∅
    · simp [rank, ha, hw, hp]
    · exfalso; apply hf; refine ⟨?_, hw⟩; rw [ha]; simp; omega
    · simp [rank, ha, hp]
    · simp [rank, ha, hp]
  | again hp hne =>
    right; refine ⟨rfl, Or.inr ⟨rfl, ?_⟩⟩
    by_cases ha : s.active = ∅ <;> by_cases hw : s.waiting = ∅
    · exact absurd ⟨hw, ha⟩ hne
    · simp [rank, ha, hw, hp]
    · simp [rank, ha, hp]
    · simp [rank, ha, hp]
  | leave hp hw ha =>
    right; refine ⟨rfl, Or.inr ⟨rfl, ?_⟩⟩
    simp [rank, ha, hw, hp]

/-- the parent can always move until it has finished -/
theorem parent_moves {s : St β n} (h : Inv f args lim s) (hd : ∀ r, s.pc ≠ .done r) : ∃ t, Step f args lim s t := by
  cases hp : s.pc with
  | done r => exact absurd hp (hd r)
  | top => exact ⟨_, .begin hp⟩
  | scan todo =>
    rcases todo.eq_empty_or_nonempty with rfl | ⟨p, hm⟩
    · exact ⟨_, .scanned hp⟩
    · cases ha : (s.worker p).alive with
      | true => exact ⟨_, .keep hp hm ha⟩
      | false => exact ⟨_, .drop hp hm ha (h.todo _ hp hm)⟩
  | add =>
    by_cases hc : (s.active.card : Int) < lim ∧ s.waiting ≠ ∅
    · obtain ⟨p, hm⟩ := Finset.nonempty_iff_ne_empty.mpr hc.2
      exact ⟨_, .start hp hc.1 hm⟩
    · exact ⟨_, .full hp hc⟩
  | test =>
    by_cases hc : s.waiting = ∅ ∧ s.active = ∅
    · exact ⟨_, .leave hp hc.1 hc.2⟩
    · exact ⟨_, .again hp hc⟩

theorem no_infinite (hl : 1 ≤ lim) (e : ℕ → St β n) (h0 : e 0 = init β n) (hs : ∀ k, Step f args lim (e k) (e (k + 1)))
    (hw : ∀ k i, ((e k).worker i).alive = true → ∃ m ≥ k, (e m).worker i = .dead) : False := by
  have hinv : ∀ k, Inv f args lim (e k) := by
    intro k
    induction k with
    | zero => rw [h0]; exact inv_init
    | succ k ih => exact inv_step ih (hs k)
  have hanti : ∀ k m, k ≤ m → total (e m) ≤ total (e k) := by
    intro k m hkm
    induction m, hkm using Nat.le_induction with
    | base => exact le_refl _
    | succ m _ ih => exact (total_mono (hinv m) (hs m)).trans ih
  -- from some point on the total is constant
  obtain ⟨N, hN⟩ : ∃ N, ∀ m ≥ N, total (e m) = total (e N) := by
    have hne : (Set.range (fun k => total (e k))).Nonempty := ⟨_, 0, rfl⟩
    obtain ⟨N, hN⟩ := Nat.sInf_mem hne
    refine ⟨N, fun m hm => le_antisymm (hanti N m hm) ?_⟩
    have := Nat.sInf_le (s := Set.range (fun k => total (e k))) ⟨m, rfl⟩
    simp only at hN
    rw [hN]; exact this
  -- the worker states no longer change
  have hconst : ∀ m ≥ N, (e (m + 1)).worker = (e m).worker := by
    intro m hm
    have ht : total (e (m + 1)) = total (e m) := (hN (m + 1) (by omega)).trans (hN m hm).symm
    have hstep := hs m
    have hi := hinv m
    generalize e (m + 1) = t at ht hstep
    generalize e m = s at ht hstep hi
    cases hstep with
    | store hw hf => exact absurd ht (total_lt _ _ _ (by rw [hw]; decide)).ne
    | finish hw => exact absurd ht (total_lt _ _ _ (by rw [hw]; decide)).ne
    | die hw => exact absurd ht (total_lt _ _ _ (by rw [hw]; decide)).ne
    | start hp hl hm => exact absurd ht (total_lt _ _ _ (by rw [(hi.idle _).mp hm]; decide)).ne
    | _ => rfl
  have hconst' : ∀ m ≥ N, (e m).worker = (e N).worker := by
    intro m hm
    induction m, hm using Nat.le_induction with
    | base => rfl
    | succ m hm ih => rw [hconst m hm, ih]
  have hquiet : ∀ m ≥ N, ∀ i, ((e m).worker i).alive = false := by
    intro m hm i
    by_contra hc
    obtain ⟨m', hm', hd⟩ := hw m i (by simpa using hc)
    rw [hconst' m' (by omega), ← hconst' m hm] at hd
    rw [hd] at hc
    exact hc rfl
  -- so the parent's measure decreases for ever
  have hdec : ∀ k, toLex ((e (N + (k + 1))).active.card, rank (e (N + (k + 1)))) < toLex ((e (N + k)).active.card, rank (e (N + k))) := by
    intro k
    rw [Prod.Lex.toLex_lt_toLex]
    rcases progress (hinv (N + k)) hl (hquiet _ (by omega)) (hs (N + k)) with h | ⟨_, h | ⟨h1, h2⟩⟩
    · have h1 := hN (N + k + 1) (by omega)
      have h2 := hN (N + k) (by omega)
      omega
    · exact Or.inl h
    · right; exact ⟨by show (e (N + k + 1)).active.card = _; rw [h1], h2⟩
  exact (RelEmbedding.natGT (r := ((· < ·) : ℕ ×ₗ ℕ → ℕ ×ₗ ℕ → Prop))
    (fun k => toLex ((e (N + k)).active.card, rank (e (N + k)))) hdec).not_wellFounded wellFounded_lt

/-- a worker that is dead has stored its result, or had none to store -/
def Good (f : α → Option β) (args : Fin n → α) (s : St β n) : Prop :=
  ∀ i, s.worker i = .dead → s.dict i ≠ none ∨ f (args i) = none

theorem good_parent {s t : St β n} (hg : Good f args s) (hq : ∀ i, (s.worker i).alive = false)
    (hst : Step f args lim s t) : Good f args t := by
  cases hst with
  | @store i b hw hf => have := hq i; rw [hw] at this; cases this
  | @finish i hw => have := hq i; rw [hw] at this; cases this
  | @die i hw => have := hq i; rw [hw] at this; cases this
  | @start p hp hl hm =>
    intro i hi
    by_cases e : i = p
    · subst e; simp [upd_same] at hi
    · simp only [upd_ne _ _ e] at hi; exact hg i hi
  | _ => exact hg

theorem good_worker {s : St β n} {i : Fin n} {w : Worker} {d : Fin n → Option β} (hg : Good f args s)
    (hd : ∀ j, j ≠ i → d j = s.dict j) (hi : w = .dead → d i ≠ none ∨ f (args i) = none) :
    Good f args { s with worker := upd s.worker i w, dict := d } := by
  intro j hj
  by_cases e : j = i
  · subst e; exact hi (by simpa only [upd_same] using hj)
  · simp only [upd_ne _ _ e] at hj
    rcases hg j hj with h | h
    · left; show d j ≠ none; rw [hd j e]; exact h
    · exact Or.inr h

theorem can_finish (hl : 1 ≤ lim) (m : ℕ ×ₗ ℕ ×ₗ ℕ) : ∀ s : St β n, Inv f args lim s → Good f args s →
    toLex (total s, toLex (s.active.card, rank s)) = m →
    ∃ t r, Relation.ReflTransGen (Step f args lim) s t ∧ Good f args t ∧ t.pc = .done r := by
  induction m using WellFoundedLT.induction with
  | _ m ih =>
    intro s h hg hm
    have next : ∀ t, Step f args lim s t → Good f args t →
        toLex (total t, toLex (t.active.card, rank t)) < m →
        ∃ t r, Relation.ReflTransGen (Step f args lim) s t ∧ Good f args t ∧ t.pc = .done r := by
      intro t hst hgt hlt
      obtain ⟨u, r, h1, h2, h3⟩ := ih _ hlt t (inv_step h hst) hgt rfl
      exact ⟨u, r, Relation.ReflTransGen.head hst h1, h2, h3⟩
    by_cases hd : ∃ r, s.pc = .done r
    · obtain ⟨r, hr⟩ := hd; exact ⟨s, r, .refl, hg, hr⟩
    · by_cases hq : ∀ i, (s.worker i).alive = false
      · obtain ⟨t, hst⟩ := parent_moves h (fun r hr => hd ⟨r, hr⟩)
        refine next t hst (good_parent hg hq hst) ?_
        rw [← hm, Prod.Lex.toLex_lt_toLex]
        rcases progress h hl hq hst with h1 | ⟨h1, h2 | ⟨h2, h3⟩⟩
        · exact Or.inl h1
        · right; refine ⟨h1, ?_⟩; rw [Prod.Lex.toLex_lt_toLex]; exact Or.inl h2
        · right; refine ⟨h1, ?_⟩; rw [Prod.Lex.toLex_lt_toLex]; right; exact ⟨by rw [h2], h3⟩
      · push Not at hq
        obtain ⟨i, hi⟩ := hq
        cases hwi : s.worker i with
        | idle => rw [hwi] at hi; exact absurd rfl hi
        | dead => rw [hwi] at hi; exact absurd rfl hi
        | stored =>
          refine next _ (.finish hwi) (good_worker (d := s.dict) hg (fun _ _ => rfl) (fun _ => Or.inl (h.stored i hwi))) ?_
          rw [← hm, Prod.Lex.toLex_lt_toLex]
          exact Or.inl (total_lt _ _ _ (by rw [hwi]; decide))
        | running =>
          cases hf : f (args i) with
          | some b =>
            refine next _ (.store hwi hf) (good_worker hg (fun j e => upd_ne _ _ e) (fun e => by cases e)) ?_
            rw [← hm, Prod.Lex.toLex_lt_toLex]
            exact Or.inl (total_lt _ _ _ (by rw [hwi]; decide))
          | none =>
            refine next _ (.die hwi) (good_worker (d := s.dict) hg (fun _ _ => rfl) (fun _ => Or.inr hf)) ?_
            rw [← hm, Prod.Lex.toLex_lt_toLex]
            exact Or.inl (total_lt _ _ _ (by rw [hwi]; decide))

end Sureal.ParMap
