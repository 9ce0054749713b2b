import Verif.Spec.Format
import Verif.Lemmas.Dataset
/-! Helper lemmas for the formatted output -/
set_option linter.unusedSectionVars false
namespace Sureal.Format
open Sureal Spec
variable {ν V : Type} [DecidableEq ν]

theorem getKey_setKey {α β : Type} [DecidableEq α] (k k' : α) (v : β) (d : List (α × β)) :
    getKey k' (setKey k v d) = if k' = k then some v else getKey k' d := by
  induction d with
  | nil => simp only [setKey, getKey, eq_comm]
  | cons p d ih =>
    obtain ⟨a, b⟩ := p
    rw [setKey]
    by_cases h : a = k
    · rw [if_pos h, getKey]
      subst h
      by_cases h2 : a = k'
      · rw [if_pos h2, if_pos h2.symm]
      · rw [if_neg h2, if_neg (Ne.symm h2), getKey, if_neg h2]
    · rw [if_neg h, getKey, ih, getKey]
      by_cases h2 : a = k'
      · rw [if_pos h2, if_pos h2, if_neg (by rintro rfl; exact h h2)]
      · rw [if_neg h2, if_neg h2]

theorem getKey_lookup {α β : Type} [DecidableEq α] (k : α) (d : List (α × β)) : getKey k d = d.lookup k := by
  induction d with
  | nil => rfl
  | cons p d ih =>
    obtain ⟨a, b⟩ := p
    rw [getKey, List.lookup_cons, ih]
    by_cases h : a = k
    · subst h; simp
    · rw [if_neg h]
      have : (k == a) = false := by simp [Ne.symm h]
      rw [this]

def Dense (sec : Section ν V) : Prop := sec.map (·.1) = List.range sec.length

theorem getKey_dense_aux (sec : Section ν V) (s : ℕ) (h : sec.map (·.1) = List.range' s sec.length) (i : ℕ) :
    getKey (s + i) sec = sec[i]?.map (·.2) := by
  induction sec generalizing s i with
  | nil => rfl
  | cons p sec ih =>
    rw [List.length_cons, List.range'_succ, List.map_cons, List.cons.injEq] at h
    obtain ⟨a, b⟩ := p
    obtain ⟨rfl, h2⟩ := h
    dsimp only
    rw [getKey]
    cases i with
    | zero => simp
    | succ i =>
      rw [if_neg (by omega)]
      have := ih (a + 1) h2 i
      rw [show a + (i + 1) = a + 1 + i by omega, this]
      simp

theorem getKey_dense {sec : Section ν V} (h : Dense sec) (i : ℕ) : getKey i sec = sec[i]?.map (·.2) := by
  have := getKey_dense_aux sec 0 (by rw [← List.range_eq_range']; exact h) i
  rwa [Nat.zero_add] at this

theorem setKey_dense_aux (sec : Section ν V) (s i : ℕ) (e : Entry ν V) (h : sec.map (·.1) = List.range' s sec.length) (hi : i ≤ sec.length) :
    (setKey (s + i) e sec).length = max sec.length (i + 1) ∧
      (setKey (s + i) e sec).map (·.1) = List.range' s (setKey (s + i) e sec).length := by
  induction sec generalizing s i with
  | nil =>
    have : i = 0 := by simpa using hi
    subst this
    simp [setKey]
  | cons p sec ih =>
    rw [List.length_cons, List.range'_succ, List.map_cons, List.cons.injEq] at h
    obtain ⟨a, b⟩ := p
    obtain ⟨rfl, h2⟩ := h
    dsimp only
    rw [setKey]
    cases i with
    | zero =>
      rw [if_pos (by simp)]
      refine ⟨by simp, ?_⟩
      rw [List.map_cons, List.length_cons, List.range'_succ, h2]
      simp
    | succ i =>
      rw [if_neg (by omega)]
      obtain ⟨h3, h4⟩ := ih (a + 1) i h2 (by simpa using hi)
      rw [show a + 1 + i = a + (i + 1) by omega] at h3 h4
      refine ⟨?_, ?_⟩
      · rw [List.length_cons, List.length_cons, h3]; omega
      · rw [List.map_cons, List.length_cons, List.range'_succ, h4]

theorem setKey_dense {sec : Section ν V} (h : Dense sec) {i : ℕ} (hi : i ≤ sec.length) (e : Entry ν V) :
    (setKey i e sec).length = max sec.length (i + 1) ∧ Dense (setKey i e sec) := by
  have := setKey_dense_aux sec 0 i e (by rw [← List.range_eq_range']; exact h) hi
  rw [Nat.zero_add, ← List.range_eq_range'] at this
  exact this

/-- what a section holds at an index under a model and a key -/
def look (sec : Section ν V) (i : ℕ) (typ key : String) : Option (Cell V) :=
  ((getKey i sec).bind fun e => getKey typ e.models).bind fun d => getKey key d

def nm (sec : Section ν V) (i : ℕ) : Option ν := (getKey i sec).bind (·.name)

/-- the effect of a statement on a section -/
structure Eff (sec sec' : Section ν V) (f : ℕ → String → String → Option (Cell V)) (g : ℕ → Option ν) (n : ℕ) : Prop where
  dense : Dense sec'
  length : sec'.length = max sec.length n
  look : ∀ i T k, look sec' i T k = (f i T k).or (look sec i T k)
  nm : ∀ i, nm sec' i = (g i).or (nm sec i)

theorem Eff.trans {s s' s'' : Section ν V} {f f' : ℕ → String → String → Option (Cell V)} {g g' : ℕ → Option ν} {n n' : ℕ}
    (h : Eff s s' f g n) (h' : Eff s' s'' f' g' n') :
    Eff s s'' (fun i T k => (f' i T k).or (f i T k)) (fun i => (g' i).or (g i)) (max n n') where
  dense := h'.dense
  length := by rw [h'.length, h.length]; omega
  look i T k := by rw [h'.look, h.look, Option.or_assoc]
  nm i := by rw [h'.nm, h.nm, Option.or_assoc]

theorem Eff.congr {s s' : Section ν V} {f f' : ℕ → String → String → Option (Cell V)} {g g' : ℕ → Option ν} {n n' : ℕ}
    (h : Eff s s' f g n) (hf : ∀ i T k, f i T k = f' i T k) (hg : ∀ i, g i = g' i) (hn : n = n') : Eff s s' f' g' n' :=
  ⟨h.dense, by rw [h.length, hn], fun i T k => by rw [h.look, hf], fun i => by rw [h.nm, hg]⟩

theorem Eff.refl {s : Section ν V} (h : Dense s) : Eff s s (fun _ _ _ => none) (fun _ => none) 0 :=
  ⟨h, by omega, fun _ _ _ => by simp, fun _ => by simp⟩

theorem putVal_eff {sec : Section ν V} (h : Dense sec) {idx : ℕ} (hi : idx ≤ sec.length) (typ key : String) (v : Cell V) :
    Eff sec (putVal typ key sec idx v) (fun i T k => if i = idx ∧ T = typ ∧ k = key then some v else none) (fun _ => none) (idx + 1) := by
  unfold putVal modifyAt
  refine ⟨(setKey_dense h hi _).2, (setKey_dense h hi _).1, ?_, ?_⟩
  · intro i T k
    unfold look
    rw [getKey_setKey]
    by_cases h1 : i = idx
    · subst h1
      rw [if_pos rfl, Option.bind_some]
      dsimp only
      rw [getKey_setKey]
      by_cases h2 : T = typ
      · subst h2
        rw [if_pos rfl, Option.bind_some, getKey_setKey]
        by_cases h3 : k = key
        · subst h3; simp
        · rw [if_neg h3, if_neg (by tauto), Option.none_or]
          cases getKey i sec with
          | none => rfl
          | some e =>
            show getKey k ((getKey T e.models).getD []) = _
            rw [Option.bind_some]
            cases getKey T e.models <;> rfl
      · rw [if_neg h2, if_neg (by tauto), Option.none_or]
        cases getKey i sec <;> rfl
    · rw [if_neg h1, if_neg (by tauto), Option.none_or]
  · intro i
    unfold nm
    rw [getKey_setKey, Option.none_or]
    split
    · rename_i h1
      subst h1
      cases getKey i sec <;> rfl
    · rfl

theorem putVals_eff (l : List (Cell V)) (typ key : String) : ∀ (s : ℕ) {sec : Section ν V}, Dense sec → s ≤ sec.length →
    Eff sec (putVals typ key l s sec) (fun i T k => if T = typ ∧ k = key ∧ s ≤ i then l[i - s]? else none) (fun _ => none) (s + l.length) := by
  induction l with
  | nil =>
    intro s sec h hs
    refine ⟨h, ?_, fun i T k => by simp [putVals], fun i => by simp [putVals]⟩
    simp only [putVals, List.length_nil]; omega
  | cons v l ih =>
    intro s sec h hs
    have h1 := putVal_eff h hs typ key v
    have h2 := ih (s + 1) h1.dense (by rw [h1.length]; omega)
    refine (h1.trans h2).congr ?_ (fun _ => rfl) (by simp only [List.length_cons]; omega)
    intro i T k
    by_cases hT : T = typ ∧ k = key
    · obtain ⟨rfl, rfl⟩ := hT
      simp only [true_and, and_true]
      rcases Nat.lt_trichotomy i s with hlt | rfl | hgt
      · rw [if_neg (by omega), if_neg (by omega), if_neg (by omega)]; rfl
      · rw [if_neg (by omega), if_pos rfl, if_pos le_rfl]; simp
      · rw [if_pos (by omega), if_neg (by omega), if_pos (by omega)]
        rw [show i - s = (i - (s + 1)) + 1 by omega]
        simp
    · rw [if_neg (by tauto), if_neg (by tauto), if_neg (by tauto)]; rfl

theorem putName_spec {sec : Section ν V} (h : Dense sec) {idx : ℕ} (hi : idx ≤ sec.length) (name : ν) :
    ((∃ s', putName sec idx name = .ok s') ↔ ∀ m, nm sec idx = some m → m = name) ∧
    ∀ s', putName sec idx name = .ok s' → Eff sec s' (fun _ _ _ => none) (fun i => if i = idx then some name else none) (idx + 1) := by
  have hnm : ((getKey idx sec).getD {}).name = nm sec idx := by
    unfold nm
    cases getKey idx sec <;> rfl
  have hlook : ∀ (e : Entry ν V), e.models = ((getKey idx sec).getD {}).models → ∀ i T k,
      look (setKey idx e sec) i T k = (none : Option (Cell V)).or (look sec i T k) := by
    intro e he i T k
    unfold look
    rw [getKey_setKey, Option.none_or]
    split
    · rename_i h1
      subst h1
      rw [Option.bind_some, he]
      cases getKey i sec <;> rfl
    · rfl
  unfold putName
  rw [hnm]
  cases hn : nm sec idx with
  | none =>
    refine ⟨by simp, ?_⟩
    rintro s' h'
    cases h'
    unfold modifyAt
    refine ⟨(setKey_dense h hi _).2, (setKey_dense h hi _).1, hlook _ rfl, fun i => ?_⟩
    unfold nm
    rw [getKey_setKey]
    split <;> simp
  | some m =>
    by_cases hm : m = name
    · refine ⟨by simp [hm], ?_⟩
      dsimp only
      rw [if_pos hm]
      rintro s' h'
      cases h'
      unfold modifyAt
      refine ⟨(setKey_dense h hi _).2, (setKey_dense h hi _).1, hlook _ rfl, fun i => ?_⟩
      rw [nm, getKey_setKey]
      split
      · rename_i h1
        subst h1
        rw [Option.bind_some, id, hnm, hn, hm]; rfl
      · simp [nm]
    · dsimp only
      rw [if_neg hm]
      refine ⟨?_, by rintro s' ⟨⟩⟩
      simp [hm]

theorem putNames_spec (l : List ν) : ∀ (s : ℕ) {sec : Section ν V}, Dense sec → s ≤ sec.length →
    ((∃ s', putNames l s sec = .ok s') ↔ ∀ (j : ℕ) (n m : ν), l[j]? = some n → nm sec (s + j) = some m → m = n) ∧
    ∀ s', putNames l s sec = .ok s' →
      Eff sec s' (fun _ _ _ => none) (fun i => if s ≤ i then l[i - s]? else none) (s + l.length) := by
  induction l with
  | nil =>
    intro s sec h hs
    refine ⟨by simp [putNames], ?_⟩
    rintro s' h'
    cases h'
    exact ⟨h, by simp only [List.length_nil]; omega, fun _ _ _ => by simp, fun _ => by simp⟩
  | cons n l ih =>
    intro s sec h hs
    obtain ⟨h1, h2⟩ := putName_spec h hs n
    rw [putNames]
    cases hp : putName sec s n with
    | error e =>
      refine ⟨?_, by rintro s' ⟨⟩⟩
      dsimp only
      constructor
      · rintro ⟨_, ⟨⟩⟩
      · intro hall
        obtain ⟨s', hs'⟩ := h1.mpr fun m hm => hall 0 n m rfl (by simpa using hm)
        rw [hp] at hs'; cases hs'
    | ok s1 =>
      dsimp only
      have e1 := h2 s1 hp
      obtain ⟨h3, h4⟩ := ih (s + 1) e1.dense (by rw [e1.length]; omega)
      constructor
      · rw [h3]
        constructor
        · intro hall j n' m hj hm
          cases j with
          | zero =>
            simp only [List.getElem?_cons_zero, Option.some.injEq] at hj
            subst hj
            exact h1.mp ⟨s1, hp⟩ m (by simpa using hm)
          | succ j =>
            refine hall j n' m (by simpa using hj) ?_
            rw [e1.nm, if_neg (by omega), Option.none_or, ← hm]
            congr 1; omega
        · intro hall j n' m hj hm
          rw [e1.nm, if_neg (by omega), Option.none_or] at hm
          exact hall (j + 1) n' m (by simpa using hj) (by rw [← hm]; congr 1; omega)
      · intro s' hs'
        refine (e1.trans (h4 s' hs')).congr (fun _ _ _ => rfl) ?_ (by simp only [List.length_cons]; omega)
        intro i
        rcases Nat.lt_trichotomy i s with hlt | rfl | hgt
        · rw [if_neg (by omega), if_neg (by omega), if_neg (by omega)]; rfl
        · rw [if_neg (by omega), if_pos rfl, if_pos le_rfl]; simp
        · rw [if_pos (by omega), if_neg (by omega), if_pos (by omega)]
          rw [show i - s = (i - (s + 1)) + 1 by omega]
          simp

/-- what a loop over the models does to a section in one pass -/
def StepSpec (w : Section ν V → Py (Section ν V)) (typ : String) (N : List ν) (F : ℕ → String → Option (Cell V)) : Prop :=
  ∀ sec, Dense sec →
    ((∃ s', w sec = .ok s') ↔ ∀ (i : ℕ) (n m : ν), N[i]? = some n → nm sec i = some m → m = n) ∧
    ∀ s', w sec = .ok s' → Eff sec s' (fun i T k => if T = typ then F i k else none) (fun i => N[i]?) N.length

/-- a list of statements none of which fails -/
theorem steps_total {typ : String} {n : ℕ} : ∀ (l : List ((Section ν V → Py (Section ν V)) × (ℕ → String → Option (Cell V))))
    {sec : Section ν V}, Dense sec →
    (∀ p ∈ l, ∀ sec, Dense sec → ∃ s', p.1 sec = .ok s' ∧
      Eff sec s' (fun i T k => if T = typ then p.2 i k else none) (fun _ => none) n ∨
      p.1 sec = .ok s' ∧ s' = sec ∧ ∀ i k, p.2 i k = none) →
    ∃ s' m, steps sec (l.map (·.1)) = .ok s' ∧ m ≤ n ∧
      Eff sec s' (fun i T k => if T = typ then l.foldl (fun acc p => (p.2 i k).or acc) none else none) (fun _ => none) m := by
  have gen : ∀ (l : List ((Section ν V → Py (Section ν V)) × (ℕ → String → Option (Cell V)))) (acc : ℕ → String → Option (Cell V))
      (m : ℕ) (s0 sec : Section ν V), m ≤ n → Eff s0 sec (fun i T k => if T = typ then acc i k else none) (fun _ => none) m →
      (∀ p ∈ l, ∀ sec, Dense sec → ∃ s', p.1 sec = .ok s' ∧
        Eff sec s' (fun i T k => if T = typ then p.2 i k else none) (fun _ => none) n ∨
        p.1 sec = .ok s' ∧ s' = sec ∧ ∀ i k, p.2 i k = none) →
      ∃ s' m, steps sec (l.map (·.1)) = .ok s' ∧ m ≤ n ∧
        Eff s0 s' (fun i T k => if T = typ then l.foldl (fun acc p => (p.2 i k).or acc) (acc i k) else none) (fun _ => none) m := by
    intro l
    induction l with
    | nil => intro acc m s0 sec hm h _; exact ⟨sec, m, rfl, hm, h⟩
    | cons p l ih =>
      intro acc m s0 sec hm h hall
      obtain ⟨s1, h1 | ⟨h1, rfl, h2⟩⟩ := hall p List.mem_cons_self sec h.dense
      · have := (h.trans h1.2).congr (f' := fun i T k => if T = typ then (p.2 i k).or (acc i k) else none) (g' := fun _ => none) (n' := n)
          (by intro i T k; by_cases hT : T = typ <;> simp [hT]) (fun _ => rfl) (by omega)
        obtain ⟨s', m', h3, h4, h5⟩ := ih _ n s0 s1 le_rfl this fun q hq => hall q (List.mem_cons_of_mem _ hq)
        refine ⟨s', m', ?_, h4, h5⟩
        rw [List.map_cons, steps, h1.1]
        exact h3
      · obtain ⟨s', m', h3, h4, h5⟩ := ih acc m s0 s1 hm h fun q hq => hall q (List.mem_cons_of_mem _ hq)
        refine ⟨s', m', ?_, h4, ?_⟩
        · rw [List.map_cons, steps, h1]
          exact h3
        · refine h5.congr ?_ (fun _ => rfl) rfl
          intro i T k
          rw [List.foldl_cons, h2]
          rfl
  intro l sec hd hall
  obtain ⟨s', m, h1, h2, h3⟩ := gen l (fun _ _ => none) 0 sec sec (Nat.zero_le _)
    ((Eff.refl hd).congr (by intro i T k; simp) (fun _ => rfl) rfl) hall
  exact ⟨s', m, h1, h2, h3⟩

/-- names first, then statements that do not fail -/
theorem steps_spec {typ : String} {N : List ν} (l : List ((Section ν V → Py (Section ν V)) × (ℕ → String → Option (Cell V))))
    (hall : ∀ p ∈ l, ∀ sec, Dense sec → ∃ s', p.1 sec = .ok s' ∧
      Eff sec s' (fun i T k => if T = typ then p.2 i k else none) (fun _ => none) N.length ∨
      p.1 sec = .ok s' ∧ s' = sec ∧ ∀ i k, p.2 i k = none) :
    StepSpec (fun sec => steps sec (putNames N 0 :: l.map (·.1))) typ N (fun i k => l.foldl (fun acc p => (p.2 i k).or acc) none) := by
  intro sec hd
  obtain ⟨h1, h2⟩ := putNames_spec N 0 hd (Nat.zero_le _)
  simp only [steps]
  cases hp : putNames N 0 sec with
  | error e =>
    refine ⟨?_, by rintro s' ⟨⟩⟩
    dsimp only
    constructor
    · rintro ⟨_, ⟨⟩⟩
    · intro h
      obtain ⟨s', hs'⟩ := h1.mpr fun j n m hj hm => h j n m hj (by rwa [Nat.zero_add] at hm)
      rw [hp] at hs'; cases hs'
  | ok s1 =>
    dsimp only
    have e1 := h2 s1 hp
    obtain ⟨s2, m, h3, h4, e2⟩ := steps_total l e1.dense hall
    rw [h3]
    refine ⟨⟨fun _ i n m hi hm => h1.mp ⟨s1, hp⟩ i n m hi (by rwa [Nat.zero_add]), fun _ => ⟨_, rfl⟩⟩, ?_⟩
    rintro s' h'
    cases h'
    exact (e1.trans e2).congr (by intro i T k; simp) (by intro i; simp) (by omega)

/-- a loop over the models, one section -/
def foldSec : List (Section ν V → Py (Section ν V)) → Section ν V → Py (Section ν V)
  | [], sec => .ok sec
  | w :: l, sec =>
    match w sec with
    | .error e => .error e
    | .ok s' => foldSec l s'

theorem foldSec_spec {α : Type} (w : α → Section ν V → Py (Section ν V)) (typ : α → String) (N : α → List ν)
    (F : α → ℕ → String → Option (Cell V)) : ∀ (l : List α) (_ : ∀ a ∈ l, StepSpec (w a) (typ a) (N a) (F a)) {sec : Section ν V}
    (_ : Dense sec),
    ((∃ s', foldSec (l.map w) sec = .ok s') ↔
      (∀ a ∈ l, ∀ (i : ℕ) (n m : ν), (N a)[i]? = some n → nm sec i = some m → m = n) ∧ Agree (l.map N)) ∧
    ∀ s', foldSec (l.map w) sec = .ok s' →
      Dense s' ∧ (∀ i, i < s'.length ↔ i < sec.length ∨ ∃ a ∈ l, i < (N a).length) ∧
      (∀ i T k, look s' i T k = (l.reverse.findSome? fun a => if T = typ a then F a i k else none).or (look sec i T k)) ∧
      (∀ i n, nm s' i = some n ↔ nm sec i = some n ∨ ∃ a ∈ l, (N a)[i]? = some n) := by
  intro l
  induction l with
  | nil =>
    intro _ sec hd
    refine ⟨by simp [foldSec, Agree], ?_⟩
    rintro s' h'
    cases h'
    exact ⟨hd, by simp, by simp, by simp⟩
  | cons a l ih =>
    intro hall sec hd
    obtain ⟨h1, h2⟩ := hall a List.mem_cons_self sec hd
    simp only [List.map_cons, foldSec]
    cases hw : w a sec with
    | error e =>
      refine ⟨?_, by rintro s' ⟨⟩⟩
      dsimp only
      constructor
      · rintro ⟨_, ⟨⟩⟩
      · rintro ⟨h, _⟩
        obtain ⟨s', hs'⟩ := h1.mpr (h a List.mem_cons_self)
        rw [hw] at hs'; cases hs'
    | ok s1 =>
      dsimp only
      have e1 := h2 s1 hw
      have g1 := h1.mp ⟨s1, hw⟩
      obtain ⟨h3, h4⟩ := ih (fun b hb => hall b (List.mem_cons_of_mem _ hb)) e1.dense
      have hnm1 : ∀ (i : ℕ) (n : ν), nm s1 i = some n ↔ nm sec i = some n ∨ (N a)[i]? = some n := by
        intro i n
        rw [e1.nm]
        cases hN : (N a)[i]? with
        | none => simp
        | some n' =>
          rw [Option.some_or]
          constructor
          · intro h; exact Or.inr h
          · rintro (h | h)
            · rw [g1 i n' n hN h]
            · exact h
      constructor
      · rw [h3]
        constructor
        · rintro ⟨h5, h6⟩
          refine ⟨?_, ?_⟩
          · intro b hb i n m hn hm
            rcases List.mem_cons.mp hb with rfl | hb
            · exact g1 i n m hn hm
            · exact h5 b hb i n m hn ((hnm1 i m).mpr (Or.inl hm))
          · intro u hu u' hu' i n n' hn hn'
            rcases List.mem_cons.mp hu with rfl | hu <;> rcases List.mem_cons.mp hu' with rfl | hu'
            · exact Option.some.inj (hn.symm.trans hn')
            · obtain ⟨b, hb, rfl⟩ := List.mem_map.mp hu'
              exact h5 b hb i n' n hn' ((hnm1 i n).mpr (Or.inr hn))
            · obtain ⟨b, hb, rfl⟩ := List.mem_map.mp hu
              exact (h5 b hb i n n' hn ((hnm1 i n').mpr (Or.inr hn'))).symm
            · exact h6 u hu u' hu' i n n' hn hn'
        · rintro ⟨h5, h6⟩
          refine ⟨?_, fun u hu u' hu' => h6 u (List.mem_cons_of_mem _ hu) u' (List.mem_cons_of_mem _ hu')⟩
          intro b hb i n m hn hm
          rcases (hnm1 i m).mp hm with hm | hm
          · exact h5 b (List.mem_cons_of_mem _ hb) i n m hn hm
          · exact h6 _ List.mem_cons_self _ (List.mem_cons_of_mem _ (List.mem_map_of_mem hb)) i m n hm hn
      · intro s' hs'
        obtain ⟨h5, h6, h7, h8⟩ := h4 s' hs'
        refine ⟨h5, ?_, ?_, ?_⟩
        · intro i
          rw [h6, e1.length, lt_max_iff]
          simp only [List.mem_cons, exists_eq_or_imp, or_assoc]
        · intro i T k
          rw [h7, e1.look, List.reverse_cons, List.findSome?_append, Option.or_assoc]
          congr 2
          rw [List.findSome?_cons, List.findSome?_nil]
          cases (if T = typ a then F a i k else none) <;> rfl
        · intro i n
          rw [h8, hnm1]
          simp only [List.mem_cons, exists_eq_or_imp, or_assoc]

/-! ### Validation -/

theorem lenOf_ok {v : Val V} {n : ℕ} : lenOf v = .ok n ↔ HasLen v n := by
  unfold HasLen
  cases v <;> simp [lenOf]

theorem hasLen_size {v : Val V} {n : ℕ} (h : HasLen v n) : sizeOf' v = n := by
  rcases h with ⟨l, rfl, h⟩ | ⟨l, rfl, h⟩ <;> exact h

theorem items_ok {v : Val V} {n : ℕ} (h : HasLen v n) : ∃ l, items v = .ok l ∧ l.length = n ∧ ∀ i, l[i]? = entryAt v i := by
  rcases h with ⟨l, rfl, h⟩ | ⟨l, rfl, h⟩
  · exact ⟨l.map .one, rfl, by simpa using h, fun i => by simp [entryAt]⟩
  · exact ⟨l.map .row, rfl, by simpa using h, fun i => by simp [entryAt]⟩

theorem zipStar_ok {v : Val V} {n : ℕ} (h : HasBounds v n) : ∃ l, zipStar v = .ok l ∧ l.length = n ∧ ∀ i, l[i]? = intervalAt v i := by
  obtain ⟨a, b, rfl, h⟩ := h
  refine ⟨zip2 a b, rfl, by simp [zip2, h], fun i => ?_⟩
  simp only [zip2, intervalAt, List.getElem?_zipWith]
  cases a[i]? <;> cases b[i]? <;> rfl

theorem checkLen_ok {r : Res ν V} {n : ℕ} {key : String} : checkLen r n key = .ok () ↔ ∀ v, r.data key = some v → HasLen v n := by
  unfold checkLen
  cases hd : r.data key with
  | none => simp
  | some v =>
    dsimp only
    constructor
    · intro h v' hv
      cases Option.some.inj hv
      cases hl : lenOf v with
      | error e => rw [hl] at h; cases h
      | ok m =>
        rw [hl] at h
        dsimp only at h
        split at h
        · rename_i hnm; rw [hnm]; exact lenOf_ok.mp hl
        · cases h
    · intro h
      rw [lenOf_ok.mpr (h v rfl)]
      simp

theorem checkCi_ok {r : Res ν V} {n : ℕ} {key : String} : checkCi r n key = .ok () ↔ ∀ v, r.data key = some v → HasBounds v n := by
  unfold checkCi
  cases hd : r.data key with
  | none => simp
  | some v =>
    dsimp only
    constructor
    · intro h v' hv
      cases Option.some.inj hv
      cases hl : lenOf v with
      | error e => rw [hl] at h; cases h
      | ok m =>
        rw [hl] at h
        dsimp only at h
        split at h
        · cases hz : zipStar v with
          | error e => rw [hz] at h; cases h
          | ok l =>
            rw [hz] at h
            dsimp only at h
            split at h
            · rename_i hnl
              unfold zipStar at hz
              split at hz
              · rename_i a b
                cases hz
                exact ⟨a, b, rfl, by rw [hnl]; simp [zip2]⟩
              · cases hz
            · cases h
        · cases h
    · intro h
      obtain ⟨l, hl, hn, _⟩ := zipStar_ok (h v rfl)
      obtain ⟨a, b, rfl, hab⟩ := h v rfl
      rw [hl]
      simp [lenOf, hn]

theorem inOrder_ok {l : List (Py Unit)} : inOrder l = .ok () ↔ ∀ p ∈ l, p = .ok () := by
  induction l with
  | nil => simp [inOrder]
  | cons p l ih =>
    cases p with
    | error e => simp [inOrder]
    | ok u => simp [inOrder, ih]

theorem validateVideos_ok {r : Res ν V} : validateVideos r = .ok () ↔
    ∃ q names, r.data "quality_scores" = some q ∧ r.disVideoNames = some names ∧ HasLen q names.length ∧
      Lens r names.length ["quality_scores_std"] ["quality_scores_ci95"] := by
  unfold validateVideos
  constructor
  · intro h
    split at h
    · rename_i q names hq hnames
      split at h
      · cases h
      · rename_i n hn
        split at h
        · rename_i hlen
          refine ⟨q, names, hq, hnames, ?_, ?_⟩
          · rw [hlen]; exact lenOf_ok.mp hn
          · rw [hlen]
            simpa [inOrder_ok, Lens, checkLen_ok, checkCi_ok] using h
        · cases h
    · cases h
  · rintro ⟨q, names, hq, hn, hlen, hL⟩
    rw [hq, hn]
    dsimp only
    rw [lenOf_ok.mpr hlen]
    dsimp only
    rw [if_pos rfl]
    simpa [inOrder_ok, Lens, checkLen_ok, checkCi_ok] using hL

def ObsOk (r : Res ν V) : Prop :=
  ∀ b, r.data "observer_bias" = some b → ∃ n, HasLen b n ∧ (∀ obs, r.observers = some obs → obs.length = n) ∧
    Lens r n ["observer_bias_std", "observer_inconsistency", "observer_inconsistency_std", "observer_scores_mean",
      "observer_scores_std"] ["observer_bias_ci95", "observer_inconsistency_ci95"]

theorem validateObservers_ok (dflt : ℕ → ν) (r : Res ν V) :
    ((∃ r', validateObservers dflt r = .ok r') ↔ ObsOk r) ∧
    ∀ r', validateObservers dflt r = .ok r' → r'.data = r.data ∧ r'.disVideoNames = r.disVideoNames ∧
      (∀ b, r.data "observer_bias" = some b → r'.observers.getD [] = observerNames dflt r) := by
  unfold validateObservers ObsOk
  cases hb : r.data "observer_bias" with
  | none =>
    refine ⟨by simp, ?_⟩
    rintro r' h
    cases h
    exact ⟨rfl, rfl, by simp⟩
  | some b =>
    dsimp only
    cases hl : lenOf b with
    | error e =>
      refine ⟨?_, by rintro r' ⟨⟩⟩
      constructor
      · rintro ⟨_, ⟨⟩⟩
      · intro h
        obtain ⟨n, hn, _⟩ := h b rfl
        rw [lenOf_ok.mpr hn] at hl
        cases hl
    | ok n =>
      have hlen := lenOf_ok.mp hl
      dsimp only
      have hchk : ∀ c, c = inOrder [checkLen r n "observer_bias_std", checkCi r n "observer_bias_ci95",
          checkLen r n "observer_inconsistency", checkLen r n "observer_inconsistency_std",
          checkCi r n "observer_inconsistency_ci95", checkLen r n "observer_scores_mean", checkLen r n "observer_scores_std"] →
          (c = .ok () ↔ Lens r n ["observer_bias_std", "observer_inconsistency", "observer_inconsistency_std", "observer_scores_mean",
            "observer_scores_std"] ["observer_bias_ci95", "observer_inconsistency_ci95"]) := by
        rintro c rfl
        simp only [inOrder_ok, Lens, List.forall_mem_cons, List.not_mem_nil, checkLen_ok, checkCi_ok, false_implies, implies_true, and_true]
        tauto
      generalize hc : inOrder [checkLen r n "observer_bias_std", checkCi r n "observer_bias_ci95",
          checkLen r n "observer_inconsistency", checkLen r n "observer_inconsistency_std",
          checkCi r n "observer_inconsistency_ci95", checkLen r n "observer_scores_mean", checkLen r n "observer_scores_std"] = c
      have hck := hchk c hc.symm
      have key : ∀ (P : Prop), ((∀ b', some b = some b' → ∃ m, HasLen b' m ∧ (∀ obs, r.observers = some obs → obs.length = m) ∧
          Lens r m ["observer_bias_std", "observer_inconsistency", "observer_inconsistency_std", "observer_scores_mean",
            "observer_scores_std"] ["observer_bias_ci95", "observer_inconsistency_ci95"]) ↔
          (∀ obs, r.observers = some obs → obs.length = n) ∧ c = .ok ()) := by
        intro _
        rw [hck]
        constructor
        · intro h
          obtain ⟨m, h1, h2, h3⟩ := h b rfl
          have : m = n := by rw [← hasLen_size h1, hasLen_size hlen]
          subst this
          exact ⟨h2, h3⟩
        · rintro ⟨h2, h3⟩ b' hb'
          cases Option.some.inj hb'
          exact ⟨n, hlen, h2, h3⟩
      rw [key True]
      cases ho : r.observers with
      | some obs =>
        dsimp only
        by_cases hobs : obs.length = n
        · rw [if_pos hobs]
          cases c with
          | error e => exact ⟨by simp, by rintro r' ⟨⟩⟩
          | ok u =>
            refine ⟨by simp [hobs], ?_⟩
            rintro r' h
            cases h
            refine ⟨rfl, rfl, fun _ _ => ?_⟩
            unfold observerNames
            rw [hb, ho]
            rfl
        · rw [if_neg hobs]
          exact ⟨by simp [hobs], by rintro r' ⟨⟩⟩
      | none =>
        dsimp only
        cases c with
        | error e => exact ⟨by simp, by rintro r' ⟨⟩⟩
        | ok u =>
          refine ⟨by simp, ?_⟩
          rintro r' h
          cases h
          refine ⟨rfl, rfl, fun _ _ => ?_⟩
          unfold observerNames
          rw [hb, ho]
          dsimp only
          rw [hasLen_size hlen]
          rfl

theorem setKey_keys {α β : Type} [DecidableEq α] (k : α) (v : β) (d : List (α × β)) (a : α) :
    a ∈ (setKey k v d).map (·.1) ↔ a = k ∨ a ∈ d.map (·.1) := by
  induction d with
  | nil => simp [setKey]
  | cons p d ih =>
    obtain ⟨x, y⟩ := p
    rw [setKey]
    by_cases h : x = k
    · rw [if_pos h]; subst h; simp
    · rw [if_neg h, List.map_cons, List.mem_cons, ih, List.map_cons, List.mem_cons]; tauto

theorem lastName_cons (k : ℤ) (name : ν) (l : List (ℤ × Option ν)) (hall : ∀ p ∈ l, p.2 ≠ none) (j : ℤ) :
    lastName ((k, some name) :: l) j = (lastName l j).or (if j = k then some name else none) := by
  unfold lastName
  rw [List.reverse_cons, List.find?_append]
  cases hf : l.reverse.find? fun p => decide (p.1 = j) with
  | none =>
    by_cases hj : j = k
    · subst hj; simp
    · have : ¬ k = j := fun h => hj h.symm
      simp [hj, this]
  | some p =>
    have hp : p ∈ l := List.mem_reverse.mp (List.mem_of_find?_eq_some hf)
    obtain ⟨n, hn⟩ := Option.ne_none_iff_exists'.mp (hall p hp)
    simp [hn]

theorem contentDict_spec (l : List (ℤ × Option ν)) : ∀ d,
    ((∃ d', contentDict l d = .ok d') ↔ ∀ p ∈ l, p.2 ≠ none) ∧
    ∀ d', contentDict l d = .ok d' → (∀ k, k ∈ d'.map (·.1) ↔ k ∈ l.map (·.1) ∨ k ∈ d.map (·.1)) ∧
      ∀ k, getKey k d' = (lastName l k).or (getKey k d) := by
  induction l with
  | nil =>
    intro d
    refine ⟨by simp [contentDict], ?_⟩
    rintro d' h
    cases h
    exact ⟨by simp, by simp [lastName]⟩
  | cons p l ih =>
    intro d
    obtain ⟨k, name⟩ := p
    cases name with
    | none =>
      refine ⟨?_, by rintro d' ⟨⟩⟩
      constructor
      · rintro ⟨_, ⟨⟩⟩
      · intro h; exact absurd rfl (h _ List.mem_cons_self)
    | some name =>
      rw [contentDict]
      obtain ⟨h1, h2⟩ := ih (setKey k name d)
      refine ⟨by rw [h1]; simp, ?_⟩
      intro d' hd'
      obtain ⟨h3, h4⟩ := h2 d' hd'
      have hall := h1.mp ⟨d', hd'⟩
      refine ⟨?_, ?_⟩
      · intro j
        rw [h3, setKey_keys, List.map_cons, List.mem_cons]
        tauto
      · intro j
        rw [h4, getKey_setKey, lastName_cons k name l hall, Option.or_assoc]
        split <;> simp

theorem uniqueSorted_sort (l l' : List ℤ) (h : ∀ a, a ∈ l ↔ a ∈ l') : uniqueSorted l = l'.toFinset.sort (· ≤ ·) := by
  apply List.Perm.eq_of_pairwise (le := (· ≤ ·))
  · intro a b _ _; exact le_antisymm
  · exact (uniqueSorted_sorted l).imp le_of_lt
  · exact Finset.pairwise_sort _ _
  · apply (List.perm_ext_iff_of_nodup _ _).mpr
    · intro a; simp [mem_uniqueSorted, h]
    · exact (uniqueSorted_sorted l).imp ne_of_lt
    · exact Finset.sort_nodup _ _

theorem contentsOf_spec (refs : List (ℤ × Option ν)) :
    ((∃ l, contentsOf refs = .ok l) ↔ ∀ p ∈ refs, p.2 ≠ none) ∧
    ∀ l, contentsOf refs = .ok l → l = ((refs.map (·.1)).toFinset.sort (· ≤ ·)).filterMap (lastName refs) ∧
      l.length = (refs.map (·.1)).toFinset.card := by
  unfold contentsOf
  obtain ⟨h1, h2⟩ := contentDict_spec refs []
  rw [← h1]
  cases hc : contentDict refs [] with
  | error e => exact ⟨by simp, by rintro l ⟨⟩⟩
  | ok d =>
    obtain ⟨h3, h4⟩ := h2 d hc
    refine ⟨by simp, ?_⟩
    dsimp only
    rintro l h
    cases h
    have hs : uniqueSorted (d.map (·.1)) = (refs.map (·.1)).toFinset.sort (· ≤ ·) :=
      uniqueSorted_sort _ _ fun a => by rw [h3]; simp
    have hg : (fun k => getKey k d) = lastName refs := by
      funext k; rw [h4]; simp [getKey]
    rw [hs, hg]
    refine ⟨rfl, ?_⟩
    have hall := h1.mp ⟨d, hc⟩
    have hsome : ∀ k ∈ (refs.map (·.1)).toFinset.sort (· ≤ ·), (lastName refs k).isSome = true := by
      intro k hk
      have hk' : k ∈ refs.map (·.1) := by simpa using hk
      obtain ⟨p, hp, rfl⟩ := List.mem_map.mp hk'
      unfold lastName
      cases hf : refs.reverse.find? fun q => decide (q.1 = p.1) with
      | none => exact absurd (List.find?_eq_none.mp hf p (List.mem_reverse.mpr hp)) (by simp)
      | some q =>
        have hq : q ∈ refs := List.mem_reverse.mp (List.mem_of_find?_eq_some hf)
        obtain ⟨n, hn⟩ := Option.ne_none_iff_exists'.mp (hall q hq)
        simp [hn]
    rw [← Finset.length_sort (· ≤ ·) (s := (refs.map (·.1)).toFinset)]
    generalize (refs.map (·.1)).toFinset.sort (· ≤ ·) = L at hsome
    induction L with
    | nil => rfl
    | cons k L ih =>
      obtain ⟨n, hn⟩ := Option.isSome_iff_exists.mp (hsome k List.mem_cons_self)
      rw [List.filterMap_cons_some hn, List.length_cons, List.length_cons, ih fun j hj => hsome j (List.mem_cons_of_mem _ hj)]

def ContOk (refs : List (ℤ × Option ν)) (r : Res ν V) : Prop :=
  ∀ a, r.data "content_ambiguity" = some a → (∀ p ∈ refs, p.2 ≠ none) ∧ HasLen a (refs.map (·.1)).toFinset.card ∧
    Lens r (refs.map (·.1)).toFinset.card ["content_ambiguity_std"] ["content_ambiguity_ci95"]

theorem validateContents_ok (refs : List (ℤ × Option ν)) (r : Res ν V) :
    ((∃ c, validateContents refs r = .ok c) ↔ ContOk refs r) ∧
    ∀ c, validateContents refs r = .ok c → ∀ a, r.data "content_ambiguity" = some a → c.getD [] = contentNames refs r := by
  unfold validateContents ContOk
  cases ha : r.data "content_ambiguity" with
  | none => exact ⟨by simp, by simp⟩
  | some a =>
    dsimp only
    obtain ⟨h1, h2⟩ := contentsOf_spec refs
    cases hc : contentsOf refs with
    | error e =>
      refine ⟨?_, by rintro c ⟨⟩⟩
      constructor
      · rintro ⟨_, ⟨⟩⟩
      · intro h
        obtain ⟨l, hl⟩ := h1.mpr (h a rfl).1
        rw [hc] at hl; cases hl
    | ok names =>
      obtain ⟨h3, h4⟩ := h2 names hc
      have hall := h1.mp ⟨names, hc⟩
      dsimp only
      cases hl : lenOf a with
      | error e =>
        refine ⟨?_, by rintro c ⟨⟩⟩
        constructor
        · rintro ⟨_, ⟨⟩⟩
        · intro h
          rw [lenOf_ok.mpr (h a rfl).2.1] at hl; cases hl
      | ok n =>
        dsimp only
        by_cases hn : names.length = n
        · rw [if_pos hn]
          rw [h4] at hn
          subst hn
          have hck : inOrder [checkLen r (refs.map (·.1)).toFinset.card "content_ambiguity_std",
              checkCi r (refs.map (·.1)).toFinset.card "content_ambiguity_ci95"] = .ok () ↔
              Lens r (refs.map (·.1)).toFinset.card ["content_ambiguity_std"] ["content_ambiguity_ci95"] := by
            simp [inOrder_ok, Lens, checkLen_ok, checkCi_ok]
          have heq : (∀ a', some a = some a' → (∀ p ∈ refs, p.2 ≠ none) ∧ HasLen a' (refs.map (·.1)).toFinset.card ∧
              Lens r (refs.map (·.1)).toFinset.card ["content_ambiguity_std"] ["content_ambiguity_ci95"]) ↔
              inOrder [checkLen r (refs.map (·.1)).toFinset.card "content_ambiguity_std",
                checkCi r (refs.map (·.1)).toFinset.card "content_ambiguity_ci95"] = .ok () := by
            rw [hck]
            constructor
            · intro h; exact (h a rfl).2.2
            · intro h a' ha'
              cases Option.some.inj ha'
              exact ⟨hall, lenOf_ok.mp hl, h⟩
          rw [heq]
          cases inOrder [checkLen r (refs.map (·.1)).toFinset.card "content_ambiguity_std",
              checkCi r (refs.map (·.1)).toFinset.card "content_ambiguity_ci95"] with
          | error e => exact ⟨by simp, by rintro c ⟨⟩⟩
          | ok u =>
            refine ⟨by simp, ?_⟩
            rintro c h _ _
            cases h
            unfold contentNames
            rw [ha]
            exact h3
        · rw [if_neg hn]
          refine ⟨?_, by rintro c ⟨⟩⟩
          constructor
          · rintro ⟨_, ⟨⟩⟩
          · intro h
            have := hasLen_size (h a rfl).2.1
            rw [hasLen_size (lenOf_ok.mp hl)] at this
            exact absurd (h4.trans this.symm) hn

theorem validate_ok (dflt : ℕ → ν) (refs : List (ℤ × Option ν)) (r : Res ν V) :
    ((∃ x, validate dflt refs r = .ok x) ↔ WellSized refs r) ∧
    ∀ x, validate dflt refs r = .ok x → x.1.data = r.data ∧ x.1.disVideoNames = r.disVideoNames ∧
      (∀ b, r.data "observer_bias" = some b → x.1.observers.getD [] = observerNames dflt r) ∧
      (∀ a, r.data "content_ambiguity" = some a → x.2.getD [] = contentNames refs r) := by
  unfold validate WellSized
  rw [← validateVideos_ok]
  obtain ⟨h1, h2⟩ := validateObservers_ok dflt r
  cases hv : validateVideos r with
  | error e => exact ⟨by simp, by rintro x ⟨⟩⟩
  | ok u =>
    dsimp only
    cases ho : validateObservers dflt r with
    | error e =>
      refine ⟨?_, by rintro x ⟨⟩⟩
      constructor
      · rintro ⟨_, ⟨⟩⟩
      · rintro ⟨_, h, _⟩
        obtain ⟨r', hr'⟩ := h1.mpr h
        rw [ho] at hr'; cases hr'
    | ok r' =>
      obtain ⟨h3, h4, h5⟩ := h2 r' ho
      have hobs : ObsOk r := h1.mp ⟨r', ho⟩
      dsimp only
      obtain ⟨h6, h7⟩ := validateContents_ok refs r'
      have hco : ContOk refs r' ↔ ContOk refs r := by unfold ContOk Lens; rw [h3]
      have hcn : contentNames refs r' = contentNames refs r := by unfold contentNames; rw [h3]
      rw [hco] at h6
      cases hc : validateContents refs r' with
      | error e =>
        refine ⟨?_, by rintro x ⟨⟩⟩
        constructor
        · rintro ⟨_, ⟨⟩⟩
        · rintro ⟨_, _, h⟩
          obtain ⟨c, hc'⟩ := h6.mpr h
          rw [hc] at hc'; cases hc'
      | ok c =>
        refine ⟨⟨fun _ => ⟨by cases u; rfl, hobs, h6.mp ⟨c, hc⟩⟩, fun _ => ⟨_, rfl⟩⟩, ?_⟩
        rintro x h
        cases h
        refine ⟨h3, h4, h5, fun a ha => ?_⟩
        rw [← hcn]
        exact h7 c hc a (by rw [h3]; exact ha)

/-! ### Writing -/

theorem putPlain_total {r : Res ν V} {n : ℕ} {typ src : String} (key : String) (h : ∀ v, r.data src = some v → HasLen v n)
    (sec : Section ν V) (hd : Dense sec) : ∃ s', putPlain typ r src key sec = .ok s' ∧
      Eff sec s' (fun i T k => if T = typ then (if k = key then (r.data src).bind (entryAt · i) else none) else none) (fun _ => none) n ∨
      putPlain typ r src key sec = .ok s' ∧ s' = sec ∧ ∀ (i : ℕ) (k : String), (if k = key then (r.data src).bind (entryAt · i) else none) = none := by
  unfold putPlain
  cases hs : r.data src with
  | none => exact ⟨sec, Or.inr ⟨rfl, rfl, by simp⟩⟩
  | some v =>
    obtain ⟨l, hl, hn, hi⟩ := items_ok (h v hs)
    dsimp only
    rw [hl]
    refine ⟨_, Or.inl ⟨rfl, (putVals_eff l typ key 0 hd (Nat.zero_le _)).congr ?_ (fun _ => rfl) (by omega)⟩⟩
    intro i T k
    by_cases h1 : T = typ <;> by_cases h2 : k = key <;> simp [h1, h2, hi]

theorem putCi_total {r : Res ν V} {n : ℕ} {typ src : String} (key : String) (h : ∀ v, r.data src = some v → HasBounds v n)
    (sec : Section ν V) (hd : Dense sec) : ∃ s', putCi typ r src key sec = .ok s' ∧
      Eff sec s' (fun i T k => if T = typ then (if k = key then (r.data src).bind (intervalAt · i) else none) else none) (fun _ => none) n ∨
      putCi typ r src key sec = .ok s' ∧ s' = sec ∧ ∀ (i : ℕ) (k : String), (if k = key then (r.data src).bind (intervalAt · i) else none) = none := by
  unfold putCi
  cases hs : r.data src with
  | none => exact ⟨sec, Or.inr ⟨rfl, rfl, by simp⟩⟩
  | some v =>
    obtain ⟨l, hl, hn, hi⟩ := zipStar_ok (h v hs)
    dsimp only
    rw [hl]
    refine ⟨_, Or.inl ⟨rfl, (putVals_eff l typ key 0 hd (Nat.zero_le _)).congr ?_ (fun _ => rfl) (by omega)⟩⟩
    intro i T k
    by_cases h1 : T = typ <;> by_cases h2 : k = key <;> simp [h1, h2, hi]

theorem StepSpec.congr {w : Section ν V → Py (Section ν V)} {typ : String} {N : List ν} {F F' : ℕ → String → Option (Cell V)}
    (h : StepSpec w typ N F) (hF : ∀ i k, F i k = F' i k) : StepSpec w typ N F' := by
  have : F = F' := by funext i k; exact hF i k
  rw [← this]; exact h

theorem writeVideos_spec (typ : String) {r r' : Res ν V} {refs : List (ℤ × Option ν)} (hw : WellSized refs r) (hd : r'.data = r.data)
    (hn : r'.disVideoNames = r.disVideoNames) : StepSpec (writeVideos typ r') typ (videoNames r) (videoNumber r) := by
  obtain ⟨⟨q, names, hq, hnames, hlen, hL⟩, -⟩ := hw
  have hN : r'.disVideoNames.getD [] = videoNames r := by unfold videoNames; rw [hn]
  have hNl : (videoNames r).length = names.length := by unfold videoNames; rw [hnames]; rfl
  have h := steps_spec (typ := typ) (N := videoNames r)
    [(putPlain typ r' "quality_scores" "quality_score", fun i k => if k = "quality_score" then (r'.data "quality_scores").bind (entryAt · i) else none),
     (putPlain typ r' "quality_scores_std" "quality_score_std", fun i k => if k = "quality_score_std" then (r'.data "quality_scores_std").bind (entryAt · i) else none),
     (putCi typ r' "quality_scores_ci95" "quality_score_ci95", fun i k => if k = "quality_score_ci95" then (r'.data "quality_scores_ci95").bind (intervalAt · i) else none)]
    (by
      rw [hNl]
      intro p hp
      simp only [List.mem_cons, List.not_mem_nil, or_false] at hp
      rcases hp with rfl | rfl | rfl
      · exact putPlain_total _ fun v hv => by rw [hd, hq] at hv; cases Option.some.inj hv; exact hlen
      · exact putPlain_total _ fun v hv => hL.1 _ (List.mem_singleton_self _) v (by rw [← hd]; exact hv)
      · exact putCi_total _ fun v hv => hL.2 _ (List.mem_singleton_self _) v (by rw [← hd]; exact hv))
  rw [← hN] at h ⊢
  refine StepSpec.congr h ?_
  intro i k
  simp only [List.foldl_cons, List.foldl_nil, hd, videoNumber]
  by_cases h1 : k = "quality_score"
  · subst h1; simp
  by_cases h2 : k = "quality_score_std"
  · subst h2; simp
  by_cases h3 : k = "quality_score_ci95"
  · subst h3; simp
  simp [h1, h2, h3]

theorem stepSpec_skip {typ : String} {F : ℕ → String → Option (Cell V)} (hF : ∀ i k, F i k = none) :
    StepSpec (fun sec : Section ν V => .ok sec) typ [] F := by
  intro sec hd
  refine ⟨by simp, ?_⟩
  rintro s' h
  cases h
  exact (Eff.refl hd).congr (by simp [hF]) (by simp) rfl

theorem writeObservers_spec (dflt : ℕ → ν) (typ : String) {r r' : Res ν V} {refs : List (ℤ × Option ν)} (hw : WellSized refs r)
    (hd : r'.data = r.data) (hn : ∀ b, r.data "observer_bias" = some b → r'.observers.getD [] = observerNames dflt r) :
    StepSpec (writeObservers typ r') typ (observerNames dflt r) (observerNumber r) := by
  cases hb : r.data "observer_bias" with
  | none =>
    have h1 : writeObservers typ r' = fun sec => .ok sec := by
      funext sec; unfold writeObservers; rw [hd, hb]
    have h2 : observerNames dflt r = [] := by unfold observerNames; rw [hb]
    rw [h1, h2]
    exact stepSpec_skip fun i k => by simp [observerNumber, hb]
  | some b =>
    obtain ⟨n, hlen, hobs, hL⟩ := hw.2.1 b hb
    have hNl : (observerNames dflt r).length = n := by
      unfold observerNames
      rw [hb]
      dsimp only
      cases ho : r.observers with
      | none => simp [hasLen_size hlen]
      | some obs => exact hobs obs ho
    have hN := hn b hb
    have hp : ∀ k ∈ ["observer_bias_std", "observer_inconsistency", "observer_inconsistency_std", "observer_scores_mean",
        "observer_scores_std"], ∀ v, r'.data k = some v → HasLen v n := fun k hk v hv => hL.1 k hk v (by rw [← hd]; exact hv)
    have hc : ∀ k ∈ ["observer_bias_ci95", "observer_inconsistency_ci95"], ∀ v, r'.data k = some v → HasBounds v n :=
      fun k hk v hv => hL.2 k hk v (by rw [← hd]; exact hv)
    have h := steps_spec (typ := typ) (N := observerNames dflt r)
      [(putPlain typ r' "observer_bias" "observer_bias", fun i k => if k = "observer_bias" then (r'.data "observer_bias").bind (entryAt · i) else none),
       (putPlain typ r' "observer_bias_std" "observer_bias_std", fun i k => if k = "observer_bias_std" then (r'.data "observer_bias_std").bind (entryAt · i) else none),
       (putCi typ r' "observer_bias_ci95" "observer_bias_ci95", fun i k => if k = "observer_bias_ci95" then (r'.data "observer_bias_ci95").bind (intervalAt · i) else none),
       (putPlain typ r' "observer_inconsistency" "observer_inconsistency", fun i k => if k = "observer_inconsistency" then (r'.data "observer_inconsistency").bind (entryAt · i) else none),
       (putPlain typ r' "observer_inconsistency_std" "observer_inconsistency_std", fun i k => if k = "observer_inconsistency_std" then (r'.data "observer_inconsistency_std").bind (entryAt · i) else none),
       (putCi typ r' "observer_inconsistency_ci95" "observer_inconsistency_ci95", fun i k => if k = "observer_inconsistency_ci95" then (r'.data "observer_inconsistency_ci95").bind (intervalAt · i) else none),
       (putPlain typ r' "observer_scores_mean" "observer_scores_mean", fun i k => if k = "observer_scores_mean" then (r'.data "observer_scores_mean").bind (entryAt · i) else none),
       (putPlain typ r' "observer_scores_std" "observer_scores_std", fun i k => if k = "observer_scores_std" then (r'.data "observer_scores_std").bind (entryAt · i) else none)]
      (by
        rw [hNl]
        intro p hp'
        simp only [List.mem_cons, List.not_mem_nil, or_false] at hp'
        rcases hp' with rfl | rfl | rfl | rfl | rfl | rfl | rfl | rfl
        · exact putPlain_total _ fun v hv => by rw [hd, hb] at hv; cases Option.some.inj hv; exact hlen
        · exact putPlain_total _ (hp _ (by simp))
        · exact putCi_total _ (hc _ (by simp))
        · exact putPlain_total _ (hp _ (by simp))
        · exact putPlain_total _ (hp _ (by simp))
        · exact putCi_total _ (hc _ (by simp))
        · exact putPlain_total _ (hp _ (by simp))
        · exact putPlain_total _ (hp _ (by simp)))
    have h1 : writeObservers typ r' = fun sec => steps sec [putNames (r'.observers.getD []) 0, putPlain typ r' "observer_bias" "observer_bias",
      putPlain typ r' "observer_bias_std" "observer_bias_std", putCi typ r' "observer_bias_ci95" "observer_bias_ci95",
      putPlain typ r' "observer_inconsistency" "observer_inconsistency",
      putPlain typ r' "observer_inconsistency_std" "observer_inconsistency_std",
      putCi typ r' "observer_inconsistency_ci95" "observer_inconsistency_ci95",
      putPlain typ r' "observer_scores_mean" "observer_scores_mean", putPlain typ r' "observer_scores_std" "observer_scores_std"] := by
      funext sec; unfold writeObservers; rw [hd, hb]
    rw [h1, hN]
    refine StepSpec.congr h ?_
    intro i k
    simp only [List.foldl_cons, List.foldl_nil, hd, observerNumber, hb, Option.isNone_some, Bool.false_eq_true, if_false]
    by_cases h1 : k = "observer_bias"
    · subst h1; simp [hb]
    by_cases h2 : k = "observer_bias_std"
    · subst h2; simp
    by_cases h3 : k = "observer_bias_ci95"
    · subst h3; simp
    by_cases h4 : k = "observer_inconsistency"
    · subst h4; simp
    by_cases h5 : k = "observer_inconsistency_std"
    · subst h5; simp
    by_cases h6 : k = "observer_inconsistency_ci95"
    · subst h6; simp
    by_cases h7 : k = "observer_scores_mean"
    · subst h7; simp
    by_cases h8 : k = "observer_scores_std"
    · subst h8; simp
    simp [h1, h2, h3, h4, h5, h6, h7, h8]

theorem writeContents_spec (typ : String) {r r' : Res ν V} {refs : List (ℤ × Option ν)} {c : Option (List ν)} (hw : WellSized refs r)
    (hd : r'.data = r.data) (hn : ∀ a, r.data "content_ambiguity" = some a → c.getD [] = contentNames refs r) :
    StepSpec (writeContents typ r' c) typ (contentNames refs r) (contentNumber r) := by
  cases ha : r.data "content_ambiguity" with
  | none =>
    have h1 : writeContents typ r' c = fun sec => .ok sec := by
      funext sec; unfold writeContents; rw [hd, ha]
    have h2 : contentNames refs r = [] := by unfold contentNames; rw [ha]; rfl
    rw [h1, h2]
    exact stepSpec_skip fun i k => by simp [contentNumber, ha]
  | some a =>
    obtain ⟨hall, hlen, hL⟩ := hw.2.2 a ha
    have hNl : (contentNames refs r).length = (refs.map (·.1)).toFinset.card := by
      obtain ⟨l, hl⟩ := (contentsOf_spec refs).1.mpr hall
      obtain ⟨h1, h2⟩ := (contentsOf_spec refs).2 l hl
      unfold contentNames
      rw [ha]
      show (((refs.map (·.1)).toFinset.sort (· ≤ ·)).filterMap (lastName refs)).length = _
      rw [← h1, h2]
    have hN := hn a ha
    have h := steps_spec (typ := typ) (N := contentNames refs r)
      [(putPlain typ r' "content_ambiguity" "content_ambiguity", fun i k => if k = "content_ambiguity" then (r'.data "content_ambiguity").bind (entryAt · i) else none),
       (putPlain typ r' "content_ambiguity_std" "content_ambiguity_std", fun i k => if k = "content_ambiguity_std" then (r'.data "content_ambiguity_std").bind (entryAt · i) else none),
       (putCi typ r' "content_ambiguity_ci95" "content_ambiguity_ci95", fun i k => if k = "content_ambiguity_ci95" then (r'.data "content_ambiguity_ci95").bind (intervalAt · i) else none)]
      (by
        rw [hNl]
        intro p hp'
        simp only [List.mem_cons, List.not_mem_nil, or_false] at hp'
        rcases hp' with rfl | rfl | rfl
        · exact putPlain_total _ fun v hv => by rw [hd, ha] at hv; cases Option.some.inj hv; exact hlen
        · exact putPlain_total _ fun v hv => hL.1 _ (List.mem_singleton_self _) v (by rw [← hd]; exact hv)
        · exact putCi_total _ fun v hv => hL.2 _ (List.mem_singleton_self _) v (by rw [← hd]; exact hv))
    have h1 : writeContents typ r' c = fun sec => steps sec [putNames (c.getD []) 0, putPlain typ r' "content_ambiguity" "content_ambiguity",
      putPlain typ r' "content_ambiguity_std" "content_ambiguity_std",
      putCi typ r' "content_ambiguity_ci95" "content_ambiguity_ci95"] := by
      funext sec; unfold writeContents; rw [hd, ha]
    rw [h1, hN]
    refine StepSpec.congr h ?_
    intro i k
    simp only [List.foldl_cons, List.foldl_nil, hd, contentNumber, ha, Option.isNone_some, Bool.false_eq_true, if_false]
    by_cases h1 : k = "content_ambiguity"
    · subst h1; simp [ha]
    by_cases h2 : k = "content_ambiguity_std"
    · subst h2; simp
    by_cases h3 : k = "content_ambiguity_ci95"
    · subst h3; simp
    simp [h1, h2, h3]

theorem writeAll_iff : ∀ (l : List (String × Res ν V × Option (List ν))) (o o' : Out ν V),
    writeAll l o = .ok o' ↔ foldSec (l.map fun p => writeVideos p.1 p.2.1) o.videos = .ok o'.videos ∧
      foldSec (l.map fun p => writeObservers p.1 p.2.1) o.observers = .ok o'.observers ∧
      foldSec (l.map fun p => writeContents p.1 p.2.1 p.2.2) o.contents = .ok o'.contents ∧
      l.foldl (fun st p => putStat p.1 p.2.1 "bic" (putStat p.1 p.2.1 "aic" st)) o.stats = o'.stats := by
  intro l
  induction l with
  | nil =>
    intro o o'
    cases o; cases o'
    simp [writeAll, foldSec]
  | cons p l ih =>
    intro o o'
    obtain ⟨typ, r, c⟩ := p
    simp only [writeAll, List.map_cons, foldSec, List.foldl_cons, writeOne]
    cases writeVideos typ r o.videos with
    | error e => simp
    | ok vs =>
      cases writeObservers typ r o.observers with
      | error e => simp
      | ok os =>
        cases writeContents typ r c o.contents with
        | error e => simp
        | ok cs => exact ih _ o'

theorem foldSec_mapPy {α : Type} {w : α → Section ν V → Py (Section ν V)} : ∀ (l : List α) (s : Section ν V),
    (∃ s', foldSec (l.map w) s = .ok s') ∨ ∃ e, foldSec (l.map w) s = .error e := by
  intro l s
  cases foldSec (l.map w) s with
  | ok s' => exact Or.inl ⟨s', rfl⟩
  | error e => exact Or.inr ⟨e, rfl⟩

theorem valuesOf_getD (sec : Section ν V) : (valuesOf sec).getD [] = sec.map (·.2) := by
  unfold valuesOf
  cases sec <;> rfl

theorem numberIn_values {sec : Section ν V} (h : Dense sec) (i : ℕ) (T k : String) : numberIn (valuesOf sec) i T k = look sec i T k := by
  unfold numberIn look
  rw [valuesOf_getD, getKey_dense h, List.getElem?_map]
  simp only [getKey_lookup]

theorem nameIn_values {sec : Section ν V} (h : Dense sec) (i : ℕ) : nameIn (valuesOf sec) i = nm sec i := by
  unfold nameIn nm
  rw [valuesOf_getD, getKey_dense h, List.getElem?_map]

/-- what the statistics hold under a model and a key -/
def lookStat (st : List (String × List (String × Val V))) (T k : String) : Option (Val V) := (getKey T st).bind (getKey k)

theorem putStat_look (typ : String) (r : Res ν V) (key : String) (st : List (String × List (String × Val V))) (T k : String) :
    lookStat (putStat typ r key st) T k = (if T = typ ∧ k = key then r.data key else none).or (lookStat st T k) := by
  unfold putStat lookStat
  cases hd : r.data key with
  | none => simp
  | some v =>
    dsimp only
    rw [getKey_setKey]
    by_cases hT : T = typ
    · subst hT
      rw [if_pos rfl, Option.bind_some, getKey_setKey]
      by_cases hk : k = key
      · subst hk; simp
      · rw [if_neg hk, if_neg (by tauto), Option.none_or]
        cases getKey T st <;> rfl
    · rw [if_neg hT, if_neg (by tauto), Option.none_or]

theorem foldStat_look : ∀ (l : List (String × Res ν V)) (st : List (String × List (String × Val V))) (T k : String),
    lookStat (l.foldl (fun st p => putStat p.1 p.2 "bic" (putStat p.1 p.2 "aic" st)) st) T k =
      (l.reverse.findSome? fun p => if T = p.1 then statNumber p.2 k else none).or (lookStat st T k) := by
  intro l
  induction l with
  | nil => intro st T k; simp
  | cons p l ih =>
    intro st T k
    rw [List.foldl_cons, ih, putStat_look, putStat_look, List.reverse_cons, List.findSome?_append, Option.or_assoc]
    congr 1
    rw [List.findSome?_cons, List.findSome?_nil, ← Option.or_assoc]
    congr 1
    unfold statNumber
    by_cases hT : T = p.1
    · by_cases h1 : k = "aic"
      · subst h1; simp [hT]; cases p.2.data "aic" <;> rfl
      · by_cases h2 : k = "bic"
        · subst h2; simp [hT]; cases p.2.data "bic" <;> rfl
        · simp [h1, h2]
    · simp [hT]

end Sureal.Format
