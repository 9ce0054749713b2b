import Verif.Spec.Write
import Verif.Lemmas.Format
/-! Helper lemmas for writing and importing datasets -/
set_option linter.unusedSectionVars false
namespace Sureal.Write
open Sureal Spec Format
variable {K : Type}

theorem toList_asReadL : ∀ l : Trees (Atom K), toList (asReadL l) = (toList l).map asRead
  | .nil => rfl
  | .cons t l => by rw [asReadL, toList, toList, List.map_cons, toList_asReadL l]

theorem toList_sortedL (order : Pairs (Atom K) → Pairs (Atom K)) : ∀ l : Trees (Atom K), toList (sortedL order l) = (toList l).map (sorted order)
  | .nil => rfl
  | .cons t l => by rw [sortedL, toList, toList, List.map_cons, toList_sortedL order l]

theorem entries_asReadP : ∀ d : Pairs (Atom K), entriesOf (asReadP d) = (entriesOf d).map fun p => (asRead p.1, asRead p.2)
  | .nil => rfl
  | .cons k v d => by rw [asReadP, entriesOf, entriesOf, List.map_cons, entries_asReadP d]

theorem entries_sortedP (order : Pairs (Atom K) → Pairs (Atom K)) : ∀ d : Pairs (Atom K),
    entriesOf (sortedP order d) = (entriesOf d).map fun p => (sorted order p.1, sorted order p.2)
  | .nil => rfl
  | .cons k v d => by rw [sortedP, entriesOf, entriesOf, List.map_cons, entries_sortedP order d]

theorem wellKeyedL_iff : ∀ l : Trees (Atom K), WellKeyedL l ↔ ∀ t ∈ toList l, WellKeyed t
  | .nil => by simp [WellKeyedL, toList]
  | .cons t l => by simp [WellKeyedL, toList, wellKeyedL_iff l]

theorem wellKeyedP_iff : ∀ d : Pairs (Atom K), WellKeyedP d ↔ ∀ p ∈ entriesOf d, Hashable p.1 ∧ WellKeyed p.2
  | .nil => by simp [WellKeyedP, entriesOf]
  | .cons k v d => by simp [WellKeyedP, entriesOf, wellKeyedP_iff d, and_assoc]

theorem plainP_iff (np2 : Bool) : ∀ d : Pairs (Atom K), PlainP np2 d ↔ ∀ p ∈ entriesOf d, Plain np2 p.1 ∧ Plain np2 p.2
  | .nil => by simp [PlainP, entriesOf]
  | .cons k v d => by simp [PlainP, entriesOf, plainP_iff np2 d, and_assoc]

mutual
theorem sorted_hashable (order : Pairs (Atom K) → Pairs (Atom K)) : ∀ v : Value K, Hashable v → sorted order v = v
  | .atom a, _ => rfl
  | .list l, h => by cases h
  | .tuple l, h => by rw [sorted, sortedL_hashable order l h]
  | .dict d, h => by cases h
theorem sortedL_hashable (order : Pairs (Atom K) → Pairs (Atom K)) : ∀ l : Trees (Atom K), HashableL l → sortedL order l = l
  | .nil, _ => rfl
  | .cons t l, h => by rw [sortedL, sorted_hashable order t h.1, sortedL_hashable order l h.2]
end

variable {order : Pairs (Atom K) → Pairs (Atom K)} (ho : ∀ d, (entriesOf (order d)).Perm (entriesOf d))
include ho

mutual
theorem plain_sorted (np2 : Bool) : ∀ v : Value K, Plain np2 (sorted order v) ↔ Plain np2 v
  | .atom a => Iff.rfl
  | .list l => by rw [sorted, Plain, Plain, plainL_sorted np2 l]
  | .tuple l => by rw [sorted, Plain, Plain, plainL_sorted np2 l]
  | .dict d => by
    rw [sorted, Plain, Plain, ← plainP_sorted np2 d, plainP_iff, plainP_iff]
    exact ⟨fun h p hp => h p ((ho _).mem_iff.mpr hp), fun h p hp => h p ((ho _).mem_iff.mp hp)⟩
theorem plainL_sorted (np2 : Bool) : ∀ l : Trees (Atom K), PlainL np2 (sortedL order l) ↔ PlainL np2 l
  | .nil => Iff.rfl
  | .cons t l => by rw [sortedL, PlainL, PlainL, plain_sorted np2 t, plainL_sorted np2 l]
theorem plainP_sorted (np2 : Bool) : ∀ d : Pairs (Atom K), PlainP np2 (sortedP order d) ↔ PlainP np2 d
  | .nil => Iff.rfl
  | .cons k v d => by rw [sortedP, PlainP, PlainP, plain_sorted np2 k, plain_sorted np2 v, plainP_sorted np2 d]
end

theorem view_sorted (v : Value K) : view (asRead (sorted order v)) = view (asRead v) := by
  cases v with
  | atom a => rfl
  | list l => simp only [sorted, asRead, view, toList_asReadL, toList_sortedL, List.length_map]
  | tuple l => simp only [sorted, asRead, view, toList_asReadL, toList_sortedL, List.length_map]
  | dict d =>
    simp only [sorted, asRead, view, entries_asReadP, List.length_map]
    rw [(ho _).length_eq, entries_sortedP, List.length_map]

open Classical in
theorem find_perm {α β : Type} {l l' : List (α × β)} (h : l.Perm l') (hn : (l'.map (·.1)).Nodup) (k : α) :
    l.find? (fun p => p.1 = k) = l'.find? fun p => p.1 = k := by
  have hn' : (l.map (·.1)).Nodup := (h.map _).nodup_iff.mpr hn
  have key : ∀ (l : List (α × β)), (l.map (·.1)).Nodup → ∀ p, l.find? (fun p => decide (p.1 = k)) = some p ↔ p ∈ l ∧ p.1 = k := by
    intro l hn p
    constructor
    · intro hf
      exact ⟨List.mem_of_find?_eq_some hf, by simpa using List.find?_some hf⟩
    · rintro ⟨hp, hk⟩
      induction l with
      | nil => cases hp
      | cons q l ih =>
        rw [List.map_cons, List.nodup_cons] at hn
        rw [List.find?_cons]
        rcases List.mem_cons.mp hp with rfl | hp
        · simp [hk]
        · have : ¬ q.1 = k := by
            intro hq
            exact hn.1 (by rw [hq, ← hk]; exact List.mem_map_of_mem hp)
          simp only [this, decide_false]
          exact ih hn.2 hp
  ext p
  rw [key l hn', key l' hn, h.mem_iff]

theorem child_sorted {v : Value K} (hv : WellKeyed v) (s : Step K) :
    (child (asRead (sorted order v)) s = none ∧ child (asRead v) s = none) ∨
    ∃ c, WellKeyed c ∧ child (asRead (sorted order v)) s = some (asRead (sorted order c)) ∧ child (asRead v) s = some (asRead c) := by
  have hlist : ∀ (l : Trees (Atom K)) (n : ℕ), WellKeyedL l →
      ((toList (asReadL (sortedL order l)))[n]? = none ∧ (toList (asReadL l))[n]? = none) ∨
      ∃ c, WellKeyed c ∧ (toList (asReadL (sortedL order l)))[n]? = some (asRead (sorted order c)) ∧ (toList (asReadL l))[n]? = some (asRead c) := by
    intro l n hl
    rw [toList_asReadL, toList_asReadL, toList_sortedL, List.getElem?_map, List.getElem?_map, List.getElem?_map]
    cases hg : (toList l)[n]? with
    | none => exact Or.inl ⟨rfl, rfl⟩
    | some c => exact Or.inr ⟨c, (wellKeyedL_iff l).mp hl c (List.mem_of_getElem? hg), rfl, rfl⟩
  cases v with
  | atom a => exact Or.inl ⟨by cases s <;> rfl, by cases s <;> rfl⟩
  | list l =>
    cases s with
    | item n => exact hlist l n hv
    | entry k => exact Or.inl ⟨rfl, rfl⟩
  | tuple l =>
    cases s with
    | item n => exact hlist l n hv
    | entry k => exact Or.inl ⟨rfl, rfl⟩
  | dict d =>
    cases s with
    | item n => exact Or.inl ⟨rfl, rfl⟩
    | entry k =>
      obtain ⟨h1, h2⟩ := hv
      rw [wellKeyedP_iff] at h1
      classical
      have e1 : entriesOf (sortedP order d) = (entriesOf d).map fun p => (p.1, sorted order p.2) := by
        rw [entries_sortedP]
        refine List.map_congr_left fun p hp => ?_
        rw [sorted_hashable order p.1 (h1 p hp).1]
      have hperm : (entriesOf (asReadP (order (sortedP order d)))).Perm ((entriesOf d).map fun p => (asRead p.1, asRead (sorted order p.2))) := by
        rw [entries_asReadP]
        have := (ho (sortedP order d)).map fun p : Value K × Value K => (asRead p.1, asRead p.2)
        rw [e1, List.map_map] at this
        exact this
      have hnd : (((entriesOf d).map fun p => (asRead p.1, asRead (sorted order p.2))).map (·.1)).Nodup := by
        rw [List.map_map]; exact h2
      have c1 : child (asRead (sorted order (.dict d))) (.entry k) =
          (((entriesOf d).map fun p => (asRead p.1, asRead (sorted order p.2))).find? fun p => p.1 = k).map (·.2) := by
        rw [← find_perm ho hperm hnd]
        rfl
      have c2 : child (asRead (.dict d)) (.entry k) = (((entriesOf d).map fun p => (asRead p.1, asRead p.2)).find? fun p => p.1 = k).map (·.2) := by
        rw [← entries_asReadP]
        rfl
      rw [c1, c2, List.find?_map, List.find?_map]
      simp only [Function.comp_def]
      cases hf : (entriesOf d).find? fun p => decide (asRead p.1 = k) with
      | none => exact Or.inl ⟨rfl, rfl⟩
      | some p => exact Or.inr ⟨p.2, (h1 p (List.mem_of_find?_eq_some hf)).2, rfl, rfl⟩

/-- reordering dictionaries does not change a value -/
theorem same_sorted {v : Value K} (hv : WellKeyed v) : Same (asRead (sorted order v)) (asRead v) := by
  intro p
  induction p generalizing v with
  | nil => simp only [follow, Option.map_some, view_sorted ho]
  | cons s p ih =>
    rw [follow, follow]
    rcases child_sorted ho hv s with ⟨h1, h2⟩ | ⟨c, hc, h1, h2⟩
    · simp only [h1, h2, Option.bind_none]
    · rw [h1, h2]; exact ih hc

omit ho

theorem eval_reprFloat {env : List (String × Value K)} {x : Fl K} {w : Value K} (h1 : getKey "nan" env = none)
    (h2 : getKey "inf" env = none) (h : evalAtom env (reprFloat x) = .ok w) : ∃ y, x = .fin y := by
  cases x with
  | fin y => exact ⟨y, rfl⟩
  | nan => simp only [reprFloat, evalAtom, h1] at h; cases h
  | pinf => simp only [reprFloat, evalAtom, h2] at h; cases h
  | ninf => simp only [reprFloat, evalAtom, h2] at h; cases h

theorem eval_reprAtom (np2 : Bool) (env : List (String × Value K)) (a : Atom K) (h : PlainAtom np2 a) :
    evalAtom env (reprAtom np2 a) = .ok (.atom (asReadAtom a)) := by
  cases a with
  | float x => cases x <;> first | rfl | cases h
  | npFloat x =>
    cases x <;> cases h
    rfl
  | other => cases h
  | _ => rfl

theorem plainAtom_of_eval (np2 : Bool) {env : List (String × Value K)} {a : Atom K} {w : Value K} (h1 : getKey "nan" env = none)
    (h2 : getKey "inf" env = none) (h3 : getKey "np" env = none) (h : evalAtom env (reprAtom np2 a) = .ok w) : PlainAtom np2 a := by
  cases a with
  | float x => obtain ⟨y, rfl⟩ := eval_reprFloat h1 h2 h; trivial
  | npFloat x =>
    cases np2 with
    | true => simp only [reprAtom, if_true, evalAtom, h3] at h; cases h
    | false =>
      obtain ⟨y, rfl⟩ := eval_reprFloat h1 h2 h
      exact rfl
  | other => cases h
  | _ => trivial

mutual
theorem eval_repr (np2 : Bool) (env : List (String × Value K)) : ∀ v : Value K, Plain np2 v → eval env (repr np2 v) = .ok (asRead v)
  | .atom a, h => by rw [repr, eval, asRead, eval_reprAtom np2 env a h]
  | .list l, h => by rw [repr, eval, asRead, evalL_repr np2 env l h]
  | .tuple l, h => by rw [repr, eval, asRead, evalL_repr np2 env l h]
  | .dict d, h => by rw [repr, eval, asRead, evalP_repr np2 env d h]
theorem evalL_repr (np2 : Bool) (env : List (String × Value K)) : ∀ l : Trees (Atom K), PlainL np2 l → evalL env (reprs np2 l) = .ok (asReadL l)
  | .nil, _ => rfl
  | .cons t l, h => by rw [reprs, evalL, asReadL, eval_repr np2 env t h.1, evalL_repr np2 env l h.2]
theorem evalP_repr (np2 : Bool) (env : List (String × Value K)) : ∀ d : Pairs (Atom K), PlainP np2 d → evalP env (reprPairs np2 d) = .ok (asReadP d)
  | .nil, _ => rfl
  | .cons k v d, h => by
    rw [reprPairs, evalP, asReadP, eval_repr np2 env k h.1, eval_repr np2 env v h.2.1, evalP_repr np2 env d h.2.2]
end

section
variable {env : List (String × Value K)} (h1 : getKey "nan" env = none) (h2 : getKey "inf" env = none) (h3 : getKey "np" env = none)
include h1 h2 h3
mutual
theorem plain_of_eval (np2 : Bool) : ∀ (v w : Value K), eval env (repr np2 v) = .ok w → Plain np2 v
  | .atom a, w, h => plainAtom_of_eval np2 h1 h2 h3 h
  | .list l, w, h => by
    rw [repr, eval] at h
    cases hl : evalL env (reprs np2 l) with
    | error e => rw [hl] at h; cases h
    | ok l' => exact plainL_of_eval np2 l l' hl
  | .tuple l, w, h => by
    rw [repr, eval] at h
    cases hl : evalL env (reprs np2 l) with
    | error e => rw [hl] at h; cases h
    | ok l' => exact plainL_of_eval np2 l l' hl
  | .dict d, w, h => by
    rw [repr, eval] at h
    cases hl : evalP env (reprPairs np2 d) with
    | error e => rw [hl] at h; cases h
    | ok l' => exact plainP_of_eval np2 d l' hl
theorem plainL_of_eval (np2 : Bool) : ∀ (l l' : Trees (Atom K)), evalL env (reprs np2 l) = .ok l' → PlainL np2 l
  | .nil, _, _ => trivial
  | .cons t l, l', h => by
    rw [reprs, evalL] at h
    cases ht : eval env (repr np2 t) with
    | error e => rw [ht] at h; cases h
    | ok t' =>
      rw [ht] at h
      cases hl : evalL env (reprs np2 l) with
      | error e => rw [hl] at h; cases h
      | ok l'' => exact ⟨plain_of_eval np2 t t' ht, plainL_of_eval np2 l l'' hl⟩
theorem plainP_of_eval (np2 : Bool) : ∀ (d d' : Pairs (Atom K)), evalP env (reprPairs np2 d) = .ok d' → PlainP np2 d
  | .nil, _, _ => trivial
  | .cons k v d, d', h => by
    rw [reprPairs, evalP] at h
    cases hk : eval env (repr np2 k) with
    | error e => rw [hk] at h; cases h
    | ok k' =>
      rw [hk] at h
      cases hv : eval env (repr np2 v) with
      | error e => rw [hv] at h; cases h
      | ok v' =>
        rw [hv] at h
        cases hd : evalP env (reprPairs np2 d) with
        | error e => rw [hd] at h; cases h
        | ok d'' => exact ⟨plain_of_eval np2 k k' hk, plain_of_eval np2 v v' hv, plainP_of_eval np2 d d'' hd⟩
end
end

theorem parses_reprAtom (np2 : Bool) (a : Atom K) (h : PlainAtom np2 a) : parses (.atom (reprAtom np2 a)) = true := by
  cases a with
  | float x => cases x <;> rfl
  | npFloat x => cases x <;> cases np2 <;> rfl
  | other => cases h
  | _ => rfl

mutual
theorem parses_repr (np2 : Bool) : ∀ v : Value K, Plain np2 v → parses (repr np2 v) = true
  | .atom a, h => by rw [repr]; exact parses_reprAtom np2 a h
  | .list l, h => by rw [repr, parses, parsesL_repr np2 l h]
  | .tuple l, h => by rw [repr, parses, parsesL_repr np2 l h]
  | .dict d, h => by rw [repr, parses, parsesP_repr np2 d h]
theorem parsesL_repr (np2 : Bool) : ∀ l : Trees (Atom K), PlainL np2 l → parsesL (reprs np2 l) = true
  | .nil, _ => rfl
  | .cons t l, h => by rw [reprs, parsesL, parses_repr np2 t h.1, parsesL_repr np2 l h.2]; rfl
theorem parsesP_repr (np2 : Bool) : ∀ d : Pairs (Atom K), PlainP np2 d → parsesP (reprPairs np2 d) = true
  | .nil, _ => rfl
  | .cons k v d, h => by rw [reprPairs, parsesP, parses_repr np2 k h.1, parses_repr np2 v h.2.1, parsesP_repr np2 d h.2.2]; rfl
end

/-! ### Executing a file -/

/-- a file of values written plainly -/
theorem exec_plain : ∀ (file : List (String × Expr K)) (val : String × Expr K → Value K) (env : List (String × Value K)),
    (∀ p ∈ file, ∀ env, eval env p.2 = .ok (val p)) →
    ∃ env', exec file env = .ok env' ∧ ∀ k, getKey k env' = ((file.reverse.find? fun p => p.1 = k).map val).or (getKey k env) := by
  intro file
  induction file with
  | nil => intro val env _; exact ⟨env, rfl, by simp⟩
  | cons p file ih =>
    intro val env h
    obtain ⟨k0, e⟩ := p
    rw [exec, h _ List.mem_cons_self]
    obtain ⟨env', h1, h2⟩ := ih val (setKey k0 (val (k0, e)) env) fun q hq => h q (List.mem_cons_of_mem _ hq)
    refine ⟨env', h1, fun k => ?_⟩
    rw [h2, getKey_setKey, List.reverse_cons, List.find?_append]
    cases hf : file.reverse.find? fun p => decide (p.1 = k) with
    | some q => simp
    | none =>
      by_cases hk : k = k0
      · subst hk; simp
      · have : ¬ k0 = k := fun h => hk h.symm
        simp [hk, this]

theorem exec_keys : ∀ (file : List (String × Expr K)) (env env' : List (String × Value K)), exec file env = .ok env' → ∀ k,
    k ∉ file.map (·.1) → getKey k env' = getKey k env := by
  intro file
  induction file with
  | nil => intro env env' h k _; cases h; rfl
  | cons p file ih =>
    intro env env' h k hk
    obtain ⟨k0, e⟩ := p
    rw [exec] at h
    cases he : eval env e with
    | error x => rw [he] at h; cases h
    | ok v =>
      rw [he] at h
      rw [List.map_cons, List.mem_cons, not_or] at hk
      rw [ih _ _ h k hk.2, getKey_setKey, if_neg hk.1]

theorem exec_has : ∀ (file : List (String × Expr K)) (env env' : List (String × Value K)), exec file env = .ok env' → ∀ k,
    k ∈ file.map (·.1) → ∃ v, getKey k env' = some v := by
  intro file
  induction file with
  | nil => intro env env' _ k hk; cases hk
  | cons p file ih =>
    intro env env' h k hk
    obtain ⟨k0, e⟩ := p
    rw [exec] at h
    cases he : eval env e with
    | error x => rw [he] at h; cases h
    | ok v =>
      rw [he] at h
      by_cases hf : k ∈ file.map (·.1)
      · exact ih _ _ h k hf
      · rw [List.map_cons, List.mem_cons] at hk
        rcases hk with rfl | hk
        · exact ⟨v, by rw [exec_keys _ _ _ h _ hf, getKey_setKey, if_pos rfl]⟩
        · exact absurd hk hf

/-- if a file runs, each of its expressions has a value where the names of the file are bound at most -/
theorem exec_evals : ∀ (file : List (String × Expr K)) (env env' : List (String × Value K)), exec file env = .ok env' →
    ∀ p ∈ file, ∃ env1 w, eval env1 p.2 = .ok w ∧ ∀ k, k ∉ file.map (·.1) → getKey k env1 = getKey k env := by
  intro file
  induction file with
  | nil => intro env env' _ p hp; cases hp
  | cons q file ih =>
    intro env env' h p hp
    obtain ⟨k0, e⟩ := q
    rw [exec] at h
    cases he : eval env e with
    | error x => rw [he] at h; cases h
    | ok v =>
      rw [he] at h
      rcases List.mem_cons.mp hp with rfl | hp
      · exact ⟨env, v, he, fun _ _ => rfl⟩
      · obtain ⟨env1, w, h1, h2⟩ := ih _ _ h p hp
        refine ⟨env1, w, h1, fun k hk => ?_⟩
        rw [List.map_cons, List.mem_cons, not_or] at hk
        rw [h2 k hk.2, getKey_setKey, if_neg hk.1]

theorem dunder_iff (k : String) : ¬ dunder k = true ↔ Public k := by
  unfold dunder Public
  have : "__".toList = ['_', '_'] := rfl
  rw [this]
  constructor
  · rintro h ⟨r, hr⟩
    rw [hr] at h
    simp [List.isPrefixOf] at h
  · intro h hp
    apply h
    rw [List.isPrefixOf_iff_prefix] at hp
    obtain ⟨r, hr⟩ := hp
    exact ⟨r, hr.symm⟩

theorem getKey_of_mem {β : Type} {d : List (String × β)} (hn : (d.map (·.1)).Nodup) {p : String × β} (hp : p ∈ d) :
    getKey p.1 d = some p.2 := by
  induction d with
  | nil => cases hp
  | cons q d ih =>
    rw [List.map_cons, List.nodup_cons] at hn
    obtain ⟨k, v⟩ := q
    rw [getKey]
    rcases List.mem_cons.mp hp with rfl | hp
    · rw [if_pos rfl]
    · rw [if_neg, ih hn.2 hp]
      intro h
      exact hn.1 (List.mem_map.mpr ⟨p, hp, h.symm⟩)

theorem mem_of_getKey {β : Type} {d : List (String × β)} {k : String} {v : β} (h : getKey k d = some v) : (k, v) ∈ d := by
  induction d with
  | nil => cases h
  | cons q d ih =>
    obtain ⟨k', v'⟩ := q
    rw [getKey] at h
    split at h
    · next hk => cases h; subst hk; exact List.mem_cons_self
    · exact List.mem_cons_of_mem _ (ih h)

/-- each assignment in a file is of a public attribute -/
theorem writeOut_sound {order : Pairs (Atom K) → Pairs (Atom K)} {np2 : Bool} {attrs : List (String × Value K)}
    (hn : (attrs.map (·.1)).Nodup) {file : List (String × Expr K)} (h : writeOut order np2 attrs = .ok file) :
    ∀ p ∈ file, ∃ v, getKey p.1 attrs = some v ∧ Public p.1 ∧ (p.2 = repr np2 v ∨ p.2 = repr np2 (sorted order v)) := by
  unfold writeOut at h
  have pub : ∀ k ∈ ["ref_videos", "dis_videos", "subjects", "license"], Public k := by
    intro k hk
    rw [← dunder_iff]
    revert k
    decide +kernel
  intro p hp
  cases hr : getKey "ref_videos" attrs with
  | none => rw [hr] at h; cases h
  | some refs =>
  cases hd : getKey "dis_videos" attrs with
  | none => rw [hr, hd] at h; cases h
  | some diss =>
  rw [hr, hd] at h
  dsimp only at h
  cases Except.ok.inj h
  rw [List.mem_append, List.mem_append, List.mem_append] at hp
  rcases hp with ((hp | hp) | hp) | hp
  · obtain ⟨q, hq, rfl⟩ := List.mem_map.mp hp
    rw [List.mem_filter] at hq
    have h2 := of_decide_eq_true hq.2
    exact ⟨q.2, getKey_of_mem hn hq.1, (dunder_iff _).mp h2.2.2.2, Or.inl rfl⟩
  · rcases List.mem_cons.mp hp with rfl | hp
    · exact ⟨refs, hr, pub _ (by simp), Or.inr rfl⟩
    · rcases List.mem_cons.mp hp with rfl | hp
      · exact ⟨diss, hd, pub _ (by simp), Or.inr rfl⟩
      · cases hp
  · cases hs : getKey "subjects" attrs with
    | none => rw [hs] at hp; cases hp
    | some s =>
      rw [hs] at hp
      cases List.mem_singleton.mp hp
      exact ⟨s, hs, pub _ (by simp), Or.inr rfl⟩
  · cases hs : getKey "license" attrs with
    | none => rw [hs] at hp; cases hp
    | some s =>
      rw [hs] at hp
      cases List.mem_singleton.mp hp
      exact ⟨s, hs, pub _ (by simp), Or.inr rfl⟩

/-- each public attribute is in the file -/
theorem writeOut_complete {order : Pairs (Atom K) → Pairs (Atom K)} {np2 : Bool} {attrs : List (String × Value K)}
    {file : List (String × Expr K)} (h : writeOut order np2 attrs = .ok file) {k : String} {v : Value K}
    (hk : getKey k attrs = some v) (hp : Public k) : k ∈ file.map (·.1) := by
  unfold writeOut at h
  cases hr : getKey "ref_videos" attrs with
  | none => rw [hr] at h; cases h
  | some refs =>
  cases hd : getKey "dis_videos" attrs with
  | none => rw [hr, hd] at h; cases h
  | some diss =>
  rw [hr, hd] at h
  dsimp only at h
  cases Except.ok.inj h
  simp only [List.map_append, List.mem_append]
  by_cases h1 : k = "ref_videos"
  · subst h1; exact Or.inl (Or.inl (Or.inr (by simp)))
  by_cases h2 : k = "dis_videos"
  · subst h2; exact Or.inl (Or.inl (Or.inr (by simp)))
  by_cases h3 : k = "subjects"
  · subst h3
    refine Or.inl (Or.inr ?_)
    rw [hk]; exact List.mem_singleton_self _
  · refine Or.inl (Or.inl (Or.inl ?_))
    rw [List.map_map, List.mem_map]
    refine ⟨(k, v), ?_, rfl⟩
    rw [List.mem_filter]
    exact ⟨mem_of_getKey hk, decide_eq_true ⟨h1, h2, h3, (dunder_iff k).mpr hp⟩⟩

end Sureal.Write
