import Verif.Lemmas.Convert
/-!
# Lemmas on `to_dictionary_style_dataset` and `to_combined_overlap_dataset`
-/
namespace Sureal.Conv
open Sureal Spec
variable {κ K : Type}

section dict
variable {α β : Type} [DecidableEq α]

theorem dictSet_keys (l : List (α × β)) (k : α) (v : β) :
    (dictSet l k v).map Prod.fst = if k ∈ l.map Prod.fst then l.map Prod.fst else l.map Prod.fst ++ [k] := by
  induction l with
  | nil => simp [dictSet]
  | cons p l ih =>
    obtain ⟨a, b⟩ := p
    simp only [dictSet]
    by_cases h : a = k
    · subst h; simp
    · have h' : ¬ k = a := fun e => h e.symm
      simp only [h, if_false, List.map_cons, ih, List.mem_cons, h', false_or]
      split <;> simp

theorem dictSet_nodup (l : List (α × β)) (k : α) (v : β) (h : (l.map Prod.fst).Nodup) :
    ((dictSet l k v).map Prod.fst).Nodup := by
  rw [dictSet_keys]
  split
  · exact h
  · rename_i hk
    rw [List.nodup_append]
    exact ⟨h, by simp, by
      intro a ha b hb
      rw [List.mem_singleton] at hb
      subst hb
      exact fun e => hk (e ▸ ha)⟩

theorem lookup_isSome_iff (l : List (α × β)) (k : α) : (l.lookup k).isSome ↔ k ∈ l.map Prod.fst := by
  induction l with
  | nil => simp
  | cons p l ih =>
    obtain ⟨a, b⟩ := p
    rw [lookup_cons_if]
    by_cases h : k = a
    · simp [h]
    · simp [h, ih]

theorem lookup_none_iff (l : List (α × β)) (k : α) : l.lookup k = none ↔ k ∉ l.map Prod.fst := by
  rw [← lookup_isSome_iff]
  cases l.lookup k <;> simp

theorem dictUpdate_lookup (d u : List (α × β)) (k : α) (hn : (u.map Prod.fst).Nodup) :
    (dictUpdate d u).lookup k = (u.lookup k).or (d.lookup k) := by
  unfold dictUpdate
  induction u generalizing d with
  | nil => simp
  | cons p u ih =>
    obtain ⟨a, b⟩ := p
    simp only [List.map_cons, List.nodup_cons] at hn
    rw [List.foldl_cons, ih _ hn.2, dictSet_lookup, lookup_cons_if]
    by_cases h : k = a
    · subst h
      rw [(lookup_none_iff u k).mpr hn.1]; simp
    · simp [h]

theorem dictUpdate_nodup (d u : List (α × β)) (h : (d.map Prod.fst).Nodup) :
    ((dictUpdate d u).map Prod.fst).Nodup := by
  unfold dictUpdate
  induction u generalizing d with
  | nil => exact h
  | cons p u ih => exact ih _ (dictSet_nodup d _ _ h)

theorem lookup_map_val {γ : Type} (l : List (α × β)) (f : β → γ) (k : α) :
    (l.map fun p => (p.1, f p.2)).lookup k = (l.lookup k).map f := by
  induction l with
  | nil => rfl
  | cons p l ih =>
    obtain ⟨a, b⟩ := p
    rw [List.map_cons, lookup_cons_if, lookup_cons_if, ih]
    split <;> simp

theorem lookup_filterMap_val {γ : Type} (l : List (α × β)) (f : β → Option γ) (k : α)
    (hn : (l.map Prod.fst).Nodup) :
    (l.filterMap fun p => (f p.2).map fun x => (p.1, x)).lookup k = (l.lookup k).bind f := by
  induction l with
  | nil => rfl
  | cons p l ih =>
    obtain ⟨a, b⟩ := p
    simp only [List.map_cons, List.nodup_cons] at hn
    rw [List.filterMap_cons, lookup_cons_if]
    cases hf : f b with
    | none =>
      simp only [Option.map_none]
      rw [ih hn.2]
      split
      · rename_i h; subst h
        rw [(lookup_none_iff l k).mpr hn.1]; simp [hf]
      · rfl
    | some x =>
      simp only [Option.map_some]
      rw [lookup_cons_if, ih hn.2]
      split
      · simp [hf]
      · rfl

theorem filterMap_val_keys {γ : Type} (l : List (α × β)) (f : β → Option γ) :
    ((l.filterMap fun p => (f p.2).map fun x => (p.1, x)).map Prod.fst).Sublist (l.map Prod.fst) := by
  induction l with
  | nil => simp
  | cons p l ih =>
    rw [List.filterMap_cons]
    cases f p.2 with
    | none => exact ih.cons _
    | some x => exact ih.cons_cons _

end dict

section names

theorem toString_nat_inj {m n : Nat} (h : toString m = toString n) : m = n := by
  rw [Nat.toString_eq_ofList_toDigits, Nat.toString_eq_ofList_toDigits] at h
  have h2 : Nat.toDigits 10 m = Nat.toDigits 10 n := String.ofList_injective h
  have := congrArg (fun l => Nat.ofDigitChars 10 l 0) h2
  simpa [Nat.ofDigitChars_ten_toDigits] using this

theorem subjName_inj (n : String) {i j : Nat} (h : subjName n i = subjName n j) : i = j := by
  unfold subjName at h
  apply toString_nat_inj
  have := congrArg String.toList h
  simp only [String.toList_append] at this
  exact String.toList_inj.mp (List.append_cancel_left this)

theorem nameEntries_eq (n : String) (l : List (Vote K)) : ∀ (i : Nat) (acc : List (String × Vote K)),
    (∀ j, i ≤ j → subjName n j ∉ acc.map Prod.fst) →
    nameEntries n i l acc = acc ++ l.mapIdx fun j v => (subjName n (i + j), v) := by
  induction l with
  | nil => intro i acc _; simp [nameEntries]
  | cons v l ih =>
    intro i acc hacc
    have hset : dictSet acc (subjName n i) v = acc ++ [(subjName n i, v)] := by
      have := hacc i le_rfl
      clear ih hacc
      induction acc with
      | nil => rfl
      | cons p acc ih =>
        obtain ⟨a, b⟩ := p
        simp only [List.map_cons, List.mem_cons, not_or] at this
        have hne : ¬ a = subjName n i := fun e => this.1 e.symm
        simp only [dictSet, if_neg hne, ih this.2, List.cons_append]
    rw [nameEntries, hset, ih (i + 1)]
    · rw [List.mapIdx_cons, List.append_assoc, List.singleton_append]
      have : ∀ j, i + 1 + j = i + (j + 1) := fun j => by omega
      simp only [this, Nat.add_zero]
    · intro j hj
      rw [List.map_append, List.mem_append]
      rintro (h | h)
      · exact hacc j (by omega) h
      · simp only [List.map_cons, List.map_nil, List.mem_singleton] at h
        have := subjName_inj n h
        omega

theorem dictVideo_seq {dv : DisVideo String K} {t} {l : List (Vote K)} (h : dv.os = some (.seq t l)) (n : String) :
    dictVideo (some n) dv = .ok { dv with os := some (.dict (l.mapIdx fun i v => (subjName n i, v))) } := by
  unfold dictVideo
  rw [h]
  cases l with
  | nil => rfl
  | cons v l =>
    dsimp only
    rw [nameEntries_eq n (v :: l) 0 [] (by simp)]
    simp

theorem named_nodup (n : String) (l : List (Vote K)) :
    ((l.mapIdx fun i v => (subjName n i, v)).map Prod.fst).Nodup := by
  rw [List.nodup_iff_injective_get]
  intro i j h
  simp only [List.get_eq_getElem, List.getElem_map, List.getElem_mapIdx] at h
  exact Fin.ext (subjName_inj n h)

end names

section share
variable [DecidableEq κ]

/-- a number or a list -/
def Plain (v : Vote K) : Prop := (∃ x, v = .one x) ∨ ∃ xs, v = .many .list xs

/-- the entry left in the first dataset -/
def keepEntry : Option (Vote K) → Option (Vote K) → Option (Vote K)
  | some (.many .list xs), some (.one y) => some (.many .list (xs ++ [y]))
  | a, _ => a

/-- the entry stored in the new video for a subject of both videos, given what was there before -/
def newCell (k : κ) : Option (Vote K) → Option (Vote K) → Option (Cell κ K) → Option (Cell κ K)
  | some (.many .list _), some (.one _), _ => some (.ref k)
  | some a, some b, _ => some (.val (.many .list (votesOf a ++ votesOf b)))
  | _, _, c => c

theorem keepEntry_plain {a b : Option (Vote K)} (h : ∀ v, a = some v → Plain v) :
    ∀ v, keepEntry a b = some v → Plain v := by
  intro v hv
  cases a with
  | none => cases b <;> simp [keepEntry] at hv
  | some a =>
    rcases h a rfl with ⟨x, rfl⟩ | ⟨xs, rfl⟩
    · cases b with
      | none => simp [keepEntry] at hv; subst hv; exact Or.inl ⟨_, rfl⟩
      | some b => simp [keepEntry] at hv; subst hv; exact Or.inl ⟨_, rfl⟩
    · cases b with
      | none => simp [keepEntry] at hv; subst hv; exact Or.inr ⟨_, rfl⟩
      | some b =>
        cases b with
        | one y => simp [keepEntry] at hv; subst hv; exact Or.inr ⟨_, rfl⟩
        | many t ys => simp [keepEntry] at hv; subst hv; exact Or.inr ⟨_, rfl⟩

/-- one key of the second video -/
theorem shareKey_spec (os1 : List (κ × Vote K)) (new : List (κ × Cell κ K)) (k : κ) (v : Vote K)
    (h1 : ∀ w, os1.lookup k = some w → Plain w) (h2 : Plain v) :
    ∃ os1' new', shareKey (os1, new) (k, v) = .ok (os1', new') ∧
      (∀ k', os1'.lookup k' = if k' = k then keepEntry (os1.lookup k) (some v) else os1.lookup k') ∧
      (∀ k', new'.lookup k' = if k' = k then newCell k (os1.lookup k) (some v) (new.lookup k) else new.lookup k') ∧
      os1'.map Prod.fst = os1.map Prod.fst ∧
      ((new.map Prod.fst).Nodup → (new'.map Prod.fst).Nodup) ∧
      ((¬ ∃ xs y, os1.lookup k = some (.many .list xs) ∧ v = .one y) → os1' = os1) := by
  unfold shareKey
  dsimp only
  cases hl : os1.lookup k with
  | none =>
    refine ⟨os1, new, rfl, ?_, ?_, rfl, id, fun _ => rfl⟩
    · intro k'
      split
      · rename_i h; subst h; rw [hl]; rfl
      · rfl
    · intro k'
      split
      · rename_i h; subst h; rfl
      · rfl
  | some w =>
    have hk : k ∈ os1.map Prod.fst := (lookup_isSome_iff os1 k).mp (by rw [hl]; rfl)
    rcases h1 w hl with ⟨x, rfl⟩ | ⟨xs, rfl⟩ <;> rcases h2 with ⟨y, rfl⟩ | ⟨ys, rfl⟩
    · refine ⟨os1, _, rfl, ?_, fun k' => ?_, rfl, dictSet_nodup _ _ _, fun _ => rfl⟩
      · intro k'
        split
        · rename_i h; subst h; rw [hl]; rfl
        · rfl
      · rw [dictSet_lookup]; rfl
    · refine ⟨os1, _, rfl, ?_, fun k' => ?_, rfl, dictSet_nodup _ _ _, fun _ => rfl⟩
      · intro k'
        split
        · rename_i h; subst h; rw [hl]; rfl
        · rfl
      · rw [dictSet_lookup]; rfl
    · refine ⟨_, _, rfl, fun k' => ?_, fun k' => ?_, ?_, dictSet_nodup _ _ _, fun h => ?_⟩
      · rw [dictSet_lookup]; rfl
      · rw [dictSet_lookup]; rfl
      · rw [dictSet_keys, if_pos hk]
      · exact absurd ⟨xs, y, rfl, rfl⟩ h
    · refine ⟨os1, _, rfl, ?_, fun k' => ?_, rfl, dictSet_nodup _ _ _, fun _ => rfl⟩
      · intro k'
        split
        · rename_i h; subst h; rw [hl]; rfl
        · rfl
      · rw [dictSet_lookup]; rfl

/-- all keys of the second video -/
theorem share_spec (os2 : List (κ × Vote K)) : ∀ (os1 : List (κ × Vote K)) (new : List (κ × Cell κ K)),
    (os2.map Prod.fst).Nodup → (∀ k w, os1.lookup k = some w → Plain w) → (∀ p ∈ os2, Plain p.2) →
    ∃ os1' new', foldPy shareKey (os1, new) os2 = .ok (os1', new') ∧
      (∀ k, os1'.lookup k = keepEntry (os1.lookup k) (os2.lookup k)) ∧
      (∀ k, new'.lookup k = newCell k (os1.lookup k) (os2.lookup k) (new.lookup k)) ∧
      os1'.map Prod.fst = os1.map Prod.fst ∧
      ((new.map Prod.fst).Nodup → (new'.map Prod.fst).Nodup) ∧
      ((¬ ∃ k xs y, os1.lookup k = some (.many .list xs) ∧ os2.lookup k = some (.one y)) → os1' = os1) := by
  induction os2 with
  | nil =>
    intro os1 new _ _ _
    refine ⟨os1, new, rfl, fun k => ?_, fun k => ?_, rfl, id, fun _ => rfl⟩
    · cases os1.lookup k with
      | none => rfl
      | some w => cases w with
        | one x => rfl
        | many t xs => cases t <;> rfl
    · cases os1.lookup k with
      | none => rfl
      | some w => cases w with
        | one x => rfl
        | many t xs => cases t <;> rfl
  | cons p os2 ih =>
    intro os1 new hn h1 h2
    obtain ⟨k, v⟩ := p
    simp only [List.map_cons, List.nodup_cons] at hn
    obtain ⟨o1, n1, e1, a1, b1, c1, d1, f1⟩ := shareKey_spec os1 new k v (h1 k) (h2 (k, v) (by simp))
    obtain ⟨o2, n2, e2, a2, b2, c2, d2, f2⟩ := ih o1 n1 hn.2 (by
        intro k' w hw
        rw [a1] at hw
        split at hw
        · exact keepEntry_plain (h1 k) w hw
        · exact h1 k' w hw) (fun p hp => h2 p (List.mem_cons_of_mem _ hp))
    have hnone : os2.lookup k = none := (lookup_none_iff os2 k).mpr hn.1
    refine ⟨o2, n2, by rw [foldPy, e1]; exact e2, fun k' => ?_, fun k' => ?_, c2.trans c1, fun h => d2 (d1 h), ?_⟩
    · rw [a2, a1, lookup_cons_if]
      by_cases hk : k' = k
      · subst hk
        rw [if_pos rfl, if_pos rfl, hnone]
        generalize keepEntry (os1.lookup k') (some v) = z
        cases z with
        | none => rfl
        | some w => cases w with
          | one x => rfl
          | many t xs => cases t <;> rfl
      · rw [if_neg hk, if_neg hk]
    · rw [b2, a1, b1, lookup_cons_if]
      by_cases hk : k' = k
      · subst hk
        rw [if_pos rfl, if_pos rfl, if_pos rfl, hnone]
        generalize keepEntry (os1.lookup k') (some v) = z
        cases z with
        | none => rfl
        | some w => cases w with
          | one x => rfl
          | many t xs => cases t <;> rfl
      · rw [if_neg hk, if_neg hk, if_neg hk]
    · intro hno
      have ho1 : o1 = os1 := f1 (by
        rintro ⟨xs, y, hx, rfl⟩
        exact hno ⟨k, xs, y, hx, by rw [lookup_cons_if, if_pos rfl]⟩)
      rw [← ho1]
      apply f2
      rintro ⟨k', xs, y, hx, hy⟩
      rw [ho1] at hx
      refine hno ⟨k', xs, y, hx, ?_⟩
      rw [lookup_cons_if, if_neg]
      · exact hy
      · rintro rfl; rw [hnone] at hy; cases hy

/-- what the new video holds after its references are resolved in the lists left by this very step -/
theorem resolve_combine (k : κ) (os1 os2 os1' : List (κ × Vote K))
    (h1 : ∀ w, os1.lookup k = some w → Plain w) (h2 : ∀ w, os2.lookup k = some w → Plain w)
    (h : os1'.lookup k = keepEntry (os1.lookup k) (os2.lookup k)) :
    (newCell k (os1.lookup k) (os2.lookup k)
      (((os2.lookup k).map Cell.val).or ((os1.lookup k).map Cell.val))).bind (Cell.resolve os1')
    = combineEntry (os1.lookup k) (os2.lookup k) := by
  cases ha : os1.lookup k with
  | none =>
    cases hb : os2.lookup k with
    | none => rfl
    | some b => rfl
  | some a =>
    cases hb : os2.lookup k with
    | none =>
      rcases h1 a ha with ⟨x, rfl⟩ | ⟨xs, rfl⟩ <;> rfl
    | some b =>
      rw [ha, hb] at h
      rcases h1 a ha with ⟨x, rfl⟩ | ⟨xs, rfl⟩ <;> rcases h2 b hb with ⟨y, rfl⟩ | ⟨ys, rfl⟩
      · rfl
      · rfl
      · exact h
      · rfl

end share

section ids

def pushId (ids : List Int) (c : Int) : List Int := if c ∈ ids then ids else ids ++ [c]

theorem pushId_idem (ids : List Int) (c : Int) : pushId (pushId ids c) c = pushId ids c := by
  have : c ∈ pushId ids c := by unfold pushId; split <;> simp_all
  generalize pushId ids c = l at this
  unfold pushId
  rw [if_pos this]

theorem mem_pushId (ids : List Int) (c x : Int) : x ∈ pushId ids c ↔ x ∈ ids ∨ x = c := by
  unfold pushId
  split
  · constructor
    · exact Or.inl
    · rintro (h | rfl) <;> assumption
  · simp

/-- the reference videos of the ids used so far, renumbered -/
def refsFor (refs1 : List RefVideo) (ids : List Int) : List RefVideo :=
  (ids.mapIdx fun i c => (refs1.find? fun r => decide (r.contentId = c)).map fun r =>
    { r with contentId := (i : Int) }).filterMap id

theorem refsFor_append (refs1 : List RefVideo) (ids : List Int) (c : Int) :
    refsFor refs1 (ids ++ [c]) = refsFor refs1 ids ++
      (match refs1.find? fun r => decide (r.contentId = c) with
        | some r => [{ r with contentId := (ids.length : Int) }]
        | none => []) := by
  unfold refsFor
  rw [List.mapIdx_append, List.filterMap_append]
  congr 1
  simp only [List.mapIdx_cons, List.mapIdx_nil]
  cases refs1.find? fun r => decide (r.contentId = c) <;> simp

theorem useContent_spec (refs1 : List RefVideo) (c : Int) (ids : List Int) :
    useContent refs1 c ids (refsFor refs1 ids) =
      (pushId ids c, refsFor refs1 (pushId ids c), ((pushId ids c).idxOf c : Int)) := by
  unfold useContent pushId
  split
  · rfl
  · rename_i h
    have hi : (ids ++ [c]).idxOf c = ids.length := by
      rw [List.idxOf_append_of_notMem h]; simp
    dsimp only
    rw [refsFor_append, hi]
    cases refs1.find? fun r => decide (r.contentId = c) <;> simp

end ids

section loop
variable [DecidableEq κ]

/-- the entries of a list of pairs are numbers or lists -/
def PlainOs (os : List (κ × Vote K)) : Prop := ∀ k w, os.lookup k = some w → Plain w

/-- a second-dataset video as `to_dictionary_style_dataset` leaves it, with plain entries -/
def PlainDict (dv : DisVideo κ K) : Prop :=
  ∃ os, dv.os = some (.dict os) ∧ (os.map Prod.fst).Nodup ∧ ∀ p ∈ os, Plain p.2

theorem entryOf_dict {dv : DisVideo κ K} {os} (h : dv.os = some (.dict os)) (k : κ) : entryOf dv k = os.lookup k := by
  simp [entryOf, h]

theorem mem_of_lookup {os : List (κ × Vote K)} {k : κ} {w : Vote K} (h : os.lookup k = some w) : (k, w) ∈ os := by
  induction os with
  | nil => cases h
  | cons p os ih =>
    obtain ⟨a, b⟩ := p
    rw [lookup_cons_if] at h
    split at h
    · rename_i hk; cases h; subst hk; simp
    · exact List.mem_cons_of_mem _ (ih h)

/-- a pair with equal paths -/
theorem pairStep_match (refs1 : List RefVideo) (v1 v2 : DisVideo κ K) (st : OvState κ K)
    (hp : v1.path = v2.path) (h2 : PlainDict v2) (h1 : PlainOs st.os1) (hn : (st.os1.map Prod.fst).Nodup) :
    ∃ st' nv, pairStep refs1 v1 st v2 = .ok st' ∧ st'.news = st.news ++ [nv] ∧
      (st'.contentIds, st'.refs, nv.contentId) = useContent refs1 v1.contentId st.contentIds st.refs ∧
      nv.base = v1 ∧ (nv.os.map Prod.fst).Nodup ∧
      (∀ k, (nv.os.lookup k).bind (Cell.resolve st'.os1) = combineEntry (st.os1.lookup k) (entryOf v2 k)) ∧
      (∀ k, st'.os1.lookup k = keepEntry (st.os1.lookup k) (entryOf v2 k)) ∧
      st'.os1.map Prod.fst = st.os1.map Prod.fst ∧
      ((¬ ∃ k xs y, st.os1.lookup k = some (.many .list xs) ∧ entryOf v2 k = some (.one y)) → st'.os1 = st.os1) := by
  obtain ⟨os2, ho, hn2, hp2⟩ := h2
  have hnew : ((dictUpdate (st.os1.map fun p => (p.1, Cell.val p.2))
      (os2.map fun p => (p.1, (Cell.val p.2 : Cell κ K)))).map Prod.fst).Nodup := by
    apply dictUpdate_nodup
    rw [List.map_map]
    exact hn
  obtain ⟨o, n, e, a, b, c, d, f⟩ := share_spec os2 st.os1
    (dictUpdate (st.os1.map fun p => (p.1, Cell.val p.2)) (os2.map fun p => (p.1, Cell.val p.2))) hn2 h1 hp2
  refine ⟨{ os1 := o, contentIds := (useContent refs1 v1.contentId st.contentIds st.refs).1,
            refs := (useContent refs1 v1.contentId st.contentIds st.refs).2.1,
            news := st.news ++ [{ contentId := (useContent refs1 v1.contentId st.contentIds st.refs).2.2,
                                  base := v1, os := n }] },
    { contentId := (useContent refs1 v1.contentId st.contentIds st.refs).2.2, base := v1, os := n },
    ?_, rfl, rfl, rfl, d hnew, ?_, ?_, c, ?_⟩
  · unfold pairStep
    rw [if_pos hp, ho]
    dsimp only
    rw [e]
  · intro k
    dsimp only
    rw [b k, entryOf_dict ho, dictUpdate_lookup _ _ _ (by rw [List.map_map]; exact hn2), lookup_map_val,
      lookup_map_val]
    exact resolve_combine k st.os1 os2 o (h1 k) (fun w hw => hp2 (k, w) (mem_of_lookup hw)) (a k)
  · intro k; rw [entryOf_dict ho]; exact a k
  · simp only [entryOf_dict ho]; exact f

theorem pairStep_skip (refs1 : List RefVideo) (v1 v2 : DisVideo κ K) (st : OvState κ K)
    (hp : ¬ v1.path = v2.path) : pairStep refs1 v1 st v2 = .ok st := by
  unfold pairStep; rw [if_neg hp]

theorem keepEntry_list {a b : Option (Vote K)} {xs : List (Fl K)} (h : a = some (.many .list xs)) :
    ∃ xs', keepEntry a b = some (.many .list xs') ∧ xs.length ≤ xs'.length ∧
      ((∃ y, b = some (.one y)) → xs.length < xs'.length) := by
  subst h
  cases b with
  | none => exact ⟨xs, rfl, le_rfl, by rintro ⟨y, h⟩; cases h⟩
  | some b =>
    cases b with
    | one y => exact ⟨xs ++ [y], rfl, by simp, by simp⟩
    | many t ys => exact ⟨xs, rfl, le_rfl, by rintro ⟨y, h⟩; cases h⟩

/-- the inner loop, whatever the entries: it succeeds, lists of the first video only grow, and they grow iff
something is appended -/
theorem inner_any (refs1 : List RefVideo) (v1 : DisVideo κ K) (l : List (DisVideo κ K)) :
    ∀ (st : OvState κ K), (∀ v2 ∈ l, PlainDict v2) → PlainOs st.os1 → (st.os1.map Prod.fst).Nodup →
    ∃ st', foldPy (pairStep refs1 v1) st l = .ok st' ∧ PlainOs st'.os1 ∧
      st'.os1.map Prod.fst = st.os1.map Prod.fst ∧
      (∀ k xs, st.os1.lookup k = some (.many .list xs) → ∃ xs', st'.os1.lookup k = some (.many .list xs') ∧
        xs.length ≤ xs'.length ∧
        ((∃ v2 ∈ l, v1.path = v2.path ∧ ∃ y, entryOf v2 k = some (.one y)) → xs.length < xs'.length)) ∧
      ((∀ v2 ∈ l, v1.path = v2.path → ¬ ∃ k xs y, st.os1.lookup k = some (.many .list xs) ∧
        entryOf v2 k = some (.one y)) → st'.os1 = st.os1) := by
  induction l with
  | nil =>
    intro st _ h1 _
    exact ⟨st, rfl, h1, rfl, fun k xs h => ⟨xs, h, le_rfl, by simp⟩, fun _ => rfl⟩
  | cons v2 l ih =>
    intro st hl h1 hn
    by_cases hp : v1.path = v2.path
    · obtain ⟨s1, nv, e1, -, -, -, -, -, a1, c1, f1⟩ := pairStep_match refs1 v1 v2 st hp (hl v2 (by simp)) h1 hn
      obtain ⟨s2, e2, p2, c2, g2, f2⟩ := ih s1 (fun v hv => hl v (List.mem_cons_of_mem _ hv))
        (by intro k w hw; rw [a1] at hw; exact keepEntry_plain (h1 k) w hw) (by rw [c1]; exact hn)
      refine ⟨s2, by rw [foldPy, e1]; exact e2, p2, c2.trans c1, ?_, ?_⟩
      · intro k xs hk
        obtain ⟨xs1, hx1, hle1, hlt1⟩ := keepEntry_list (b := entryOf v2 k) hk
        obtain ⟨xs2, hx2, hle2, hlt2⟩ := g2 k xs1 (by rw [a1]; exact hx1)
        refine ⟨xs2, hx2, hle1.trans hle2, ?_⟩
        rintro ⟨v, hv, hpv, y, hy⟩
        rcases List.mem_cons.mp hv with rfl | hv
        · exact lt_of_lt_of_le (hlt1 ⟨y, hy⟩) hle2
        · exact lt_of_le_of_lt hle1 (hlt2 ⟨v, hv, hpv, y, hy⟩)
      · intro hno
        have hs1 : s1.os1 = st.os1 := f1 (hno v2 (by simp) hp)
        rw [← hs1]
        apply f2
        intro v hv hpv
        rw [hs1]
        exact hno v (List.mem_cons_of_mem _ hv) hpv
    · obtain ⟨s2, e2, p2, c2, g2, f2⟩ := ih st (fun v hv => hl v (List.mem_cons_of_mem _ hv)) h1 hn
      refine ⟨s2, by rw [foldPy, pairStep_skip _ _ _ _ hp]; exact e2, p2, c2, ?_, ?_⟩
      · intro k xs hk
        obtain ⟨xs2, hx2, hle2, hlt2⟩ := g2 k xs hk
        refine ⟨xs2, hx2, hle2, ?_⟩
        rintro ⟨v, hv, hpv, y, hy⟩
        rcases List.mem_cons.mp hv with rfl | hv
        · exact absurd hpv hp
        · exact hlt2 ⟨v, hv, hpv, y, hy⟩
      · intro hno
        exact f2 (fun v hv => hno v (List.mem_cons_of_mem _ hv))

theorem inner_nomatch (refs1 : List RefVideo) (v1 : DisVideo κ K) (l : List (DisVideo κ K)) (st : OvState κ K)
    (h : l.filter (fun v2 => decide (v1.path = v2.path)) = []) : foldPy (pairStep refs1 v1) st l = .ok st := by
  induction l with
  | nil => rfl
  | cons v l ih =>
    rw [List.filter_cons] at h
    by_cases hp : v1.path = v.path
    · simp [hp] at h
    · rw [foldPy, pairStep_skip _ _ _ _ hp]
      exact ih (by simpa [hp] using h)

/-- what a new video must be -/
def GoodNew (v1 : DisVideo κ K) (os1 : List (κ × Vote K)) (n : Int) (osF : List (κ × Vote K)) (v2 : DisVideo κ K)
    (nv : NewVideo κ K) : Prop :=
  nv.base = v1 ∧ nv.contentId = n ∧ (nv.os.map Prod.fst).Nodup ∧
    ∀ k, (nv.os.lookup k).bind (Cell.resolve osF) = combineEntry (os1.lookup k) (entryOf v2 k)

/-- the inner loop when each first-dataset list is appended to at most once -/
theorem inner_good (refs1 : List RefVideo) (v1 : DisVideo κ K) (l : List (DisVideo κ K)) :
    ∀ (st : OvState κ K), (∀ v2 ∈ l, PlainDict v2) → PlainOs st.os1 → (st.os1.map Prod.fst).Nodup →
    st.refs = refsFor refs1 st.contentIds →
    ((l.filter fun v2 => decide (v1.path = v2.path)).length ≤ 1 ∨
      ∀ v2 ∈ l, v1.path = v2.path → ¬ ∃ k xs y, st.os1.lookup k = some (.many .list xs) ∧
        entryOf v2 k = some (.one y)) →
    ∃ st' N, foldPy (pairStep refs1 v1) st l = .ok st' ∧ st'.news = st.news ++ N ∧
      st'.contentIds = (if l.filter (fun v2 => decide (v1.path = v2.path)) = [] then st.contentIds
        else pushId st.contentIds v1.contentId) ∧
      st'.refs = refsFor refs1 st'.contentIds ∧
      List.Forall₂ (GoodNew v1 st.os1 ((pushId st.contentIds v1.contentId).idxOf v1.contentId : Int) st'.os1)
        (l.filter fun v2 => decide (v1.path = v2.path)) N := by
  induction l with
  | nil =>
    intro st _ _ _ hr _
    exact ⟨st, [], rfl, by simp, by simp, hr, by simp⟩
  | cons v2 l ih =>
    intro st hl h1 hn hr hcase
    have hl' : ∀ v ∈ l, PlainDict v := fun v hv => hl v (List.mem_cons_of_mem _ hv)
    by_cases hp : v1.path = v2.path
    · have hM : (v2 :: l).filter (fun v2 => decide (v1.path = v2.path))
          = v2 :: l.filter (fun v2 => decide (v1.path = v2.path)) := by
        rw [List.filter_cons, if_pos (by simpa using hp)]
      obtain ⟨s1, nv, e1, nw1, id1, bs1, nd1, cb1, a1, c1, f1⟩ :=
        pairStep_match refs1 v1 v2 st hp (hl v2 (by simp)) h1 hn
      rw [hr, useContent_spec] at id1
      simp only [Prod.mk.injEq] at id1
      obtain ⟨i1, i2, i3⟩ := id1
      rw [hM] at hcase ⊢
      rcases hcase with hc | hc
      · have hnil : l.filter (fun v2 => decide (v1.path = v2.path)) = [] := by
          simpa using hc
        refine ⟨s1, [nv], by rw [foldPy, e1]; exact inner_nomatch _ _ _ _ hnil, nw1, by simp [i1], by rw [i2, i1], ?_⟩
        rw [hnil]
        exact List.Forall₂.cons ⟨bs1, i3, nd1, cb1⟩ List.Forall₂.nil
      · have hs1 : s1.os1 = st.os1 := f1 (hc v2 (by simp) hp)
        have hc' : ∀ v ∈ l, v1.path = v.path → ¬ ∃ k xs y, s1.os1.lookup k = some (.many .list xs) ∧
            entryOf v k = some (.one y) := by
          intro v hv hpv
          rw [hs1]
          exact hc v (List.mem_cons_of_mem _ hv) hpv
        obtain ⟨s2, N, e2, nw2, ci2, r2, g2⟩ := ih s1 hl' (by rw [hs1]; exact h1) (by rw [hs1]; exact hn)
          (by rw [i2, i1]) (Or.inr hc')
        obtain ⟨s2', e2', -, -, -, f2⟩ := inner_any refs1 v1 l s1 hl' (by rw [hs1]; exact h1) (by rw [hs1]; exact hn)
        have hs2 : s2.os1 = s1.os1 := by
          rw [e2] at e2'
          cases e2'
          exact f2 hc'
        refine ⟨s2, nv :: N, by rw [foldPy, e1]; exact e2, ?_, ?_, r2, ?_⟩
        · rw [nw2, nw1, List.append_assoc]; rfl
        · rw [ci2, i1, pushId_idem]; simp
        · refine List.Forall₂.cons ⟨bs1, i3, nd1, ?_⟩ ?_
          · rw [hs2]; exact cb1
          · rw [i1, pushId_idem, hs1] at g2; exact g2
    · have hM : (v2 :: l).filter (fun v2 => decide (v1.path = v2.path))
          = l.filter (fun v2 => decide (v1.path = v2.path)) := by
        rw [List.filter_cons, if_neg (by simpa using hp)]
      rw [hM] at hcase ⊢
      obtain ⟨s2, N, e2, nw2, ci2, r2, g2⟩ := ih st hl' h1 hn hr
        (hcase.imp id fun h v hv => h v (List.mem_cons_of_mem _ hv))
      exact ⟨s2, N, by rw [foldPy, pairStep_skip _ _ _ _ hp]; exact e2, nw2, ci2, r2, g2⟩

end loop

section outer
variable [DecidableEq κ]

/-- a first-dataset video before and after the call -/
def Grown (second : List (DisVideo κ K)) (v v' : DisVideo κ K) : Prop :=
  ∃ os1 os1', v.os = some (.dict os1) ∧ v' = { v with os := some (.dict os1') } ∧
    os1'.map Prod.fst = os1.map Prod.fst ∧
    (∀ k xs, os1.lookup k = some (.many .list xs) → ∃ xs', os1'.lookup k = some (.many .list xs') ∧
        xs.length ≤ xs'.length ∧
        ((∃ v2 ∈ second, v.path = v2.path ∧ ∃ y, entryOf v2 k = some (.one y)) → xs.length < xs'.length)) ∧
    ((∀ v2 ∈ second, v.path = v2.path → ¬ ∃ k xs y, os1.lookup k = some (.many .list xs) ∧
        entryOf v2 k = some (.one y)) → os1' = os1)

theorem PlainDict.plainOs {v : DisVideo κ K} {os} (h : PlainDict v) (ho : v.os = some (.dict os)) :
    PlainOs os ∧ (os.map Prod.fst).Nodup := by
  obtain ⟨os', ho', hn, hp⟩ := h
  rw [ho] at ho'
  cases ho'
  exact ⟨fun k w hw => hp (k, w) (mem_of_lookup hw), hn⟩

theorem outer_any (refs1 : List RefVideo) (second : List (DisVideo κ K)) (h2 : ∀ v ∈ second, PlainDict v)
    (first : List (DisVideo κ K)) (h1 : ∀ v ∈ first, PlainDict v) : ∀ (ids : List Int) (refs : List RefVideo),
    ∃ firsts refs' news, overlapLoop refs1 second first ids refs = .ok (firsts, refs', news) ∧
      List.Forall₂ (Grown second) first firsts := by
  induction first with
  | nil => intro ids refs; exact ⟨[], refs, [], rfl, List.Forall₂.nil⟩
  | cons v first ih =>
    intro ids refs
    obtain ⟨os, ho, hn, hp⟩ := h1 v (by simp)
    obtain ⟨ho1, hn1⟩ := (h1 v (by simp)).plainOs ho
    obtain ⟨st, e, p1, c1, g1, f1⟩ := inner_any refs1 v second
      { os1 := os, contentIds := ids, refs := refs, news := [] } h2 ho1 hn1
    obtain ⟨firsts, refs', news, e2, g2⟩ := ih (fun v hv => h1 v (List.mem_cons_of_mem _ hv)) st.contentIds st.refs
    refine ⟨{ v with os := some (.dict st.os1) } :: firsts, refs', st.news.map (NewVideo.resolve st.os1) ++ news,
      ?_, List.Forall₂.cons ⟨os, st.os1, ho, rfl, c1, g1, f1⟩ g2⟩
    unfold overlapLoop
    rw [ho]
    dsimp only
    rw [e]
    dsimp only
    rw [e2]

/-- the content ids in use after the given pairs -/
def idsAfter (ids : List Int) (pairs : List (DisVideo κ K × DisVideo κ K)) : List Int :=
  pairs.foldl (fun ids p => pushId ids p.1.contentId) ids

theorem idsAfter_prefix (ids : List Int) (pairs : List (DisVideo κ K × DisVideo κ K)) :
    ∃ extra, idsAfter ids pairs = ids ++ extra := by
  unfold idsAfter
  induction pairs generalizing ids with
  | nil => exact ⟨[], by simp⟩
  | cons p l ih =>
    obtain ⟨ex, h⟩ := ih (pushId ids p.1.contentId)
    rw [List.foldl_cons, h]
    unfold pushId
    split
    · exact ⟨ex, rfl⟩
    · exact ⟨p.1.contentId :: ex, by simp⟩

theorem idsAfter_same (v1 : DisVideo κ K) (M : List (DisVideo κ K)) (ids : List Int) :
    idsAfter ids (M.map fun v2 => (v1, v2)) = if M = [] then ids else pushId ids v1.contentId := by
  unfold idsAfter
  induction M generalizing ids with
  | nil => rfl
  | cons v M ih =>
    rw [List.map_cons, List.foldl_cons, ih, if_neg (by simp : ¬ v :: M = [])]
    split
    · rfl
    · rw [pushId_idem]

/-- a combined video -/
def CombinedAs (ids : List Int) (p : DisVideo κ K × DisVideo κ K) (nv : DisVideo κ K) : Prop :=
  ∃ d, nv = { p.1 with contentId := (ids.idxOf p.1.contentId : Int), os := some (.dict d) } ∧
    (d.map Prod.fst).Nodup ∧ ∀ k, d.lookup k = combineEntry (entryOf p.1 k) (entryOf p.2 k)

theorem outer_good (refs1 : List RefVideo) (second : List (DisVideo κ K)) (h2 : ∀ v ∈ second, PlainDict v)
    (first : List (DisVideo κ K)) (h1 : ∀ v ∈ first, PlainDict v)
    (hc : ∀ v1 ∈ first, (second.filter fun v2 => decide (v1.path = v2.path)).length ≤ 1 ∨
      ∀ v2 ∈ second, v1.path = v2.path → ¬ Appends v1 v2) : ∀ (ids : List Int),
    ∃ firsts news, overlapLoop refs1 second first ids (refsFor refs1 ids)
        = .ok (firsts, refsFor refs1 (idsAfter ids (overlapPairs first second)), news) ∧
      List.Forall₂ (CombinedAs (idsAfter ids (overlapPairs first second))) (overlapPairs first second) news := by
  induction first with
  | nil => intro ids; exact ⟨[], [], rfl, List.Forall₂.nil⟩
  | cons v first ih =>
    intro ids
    obtain ⟨os, ho, hn, hp⟩ := h1 v (by simp)
    obtain ⟨ho1, hn1⟩ := (h1 v (by simp)).plainOs ho
    obtain ⟨st, N, e, nw, ci, r, g⟩ := inner_good refs1 v second
      { os1 := os, contentIds := ids, refs := refsFor refs1 ids, news := [] } h2 ho1 hn1 rfl
      ((hc v (by simp)).imp id (fun h v2 hv2 hpv => by
        intro ⟨k, xs, y, hx, hy⟩
        exact h v2 hv2 hpv ⟨k, xs, y, by rw [entryOf_dict ho]; exact hx, hy⟩))
    obtain ⟨firsts, news, e2, g2⟩ := ih (fun v hv => h1 v (List.mem_cons_of_mem _ hv))
      (fun v hv => hc v (List.mem_cons_of_mem _ hv)) st.contentIds
    have hpairs : overlapPairs (v :: first) second =
        (second.filter fun v2 => decide (v.path = v2.path)).map (fun v2 => (v, v2)) ++ overlapPairs first second := by
      simp [overlapPairs]
    have hids : idsAfter ids (overlapPairs (v :: first) second) = idsAfter st.contentIds (overlapPairs first second) := by
      rw [hpairs, idsAfter, List.foldl_append]
      show idsAfter (idsAfter ids _) _ = _
      rw [idsAfter_same, ci]
    obtain ⟨extra, hex⟩ := idsAfter_prefix st.contentIds (overlapPairs first second)
    refine ⟨{ v with os := some (.dict st.os1) } :: firsts, st.news.map (NewVideo.resolve st.os1) ++ news, ?_, ?_⟩
    · unfold overlapLoop
      rw [ho]
      dsimp only
      rw [e]
      dsimp only
      rw [r, e2, hids]
    · rw [hids, hpairs]
      apply List.rel_append _ g2
      rw [nw, List.nil_append, List.forall₂_map_left_iff, List.forall₂_map_right_iff]
      refine (List.Forall₂.imp ?_ ((List.forall₂_and_left (p := fun v2 => v2 ∈ second.filter
        fun v2 => decide (v.path = v2.path)) _ _).mpr ⟨fun _ h => h, g⟩))
      rintro v2 nv ⟨hmem, hb, hi, hnd, hcomb⟩
      have hne : second.filter (fun v2 => decide (v.path = v2.path)) ≠ [] := List.ne_nil_of_mem hmem
      rw [if_neg hne] at ci
      dsimp only at ci hi
      refine ⟨nv.os.filterMap fun p => (p.2.resolve st.os1).map fun x => (p.1, x), ?_, ?_, ?_⟩
      · unfold NewVideo.resolve
        rw [hb, hi, hex, ci, List.idxOf_append_of_mem (by rw [mem_pushId]; exact Or.inr rfl)]
      · exact (filterMap_val_keys nv.os (Cell.resolve st.os1)).nodup hnd
      · intro k
        rw [lookup_filterMap_val nv.os (Cell.resolve st.os1) k hnd, hcomb, entryOf_dict ho]

theorem foldl_pushId (l : List Int) (ids : List Int) :
    l.foldl pushId ids = ids ++ (firstUses l).filter fun c => decide (c ∉ ids) := by
  induction l generalizing ids with
  | nil => simp [firstUses]
  | cons c l ih =>
    rw [List.foldl_cons, ih, firstUses, List.filter_cons]
    unfold pushId
    by_cases hc : c ∈ ids
    · rw [if_pos hc, if_neg (by simpa using hc), List.filter_filter]
      congr 1
      apply List.filter_congr
      intro x _
      by_cases hx : x = c
      · subst hx; simp [hc]
      · simp [hx]
    · rw [if_neg hc, if_pos (by simpa using hc), List.filter_filter, List.append_assoc, List.singleton_append]
      congr 2
      apply List.filter_congr
      intro x _
      by_cases hx : x = c
      · subst hx; simp
      · simp [hx]

theorem idsAfter_firstUses (pairs : List (DisVideo κ K × DisVideo κ K)) :
    idsAfter [] pairs = firstUses (pairs.map fun p => p.1.contentId) := by
  have := foldl_pushId (pairs.map fun p => p.1.contentId) []
  rw [List.foldl_map] at this
  simpa [idsAfter] using this

theorem mem_firstUses (l : List Int) (c : Int) : c ∈ firstUses l ↔ c ∈ l := by
  induction l with
  | nil => simp [firstUses]
  | cons a l ih =>
    simp only [firstUses, List.mem_cons, List.mem_filter, ih, decide_eq_true_eq]
    constructor
    · rintro (h | ⟨h, _⟩)
      · exact Or.inl h
      · exact Or.inr h
    · rintro (h | h)
      · exact Or.inl h
      · by_cases hc : c = a
        · exact Or.inl hc
        · exact Or.inr ⟨h, hc⟩

theorem firstUses_nodup (l : List Int) : (firstUses l).Nodup := by
  induction l with
  | nil => simp [firstUses]
  | cons a l ih =>
    rw [firstUses, List.nodup_cons]
    exact ⟨by simp, ih.filter _⟩

/-- when every id in use has a reference, the renumbered references are one per id -/
theorem refsFor_get (refs1 : List RefVideo) (ids : List Int) (h : ∀ c ∈ ids, ∃ r ∈ refs1, r.contentId = c) :
    (refsFor refs1 ids).length = ids.length ∧
    ∀ (i : ℕ) (c : Int), ids[i]? = some c → ∃ r, refs1.find? (fun r => decide (r.contentId = c)) = some r ∧
      (refsFor refs1 ids)[i]? = some { r with contentId := (i : Int) } := by
  have hf : ∀ c ∈ ids, ∃ r, refs1.find? (fun r => decide (r.contentId = c)) = some r := by
    intro c hc
    obtain ⟨r, hr, he⟩ := h c hc
    cases hfnd : refs1.find? (fun r => decide (r.contentId = c)) with
    | some r => exact ⟨r, rfl⟩
    | none => rw [List.find?_eq_none] at hfnd; exact absurd (by simpa using he) (hfnd r hr)
  have key : (refsFor refs1 ids).map some = ids.mapIdx fun i c =>
      (refs1.find? fun r => decide (r.contentId = c)).map fun r => { r with contentId := (i : Int) } := by
    unfold refsFor
    have hall : ∀ o ∈ (ids.mapIdx fun i c => (refs1.find? fun r => decide (r.contentId = c)).map fun r =>
        { r with contentId := (i : Int) }), o.isSome := by
      intro o ho
      obtain ⟨i, hi, rfl⟩ := List.mem_mapIdx.mp ho
      obtain ⟨r, hr⟩ := hf ids[i] (List.getElem_mem hi)
      rw [hr]; rfl
    generalize (ids.mapIdx fun i c => (refs1.find? fun r => decide (r.contentId = c)).map fun r =>
        { r with contentId := (i : Int) }) = L at hall
    induction L with
    | nil => rfl
    | cons o L ih =>
      have h1 := ih (fun o ho => hall o (List.mem_cons_of_mem _ ho))
      have h2 := hall o (by simp)
      cases o with
      | none => simp at h2
      | some x => simpa using h1
  refine ⟨?_, ?_⟩
  · have := congrArg List.length key
    simpa using this
  · intro i c hc
    obtain ⟨r, hr⟩ := hf c (List.mem_of_getElem? hc)
    refine ⟨r, hr, ?_⟩
    have := congrArg (fun l => l[i]?) key
    simp only [List.getElem?_map, List.getElem?_mapIdx, hc, Option.map_some, hr] at this
    cases hg : (refsFor refs1 ids)[i]? with
    | none => rw [hg] at this; cases this
    | some x => rw [hg] at this; simpa using this

end outer

theorem mapIdx_snd {α β : Type} (l : List β) (name : ℕ → α) :
    (l.mapIdx fun i v => (name i, v)).map Prod.snd = l := by
  apply List.ext_getElem
  · simp
  · intro i h1 h2; simp

/-- a source video and its dictionary-style version -/
def IsCopy (src copy : DisVideo String K) : Prop :=
  ((∃ d, src.os = some (.dict d)) ∧ copy = src) ∨
  ∃ t l d, src.os = some (.seq t l) ∧ copy = { src with os := some (.dict d) } ∧ d.map Prod.snd = l

theorem pairs_ext {α β : Type} : ∀ {l l' : List (α × β)}, l.map Prod.fst = l'.map Prod.fst →
    l.map Prod.snd = l'.map Prod.snd → l = l'
  | [], [], _, _ => rfl
  | [], _ :: _, h, _ => by cases h
  | _ :: _, [], h, _ => by cases h
  | (a, b) :: l, (a', b') :: l', h, h' => by
    simp only [List.map_cons, List.cons.injEq] at h h'
    rw [h.1, h'.1, pairs_ext h.2 h'.2]

theorem grown_iff {second : List (DisVideo String K)} {v v' : DisVideo String K} (h : Grown second v v') :
    v' = v ↔ ∀ v2 ∈ second, v.path = v2.path → ¬ Appends v v2 := by
  obtain ⟨os1, os1', ho, rfl, hk, hg, hno⟩ := h
  constructor
  · intro he v2 hv2 hp
    rintro ⟨k, xs, y, hx, hy⟩
    rw [entryOf_dict ho] at hx
    obtain ⟨xs', hx', -, hlt⟩ := hg k xs hx
    have := hlt ⟨v2, hv2, hp, y, hy⟩
    have hos : os1' = os1 := by
      have := congrArg DisVideo.os he
      rw [ho] at this
      simpa using this
    rw [hos, hx] at hx'
    cases hx'
    omega
  · intro hh
    rw [hno (by
      intro v2 hv2 hp
      rintro ⟨k, xs, y, hx, hy⟩
      exact hh v2 hv2 hp ⟨k, xs, y, by rw [entryOf_dict ho]; exact hx, hy⟩)]
    cases v
    dsimp only at ho
    rw [ho]

theorem sourceVideo_iff {second : List (DisVideo String K)} {src v v' : DisVideo String K} (hc : IsCopy src v)
    (h : Grown second v v') : sourceVideo src v' = src ↔ v' = v := by
  obtain ⟨os1, os1', ho, rfl, hk, hg, hno⟩ := h
  rcases hc with ⟨⟨d, hd⟩, rfl⟩ | ⟨t, l, d, hl, rfl, hd⟩
  · unfold sourceVideo
    rw [hd]
  · unfold sourceVideo
    rw [hl]
    dsimp only at ho hk ⊢
    cases ho
    constructor
    · intro he
      have := congrArg DisVideo.os he
      rw [hl] at this
      simp only [Option.some.injEq, Os.seq.injEq, true_and] at this
      rw [pairs_ext hk (by rw [this, hd])]
    · intro he
      have := congrArg DisVideo.os he
      simp only [Option.some.injEq, Os.dict.injEq] at this
      rw [this, hd]
      cases src
      dsimp only at hl
      rw [hl]

theorem zip_source_iff {second : List (DisVideo String K)} : ∀ {src first firsts : List (DisVideo String K)},
    List.Forall₂ IsCopy src first → List.Forall₂ (Grown second) first firsts →
    (List.zipWith sourceVideo src firsts = src ↔
      ∀ v1 ∈ first, ∀ v2 ∈ second, v1.path = v2.path → ¬ Appends v1 v2) := by
  intro src first firsts h
  induction h generalizing firsts with
  | nil => intro h2; cases h2; simp
  | cons hc hr ih =>
    intro h2
    cases h2 with
    | cons hg hrest =>
      rw [List.zipWith_cons_cons, List.cons.injEq, ih hrest, sourceVideo_iff hc hg, grown_iff hg]
      simp only [List.forall_mem_cons]

end Sureal.Conv
