import Verif.Lemmas.JsonInj
import Verif.Lemmas.Format
import Verif.Spec.Main
/-!
# Lemmas for C140: the output as a document
-/
set_option linter.unusedSectionVars false
namespace Sureal.JsonOut
open Sureal Format Spec Spec.Json
variable {ν V : Type}

/-! ## the numbers of the document are those of the output -/

theorem nums_arr (l : List (Doc V)) : nums (.arr l) = numsL l := by rw [nums]

theorem nums_obj (l : List (List Char × Doc V)) : nums (.obj l) = numsM l := by rw [nums]

theorem numsM_cons (k : List Char) (t : Doc V) (l : List (List Char × Doc V)) : numsM ((k, t) :: l) = nums t ++ numsM l := by rw [numsM]

theorem mem_numsL {l : List (Doc V)} {v : V} : v ∈ numsL l ↔ ∃ t ∈ l, v ∈ nums t := by
  induction l with
  | nil => unfold numsL; simp
  | cons t l ih => unfold numsL; simp [ih]

theorem mem_numsM {l : List (List Char × Doc V)} {v : V} : v ∈ numsM l ↔ ∃ p ∈ l, v ∈ nums p.2 := by
  induction l with
  | nil => unfold numsM; simp
  | cons p l ih => obtain ⟨k, t⟩ := p; unfold numsM; simp [ih]

theorem mem_nums_map {l : List V} {v : V} : v ∈ nums (.arr (l.map Doc.num)) ↔ v ∈ l := by
  unfold nums
  rw [mem_numsL]
  constructor
  · rintro ⟨t, ht, hv⟩
    obtain ⟨w, hw, rfl⟩ := List.mem_map.mp ht
    unfold nums at hv
    rw [List.mem_singleton.mp hv]
    exact hw
  · exact fun h => ⟨_, List.mem_map_of_mem h, by unfold nums; exact List.mem_singleton_self _⟩

theorem mem_cellTree {c : Cell V} {v : V} : v ∈ nums (cellTree c) ↔ c = .one v ∨ ∃ r, c = .row r ∧ v ∈ r := by
  cases c with
  | one w => unfold cellTree nums; simp [eq_comm]
  | row r => unfold cellTree; rw [mem_nums_map]; simp

theorem mem_valTree {c : Val V} {v : V} : v ∈ nums (valTree c) ↔ c = .num v ∨ (∃ r, c = .seq r ∧ v ∈ r) ∨ ∃ rs r, c = .rows rs ∧ r ∈ rs ∧ v ∈ r := by
  cases c with
  | none => unfold valTree nums; simp
  | num w => unfold valTree nums; simp [eq_comm]
  | seq r => unfold valTree; rw [mem_nums_map]; simp
  | rows rs =>
    unfold valTree nums
    rw [mem_numsL]
    constructor
    · rintro ⟨t, ht, hv⟩
      obtain ⟨r, hr, rfl⟩ := List.mem_map.mp ht
      exact Or.inr (Or.inr ⟨rs, r, rfl, hr, mem_nums_map.mp hv⟩)
    · rintro (h | ⟨r, h, -⟩ | ⟨rs', r, h, hr, hv⟩)
      · cases h
      · cases h
      · cases h
        exact ⟨_, List.mem_map_of_mem hr, mem_nums_map.mpr hv⟩

theorem mem_entryTree (name : ν → String) {key : String} {e : Entry ν V} {v : V} :
    v ∈ nums (entryTree name key e) ↔ ∃ T d, (T, d) ∈ e.models ∧ ∃ k c, (k, c) ∈ d ∧ v ∈ nums (cellTree c) := by
  have h1 : v ∉ numsM (match e.name with | some n => [(key.toList, Doc.str (name n).toList)] | none => ([] : List (List Char × Doc V))) := by
    intro h
    obtain ⟨p, hp, hv⟩ := mem_numsM.mp h
    cases hn : e.name with
    | none => rw [hn] at hp; cases hp
    | some n =>
      rw [hn] at hp
      rw [List.mem_singleton.mp hp] at hv
      unfold nums at hv
      cases hv
  unfold entryTree
  rw [nums_obj, mem_numsM]
  constructor
  · rintro ⟨p, hp, hv⟩
    rcases List.mem_append.mp hp with hp | hp
    · exact absurd (mem_numsM.mpr ⟨p, hp, hv⟩) h1
    · split at hp
      · cases hp
      · rw [List.mem_singleton.mp hp] at hv
        rw [nums_obj] at hv
        obtain ⟨q, hq, hv⟩ := mem_numsM.mp hv
        obtain ⟨⟨T, d⟩, hTd, rfl⟩ := List.mem_map.mp hq
        dsimp only at hv
        rw [nums_obj] at hv
        obtain ⟨q, hq, hv⟩ := mem_numsM.mp hv
        obtain ⟨⟨k, c⟩, hkc, rfl⟩ := List.mem_map.mp hq
        exact ⟨T, d, hTd, k, c, hkc, hv⟩
  · rintro ⟨T, d, hTd, k, c, hkc, hv⟩
    refine ⟨_, List.mem_append_right _ (by rw [if_neg (by rintro h; rw [h] at hTd; cases hTd)]; exact List.mem_singleton_self _), ?_⟩
    rw [nums_obj]
    refine mem_numsM.mpr ⟨_, List.mem_map_of_mem hTd, ?_⟩
    dsimp only
    rw [nums_obj]
    exact mem_numsM.mpr ⟨_, List.mem_map_of_mem hkc, hv⟩

theorem mem_sectionTree (name : ν → String) {title key : String} {o : Option (List (Entry ν V))} {v : V} :
    v ∈ numsM (sectionTree name title key o) ↔ ∃ l, o = some l ∧ ∃ e ∈ l, v ∈ nums (entryTree name key e) := by
  cases o with
  | none => unfold sectionTree numsM; simp
  | some l =>
    unfold sectionTree
    rw [mem_numsM]
    constructor
    · rintro ⟨p, hp, hv⟩
      rw [List.mem_singleton.mp hp] at hv
      unfold nums at hv
      obtain ⟨t, ht, hv⟩ := mem_numsL.mp hv
      obtain ⟨e, he, rfl⟩ := List.mem_map.mp ht
      exact ⟨l, rfl, e, he, hv⟩
    · rintro ⟨l', h, e, he, hv⟩
      cases h
      refine ⟨_, List.mem_singleton_self _, ?_⟩
      unfold nums
      exact mem_numsL.mpr ⟨_, List.mem_map_of_mem he, hv⟩

theorem numsM_append (l l' : List (List Char × Doc V)) : numsM (l ++ l') = numsM l ++ numsM l' := by
  induction l with
  | nil => rfl
  | cons p l ih => obtain ⟨k, t⟩ := p; rw [List.cons_append, numsM_cons, numsM_cons, ih, List.append_assoc]

theorem mem_tree (name : ν → String) {out : Output ν V} {v : V} : v ∈ nums (tree name out) ↔ NumberOf out v := by
  unfold tree
  rw [nums_obj, numsM_append, numsM_append, numsM_append]
  simp only [List.mem_append, mem_sectionTree, mem_entryTree, mem_cellTree]
  constructor
  · rintro (((⟨l, hl, e, he, T, d, hT, k, c, hk, hv⟩ | ⟨l, hl, e, he, T, d, hT, k, c, hk, hv⟩) | ⟨l, hl, e, he, T, d, hT, k, c, hk, hv⟩) | hv)
    · rcases hv with rfl | ⟨r, rfl, hv⟩
      · exact .cell l (Or.inl hl) e he T d hT k hk
      · exact .row l (Or.inl hl) e he T d hT k r hk hv
    · rcases hv with rfl | ⟨r, rfl, hv⟩
      · exact .cell l (Or.inr (Or.inl hl)) e he T d hT k hk
      · exact .row l (Or.inr (Or.inl hl)) e he T d hT k r hk hv
    · rcases hv with rfl | ⟨r, rfl, hv⟩
      · exact .cell l (Or.inr (Or.inr hl)) e he T d hT k hk
      · exact .row l (Or.inr (Or.inr hl)) e he T d hT k r hk hv
    · cases hs : out.stats with
      | none => rw [hs] at hv; unfold numsM at hv; cases hv
      | some st =>
        rw [hs] at hv
        obtain ⟨p, hp, hv⟩ := mem_numsM.mp hv
        rw [List.mem_singleton.mp hp] at hv
        rw [nums_obj] at hv
        obtain ⟨p, hp, hv⟩ := mem_numsM.mp hv
        rw [List.mem_singleton.mp hp] at hv
        rw [nums_obj] at hv
        obtain ⟨q, hq, hv⟩ := mem_numsM.mp hv
        obtain ⟨⟨T, d⟩, hT, rfl⟩ := List.mem_map.mp hq
        dsimp only at hv
        rw [nums_obj] at hv
        obtain ⟨q, hq, hv⟩ := mem_numsM.mp hv
        obtain ⟨⟨k, c⟩, hk, rfl⟩ := List.mem_map.mp hq
        rcases mem_valTree.mp hv with rfl | ⟨r, rfl, hv'⟩ | ⟨rs, r, rfl, hr, hv'⟩
        · exact .stat st hs T d hT k hk
        · exact .statSeq st hs T d hT k r hk hv'
        · exact .statRows st hs T d hT k rs r hk hr hv'
  · have hst : ∀ (st : List (String × List (String × Val V))) (_ : out.stats = some st) (T : String) (d : List (String × Val V)) (_ : (T, d) ∈ st)
        (k : String) (c : Val V) (_ : (k, c) ∈ d), v ∈ nums (valTree c) → v ∈ numsM (match out.stats with
          | none => []
          | some st => [("stats".toList, Doc.obj [(['m', 'o', 'd', 'e', 'l', 's'],
              .obj (st.map fun p => (p.1.toList, .obj (p.2.map fun q => (q.1.toList, valTree q.2)))))])]) := by
      intro st hs T d hT k c hk hv
      rw [hs]
      refine mem_numsM.mpr ⟨_, List.mem_singleton_self _, ?_⟩
      rw [nums_obj]
      refine mem_numsM.mpr ⟨_, List.mem_singleton_self _, ?_⟩
      rw [nums_obj]
      refine mem_numsM.mpr ⟨_, List.mem_map_of_mem hT, ?_⟩
      dsimp only
      rw [nums_obj]
      exact mem_numsM.mpr ⟨_, List.mem_map_of_mem hk, hv⟩
    rintro (⟨l, hl, e, he, T, d, hT, k, hk⟩ | ⟨l, hl, e, he, T, d, hT, k, r, hk, hv⟩ | ⟨st, hs, T, d, hT, k, hk⟩ | ⟨st, hs, T, d, hT, k, r, hk, hv⟩ |
      ⟨st, hs, T, d, hT, k, rs, r, hk, hr, hv⟩)
    · rcases hl with hl | hl | hl
      · exact Or.inl (Or.inl (Or.inl ⟨l, hl, e, he, T, d, hT, k, _, hk, Or.inl rfl⟩))
      · exact Or.inl (Or.inl (Or.inr ⟨l, hl, e, he, T, d, hT, k, _, hk, Or.inl rfl⟩))
      · exact Or.inl (Or.inr ⟨l, hl, e, he, T, d, hT, k, _, hk, Or.inl rfl⟩)
    · rcases hl with hl | hl | hl
      · exact Or.inl (Or.inl (Or.inl ⟨l, hl, e, he, T, d, hT, k, _, hk, Or.inr ⟨r, rfl, hv⟩⟩))
      · exact Or.inl (Or.inl (Or.inr ⟨l, hl, e, he, T, d, hT, k, _, hk, Or.inr ⟨r, rfl, hv⟩⟩))
      · exact Or.inl (Or.inr ⟨l, hl, e, he, T, d, hT, k, _, hk, Or.inr ⟨r, rfl, hv⟩⟩)
    · exact Or.inr (hst st hs T d hT k _ hk (mem_valTree.mpr (Or.inl rfl)))
    · exact Or.inr (hst st hs T d hT k _ hk (mem_valTree.mpr (Or.inr (Or.inl ⟨r, rfl, hv⟩))))
    · exact Or.inr (hst st hs T d hT k _ hk (mem_valTree.mpr (Or.inr (Or.inr ⟨rs, r, rfl, hr, hv⟩))))

/-! ## what is looked up in an output is all there is in it -/

theorem mem_setKey {α β : Type} [DecidableEq α] {k : α} {v : β} {d : List (α × β)} {p : α × β} (h : p ∈ setKey k v d) : p = (k, v) ∨ p ∈ d := by
  induction d with
  | nil => exact Or.inl (List.mem_singleton.mp h)
  | cons q d ih =>
    obtain ⟨k', v'⟩ := q
    unfold setKey at h
    split at h
    · rcases List.mem_cons.mp h with h | h
      · exact Or.inl h
      · exact Or.inr (List.mem_cons_of_mem _ h)
    · rcases List.mem_cons.mp h with h | h
      · exact Or.inr (h ▸ List.mem_cons_self)
      · exact (ih h).imp id (List.mem_cons_of_mem _)

theorem setKey_nodup {α β : Type} [DecidableEq α] {k : α} {v : β} {d : List (α × β)} (h : (d.map (·.1)).Nodup) : ((setKey k v d).map (·.1)).Nodup := by
  induction d with
  | nil => simp [setKey]
  | cons q d ih =>
    obtain ⟨k', v'⟩ := q
    rw [List.map_cons, List.nodup_cons] at h
    unfold setKey
    split
    · rename_i hk
      rw [List.map_cons, List.nodup_cons]
      exact hk ▸ h
    · rename_i hk
      rw [List.map_cons, List.nodup_cons]
      refine ⟨fun hm => ?_, ih h.2⟩
      obtain ⟨p, hp, he⟩ := List.mem_map.mp hm
      rcases mem_setKey hp with rfl | hp
      · exact hk he.symm
      · exact h.1 (List.mem_map.mpr ⟨p, hp, he⟩)

theorem getKey_mem {α β : Type} [DecidableEq α] {k : α} {v : β} {d : List (α × β)} (h : getKey k d = some v) : (k, v) ∈ d := by
  induction d with
  | nil => cases h
  | cons q d ih =>
    obtain ⟨k', v'⟩ := q
    unfold getKey at h
    split at h
    · rename_i hk
      cases h
      exact hk ▸ List.mem_cons_self
    · exact List.mem_cons_of_mem _ (ih h)

theorem lookup_of_mem {α β : Type} [DecidableEq α] {k : α} {v : β} {d : List (α × β)} (hn : (d.map (·.1)).Nodup) (h : (k, v) ∈ d) : d.lookup k = some v := by
  rw [← getKey_lookup]
  induction d with
  | nil => cases h
  | cons q d ih =>
    obtain ⟨k', v'⟩ := q
    rw [List.map_cons, List.nodup_cons] at hn
    unfold getKey
    rcases List.mem_cons.mp h with h | h
    · cases h
      rw [if_pos rfl]
    · rw [if_neg, ih hn.2 h]
      rintro rfl
      exact hn.1 (List.mem_map.mpr ⟨_, h, rfl⟩)

/-- a dictionary of dictionaries -/
def DictOk {β : Type} (d : List (String × List (String × β))) : Prop := (d.map (·.1)).Nodup ∧ ∀ p ∈ d, (p.2.map (·.1)).Nodup

theorem DictOk.set {β : Type} {d : List (String × List (String × β))} (h : DictOk d) (T k : String) (v : β) :
    DictOk (setKey T (setKey k v ((getKey T d).getD [])) d) := by
  refine ⟨setKey_nodup h.1, fun p hp => ?_⟩
  rcases mem_setKey hp with rfl | hp
  · refine setKey_nodup ?_
    cases hg : getKey T d with
    | none => simp
    | some e => exact h.2 _ (getKey_mem hg)
  · exact h.2 p hp

theorem DictOk.look {β : Type} {d : List (String × List (String × β))} (h : DictOk d) {T k : String} {e : List (String × β)} {v : β} (hT : (T, e) ∈ d)
    (hk : (k, v) ∈ e) : (d.lookup T).bind (·.lookup k) = some v := by
  rw [lookup_of_mem h.1 hT]
  exact lookup_of_mem (h.2 _ hT) hk

/-- every entry of a section is a dictionary of dictionaries -/
def SecOk (sec : Section ν V) : Prop := ∀ p ∈ sec, DictOk p.2.models

section
variable [DecidableEq ν]

theorem modifyAt_ok {idx : ℕ} {f : Entry ν V → Entry ν V} {sec : Section ν V} (h : SecOk sec) (hf : ∀ e, DictOk e.models → DictOk (f e).models) :
    SecOk (modifyAt idx f sec) := by
  intro p hp
  unfold modifyAt at hp
  rcases mem_setKey hp with rfl | hp
  · refine hf _ ?_
    cases hg : getKey idx sec with
    | none => exact ⟨List.nodup_nil, fun p hp => by cases hp⟩
    | some e => exact h _ (getKey_mem hg)
  · exact h p hp

theorem putName_ok {sec sec' : Section ν V} {idx : ℕ} {n : ν} (h : SecOk sec) (hp : putName sec idx n = .ok sec') : SecOk sec' := by
  unfold putName at hp
  split at hp
  · split at hp
    · cases hp
      exact modifyAt_ok h fun e he => he
    · cases hp
  · cases hp
    exact modifyAt_ok h fun e he => he

theorem putNames_ok {l : List ν} {idx : ℕ} {sec sec' : Section ν V} (h : SecOk sec) (hp : putNames l idx sec = .ok sec') : SecOk sec' := by
  induction l generalizing idx sec with
  | nil => cases hp; exact h
  | cons n l ih =>
    unfold putNames at hp
    split at hp
    · cases hp
    · rename_i hq
      exact ih (putName_ok h hq) hp

theorem putVals_ok {typ key : String} {l : List (Cell V)} {idx : ℕ} {sec : Section ν V} (h : SecOk sec) : SecOk (putVals typ key l idx sec) := by
  induction l generalizing idx sec with
  | nil => exact h
  | cons v l ih => exact ih (modifyAt_ok h fun e he => he.set typ key v)

theorem putPlain_ok {typ src key : String} {r : Res ν V} {sec sec' : Section ν V} (h : SecOk sec) (hp : putPlain typ r src key sec = .ok sec') : SecOk sec' := by
  unfold putPlain at hp
  split at hp
  · cases hp; exact h
  · split at hp
    · cases hp
    · cases hp; exact putVals_ok h

theorem putCi_ok {typ src key : String} {r : Res ν V} {sec sec' : Section ν V} (h : SecOk sec) (hp : putCi typ r src key sec = .ok sec') : SecOk sec' := by
  unfold putCi at hp
  split at hp
  · cases hp; exact h
  · split at hp
    · cases hp
    · cases hp; exact putVals_ok h

theorem steps_ok {l : List (Section ν V → Py (Section ν V))} (hl : ∀ f ∈ l, ∀ sec sec', SecOk sec → f sec = .ok sec' → SecOk sec') {sec sec' : Section ν V}
    (h : SecOk sec) (hp : steps sec l = .ok sec') : SecOk sec' := by
  induction l generalizing sec with
  | nil => cases hp; exact h
  | cons f l ih =>
    unfold steps at hp
    split at hp
    · cases hp
    · rename_i hq
      exact ih (fun f hf => hl f (List.mem_cons_of_mem _ hf)) (hl f List.mem_cons_self _ _ h hq) hp

theorem writeVideos_ok {typ : String} {r : Res ν V} {sec sec' : Section ν V} (h : SecOk sec) (hp : writeVideos typ r sec = .ok sec') : SecOk sec' := by
  refine steps_ok (fun f hf s s' hs hfs => ?_) h hp
  simp only [List.mem_cons, List.not_mem_nil, or_false] at hf
  rcases hf with rfl | rfl | rfl | rfl <;> first | exact putNames_ok hs hfs | exact putPlain_ok hs hfs | exact putCi_ok hs hfs

theorem writeObservers_ok {typ : String} {r : Res ν V} {sec sec' : Section ν V} (h : SecOk sec) (hp : writeObservers typ r sec = .ok sec') : SecOk sec' := by
  unfold writeObservers at hp
  split at hp
  · cases hp; exact h
  · refine steps_ok (fun f hf s s' hs hfs => ?_) h hp
    simp only [List.mem_cons, List.not_mem_nil, or_false] at hf
    rcases hf with rfl | rfl | rfl | rfl | rfl | rfl | rfl | rfl | rfl <;>
      first | exact putNames_ok hs hfs | exact putPlain_ok hs hfs | exact putCi_ok hs hfs

theorem writeContents_ok {typ : String} {r : Res ν V} {c : Option (List ν)} {sec sec' : Section ν V} (h : SecOk sec)
    (hp : writeContents typ r c sec = .ok sec') : SecOk sec' := by
  unfold writeContents at hp
  split at hp
  · cases hp; exact h
  · refine steps_ok (fun f hf s s' hs hfs => ?_) h hp
    simp only [List.mem_cons, List.not_mem_nil, or_false] at hf
    rcases hf with rfl | rfl | rfl | rfl <;> first | exact putNames_ok hs hfs | exact putPlain_ok hs hfs | exact putCi_ok hs hfs

/-- the output while it is built -/
structure OutOk (P : Val V → Prop) (o : Out ν V) : Prop where
  videos : SecOk o.videos
  observers : SecOk o.observers
  contents : SecOk o.contents
  stats : DictOk o.stats
  vals : ∀ p ∈ o.stats, ∀ q ∈ p.2, P q.2

theorem putStat_ok {P : Val V → Prop} {typ key : String} {r : Res ν V} {st : List (String × List (String × Val V))} (hr : ∀ v, r.data key = some v → P v)
    (h : DictOk st ∧ ∀ p ∈ st, ∀ q ∈ p.2, P q.2) : DictOk (putStat typ r key st) ∧ ∀ p ∈ putStat typ r key st, ∀ q ∈ p.2, P q.2 := by
  unfold putStat
  split
  · exact h
  · rename_i v hv
    refine ⟨h.1.set typ key v, fun p hp q hq => ?_⟩
    rcases mem_setKey hp with rfl | hp
    · rcases mem_setKey hq with rfl | hq
      · exact hr v hv
      · cases hg : getKey typ st with
        | none => rw [hg] at hq; cases hq
        | some e => rw [hg] at hq; exact h.2 _ (getKey_mem hg) q hq
    · exact h.2 p hp q hq

theorem writeAll_ok {P : Val V → Prop} {l : List (String × Res ν V × Option (List ν))} {o o' : Out ν V}
    (hP : ∀ p ∈ l, ∀ k v, k = "aic" ∨ k = "bic" → p.2.1.data k = some v → P v) (h : OutOk P o) (hp : writeAll l o = .ok o') : OutOk P o' := by
  induction l generalizing o with
  | nil => cases hp; exact h
  | cons q l ih =>
    obtain ⟨typ, r, c⟩ := q
    unfold writeAll at hp
    split at hp
    · cases hp
    · rename_i o1 hq
      refine ih (fun p hp => hP p (List.mem_cons_of_mem _ hp)) ?_ hp
      unfold writeOne at hq
      split at hq
      · cases hq
      · rename_i h1
        split at hq
        · cases hq
        · rename_i h2
          split at hq
          · cases hq
          · rename_i h3
            cases hq
            have hs := putStat_ok (typ := typ) (r := r) (fun v => hP _ List.mem_cons_self "bic" v (Or.inr rfl))
              (putStat_ok (typ := typ) (r := r) (fun v => hP _ List.mem_cons_self "aic" v (Or.inl rfl)) ⟨h.stats, h.vals⟩)
            exact ⟨writeVideos_ok h.videos h1, writeObservers_ok h.observers h2, writeContents_ok h.contents h3, hs.1, hs.2⟩

/-- validation changes nothing but the names of the observers -/
theorem validate_data {dflt : ℕ → ν} {refs : List (ℤ × Option ν)} {r : Res ν V} {p : Res ν V × Option (List ν)} (h : validate dflt refs r = .ok p) :
    p.1.data = r.data := by
  unfold validate at h
  split at h
  · cases h
  · split at h
    · cases h
    · rename_i r' hr
      split at h
      · cases h
      · cases h
        unfold validateObservers at hr
        split at hr
        · cases hr; rfl
        · split at hr
          · cases hr
          · dsimp only at hr
            split at hr
            · split at hr
              · split at hr
                · cases hr
                · cases hr; rfl
              · cases hr
            · split at hr
              · cases hr
              · cases hr; rfl

theorem mapPy_mem {α β : Type} {f : α → Py β} {l : List α} {l' : List β} (h : mapPy f l = .ok l') {b : β} (hb : b ∈ l') : ∃ a ∈ l, f a = .ok b := by
  induction l generalizing l' with
  | nil => cases h; cases hb
  | cons a l ih =>
    unfold mapPy at h
    split at h
    · cases h
    · split at h
      · cases h
      · rename_i h1 _ _ h2
        cases h
        rcases List.mem_cons.mp hb with rfl | hb
        · exact ⟨a, List.mem_cons_self, h1⟩
        · obtain ⟨a', ha', h'⟩ := ih h2 hb
          exact ⟨a', List.mem_cons_of_mem _ ha', h'⟩

end

/-! ## different outputs are different documents -/

theorem map_inj_on {α β : Type} {f : α → β} {l l' : List α} (hf : ∀ a ∈ l, ∀ b ∈ l', f a = f b → a = b) (h : l.map f = l'.map f) : l = l' := by
  induction l generalizing l' with
  | nil => cases l' with
    | nil => rfl
    | cons b l' => cases h
  | cons a l ih => cases l' with
    | nil => cases h
    | cons b l' =>
      rw [List.map_cons, List.map_cons] at h
      obtain ⟨h1, h2⟩ := List.cons.inj h
      rw [hf a List.mem_cons_self b List.mem_cons_self h1,
        ih (fun a ha b hb => hf a (List.mem_cons_of_mem _ ha) b (List.mem_cons_of_mem _ hb)) h2]

theorem map_num_inj {l l' : List V} (h : l.map Doc.num = l'.map Doc.num) : l = l' :=
  map_inj_on (fun _ _ _ _ h => Doc.num.inj h) h

theorem cellTree_inj {c c' : Cell V} (h : cellTree c = cellTree c') : c = c' := by
  cases c <;> cases c' <;> unfold cellTree at h
  · rw [Doc.num.inj h]
  · cases h
  · cases h
  · rw [map_num_inj (Doc.arr.inj h)]

theorem models_inj {β : Type} {f : β → Doc V} {d d' : List (String × List (String × β))}
    (hf : ∀ p ∈ d, ∀ q ∈ p.2, ∀ p' ∈ d', ∀ q' ∈ p'.2, f q.2 = f q'.2 → q.2 = q'.2)
    (h : (d.map fun p => (p.1.toList, Doc.obj (p.2.map fun q => (q.1.toList, f q.2)))) =
      d'.map fun p => (p.1.toList, Doc.obj (p.2.map fun q => (q.1.toList, f q.2)))) : d = d' := by
  refine map_inj_on (fun p hp p' hp' he => ?_) h
  obtain ⟨h1, h2⟩ := Prod.mk.inj he
  refine Prod.ext (String.toList_inj.mp h1) (map_inj_on (fun q hq q' hq' he => ?_) (Doc.obj.inj h2))
  obtain ⟨h1, h2⟩ := Prod.mk.inj he
  exact Prod.ext (String.toList_inj.mp h1) (hf p hp q hq p' hp' q' hq' h2)

theorem entryTree_inj {key : String} (hkey : key.toList ≠ ['m', 'o', 'd', 'e', 'l', 's']) {e e' : Entry String V} (h : entryTree id key e = entryTree id key e') :
    e = e' := by
  obtain ⟨n, m⟩ := e
  obtain ⟨n', m'⟩ := e'
  unfold entryTree at h
  have h := Doc.obj.inj h
  dsimp only at h
  have hm : ∀ (m m' : List (String × List (String × Cell V))),
      (if m = [] then [] else [(['m', 'o', 'd', 'e', 'l', 's'], Doc.obj (m.map fun p => (p.1.toList, Doc.obj (p.2.map fun q => (q.1.toList, cellTree q.2)))))]) =
      (if m' = [] then [] else [(['m', 'o', 'd', 'e', 'l', 's'], Doc.obj (m'.map fun p => (p.1.toList, Doc.obj (p.2.map fun q => (q.1.toList, cellTree q.2)))))]) →
      m = m' := by
    intro m m' h
    by_cases h1 : m = [] <;> by_cases h2 : m' = []
    · rw [h1, h2]
    · rw [if_pos h1, if_neg h2] at h; cases h
    · rw [if_neg h1, if_pos h2] at h; cases h
    · rw [if_neg h1, if_neg h2] at h
      exact models_inj (fun _ _ _ _ _ _ _ _ h => cellTree_inj h) (Doc.obj.inj (Prod.mk.inj (List.cons.inj h).1).2)
  have hk : ∀ (n : String) (l : List (List Char × Doc V)) (m : List (String × List (String × Cell V))),
      (key.toList, Doc.str (id n).toList) :: l ≠
      (if m = [] then [] else [(['m', 'o', 'd', 'e', 'l', 's'], Doc.obj (m.map fun p => (p.1.toList, Doc.obj (p.2.map fun q => (q.1.toList, cellTree q.2)))))]) := by
    intro n l m h
    split at h
    · cases h
    · exact hkey (Prod.mk.inj (List.cons.inj h).1).1
  cases n with
  | none =>
    cases n' with
    | none => rw [hm m m' h]
    | some n' => exact absurd h.symm (hk n' _ m)
  | some n =>
    cases n' with
    | none => exact absurd h (hk n _ m')
    | some n' =>
      obtain ⟨h1, h2⟩ := List.cons.inj h
      have hn : n = n' := String.toList_inj.mp (Doc.str.inj (Prod.mk.inj h1).2)
      rw [hm m m' h2, hn]

theorem sectionTree_inj {title key : String} (hkey : key.toList ≠ ['m', 'o', 'd', 'e', 'l', 's']) {o o' : Option (List (Entry String V))}
    {r r' : List (List Char × Doc V)} (hr : ∀ p ∈ r, p.1 ≠ title.toList) (hr' : ∀ p ∈ r', p.1 ≠ title.toList)
    (h : sectionTree id title key o ++ r = sectionTree id title key o' ++ r') : o = o' ∧ r = r' := by
  cases o with
  | none =>
    cases o' with
    | none => exact ⟨rfl, h⟩
    | some l' =>
      change r = _ :: r' at h
      exact absurd rfl (hr (_, _) (h ▸ List.mem_cons_self))
  | some l =>
    cases o' with
    | none =>
      change _ :: r = r' at h
      exact absurd rfl (hr' (_, _) (h ▸ List.mem_cons_self))
    | some l' =>
      obtain ⟨h1, h2⟩ := List.cons.inj h
      refine ⟨?_, h2⟩
      rw [map_inj_on (fun e _ e' _ he => entryTree_inj hkey he) (Doc.arr.inj (Prod.mk.inj h1).2)]

/-- the part of the document for the statistics -/
def statsTree (o : Option (List (String × List (String × Val V)))) : List (List Char × Doc V) :=
  match o with
  | none => []
  | some st => [("stats".toList, .obj [(['m', 'o', 'd', 'e', 'l', 's'],
      .obj (st.map fun p => (p.1.toList, .obj (p.2.map fun q => (q.1.toList, valTree q.2)))))])]

theorem sectionTree_keys {title key : String} {o : Option (List (Entry String V))} : ∀ p ∈ sectionTree id title key o, p.1 = title.toList := by
  intro p hp
  cases o with
  | none => cases hp
  | some l => rw [List.mem_singleton.mp hp]

theorem statsTree_keys {o : Option (List (String × List (String × Val V)))} : ∀ p ∈ statsTree o, p.1 = "stats".toList := by
  intro p hp
  cases o with
  | none => cases hp
  | some l => rw [List.mem_singleton.mp hp]

/-- the statistics hold numbers -/
def NumStats (out : Output String V) : Prop := ∀ st, out.stats = some st → ∀ p ∈ st, ∀ q ∈ p.2, ∃ x, q.2 = .num x

theorem tree_inj {out out' : Output String V} (hs : NumStats out) (hs' : NumStats out') (h : tree id out = tree id out') : out = out' := by
  have h : sectionTree id "dis_videos" "dis_video_name" out.disVideos ++ sectionTree id "observers" "observer" out.observers ++
      sectionTree id "contents" "content" out.contents ++ statsTree out.stats =
      sectionTree id "dis_videos" "dis_video_name" out'.disVideos ++ sectionTree id "observers" "observer" out'.observers ++
      sectionTree id "contents" "content" out'.contents ++ statsTree out'.stats := Doc.obj.inj h
  obtain ⟨v, o, c, s⟩ := out
  obtain ⟨v', o', c', s'⟩ := out'
  rw [List.append_assoc, List.append_assoc, List.append_assoc, List.append_assoc] at h
  have hst : ∀ (s : Option (List (String × List (String × Val V)))) (t : String), t.toList ≠ "stats".toList → ∀ p ∈ statsTree s, p.1 ≠ t.toList :=
    fun s t ht p hp he => ht (he.symm.trans (statsTree_keys p hp))
  have hse : ∀ (o : Option (List (Entry String V))) (title key t : String), t.toList ≠ title.toList → ∀ p ∈ sectionTree id title key o, p.1 ≠ t.toList :=
    fun o title key t ht p hp he => ht (he.symm.trans (sectionTree_keys p hp))
  have h2 : ∀ (c : Option (List (Entry String V))) (s : Option (List (String × List (String × Val V)))),
      ∀ p ∈ sectionTree id "contents" "content" c ++ statsTree s, p.1 ≠ "observers".toList := fun c s p hp =>
    (List.mem_append.mp hp).elim (hse c _ _ _ (by decide) p) (hst s _ (by decide) p)
  have h1 : ∀ (o c : Option (List (Entry String V))) (s : Option (List (String × List (String × Val V)))),
      ∀ p ∈ sectionTree id "observers" "observer" o ++ (sectionTree id "contents" "content" c ++ statsTree s), p.1 ≠ "dis_videos".toList :=
    fun o c s p hp => (List.mem_append.mp hp).elim (hse o _ _ _ (by decide) p) fun hp =>
      (List.mem_append.mp hp).elim (hse c _ _ _ (by decide) p) (hst s _ (by decide) p)
  obtain ⟨e1, h⟩ := sectionTree_inj (by decide) (h1 o c s) (h1 o' c' s') h
  obtain ⟨e2, h⟩ := sectionTree_inj (by decide) (h2 c s) (h2 c' s') h
  obtain ⟨e3, h⟩ := sectionTree_inj (by decide) (hst s _ (by decide)) (hst s' _ (by decide)) h
  dsimp only at e1 e2 e3
  have e4 : s = s' := by
    cases s with
    | none => cases s' with
      | none => rfl
      | some st' => cases h
    | some st => cases s' with
      | none => cases h
      | some st' =>
        have h := Doc.obj.inj (Prod.mk.inj (List.cons.inj (Doc.obj.inj (Prod.mk.inj (List.cons.inj h).1).2)).1).2
        rw [models_inj (fun p hp q hq p' hp' q' hq' he => ?_) h]
        obtain ⟨x, hx⟩ := hs st rfl p hp q hq
        obtain ⟨x', hx'⟩ := hs' st' rfl p' hp' q' hq'
        rw [hx, hx'] at he ⊢
        rw [Doc.num.inj he]
  rw [e1, e2, e3, e4]

end Sureal.JsonOut
