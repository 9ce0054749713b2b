import Verif.Lemmas.Write
/-!
# C71, C80: datasets written as Python source and imported
-/
set_option linter.unusedSectionVars false
namespace Sureal.Props
open Sureal Spec Write
open Sureal.Format (getKey setKey getKey_setKey)
variable {K : Type}

/-- C71, partial: if every public attribute of a dataset has a name Python accepts and a value made of None, booleans, integers,
strings and finite floats (and, before numpy 2, finite numpy floats), then the dataset is written, the file can be imported, and
every public attribute comes back with the same value. Missing: other values, see `C71_refuted`; attributes that begin with two
underscores are dropped, so their names have the values they had. -/
theorem C71_roundtrip_partial (order : Pairs (Atom K) → Pairs (Atom K)) (ho : ∀ d, (entriesOf (order d)).Perm (entriesOf d))
    (ident : String → Bool) (np2 : Bool) (attrs : List (String × Value K)) (hn : (attrs.map (·.1)).Nodup)
    (href : "ref_videos" ∈ attrs.map (·.1)) (hdis : "dis_videos" ∈ attrs.map (·.1))
    (hid : ∀ p ∈ attrs, Public p.1 → ident p.1 = true) (hp : ∀ p ∈ attrs, Public p.1 → Plain np2 p.2 ∧ WellKeyed p.2)
    (loaded : Option (List (String × Value K))) :
    ∃ file env, writeOut order np2 attrs = .ok file ∧ importFile ident loaded file = .ok env ∧
      (∀ p ∈ attrs, Public p.1 → ∃ w, getKey p.1 env = some w ∧ Same w (asRead p.2)) ∧
      ∀ k, (k ∈ attrs.map (·.1) → ¬ Public k) → getKey k env = loaded.bind (getKey k) := by
  obtain ⟨pr, hpr, er⟩ := List.mem_map.mp href
  obtain ⟨pd, hpd, ed⟩ := List.mem_map.mp hdis
  have hr := getKey_of_mem hn hpr
  have hd := getKey_of_mem hn hpd
  rw [er] at hr
  rw [ed] at hd
  obtain ⟨file, hw⟩ : ∃ file, writeOut order np2 attrs = .ok file := by
    unfold writeOut
    rw [hr, hd]
    exact ⟨_, rfl⟩
  have sound := writeOut_sound hn hw
  -- what every expression in the file is worth
  have key : ∀ p ∈ file, ∃ v w, getKey p.1 attrs = some v ∧ Public p.1 ∧ Same w (asRead v) ∧ parses p.2 = true ∧
      ∀ env, eval env p.2 = .ok w := by
    intro p hpf
    obtain ⟨v, hv, hpub, he⟩ := sound p hpf
    obtain ⟨h1, h2⟩ := hp _ (mem_of_getKey hv) hpub
    rcases he with he | he
    · rw [he]
      exact ⟨v, asRead v, hv, hpub, fun _ => rfl, parses_repr np2 v h1, fun env => eval_repr np2 env v h1⟩
    · rw [he]
      have h1' := (plain_sorted ho np2 v).mpr h1
      exact ⟨v, asRead (sorted order v), hv, hpub, same_sorted ho h2, parses_repr np2 _ h1', fun env => eval_repr np2 env _ h1'⟩
  let val : String × Expr K → Value K := fun p => match eval [] p.2 with
    | .ok w => w
    | .error _ => .atom .none
  have hval : ∀ p ∈ file, ∀ env, eval env p.2 = .ok (val p) := by
    intro p hpf env
    obtain ⟨v, w, -, -, -, -, h⟩ := key p hpf
    show _ = Except.ok (match eval [] p.2 with | .ok w => w | .error _ => .atom .none)
    rw [h env, h []]
  obtain ⟨env, he, hg⟩ := exec_plain file val (loaded.getD []) hval
  refine ⟨file, env, hw, ?_, ?_, ?_⟩
  · unfold importFile
    rw [if_pos, he]
    rw [List.all_eq_true]
    intro p hpf
    obtain ⟨v, w, hv, hpub, -, h, -⟩ := key p hpf
    rw [hid _ (mem_of_getKey hv) hpub, h]; rfl
  · intro p hpa hpub
    have hv := getKey_of_mem hn hpa
    have hmem := writeOut_complete hw hv hpub
    rw [hg]
    cases hf : file.reverse.find? fun q => decide (q.1 = p.1) with
    | none =>
      exfalso
      obtain ⟨q, hq, hqk⟩ := List.mem_map.mp hmem
      have := List.find?_eq_none.mp hf q (List.mem_reverse.mpr hq)
      simp [hqk] at this
    | some q =>
      have hq := List.mem_reverse.mp (List.mem_of_find?_eq_some hf)
      have hk : q.1 = p.1 := by simpa using List.find?_some hf
      obtain ⟨v, w, hv', -, hs, -, h⟩ := key q hq
      rw [hk, hv] at hv'
      cases hv'
      refine ⟨val q, rfl, ?_⟩
      have e := hval q hq []
      rw [h] at e
      rw [← Except.ok.inj e]
      exact hs
  · intro k hk
    rw [exec_keys file _ env he k]
    · cases loaded <;> rfl
    · intro hm
      obtain ⟨q, hq, hqk⟩ := List.mem_map.mp hm
      obtain ⟨v, hv, hpub, -⟩ := sound q hq
      rw [hqk] at hv hpub
      exact hk (List.mem_map_of_mem (f := (·.1)) (mem_of_getKey hv)) hpub

/-- C71: unless a dataset has attributes called `nan`, `inf` or `np`, its file can be imported exactly if all its public
attributes have names Python accepts and plain values. -/
theorem C71_importable (order : Pairs (Atom K) → Pairs (Atom K)) (ho : ∀ d, (entriesOf (order d)).Perm (entriesOf d))
    (ident : String → Bool) (np2 : Bool) (attrs : List (String × Value K)) (hn : (attrs.map (·.1)).Nodup)
    (h1 : "nan" ∉ attrs.map (·.1)) (h2 : "inf" ∉ attrs.map (·.1)) (h3 : "np" ∉ attrs.map (·.1))
    (file : List (String × Expr K)) (hw : writeOut order np2 attrs = .ok file) :
    (∃ env, importFile ident none file = .ok env) ↔ ∀ p ∈ attrs, Public p.1 → ident p.1 = true ∧ Plain np2 p.2 := by
  have sound := writeOut_sound hn hw
  constructor
  · rintro ⟨env, he⟩ p hpa hpub
    have hv := getKey_of_mem hn hpa
    obtain ⟨q, hq, hqk⟩ := List.mem_map.mp (writeOut_complete hw hv hpub)
    unfold importFile at he
    split at he
    · next hall =>
      rw [List.all_eq_true] at hall
      have hi := hall q hq
      rw [Bool.and_eq_true, hqk] at hi
      refine ⟨hi.1, ?_⟩
      obtain ⟨env1, w, hw1, hkeep⟩ := exec_evals file _ env he q hq
      have no : ∀ k, k ∉ attrs.map (·.1) → getKey k env1 = none := by
        intro k hk
        rw [hkeep k]
        · rfl
        · intro hm
          obtain ⟨q', hq', hqk'⟩ := List.mem_map.mp hm
          obtain ⟨v, hv', -⟩ := sound q' hq'
          rw [hqk'] at hv'
          exact hk (List.mem_map_of_mem (f := (·.1)) (mem_of_getKey hv'))
      obtain ⟨v, hv', -, hq2⟩ := sound q hq
      rw [hqk, hv] at hv'
      cases hv'
      rcases hq2 with hq2 | hq2
      · rw [hq2] at hw1
        exact plain_of_eval (no _ h1) (no _ h2) (no _ h3) np2 _ _ hw1
      · rw [hq2] at hw1
        exact (plain_sorted ho np2 _).mp (plain_of_eval (no _ h1) (no _ h2) (no _ h3) np2 _ _ hw1)
    · cases he
  · intro hall
    have key : ∀ p ∈ file, ident p.1 = true ∧ parses p.2 = true ∧ ∃ w, ∀ env, eval env p.2 = .ok w := by
      intro p hpf
      obtain ⟨v, hv, hpub, he⟩ := sound p hpf
      obtain ⟨hi, hp⟩ := hall _ (mem_of_getKey hv) hpub
      rcases he with he | he
      · rw [he]
        exact ⟨hi, parses_repr np2 v hp, asRead v, fun env => eval_repr np2 env v hp⟩
      · rw [he]
        have hp' := (plain_sorted ho np2 v).mpr hp
        exact ⟨hi, parses_repr np2 _ hp', _, fun env => eval_repr np2 env _ hp'⟩
    let val : String × Expr K → Value K := fun p => match eval [] p.2 with
      | .ok w => w
      | .error _ => .atom .none
    obtain ⟨env, he, -⟩ := exec_plain file val [] fun p hpf env => by
      obtain ⟨-, -, w, h⟩ := key p hpf
      show _ = Except.ok (match eval [] p.2 with | .ok w => w | .error _ => .atom .none)
      rw [h env, h []]
    refine ⟨env, ?_⟩
    unfold importFile
    rw [if_pos]
    · exact he
    · rw [List.all_eq_true]
      intro p hpf
      obtain ⟨h, h', -⟩ := key p hpf
      rw [h, h']; rfl

/-- C71: nothing is written, and the assertion fails, exactly if the dataset has no reference or no distorted videos. -/
theorem C71_errors (order : Pairs (Atom K) → Pairs (Atom K)) (np2 : Bool) (attrs : List (String × Value K)) :
    (writeOut order np2 attrs = .error .assertion ↔ "ref_videos" ∉ attrs.map (·.1) ∨ "dis_videos" ∉ attrs.map (·.1)) ∧
    ((∃ file, writeOut order np2 attrs = .ok file) ↔ "ref_videos" ∈ attrs.map (·.1) ∧ "dis_videos" ∈ attrs.map (·.1)) := by
  have hk : ∀ k, k ∈ attrs.map (·.1) ↔ ∃ v, getKey k attrs = some v := by
    intro k
    constructor
    · intro h
      induction attrs with
      | nil => cases h
      | cons p l ih =>
        obtain ⟨k', v'⟩ := p
        by_cases hkk : k' = k
        · exact ⟨v', by rw [getKey, if_pos hkk]⟩
        · rw [getKey, if_neg hkk]
          rw [List.map_cons, List.mem_cons] at h
          exact ih (h.resolve_left fun h' => hkk h'.symm)
    · rintro ⟨v, h⟩
      exact List.mem_map_of_mem (f := (·.1)) (mem_of_getKey h)
  rw [hk, hk]
  unfold writeOut
  cases getKey "ref_videos" attrs <;> cases getKey "dis_videos" attrs <;> simp

/-! ### Concrete datasets -/

/-- a list of votes -/
private def votes (l : List (Fl ℚ)) : Value ℚ := .list (l.foldr (fun x t => .cons (.atom (.float x)) t) .nil)

/-- a dataset with one video and the given votes, as the module `attrs` -/
private def wrDataset (os : Value ℚ) : List (String × Value ℚ) :=
  [("__name__", .atom (.str "d")), ("dataset_name", .atom (.str "d")), ("ref_score", .atom (.float (.fin 5))),
   ("ref_videos", .list (.cons (.dict (.cons (.atom (.str "content_id")) (.atom (.int 0)) (.cons (.atom (.str "path"))
      (.atom (.str "r")) .nil))) .nil)),
   ("dis_videos", .list (.cons (.dict (.cons (.atom (.str "content_id")) (.atom (.int 0)) (.cons (.atom (.str "asset_id"))
      (.atom (.int 0)) (.cons (.atom (.str "os")) os .nil)))) .nil))]

private def wrIdent (s : String) : Bool := s.toList.all fun c => c.isAlphanum || c == '_'

private def reverseP : Pairs (Atom ℚ) → Pairs (Atom ℚ) → Pairs (Atom ℚ)
  | .nil, acc => acc
  | .cons k v d, acc => reverseP d (.cons k v acc)

private theorem entries_reverseP : ∀ d acc : Pairs (Atom ℚ), entriesOf (reverseP d acc) = (entriesOf d).reverse ++ entriesOf acc
  | .nil, _ => rfl
  | .cons k v d, acc => by rw [reverseP, entries_reverseP d, entriesOf, entriesOf, List.reverse_cons, List.append_assoc]; rfl

/-- the hypotheses of the theorems can be met, with dictionaries whose entries are written in another order -/
example : (∀ d, (entriesOf (reverseP d .nil)).Perm (entriesOf d)) ∧ ((wrDataset (votes [.fin 3, .fin (9/2)])).map (·.1)).Nodup ∧
    (∀ p ∈ wrDataset (votes [.fin 3, .fin (9/2)]), Public p.1 → wrIdent p.1 = true) ∧
    (∀ p ∈ wrDataset (votes [.fin 3, .fin (9/2)]), Public p.1 → Plain true p.2 ∧ WellKeyed p.2) ∧
    Public "ref_score" ∧ ¬ Public "__name__" := by
  refine ⟨fun d => ?_, by decide +kernel, ?_, ?_, ?_, ?_⟩
  · rw [entries_reverseP, entriesOf, List.append_nil]
    exact List.reverse_perm _
  · intro p hp _
    have : (wrDataset (votes [.fin 3, .fin (9/2)])).all (fun p => wrIdent p.1) = true := by decide +kernel
    exact List.all_eq_true.mp this p hp
  · intro p hp _
    simp only [wrDataset, List.mem_cons, List.not_mem_nil, or_false] at hp
    rcases hp with rfl | rfl | rfl | rfl | rfl <;>
      simp [Plain, PlainL, PlainP, PlainAtom, WellKeyed, WellKeyedL, WellKeyedP, Spec.Hashable, entriesOf, votes, asRead, asReadAtom]
  · rw [← dunder_iff]; decide +kernel
  · rw [← dunder_iff]; decide +kernel

private def missingVote : Value ℚ := votes [.fin 3, .nan]
private def npVote : Value ℚ := .list (.cons (.atom (.npFloat (.fin 3))) .nil)

/-- C71: it is not so that every dataset that is written can be imported: a missing vote is written as `nan`, a name nothing binds;
since numpy 2 a numpy float is written as `np.float64(...)`, and the file does not import numpy; a module among the attributes of
the dataset (as in a dataset file that imports something) is written as a text that is not Python at all. -/
theorem C71_refuted :
    (∃ file, writeOut id false (wrDataset missingVote) = .ok file ∧ importFile wrIdent none file = .error .nameError) ∧
    (∃ file, writeOut id true (wrDataset npVote) = .ok file ∧ importFile wrIdent none file = .error .nameError) ∧
    (∃ file, writeOut id false (("numpy", .atom .other) :: wrDataset (votes [.fin 3])) = .ok file ∧
      importFile wrIdent none file = .error .syntaxError) := by
  exact ⟨⟨_, rfl, rfl⟩, ⟨_, rfl, rfl⟩, ⟨_, rfl, rfl⟩⟩

/-! ### C80 -/

/-- C80: a name the file does not assign has the value it had in the module of that name loaded before, if there is one. -/
theorem C80_kept (ident : String → Bool) (loaded : Option (List (String × Value K))) (file : List (String × Expr K))
    (env : List (String × Value K)) (h : importFile ident loaded file = .ok env) (k : String) (hk : k ∉ file.map (·.1)) :
    getKey k env = loaded.bind (getKey k) := by
  unfold importFile at h
  split at h
  · rw [exec_keys file _ env h k hk]
    cases loaded <;> rfl
  · cases h

/-- C80, partial: a file imported when no module of its name is loaded has exactly the attributes it assigns. Missing: when a
module of that name is loaded, see `C80_refuted`. -/
theorem C80_attributes_partial (ident : String → Bool) (file : List (String × Expr K)) (env : List (String × Value K))
    (h : importFile ident none file = .ok env) (k : String) : (∃ v, getKey k env = some v) ↔ k ∈ file.map (·.1) := by
  constructor
  · rintro ⟨v, hv⟩
    by_contra hk
    rw [C80_kept ident none file env h k hk] at hv
    cases hv
  · intro hk
    unfold importFile at h
    split at h
    · exact exec_has file _ env h k hk
    · cases h

/-- C80: two dataset files of the same name in different directories. The first has a reference score, the second has none; imported
after the first, the second has the reference score of the first. -/
theorem C80_refuted : ∃ (file1 file2 : List (String × Expr ℚ)) (env1 env2 alone : List (String × Value ℚ)),
    importFile wrIdent none file1 = .ok env1 ∧ importFile wrIdent (some env1) file2 = .ok env2 ∧
    importFile wrIdent none file2 = .ok alone ∧ "ref_score" ∉ file2.map (·.1) ∧
    getKey "ref_score" env2 = some (.atom (.float (.fin 5))) ∧ getKey "ref_score" alone = none := by
  refine ⟨[("ref_score", .atom (.lit (.float (.fin 5)))), ("dis_videos", .list .nil)], [("dis_videos", .list .nil)],
    _, _, _, rfl, rfl, rfl, by decide, rfl, rfl⟩

/-- the files of a concrete dataset meet the hypotheses -/
example : ∃ file env, writeOut id false (wrDataset (votes [.fin 3])) = .ok file ∧ importFile wrIdent none file = .ok env ∧
    "ref_score" ∈ file.map (·.1) ∧ "__name__" ∉ file.map (·.1) := ⟨_, _, rfl, rfl, by decide +kernel, by decide +kernel⟩

end Sureal.Props
