import Verif.Lemmas.Paths
/-!
# C164: the paths of the package

`file` is the path of config.py: a directory, a separator and a name.
-/
namespace Sureal.Props
open Sureal Sureal.Spec Sureal.Paths
variable {δ : Type}

/-! ## on any file system -/

/-- a joined path leads where one gets by following its parts one after the other, wherever one starts and whatever links there are -/
theorem C164_join (fs : Places δ) (cur : δ) (a : List Char) (ps : List (List Char)) :
    fs.goTo cur (Paths.join a ps) = ps.foldl fs.goTo (fs.goTo cur a) := goTo_join fs cur a ps

/-- the paths of the configuration: the components are followed from the directory above that of config.py, and in it from `workspace`, `workspace/workdir`,
`resource` and `test/resource` -/
theorem C164_configuration (fs : Places δ) (cur : δ) (dir name : List Char) (hn : '/' ∉ name) (hd : dir ≠ []) (ps : List (List Char)) :
    ∃ root, root = fs.enter (fs.goTo cur dir) "..".toList ∧
      fs.goTo cur (rootPath (dir ++ '/' :: name) ps) = ps.foldl fs.goTo root ∧
      fs.goTo cur (workspacePath (dir ++ '/' :: name) ps) = ps.foldl fs.goTo (fs.enter root "workspace".toList) ∧
      fs.goTo cur (workdirPath (dir ++ '/' :: name) ps) = ps.foldl fs.goTo (fs.enter (fs.enter root "workspace".toList) "workdir".toList) ∧
      fs.goTo cur (resourcePath (dir ++ '/' :: name) ps) = ps.foldl fs.goTo (fs.enter root "resource".toList) ∧
      fs.goTo cur (testResourcePath (dir ++ '/' :: name) ps) = ps.foldl fs.goTo (fs.enter (fs.enter root "test".toList) "resource".toList) := by
  refine ⟨_, rfl, goTo_root fs cur dir name hn hd ps, ?_, ?_, ?_, ?_⟩
  · unfold workspacePath
    rw [goTo_root fs cur dir name hn hd, List.foldl_cons, goTo_plain fs _ (by decide) (by decide)]
  · unfold workdirPath
    rw [goTo_root fs cur dir name hn hd, List.foldl_cons, List.foldl_cons, goTo_plain fs _ (by decide) (by decide), goTo_plain fs _ (by decide) (by decide)]
  · unfold resourcePath
    rw [goTo_root fs cur dir name hn hd, List.foldl_cons, goTo_plain fs _ (by decide) (by decide)]
  · unfold testResourcePath
    rw [goTo_root fs cur dir name hn hd, List.foldl_cons, List.foldl_cons, goTo_plain fs _ (by decide) (by decide), goTo_plain fs _ (by decide) (by decide)]

/-- the hypotheses are met by a usual place of the file -/
example : ∃ dir name : List Char, '/' ∉ name ∧ dir ≠ [] ∧ dir ++ '/' :: name = "/home/u/sureal/sureal/config.py".toList :=
  ⟨"/home/u/sureal/sureal".toList, "config.py".toList, by decide, by decide, by decide⟩

/-! ## in directories without links -/

/-- components that do not begin at the top and do not go up lead to places below the root of the package. Missing: the other components, for which it is
refuted below -/
theorem C164_inside_partial (cur : List (List Char)) (dir name : List Char) (hn : '/' ∉ name) (hd : dir ≠ []) (ps : List (List Char)) (h : ∀ p ∈ ps, Downward p) :
    (treePlaces.goTo cur dir).dropLast <+: treePlaces.goTo cur (rootPath (dir ++ '/' :: name) ps) := by
  rw [goTo_root treePlaces cur dir name hn hd]
  exact goTo_downs _ h

example : Downward "a/b.json".toList := by unfold Downward namesIn; decide +kernel

/-- for example one component with a separator in front, or one that goes up, leads out of the workspace -/
theorem C164_outside_refuted : ∃ file : List Char, ∃ p q : List Char,
    treePlaces.goTo [] (workspacePath file []) = ["p".toList, "workspace".toList] ∧
    treePlaces.goTo [] (workspacePath file [p]) = ["x".toList] ∧ treePlaces.goTo [] (workspacePath file [q]) = ["p".toList, "x".toList] ∧
    p = "/x".toList ∧ q = "../x".toList :=
  ⟨"/p/sureal/config.py".toList, "/x".toList, "../x".toList, by decide +kernel, by decide +kernel, by decide +kernel, rfl, rfl⟩

/-- plain names as components are the names of the place below the root; so different names are different places -/
theorem C164_names (cur : List (List Char)) (dir name : List Char) (hn : '/' ∉ name) (hd : dir ≠ []) :
    (∀ ps : List (List Char), (∀ p ∈ ps, PlainName p) →
      treePlaces.goTo cur (rootPath (dir ++ '/' :: name) ps) = (treePlaces.goTo cur dir).dropLast ++ ps) ∧
    ∀ ps qs : List (List Char), (∀ p ∈ ps, PlainName p) → (∀ q ∈ qs, PlainName q) →
      treePlaces.goTo cur (rootPath (dir ++ '/' :: name) ps) = treePlaces.goTo cur (rootPath (dir ++ '/' :: name) qs) → ps = qs := by
  have h1 : ∀ ps : List (List Char), (∀ p ∈ ps, PlainName p) →
      treePlaces.goTo cur (rootPath (dir ++ '/' :: name) ps) = (treePlaces.goTo cur dir).dropLast ++ ps := by
    intro ps h
    rw [goTo_root treePlaces cur dir name hn hd, goTo_names _ h]
    rfl
  refine ⟨h1, fun ps qs hp hq h => ?_⟩
  rw [h1 ps hp, h1 qs hq] at h
  exact List.append_cancel_left h

example : PlainName "model.json".toList := by unfold PlainName; decide

/-- figures and output: figure `k` is the file `k.format` of the directory asked for, or of `workspace/output`; no two figures have the same file and none has
that of the output -/
theorem C164_figures (cur : List (List Char)) (file : List Char) (dest format : Option (List Char)) (hf : ∀ f, format = some f → '/' ∉ f) :
    (∀ k, treePlaces.goTo cur (figurePath file dest format k) =
      treePlaces.goTo cur (figureDir file dest) ++ [(toString k).toList ++ '.' :: format.getD "png".toList]) ∧
    (∀ k l, treePlaces.goTo cur (figurePath file dest format k) = treePlaces.goTo cur (figurePath file dest format l) → k = l) ∧
    (∀ d k, dest = some d → treePlaces.goTo cur (figurePath file dest format k) ≠ treePlaces.goTo cur (outputPath d)) ∧
    (dest = none → figureDir file dest = workspacePath file ["output".toList]) := by
  have hfmt : '/' ∉ format.getD "png".toList := by
    cases format with
    | none => decide
    | some f => exact hf f rfl
  have dig : ∀ k : ℕ, ∃ x t, (toString k).toList = x :: t ∧ x.isDigit = true := by
    intro k
    cases hk : (toString k).toList with
    | nil =>
      rw [Nat.toString_eq_ofList_toDigits, String.toList_ofList] at hk
      exact absurd hk Nat.toDigits_ne_nil
    | cons x t =>
      refine ⟨x, t, rfl, ?_⟩
      rw [Nat.toString_eq_ofList_toDigits, String.toList_ofList] at hk
      exact Nat.isDigit_of_mem_toDigits (b := 10) (n := k) (by norm_num) (by norm_num) (by rw [hk]; exact List.mem_cons_self)
  have plain : ∀ k : ℕ, PlainName ((toString k).toList ++ '.' :: format.getD "png".toList) := by
    intro k
    obtain ⟨x, t, hx, hd⟩ := dig k
    have hx' : x ≠ '.' := by rintro rfl; exact absurd hd (by decide)
    refine ⟨by simp, ?_, ?_, ?_⟩
    · simp only [List.mem_append, List.mem_cons, not_or]
      exact ⟨digits_no k '/' (by decide), by decide, hfmt⟩
    · rw [hx]
      simp [hx']
    · rw [hx]
      simp [hx']
  have h1 : ∀ k, treePlaces.goTo cur (figurePath file dest format k) =
      treePlaces.goTo cur (figureDir file dest) ++ [(toString k).toList ++ '.' :: format.getD "png".toList] := by
    intro k
    unfold figurePath
    rw [goTo_join]
    exact goTo_names _ (by simpa using plain k)
  refine ⟨h1, fun k l h => ?_, ?_, ?_⟩
  · rw [h1, h1] at h
    have := List.append_cancel_left h
    exact figure_inj (List.cons.inj this).1
  · rintro d k rfl h
    rw [h1] at h
    unfold outputPath at h
    rw [goTo_join, List.foldl_cons, List.foldl_nil, goTo_plain treePlaces _ (n := "output.json".toList) (by decide) (by decide), enter_plain (n := "output.json".toList) (by unfold PlainName; decide)] at h
    have := (List.cons.inj (List.append_cancel_left h)).1
    obtain ⟨x, t, hx, hd⟩ := dig k
    rw [hx] at this
    have h2 : x = 'o' := (List.cons.inj this).1
    rw [h2] at hd
    exact absurd hd (by decide)
  · rintro rfl
    rfl

/-- a usual format -/
example : ∀ f, some "pdf".toList = some f → '/' ∉ f := by
  rintro f h
  cases h
  decide

/-- the cache: the result of a call is kept below the root of the package in `workspace/workdir/_get_sample_stats_wrapper`, under its hash; different hashes are
different files, and no figure of `workspace/output` has the file of a cached result -/
theorem C164_cache (cur : List (List Char)) (dir name : List Char) (hn : '/' ∉ name) (hd : dir ≠ []) :
    (∀ h, PlainName h → treePlaces.goTo cur (cachePath (dir ++ '/' :: name) h) =
      (treePlaces.goTo cur dir).dropLast ++ ["workspace".toList, "workdir".toList, "_get_sample_stats_wrapper".toList, h]) ∧
    (∀ h h', PlainName h → PlainName h' →
      treePlaces.goTo cur (cachePath (dir ++ '/' :: name) h) = treePlaces.goTo cur (cachePath (dir ++ '/' :: name) h') → h = h') ∧
    ∀ h k, PlainName h → treePlaces.goTo cur (cachePath (dir ++ '/' :: name) h) ≠ treePlaces.goTo cur (figurePath (dir ++ '/' :: name) none none k) := by
  have h1 : ∀ h, PlainName h → treePlaces.goTo cur (cachePath (dir ++ '/' :: name) h) =
      (treePlaces.goTo cur dir).dropLast ++ ["workspace".toList, "workdir".toList, "_get_sample_stats_wrapper".toList, h] := by
    intro h hh
    unfold cachePath workdirPath
    rw [goTo_join, (C164_names cur dir name hn hd).1 _ (by simp only [List.mem_cons, List.not_mem_nil, or_false, forall_eq_or_imp, forall_eq]; unfold PlainName; decide),
      goTo_names _ (by simpa using hh)]
    simp
  refine ⟨h1, fun h h' hh hh' e => ?_, fun h k hh e => ?_⟩
  · rw [h1 h hh, h1 h' hh'] at e
    have := List.append_cancel_left e
    simpa using this
  · rw [h1 h hh, (C164_figures cur (dir ++ '/' :: name) none none (by simp)).1 k, (C164_figures cur (dir ++ '/' :: name) none none (by simp)).2.2.2 rfl] at e
    unfold workspacePath at e
    rw [(C164_names cur dir name hn hd).1 _ (by simp only [List.mem_cons, List.not_mem_nil, or_false, forall_eq_or_imp, forall_eq]; unfold PlainName; decide),
      List.append_assoc] at e
    have := congrArg List.length (List.append_cancel_left e)
    simp at this

end Sureal.Props
