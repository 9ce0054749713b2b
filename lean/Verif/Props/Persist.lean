import Verif.Spec.Persist
import Verif.Spec.SampleStats
import Verif.Props.Compare
/-!
# C154: `_get_sample_stats_wrapper_persistent`
-/
set_option linter.unusedSectionVars false
namespace Sureal.Props
open Spec Persist Routine

section
variable {A V H B : Type} [DecidableEq H] {lib : Lib A V H B}

/-- the file of a key after a series of calls: what the first call with a value wrote -/
theorem after_file (h : H) (hist : List ((A → Py V) × A)) (files : Cache H B) (hn : files h = none) :
    ((∀ g b, (g, b) ∈ hist → lib.key b = h → ∀ w, g b ≠ .ok w) → after lib hist files h = none) ∧
      ∀ v, FirstValue lib.key h hist v → after lib hist files h = some (lib.dump v).1 := by
  have keep : ∀ (l : List ((A → Py V) × A)) (fs : Cache H B) (c : List B), fs h = some c → after lib l fs h = some c := by
    intro l
    induction l with
    | nil => exact fun fs c hc => hc
    | cons p l ih =>
      intro fs c hc
      obtain ⟨f, a⟩ := p
      rw [after]
      apply ih
      unfold call
      cases hk : fs (lib.key a) with
      | some c' => exact hc
      | none =>
        cases f a with
        | error e => exact hc
        | ok v =>
          have : h ≠ lib.key a := by rintro rfl; rw [hk] at hc; cases hc
          show (if h = lib.key a then _ else _) = _
          rw [if_neg this, hc]
  induction hist generalizing files with
  | nil =>
    refine ⟨fun _ => hn, ?_⟩
    rintro v ⟨b, f, a, l, hl, -⟩
    simp at hl
  | cons p hist ih =>
    obtain ⟨f, a⟩ := p
    rw [after]
    by_cases hka : lib.key a = h
    · subst hka
      cases hf : f a with
      | error e =>
        have hc : (call lib f files a).2 = files := by unfold call; rw [hn, hf]
        rw [hc]
        obtain ⟨h1, h2⟩ := ih files hn
        refine ⟨fun hall => h1 fun g b hm => hall g b (List.mem_cons_of_mem _ hm), ?_⟩
        rintro v ⟨before, g, b, l, hl, hk, hg, hb⟩
        cases before with
        | nil =>
          obtain ⟨⟨rfl, rfl⟩, rfl⟩ : (f = g ∧ a = b) ∧ hist = l := by simpa using hl
          rw [hf] at hg
          cases hg
        | cons q before =>
          obtain ⟨rfl, rfl⟩ : (f, a) = q ∧ hist = before ++ (g, b) :: l := by simpa using hl
          exact h2 v ⟨before, g, b, l, rfl, hk, hg, fun g' b' hm => hb g' b' (List.mem_cons_of_mem _ hm)⟩
      | ok v₀ =>
        have hc : (call lib f files a).2 (lib.key a) = some (lib.dump v₀).1 := by unfold call; rw [hn, hf]; exact if_pos rfl
        refine ⟨fun hall => absurd hf (hall f a (List.mem_cons_self ..) rfl v₀), ?_⟩
        rintro v ⟨before, g, b, l, hl, hk, hg, hb⟩
        cases before with
        | nil =>
          obtain ⟨⟨rfl, rfl⟩, rfl⟩ : (f = g ∧ a = b) ∧ hist = l := by simpa using hl
          rw [hf] at hg
          cases hg
          exact keep _ _ _ hc
        | cons q before =>
          obtain ⟨rfl, rfl⟩ : (f, a) = q ∧ hist = before ++ (g, b) :: l := by simpa using hl
          exact absurd hf (hb f a (List.mem_cons_self ..) rfl v₀)
    · have hc : (call lib f files a).2 h = none := by
        unfold call
        cases files (lib.key a) with
        | some c' => exact hn
        | none =>
          cases f a with
          | error e => exact hn
          | ok v =>
            show (if h = lib.key a then _ else _) = _
            rw [if_neg (Ne.symm hka), hn]
      obtain ⟨h1, h2⟩ := ih _ hc
      refine ⟨fun hall => h1 fun g b hm => hall g b (List.mem_cons_of_mem _ hm), ?_⟩
      rintro v ⟨before, g, b, l, hl, hk, hg, hb⟩
      cases before with
      | nil =>
        obtain ⟨⟨rfl, rfl⟩, rfl⟩ : (f = g ∧ a = b) ∧ hist = l := by simpa using hl
        exact absurd hk hka
      | cons q before =>
        obtain ⟨rfl, rfl⟩ : (f, a) = q ∧ hist = before ++ (g, b) :: l := by simpa using hl
        exact h2 v ⟨before, g, b, l, rfl, hk, hg, fun g' b' hm => hb g' b' (List.mem_cons_of_mem _ hm)⟩

/-- **C154, what is returned.** After any series of calls, beginning with no cache: if none of the calls with the same key had a value, a call does what the function does now;
otherwise it returns the value of the first of them that had one, whatever the function has become. -/
theorem C154_first (hist : List ((A → Py V) × A)) (hs : ∀ f a v, (f, a) ∈ hist → f a = .ok v → Serialisable lib.dump lib.load v) (f : A → Py V) (a : A)
    (hnow : ∀ v, f a = .ok v → Serialisable lib.dump lib.load v) :
    ((∀ g b, (g, b) ∈ hist → lib.key b = lib.key a → ∀ w, g b ≠ .ok w) → (call lib f (after lib hist fun _ => none) a).1 = f a) ∧
      ∀ v, FirstValue lib.key (lib.key a) hist v → (call lib f (after lib hist fun _ => none) a).1 = .ok v := by
  obtain ⟨h1, h2⟩ := after_file (lib := lib) (lib.key a) hist (fun _ => none) rfl
  constructor
  · intro hall
    unfold call
    rw [h1 hall]
    cases hf : f a with
    | error e => rfl
    | ok v => exact if_pos (hnow v hf).1
  · intro v hv
    unfold call
    rw [h2 v hv]
    obtain ⟨before, g, b, l, rfl, -, hg, -⟩ := hv
    dsimp only
    rw [(hs g b v (by simp) hg).2]

/-- what the first call had is returned at every later one -/
theorem stale_value (f g : A → Py V) (a : A) (v : V) (hv : f a = .ok v) (hs : Serialisable lib.dump lib.load v) (later : List ((A → Py V) × A)) :
    (call lib g (after lib ((f, a) :: later) fun _ => none) a).1 = .ok v := by
  unfold call
  rw [(after_file (lib := lib) (lib.key a) ((f, a) :: later) (fun _ => none) rfl).2 v ⟨[], f, a, later, rfl, rfl, hv, by simp⟩]
  dsimp only
  rw [hs.2]

/-- **C154, values that cannot be written.** The first call whose value is not serialisable raises TypeError; if the beginning that was written is not JSON, every later call
with the same arguments raises a JSON error, even if the function has a serialisable value by then. -/
theorem C154_unserialisable (hist : List ((A → Py V) × A)) (f : A → Py V) (a : A) (v : V) (hf : f a = .ok v) (hd : (lib.dump v).2 = false) (hl : lib.load (lib.dump v).1 = none)
    (hfirst : ∀ g b, (g, b) ∈ hist → lib.key b = lib.key a → ∀ w, g b ≠ .ok w) :
    (call lib f (after lib hist fun _ => none) a).1 = .error .type ∧
      ∀ later g, (call lib g (after lib (hist ++ (f, a) :: later) fun _ => none) a).1 = .error .json := by
  constructor
  · unfold call
    rw [(after_file (lib := lib) (lib.key a) hist (fun _ => none) rfl).1 hfirst, hf]
    simp [hd]
  · intro later g
    unfold call
    rw [(after_file (lib := lib) (lib.key a) (hist ++ (f, a) :: later) (fun _ => none) rfl).2 v ⟨hist, f, a, later, rfl, rfl, hf, hfirst⟩]
    dsimp only
    rw [hl]

end

section
variable {κ K H B : Type} [LinearOrder κ] [Zero K] [One K] [Add K] [Neg K] [Sub K] [Mul K] [Div K] [NatCast K]
  [LT K] [LE K] [DecidableLT K] [DecidableLE K] [MathFn K] [DecidableEq H] {lib : Lib (Args K) (List (List (Report κ K))) H B}
  {find : String → Py (Reader κ K → Py (Result κ K))} {seeded : ℕ → ℕ → List ℕ}

/-- the draws do not matter if all observers are used or a seed is given -/
theorem stats_draws {w w' : World κ K} {a : Args K} (hfile : w'.source a.path = w.source a.path) (hdet : a.frac = none ∨ a.seed ≠ none) :
    stats find seeded w' a = stats find seeded w a := by
  unfold stats
  rw [hfile]
  rcases hdet with h | h
  · rw [h]
    unfold wrapper sampleStats sampleOne
    rfl
  · cases hs : a.seed with
    | none => exact absurd hs h
    | some s => rfl

/-- **C154 (partial).** A call of the persistent wrapper does what the wrapper itself would do now, if the file of the dataset is as it was at all earlier calls with the same key, if
all observers are used or a seed is given, if different arguments have different keys and if results can be written and read again.  The full statement has none of the four conditions; without the
first two it is false, see `C154_stale_refuted` and `C154_frozen_refuted`, and the last one fails for models that put arrays into their results, see `C154_unserialisable`. -/
theorem C154_same_partial (hist : List (World κ K × Args K)) (w : World κ K) (a : Args K) (hkey : ∀ b, lib.key b = lib.key a → b = a)
    (hs : ∀ w b v, stats find seeded w b = .ok v → Serialisable lib.dump lib.load v) (hfile : ∀ w', (w', a) ∈ hist → w'.source a.path = w.source a.path)
    (hdet : a.frac = none ∨ a.seed ≠ none) :
    (call lib (stats find seeded w) (after lib (hist.map fun p => (stats find seeded p.1, p.2)) fun _ => none) a).1 = stats find seeded w a := by
  have hfirst := C154_first (lib := lib) (hist.map fun p => (stats find seeded p.1, p.2))
    (by
      intro f b v hm hv
      obtain ⟨p, -, hp⟩ := List.mem_map.mp hm
      cases hp
      exact hs _ _ v hv) (stats find seeded w) a fun v hv => hs _ _ v hv
  have hsame : ∀ g b, (g, b) ∈ (hist.map fun p => (stats find seeded p.1, p.2)) → lib.key b = lib.key a → g b = stats find seeded w a := by
    intro g b hm hk
    obtain ⟨⟨w', b'⟩, hm', hp⟩ := List.mem_map.mp hm
    cases hp
    dsimp only at hk ⊢
    rw [hkey _ hk] at hm' ⊢
    exact stats_draws (hfile w' hm') hdet
  cases hv : stats find seeded w a with
  | error e =>
    rw [← hv]
    apply hfirst.1
    intro g b hm hk v hg
    rw [hsame g b hm hk, hv] at hg
    cases hg
  | ok v =>
    by_cases hex : ∃ g b, (g, b) ∈ (hist.map fun p => (stats find seeded p.1, p.2)) ∧ lib.key b = lib.key a
    · apply hfirst.2
      clear hfirst
      generalize (hist.map fun p => (stats find seeded p.1, p.2)) = l at hsame hex
      induction l with
      | nil => simp at hex
      | cons q l ih =>
        obtain ⟨f, c⟩ := q
        by_cases hq : lib.key c = lib.key a
        · exact ⟨[], f, c, l, rfl, hq, by rw [hsame f c (List.mem_cons_self ..) hq, hv], by simp⟩
        · obtain ⟨g, b, hm, hk⟩ := hex
          have hm' : (g, b) ∈ l := by
            rcases List.mem_cons.mp hm with h | h
            · cases h
              exact absurd hk hq
            · exact h
          obtain ⟨before, g', b', after', rfl, h2, h3, h4⟩ := ih (fun g b hm => hsame g b (List.mem_cons_of_mem _ hm)) ⟨g, b, hm', hk⟩
          refine ⟨(f, c) :: before, g', b', after', rfl, h2, h3, ?_⟩
          intro g'' b'' hm'' hk''
          rcases List.mem_cons.mp hm'' with h | h
          · cases h
            exact absurd hk'' hq
          · exact h4 g'' b'' h hk''
    · rw [← hv]
      apply hfirst.1
      intro g b hm hk
      exact absurd ⟨g, b, hm, hk⟩ hex

/-- **C154 (refuted), changed data.** Whenever the results for a dataset have changed since the first call, since its file was edited or since observers were drawn anew, the call returns the
old ones. -/
theorem C154_stale (w w' : World κ K) (a : Args K) (v v' : List (List (Report κ K))) (hv : stats find seeded w a = .ok v) (hv' : stats find seeded w' a = .ok v')
    (hs : Serialisable lib.dump lib.load v) (hne : v ≠ v') (later : List (World κ K × Args K)) :
    (call lib (stats find seeded w') (after lib (((w, a) :: later).map fun p => (stats find seeded p.1, p.2)) fun _ => none) a).1 = .ok v ∧
      (call lib (stats find seeded w') (after lib (((w, a) :: later).map fun p => (stats find seeded p.1, p.2)) fun _ => none) a).1 ≠ stats find seeded w' a := by
  have h : (call lib (stats find seeded w') (after lib (((w, a) :: later).map fun p => (stats find seeded p.1, p.2)) fun _ => none) a).1 = .ok v := by
    rw [List.map_cons]
    exact stale_value _ _ a v hv hs _
  refine ⟨h, ?_⟩
  rw [h, hv']
  exact fun e => hne (Except.ok.inj e)

end

/-! ## Witnesses -/

attribute [local instance] ratMath

/-- a library that writes results as they are -/
def exLib : Lib (Args ℚ) (List (List (Report ℕ ℚ))) (List Char × Option (Fl ℚ) × String × Option ℕ) (List (List (Report ℕ ℚ))) where
  key a := (a.path, a.frac, a.model, a.seed)
  dump v := ([v], true)
  load | [v] => some v | _ => none

/-- the votes on the first video of `exNames` are corrected -/
def exNamesNew : Dataset ℕ ℚ :=
  { exNames with disVideos := exNames.disVideos.map fun dv =>
      if dv.assetId = 0 then { dv with os := some (.dict [(7, .one (.fin 2)), (8, .one (.fin 2)), (9, .one (.fin 2))]) } else dv }

def exWorld (d : Dataset ℕ ℚ) (order : List ℕ) : World ℕ ℚ := ⟨fun p => ⟨p, .ok d, .error .json⟩, fun _ => order⟩

/-- the first score of the first report -/
def firstScore : List (List (Report ℕ ℚ)) → Option (Fl ℚ)
  | (r :: _) :: _ => r.result.qualityScores[0]?
  | _ => none

theorem exStats (d : Dataset ℕ ℚ) (order : List ℕ) (a : Args ℚ) (x : ℚ)
    (h : okWith (stats exFind (fun _ n => List.range n) (exWorld d order) a) (fun v => decide (firstScore v = some (.fin x))) = true) :
    ∃ v, stats exFind (fun _ n => List.range n) (exWorld d order) a = .ok v ∧ firstScore v = some (.fin x) := by
  obtain ⟨v, h1, h2⟩ := okWith_elim h
  exact ⟨v, h1, of_decide_eq_true h2⟩

/-- **C154 (refuted), an edited file.** The votes in a file are corrected, and the mean opinion score of the first video is now 2; the persistent wrapper still says 3. -/
theorem C154_stale_refuted : ∃ v, (call exLib (stats exFind (fun _ n => List.range n) (exWorld exNamesNew []))
      (after exLib [(stats exFind (fun _ n => List.range n) (exWorld exNames []), ⟨"a.py".toList, none, "MOS", none⟩)] fun _ => none)
      ⟨"a.py".toList, none, "MOS", none⟩).1 = .ok v ∧ firstScore v = some (.fin 3) ∧
    ∃ v', stats exFind (fun _ n => List.range n) (exWorld exNamesNew []) ⟨"a.py".toList, none, "MOS", none⟩ = .ok v' ∧ firstScore v' = some (.fin 2) := by
  obtain ⟨v, h1, h2⟩ := exStats exNames [] ⟨"a.py".toList, none, "MOS", none⟩ 3 (by decide +kernel)
  obtain ⟨v', h3, h4⟩ := exStats exNamesNew [] ⟨"a.py".toList, none, "MOS", none⟩ 2 (by decide +kernel)
  have hne : v ≠ v' := by
    rintro rfl
    rw [h2] at h4
    exact absurd h4 (by decide +kernel)
  exact ⟨v, (C154_stale (lib := exLib) _ _ _ v v' h1 h3 ⟨rfl, rfl⟩ hne []).1, h2, v', h3, h4⟩

/-- **C154 (refuted), frozen draws.** Without a seed two of three observers are drawn at random; at the second call other observers are drawn, and the score is 4; the persistent wrapper
repeats the score 3/2 of the first draw. -/
theorem C154_frozen_refuted : ∃ v, (call exLib (stats exFind (fun _ n => List.range n) (exWorld exNames [2, 1, 0]))
      (after exLib [(stats exFind (fun _ n => List.range n) (exWorld exNames [0, 1, 2]), ⟨"a.py".toList, some (.fin (7 / 10)), "MOS", none⟩)] fun _ => none)
      ⟨"a.py".toList, some (.fin (7 / 10)), "MOS", none⟩).1 = .ok v ∧ firstScore v = some (.fin (3 / 2)) ∧
    ∃ v', stats exFind (fun _ n => List.range n) (exWorld exNames [2, 1, 0]) ⟨"a.py".toList, some (.fin (7 / 10)), "MOS", none⟩ = .ok v' ∧
      firstScore v' = some (.fin 4) := by
  obtain ⟨v, h1, h2⟩ := exStats exNames [0, 1, 2] ⟨"a.py".toList, some (.fin (7 / 10)), "MOS", none⟩ (3 / 2) (by decide +kernel)
  obtain ⟨v', h3, h4⟩ := exStats exNames [2, 1, 0] ⟨"a.py".toList, some (.fin (7 / 10)), "MOS", none⟩ 4 (by decide +kernel)
  have hne : v ≠ v' := by
    rintro rfl
    rw [h2] at h4
    exact absurd h4 (by decide +kernel)
  exact ⟨v, (C154_stale (lib := exLib) _ _ _ v v' h1 h3 ⟨rfl, rfl⟩ hne []).1, h2, v', h3, h4⟩

/-- the hypotheses of `C154_same_partial` are met: with a seed, the second call reads what the first one wrote, although the generator has moved on -/
example : ∃ v, (call exLib (stats exFind (fun _ n => List.range n) (exWorld exNames [2, 1, 0]))
      (after exLib [(stats exFind (fun _ n => List.range n) (exWorld exNames [1, 0, 2]), ⟨"a.py".toList, some (.fin (7 / 10)), "MOS", some 5⟩)] fun _ => none)
      ⟨"a.py".toList, some (.fin (7 / 10)), "MOS", some 5⟩).1 = .ok v ∧ firstScore v = some (.fin (3 / 2)) := by
  obtain ⟨v, h1, h2⟩ := exStats exNames [2, 1, 0] ⟨"a.py".toList, some (.fin (7 / 10)), "MOS", some 5⟩ (3 / 2) (by decide +kernel)
  refine ⟨v, ?_, h2⟩
  rw [← h1]
  refine C154_same_partial (lib := exLib) [(exWorld exNames [1, 0, 2], ⟨"a.py".toList, some (.fin (7 / 10)), "MOS", some 5⟩)] _ _ ?_ (fun _ _ v _ => ⟨rfl, rfl⟩) ?_ (Or.inr (by simp))
  · intro b hb
    obtain ⟨p, f, m, s⟩ := b
    simp only [exLib, Prod.mk.injEq] at hb
    obtain ⟨rfl, rfl, rfl, rfl⟩ := hb
    rfl
  · intro w' hw
    simp only [List.mem_cons, Prod.mk.injEq, List.not_mem_nil, or_false] at hw
    rw [hw.1]
    rfl

/-- the hypotheses of `C154_unserialisable` are met: a value that ends the text in the middle -/
example : ∀ later g, (call (⟨id, fun v => (['['], v == 0), fun c => if c = ['[', ']'] then some 0 else none⟩ : Lib ℕ ℕ ℕ Char) g
    (after ⟨id, fun v => (['['], v == 0), fun c => if c = ['[', ']'] then some 0 else none⟩ ([] ++ ((fun _ => .ok 1), 7) :: later) fun _ => none) 7).1 = .error .json :=
  (C154_unserialisable (lib := ⟨id, fun v => (['['], v == 0), fun c => if c = ['[', ']'] then some 0 else none⟩) [] (fun _ => .ok 1) 7 1 rfl rfl rfl (by simp)).2

end Sureal.Props
