import Verif.Model.Argv
import Verif.Spec.Argv
/-!
# Lemmas on the arguments of the command line program
-/
namespace Sureal.Argv
open Sureal Spec.Argv
set_option linter.unusedSectionVars false

/-- the options a word that begins with two dashes can stand for -/
def found (p : Word) : List (Word × Action) := options.filter fun q => p.isPrefixOf q.1

/-- the long name of an option -/
def nameOf : Action → Word
  | .help => "--help".toList
  | .dataset => "--dataset".toList
  | .models => "--models".toList
  | .outputDir => "--output-dir".toList
  | .plotRawData => "--plot-raw-data".toList
  | .plotDisVideos => "--plot-dis-videos".toList
  | .plotObservers => "--plot-observers".toList

/-- the long options -/
def longOptions : List (Word × Action) := options.tail

lemma longOptions_eq : longOptions = [Action.help, .dataset, .models, .outputDir, .plotRawData, .plotDisVideos, .plotObservers].map fun a => (nameOf a, a) := rfl

lemma longNames_eq : longNames = longOptions.map (·.1) := rfl

lemma longNames_nodup : longNames.Nodup := by decide +kernel

lemma mem_longOptions {q : Word × Action} : q ∈ longOptions ↔ q = (nameOf q.2, q.2) := by
  constructor
  · intro h
    rw [longOptions_eq, List.mem_map] at h
    obtain ⟨a, _, rfl⟩ := h
    rfl
  · intro h
    rw [h, longOptions_eq, List.mem_map]
    refine ⟨q.2, ?_, rfl⟩
    cases q.2 <;> decide

lemma nameOf_mem (a : Action) : nameOf a ∈ longNames := by
  rw [longNames_eq, List.mem_map]
  exact ⟨(nameOf a, a), mem_longOptions.2 rfl, rfl⟩

/-- words that begin with two dashes are not beginnings of `-h` -/
lemma found_long {p : Word} (hp : "--".toList <+: p) : found p = longOptions.filter fun q => p.isPrefixOf q.1 := by
  obtain ⟨t, rfl⟩ := hp
  show List.filter _ (("-h".toList, Action.help) :: longOptions) = _
  rw [List.filter_cons_of_neg]
  show ¬ List.isPrefixOf ('-' :: '-' :: t) ['-', 'h'] = true
  simp [List.isPrefixOf]

lemma filter_singleton {α : Type} {l : List α} {P : α → Bool} (hl : l.Nodup) {x : α} (hx : x ∈ l) (hP : P x = true)
    (h : ∀ y ∈ l, P y = true → y = x) : l.filter P = [x] := by
  induction l with
  | nil => exact absurd hx (List.not_mem_nil)
  | cons a l ih =>
    rw [List.nodup_cons] at hl
    by_cases ha : P a = true
    · have e : a = x := h a List.mem_cons_self ha
      subst e
      rw [List.filter_cons_of_pos ha, List.filter_eq_nil_iff.2]
      intro y hy hPy
      exact hl.1 (h y (List.mem_cons_of_mem _ hy) hPy ▸ hy)
    · rw [List.filter_cons_of_neg ha]
      refine ih hl.2 ?_ fun y hy => h y (List.mem_cons_of_mem _ hy)
      rcases List.mem_cons.1 hx with rfl | hx
      · exact absurd hP ha
      · exact hx

lemma longOptions_nodup : longOptions.Nodup := by decide +kernel

/-- a word stands for an option -/
lemma found_abbrev {p : Word} {a : Action} (h : Abbrev p (nameOf a)) : found p = [(nameOf a, a)] := by
  rw [found_long h.1]
  refine filter_singleton longOptions_nodup (mem_longOptions.2 rfl) (List.isPrefixOf_iff_prefix.2 h.2.1) fun q hq hP => ?_
  have e := mem_longOptions.1 hq
  have h1 := h.2.2 (nameOf q.2) (nameOf_mem _) (by rw [e] at hP; exact List.isPrefixOf_iff_prefix.1 hP)
  have h2 : q.2 = a := by
    revert h1
    generalize q.2 = b
    cases a <;> cases b <;> decide
  rw [e, h2]

lemma abbrev_found {p : Word} (hp : "--".toList <+: p) {q : Word × Action} (h : found p = [q]) : q = (nameOf q.2, q.2) ∧ Abbrev p (nameOf q.2) := by
  rw [found_long hp] at h
  have hq : q ∈ longOptions.filter fun q => p.isPrefixOf q.1 := by rw [h]; exact List.mem_singleton.2 rfl
  rw [List.mem_filter] at hq
  have e := mem_longOptions.1 hq.1
  have hq1 : q.1 = nameOf q.2 := congrArg Prod.fst e
  refine ⟨e, hp, hq1 ▸ List.isPrefixOf_iff_prefix.1 hq.2, fun n hn hpn => ?_⟩
  rw [longNames_eq, List.mem_map] at hn
  obtain ⟨r, hr, rfl⟩ := hn
  have : r ∈ longOptions.filter fun q => p.isPrefixOf q.1 := List.mem_filter.2 ⟨hr, List.isPrefixOf_iff_prefix.2 hpn⟩
  rw [h, List.mem_singleton] at this
  rw [this, hq1]

lemma lookup_mem {w : Word} {a : Action} (h : options.lookup w = some a) : (w, a) ∈ options := by
  obtain ⟨l1, l2, e, _⟩ := List.lookup_eq_some_iff.1 h
  rw [e]
  simp

/-- the name of an option stands for it -/
lemma found_name {w : Word} {a : Action} (h : (w, a) ∈ options) (hw : "--".toList <+: w) : found w = [(w, a)] ∧ '=' ∉ w := by
  have h : (w, a) ∈ ("-h".toList, Action.help) :: longOptions := h
  rcases List.mem_cons.1 h with h | h
  · obtain ⟨rfl, rfl⟩ := Prod.mk.inj h
    exact absurd hw (by decide)
  · have e : w = nameOf a := congrArg Prod.fst (mem_longOptions.1 h)
    subst e
    constructor
    · cases a <;> decide +kernel
    · cases a <;> decide +kernel

lemma takeWhile_self {α : Type} {P : α → Bool} : ∀ {l : List α}, (∀ c ∈ l, P c = true) → l.takeWhile P = l
  | [], _ => rfl
  | a :: l, h => by
    rw [List.takeWhile_cons_of_pos (h a List.mem_cons_self), takeWhile_self fun c hc => h c (List.mem_cons_of_mem _ hc)]

lemma dropWhile_nil {α : Type} {P : α → Bool} : ∀ {l : List α}, l.dropWhile P = [] → ∀ c ∈ l, P c = true
  | [], _, _, hc => absurd hc List.not_mem_nil
  | a :: l, h, c, hc => by
    by_cases ha : P a = true
    · rw [List.dropWhile_cons_of_pos ha] at h
      rcases List.mem_cons.1 hc with rfl | hc
      · exact ha
      · exact dropWhile_nil h c hc
    · rw [List.dropWhile_cons_of_neg ha] at h
      cases h

/-- words that begin with two dashes -/
lemma classify_long (L : Lib) {w : Word} (hw : "--".toList <+: w) :
    classify L w = match found (beforeEq w) with
      | [q] => .ok (.option (some q.2) q.1 (afterEq w))
      | [] => if L.neg w then .ok (.value w) else if ' ' ∈ w then .ok (.value w) else .ok (.option none w none)
      | _ => .error .usage := by
  obtain ⟨t, ht⟩ := hw
  have ht : '-' :: '-' :: t = w := ht
  have hpre : "--".toList <+: beforeEq w := by
    rw [← ht]
    exact ⟨t.takeWhile (· ≠ '='), by simp [beforeEq]⟩
  have tup : tuples w = (found (beforeEq w)).map fun p => .option (some p.2) p.1 (afterEq w) := by
    rw [tuples, if_pos (by rw [← ht]; rfl)]
    rfl
  rw [classify, if_neg (by rw [← ht]; exact List.cons_ne_nil _ _), if_neg (by rw [← ht]; simp)]
  cases h : options.lookup w with
  | some a =>
    obtain ⟨e, hne⟩ := found_name (lookup_mem h) ⟨t, ht⟩
    have hb : beforeEq w = w := takeWhile_self fun c hc => by
      simp only [decide_eq_true_eq]
      rintro rfl
      exact hne hc
    rw [hb, e]
    dsimp only
    rw [afterEq, if_neg hne]
  | none =>
    dsimp only
    rw [if_neg (by rw [← ht]; simp)]
    by_cases hq : '=' ∈ w
    · rw [if_pos hq]
      cases h2 : options.lookup (beforeEq w) with
      | some a =>
        obtain ⟨e, _⟩ := found_name (lookup_mem h2) hpre
        rw [e]
      | none =>
        dsimp only
        rw [tup]
        cases found (beforeEq w) with
        | nil => rfl
        | cons q l => cases l <;> rfl
    · rw [if_neg hq]
      dsimp only
      rw [tup]
      cases found (beforeEq w) with
      | nil => rfl
      | cons q l => cases l <;> rfl

/-- words that begin with one dash -/
lemma classify_short (L : Lib) {c : Char} (hc : c ≠ '-') (t : Word) :
    (c = 'h' ∧ ∃ e, classify L ('-' :: c :: t) = .ok (.option (some .help) "-h".toList e)) ∨
      (c ≠ 'h' ∧ classify L ('-' :: c :: t) =
        if L.neg ('-' :: c :: t) then .ok (.value ('-' :: c :: t)) else if ' ' ∈ '-' :: c :: t then .ok (.value ('-' :: c :: t)) else .ok (.option none ('-' :: c :: t) none)) := by
  have one : ∀ {w : Word} {a : Action}, options.lookup w = some a → (∃ u, w = '-' :: c :: u) → w = "-h".toList ∧ a = .help := by
    rintro w a h ⟨u, rfl⟩
    have hm : ('-' :: c :: u, a) ∈ ("-h".toList, Action.help) :: longOptions := lookup_mem h
    rcases List.mem_cons.1 hm with e | e
    · exact Prod.mk.inj e
    · exfalso
      have e := congrArg Prod.fst (mem_longOptions.1 e)
      have e : '-' :: c :: u = nameOf a := e
      have h1 : ('-' :: c :: u)[1]? = (nameOf a)[1]? := by rw [e]
      have h2 : (nameOf a)[1]? = some '-' := by cases a <;> rfl
      rw [h2] at h1
      exact hc (Option.some.inj h1)
  have tup : tuples ('-' :: c :: t) = if c = 'h' then [.option (some .help) "-h".toList (some t)] else [] := by
    rw [tuples, if_neg (by show ¬ some c = some '-'; simpa using hc)]
    show List.filterMap _ (("-h".toList, Action.help) :: longOptions) = _
    have rest : longOptions.filterMap (fun p =>
        if p.1 = ('-' :: c :: t).take 2 then some (Token.option (some p.2) p.1 (some (('-' :: c :: t).drop 2)))
        else if ('-' :: c :: t).isPrefixOf p.1 then some (.option (some p.2) p.1 none) else none) = [] := by
      rw [List.filterMap_eq_nil_iff]
      intro q hq
      rw [mem_longOptions.1 hq]
      dsimp only
      obtain ⟨u, hu⟩ : ∃ u, nameOf q.2 = '-' :: '-' :: u := by cases q.2 <;> exact ⟨_, rfl⟩
      rw [hu, if_neg (by simp [Ne.symm hc]), if_neg]
      simp [List.isPrefixOf, hc]
    by_cases h : c = 'h'
    · subst h
      rw [List.filterMap_cons_some (b := .option (some .help) "-h".toList (some t)) (by rw [if_pos (by rfl)]; rfl), rest, if_pos rfl]
    · rw [List.filterMap_cons_none, rest, if_neg h]
      have e1 : "-h".toList = ['-', 'h'] := rfl
      rw [e1, if_neg (by simp [Ne.symm h]), if_neg]
      simp [List.isPrefixOf, h]
  rw [classify, if_neg (List.cons_ne_nil _ _), if_neg (by simp)]
  by_cases h : c = 'h'
  · left
    refine ⟨h, ?_⟩
    cases h1 : options.lookup ('-' :: c :: t) with
    | some a =>
      obtain ⟨e, rfl⟩ := one h1 ⟨t, rfl⟩
      rw [e]
      exact ⟨_, rfl⟩
    | none =>
      dsimp only
      rw [if_neg (by simp)]
      by_cases hq : '=' ∈ '-' :: c :: t
      · rw [if_pos hq]
        cases h2 : options.lookup (beforeEq ('-' :: c :: t)) with
        | some a =>
          obtain ⟨e, rfl⟩ := one h2 ⟨t.takeWhile (· ≠ '='), by subst h; simp [beforeEq]⟩
          rw [e]
          exact ⟨_, rfl⟩
        | none =>
          dsimp only
          rw [tup, if_pos h]
          exact ⟨_, rfl⟩
      · rw [if_neg hq]
        dsimp only
        rw [tup, if_pos h]
        exact ⟨_, rfl⟩
  · right
    refine ⟨h, ?_⟩
    have n1 : options.lookup ('-' :: c :: t) = none := by
      cases h1 : options.lookup ('-' :: c :: t) with
      | none => rfl
      | some a =>
        have e := (one h1 ⟨t, rfl⟩).1
        exact absurd (by have := congrArg (·[1]?) e; simpa using this) h
    have n2 : (if '=' ∈ '-' :: c :: t then options.lookup (beforeEq ('-' :: c :: t)) else none) = none := by
      by_cases hq : '=' ∈ '-' :: c :: t
      · rw [if_pos hq]
        cases h2 : options.lookup (beforeEq ('-' :: c :: t)) with
        | none => rfl
        | some a =>
          exfalso
          by_cases hc' : c = '='
          · subst hc'
            have hb : beforeEq ('-' :: '=' :: t) = ['-'] := by simp [beforeEq]
            rw [hb] at h2
            exact absurd h2 (by cases a <;> decide +kernel)
          · have e := (one h2 ⟨t.takeWhile (· ≠ '='), by simp [beforeEq, hc']⟩).1
            have : beforeEq ('-' :: c :: t) = '-' :: c :: t.takeWhile (· ≠ '=') := by simp [beforeEq, hc']
            rw [this] at e
            exact absurd (by have := congrArg (·[1]?) e; simpa using this) h
      · rw [if_neg hq]
    rw [n1]
    dsimp only
    rw [if_neg (by simp), n2]
    dsimp only
    rw [tup, if_neg h]

/-- which words are values -/
lemma classify_value {L : Lib} {w : Word} (hw : w ≠ "--".toList) : classify L w = .ok (.value w) ↔ Value L.neg w := by
  match w, hw with
  | [], _ => exact ⟨fun _ => Or.inl nofun, fun _ => rfl⟩
  | c :: t, hw =>
    by_cases hc : c = '-'
    · subst hc
      match t, hw with
      | [], _ => exact ⟨fun _ => Or.inr (Or.inl rfl), fun _ => rfl⟩
      | d :: t, hw =>
        by_cases hd : d = '-'
        · subst hd
          have hl : "--".toList <+: '-' :: '-' :: t := ⟨t, rfl⟩
          have key : Value L.neg ('-' :: '-' :: t) ↔ found (beforeEq ('-' :: '-' :: t)) = [] ∧ (L.neg ('-' :: '-' :: t) = true ∨ ' ' ∈ '-' :: '-' :: t) := by
            have hpre : "--".toList <+: beforeEq ('-' :: '-' :: t) := ⟨t.takeWhile (· ≠ '='), by simp [beforeEq]⟩
            have hf : found (beforeEq ('-' :: '-' :: t)) = [] ↔ ∀ n ∈ longNames, ¬ beforeEq ('-' :: '-' :: t) <+: n := by
              rw [found_long hpre, List.filter_eq_nil_iff, longNames_eq]
              constructor
              · intro h n hn hp
                obtain ⟨q, hq, rfl⟩ := List.mem_map.1 hn
                exact h q hq (List.isPrefixOf_iff_prefix.2 hp)
              · intro h q hq hp
                exact h q.1 (List.mem_map.2 ⟨q, hq, rfl⟩) (List.isPrefixOf_iff_prefix.1 hp)
            rw [hf]
            constructor
            · rintro (h | h | ⟨_, _, h, h'⟩)
              · exact absurd rfl h
              · exact absurd h (by simp)
              · refine ⟨fun n hn hp => ?_, h'⟩
                rcases h n hn with h | h
                · exact h hp
                · exact h hl
            · rintro ⟨h, h'⟩
              refine Or.inr (Or.inr ⟨hw, ?_, fun n hn => Or.inl (h n hn), h'⟩)
              show ¬ ['-', 'h'] <+: '-' :: '-' :: t
              simp
          rw [key, classify_long L hl]
          cases hfd : found (beforeEq ('-' :: '-' :: t)) with
          | nil =>
            dsimp only
            by_cases hn : L.neg ('-' :: '-' :: t) = true
            · rw [if_pos hn]; simp [hn]
            · rw [if_neg hn]
              by_cases hs : ' ' ∈ '-' :: '-' :: t
              · rw [if_pos hs]; simp [hs]
              · rw [if_neg hs]
                constructor
                · nofun
                · rintro ⟨_, h | h⟩
                  · exact absurd h hn
                  · exact absurd h hs
          | cons q l =>
            constructor
            · cases l <;> nofun
            · rintro ⟨h, _⟩; exact absurd h (List.cons_ne_nil _ _)
        · have key : Value L.neg ('-' :: d :: t) ↔ d ≠ 'h' ∧ (L.neg ('-' :: d :: t) = true ∨ ' ' ∈ '-' :: d :: t) := by
            constructor
            · rintro (h | h | ⟨_, h, _, h'⟩)
              · exact absurd rfl h
              · exact absurd h (by simp)
              · refine ⟨?_, h'⟩
                rintro rfl
                exact h ⟨t, rfl⟩
            · rintro ⟨h, h'⟩
              refine Or.inr (Or.inr ⟨hw, ?_, fun n _ => Or.inr ?_, h'⟩)
              · show ¬ ['-', 'h'] <+: '-' :: d :: t
                simp [Ne.symm h]
              · show ¬ ['-', '-'] <+: '-' :: d :: t
                simp [Ne.symm hd]
          rw [key]
          rcases classify_short L hd t with ⟨h, e, he⟩ | ⟨h, he⟩
          · rw [he]
            constructor
            · nofun
            · rintro ⟨h', _⟩; exact absurd h h'
          · rw [he]
            by_cases hn : L.neg ('-' :: d :: t) = true
            · rw [if_pos hn]; simp [hn, h]
            · rw [if_neg hn]
              by_cases hs : ' ' ∈ '-' :: d :: t
              · rw [if_pos hs]; simp [hs, h]
              · rw [if_neg hs]
                constructor
                · nofun
                · rintro ⟨_, h | h⟩
                  · exact absurd h hn
                  · exact absurd h hs
    · have hh : (c :: t).head? ≠ some '-' := by simpa using hc
      refine ⟨fun _ => Or.inl hh, fun _ => ?_⟩
      rw [classify, if_neg (List.cons_ne_nil _ _), if_pos hh]

/-- a value is taken as it is -/
lemma classify_same {L : Lib} {w v : Word} (h : classify L w = .ok (.value v)) : v = w := by
  match w with
  | [] => cases h; rfl
  | c :: t =>
    by_cases hc : c = '-'
    · subst hc
      match t with
      | [] => cases h; rfl
      | d :: t =>
        by_cases hd : d = '-'
        · subst hd
          rw [classify_long L (show "--".toList <+: '-' :: '-' :: t from ⟨t, rfl⟩)] at h
          cases hfd : found (beforeEq ('-' :: '-' :: t)) with
          | nil =>
            rw [hfd] at h
            dsimp only at h
            split_ifs at h <;> cases h <;> rfl
          | cons q l =>
            rw [hfd] at h
            cases l <;> cases h
        · rcases classify_short L hd t with ⟨_, e, he⟩ | ⟨_, he⟩
          · rw [he] at h; cases h
          · rw [he] at h
            split_ifs at h <;> cases h <;> rfl
    · rw [classify, if_neg (List.cons_ne_nil _ _), if_pos (by simpa using hc)] at h
      cases h; rfl

lemma name_no_eq (a : Action) : '=' ∉ nameOf a := by cases a <;> decide +kernel

/-- an option with its value in other words -/
lemma classify_abbrev {L : Lib} {p : Word} {a : Action} (h : Abbrev p (nameOf a)) : classify L p = .ok (.option (some a) (nameOf a) none) := by
  have hne : '=' ∉ p := fun hm => name_no_eq a (h.2.1.subset hm)
  have hb : beforeEq p = p := takeWhile_self fun c hc => by
    simp only [decide_eq_true_eq]
    rintro rfl
    exact hne hc
  rw [classify_long L h.1, hb, found_abbrev h]
  dsimp only
  rw [afterEq, if_neg hne]

/-- an option with its value after `=` -/
lemma classify_eq {L : Lib} {p v : Word} {a : Action} (h : Abbrev p (nameOf a)) : classify L (p ++ '=' :: v) = .ok (.option (some a) (nameOf a) (some v)) := by
  have hne : ∀ c ∈ p, decide (c ≠ '=') = true := fun c hc => by
    simp only [decide_eq_true_eq]
    rintro rfl
    exact name_no_eq a (h.2.1.subset hc)
  have hb : beforeEq (p ++ '=' :: v) = p := by
    rw [beforeEq, List.takeWhile_append_of_pos hne]
    simp
  have ha : afterEq (p ++ '=' :: v) = some v := by
    rw [afterEq, if_pos (by simp), List.dropWhile_append_of_pos hne]
    simp
  rw [classify_long L (h.1.trans (List.prefix_append _ _)), hb, found_abbrev h, ha]

lemma split_eq {w : Word} {x : Word} (h : afterEq w = some x) : w = beforeEq w ++ '=' :: x := by
  rw [afterEq] at h
  by_cases hq : '=' ∈ w
  · rw [if_pos hq] at h
    cases h
    have h1 : w.takeWhile (· ≠ '=') ++ w.dropWhile (· ≠ '=') = w := List.takeWhile_append_dropWhile
    obtain ⟨c, t, hc⟩ : ∃ c t, w.dropWhile (· ≠ '=') = c :: t := by
      cases hd : w.dropWhile (· ≠ '=') with
      | nil =>
        exact absurd (dropWhile_nil hd _ hq) (by simp)
      | cons c t => exact ⟨c, t, rfl⟩
    have hc' : c = '=' := by
      have := List.head_dropWhile_not (fun c => decide (c ≠ '=')) (l := w) (by rw [hc]; exact List.cons_ne_nil _ _)
      simp only [hc, List.head_cons] at this
      simpa using this
    subst hc'
    rw [beforeEq, hc]
    rw [hc] at h1
    exact h1.symm
  · rw [if_neg hq] at h; cases h

lemma no_eq {w : Word} (h : afterEq w = none) : beforeEq w = w := by
  rw [afterEq] at h
  by_cases hq : '=' ∈ w
  · rw [if_pos hq] at h; cases h
  · exact takeWhile_self fun c hc => by
      simp only [decide_eq_true_eq]
      rintro rfl
      exact hq hc

/-- what an option that is found was spelled like, unless it is the help -/
lemma option_inv {L : Lib} {w n : Word} {a : Action} {x : Option Word} (ha : a ≠ .help) (h : classify L w = .ok (.option (some a) n x)) :
    match x with
    | none => Abbrev w (nameOf a)
    | some v => ∃ p, w = p ++ '=' :: v ∧ Abbrev p (nameOf a) := by
  match w with
  | [] => cases h
  | c :: t =>
    by_cases hc : c = '-'
    · subst hc
      match t with
      | [] => cases h
      | d :: t =>
        by_cases hd : d = '-'
        · subst hd
          have hpre : "--".toList <+: beforeEq ('-' :: '-' :: t) := ⟨t.takeWhile (· ≠ '='), by simp [beforeEq]⟩
          rw [classify_long L (show "--".toList <+: '-' :: '-' :: t from ⟨t, rfl⟩)] at h
          cases hfd : found (beforeEq ('-' :: '-' :: t)) with
          | nil =>
            rw [hfd] at h
            dsimp only at h
            split_ifs at h <;> cases h
          | cons q l =>
            cases l with
            | cons _ _ => rw [hfd] at h; cases h
            | nil =>
              obtain ⟨e, hab⟩ := abbrev_found hpre hfd
              rw [hfd] at h
              dsimp only at h
              injection h with h
              injection h with h1 h2 h3
              injection h1 with h1
              rw [h1] at hab
              cases x with
              | none =>
                dsimp only
                rw [no_eq h3] at hab
                exact hab
              | some v => exact ⟨_, split_eq h3, hab⟩
        · rcases classify_short L hd t with ⟨_, e, he⟩ | ⟨_, he⟩
          · rw [he] at h
            injection h with h
            injection h with h1
            injection h1 with h1
            exact absurd h1.symm ha
          · rw [he] at h
            split_ifs at h <;> cases h
    · rw [classify, if_neg (List.cons_ne_nil _ _), if_pos (by simpa using hc)] at h
      cases h

/-- what a piece does to the namespace -/
def apply (ns : Ns) : Piece → Ns
  | .dataset d => { ns with dataset := some d }
  | .models m ms => { ns with models := some (m :: ms) }
  | .outputDir o => { ns with outputDir := some o }
  | .plotRawData => { ns with asked := { ns.asked with rawData := true } }
  | .plotDisVideos => { ns with asked := { ns.asked with disVideos := true } }
  | .plotObservers => { ns with asked := { ns.asked with observers := true } }

lemma abbrev_not_sep {p n : Word} (h : Abbrev p n) : p ≠ ['-', '-'] := by
  rintro rfl
  have h1 := h.2.2 "--help".toList (by decide +kernel) (by decide +kernel)
  have h2 := h.2.2 "--dataset".toList (by decide +kernel) (by decide +kernel)
  rw [← h1] at h2
  exact absurd h2 (by decide +kernel)

lemma abbrev_eq_not_sep {p n v : Word} (h : Abbrev p n) : p ++ '=' :: v ≠ ['-', '-'] := by
  intro e
  have : '=' ∈ (['-', '-'] : Word) := by rw [← e]; simp
  exact absurd this (by decide)

lemma tokens_cons {L : Lib} {w : Word} {l : List Word} {t : Token} {ts : List Token} (hw : w ≠ ['-', '-']) (h : classify L w = .ok t) (hl : tokens L l = .ok ts) :
    tokens L (w :: l) = .ok (t :: ts) := by
  rw [tokens, if_neg hw, h]
  dsimp only
  rw [hl]

lemma value_not_sep {neg : Word → Bool} {v : Word} (h : Value neg v) : v ≠ ['-', '-'] := by
  rintro rfl
  rcases h with h | h | h
  · exact h rfl
  · exact absurd h (by decide)
  · exact h.1 rfl

lemma tokens_values {L : Lib} {l : List Word} {ts : List Token} (hl : tokens L l = .ok ts) : ∀ {vs : List Word}, (∀ v ∈ vs, Value L.neg v) →
    tokens L (vs ++ l) = .ok (vs.map .value ++ ts)
  | [], _ => hl
  | v :: vs, h => by
    have hv := h v List.mem_cons_self
    exact tokens_cons (value_not_sep hv) ((classify_value (value_not_sep hv)).2 hv) (tokens_values hl fun w hw => h w (List.mem_cons_of_mem _ hw))

lemma leading_append {vs : List Word} {ts : List Token} (h : leading ts = []) : leading (vs.map .value ++ ts) = vs := by
  induction vs with
  | nil => exact h
  | cons v vs ih => exact congrArg (v :: ·) ih

/-- spelled pieces are taken -/
lemma consume_spells {L : Lib} {argv : List Word} {ps : List Piece} (h : Spells L.neg argv ps) :
    ∃ ts, tokens L argv = .ok ts ∧ leading ts = [] ∧ ∀ ns, consume L ns ts = .ok (ps.foldl apply ns) := by
  induction h with
  | nil => exact ⟨[], rfl, rfl, fun ns => by rw [consume]; rfl⟩
  | dataset hp hv _ ih =>
    obtain ⟨ts, h1, _, h3⟩ := ih
    refine ⟨_, tokens_cons (abbrev_not_sep hp) (classify_abbrev (a := .dataset) hp) (tokens_cons (value_not_sep hv) ((classify_value (value_not_sep hv)).2 hv) h1), rfl,
      fun ns => ?_⟩
    rw [consume]
    exact h3 _
  | datasetEq hp _ ih =>
    obtain ⟨ts, h1, _, h3⟩ := ih
    refine ⟨_, tokens_cons (abbrev_eq_not_sep hp) (classify_eq (a := .dataset) hp) h1, rfl, fun ns => ?_⟩
    rw [consume]
    exact h3 _
  | @models p m ms l ps hp hv _ ih =>
    obtain ⟨ts, h1, h2, h3⟩ := ih
    refine ⟨_, tokens_cons (abbrev_not_sep hp) (classify_abbrev (a := .models) hp) (tokens_values (vs := m :: ms) h1 hv), rfl, fun ns => ?_⟩
    rw [consume, leading_append h2]
    dsimp only
    rw [List.drop_left' (by simp)]
    exact h3 _
  | modelsEq hp _ ih =>
    obtain ⟨ts, h1, _, h3⟩ := ih
    refine ⟨_, tokens_cons (abbrev_eq_not_sep hp) (classify_eq (a := .models) hp) h1, rfl, fun ns => ?_⟩
    rw [consume]
    exact h3 _
  | outputDir hp hv _ ih =>
    obtain ⟨ts, h1, _, h3⟩ := ih
    refine ⟨_, tokens_cons (abbrev_not_sep hp) (classify_abbrev (a := .outputDir) hp) (tokens_cons (value_not_sep hv) ((classify_value (value_not_sep hv)).2 hv) h1), rfl,
      fun ns => ?_⟩
    rw [consume]
    exact h3 _
  | outputDirEq hp _ ih =>
    obtain ⟨ts, h1, _, h3⟩ := ih
    refine ⟨_, tokens_cons (abbrev_eq_not_sep hp) (classify_eq (a := .outputDir) hp) h1, rfl, fun ns => ?_⟩
    rw [consume]
    exact h3 _
  | plotRawData hp _ ih =>
    obtain ⟨ts, h1, _, h3⟩ := ih
    refine ⟨_, tokens_cons (abbrev_not_sep hp) (classify_abbrev (a := .plotRawData) hp) h1, rfl, fun ns => ?_⟩
    rw [consume]
    exact h3 _
  | plotDisVideos hp _ ih =>
    obtain ⟨ts, h1, _, h3⟩ := ih
    refine ⟨_, tokens_cons (abbrev_not_sep hp) (classify_abbrev (a := .plotDisVideos) hp) h1, rfl, fun ns => ?_⟩
    rw [consume]
    exact h3 _
  | plotObservers hp _ ih =>
    obtain ⟨ts, h1, _, h3⟩ := ih
    refine ⟨_, tokens_cons (abbrev_not_sep hp) (classify_abbrev (a := .plotObservers) hp) h1, rfl, fun ns => ?_⟩
    rw [consume]
    exact h3 _

/-- extras are not forgotten -/
lemma consume_extras {L : Lib} : ∀ (n : Nat) (ts : List Token) (ns ns' : Ns), ts.length ≤ n → ns.extras = true → consume L ns ts = .ok ns' → ns'.extras = true := by
  intro n
  induction n with
  | zero =>
    intro ts ns ns' hn he h
    obtain rfl : ts = [] := List.length_eq_zero_iff.1 (Nat.le_zero.1 hn)
    rw [consume] at h
    cases h
    exact he
  | succ n ih =>
    intro ts ns ns' hn he h
    match ts with
    | [] =>
      rw [consume] at h
      cases h
      exact he
    | .value _ :: l => rw [consume] at h; exact ih _ _ _ (by simpa using hn) rfl h
    | .separator :: l => rw [consume] at h; exact ih _ _ _ (by simpa using hn) rfl h
    | .option none _ _ :: l => rw [consume] at h; exact ih _ _ _ (by simpa using hn) rfl h
    | .option (some a) name (some x) :: l =>
      cases a with
      | dataset => rw [consume] at h; exact ih _ _ _ (by simpa using hn) (by exact he) h
      | models => rw [consume] at h; exact ih _ _ _ (by simpa using hn) (by exact he) h
      | outputDir => rw [consume] at h; exact ih _ _ _ (by simpa using hn) (by exact he) h
      | _ => simp [consume] at h
    | .option (some a) name none :: l =>
      rw [consume.eq_def] at h
      dsimp only at h
      have hn : l.length ≤ n := by simpa using hn
      cases a with
      | help => cases h
      | plotRawData => exact ih _ _ _ (by simpa using hn) (by exact he) h
      | plotDisVideos => exact ih _ _ _ (by simpa using hn) (by exact he) h
      | plotObservers => exact ih _ _ _ (by simpa using hn) (by exact he) h
      | dataset =>
        match l, hn with
        | [], _ => cases h
        | .value x :: l', hn => exact ih _ _ _ (by simp at hn; omega) (by exact he) h
        | .separator :: _, _ => cases h
        | .option _ _ _ :: _, _ => cases h
      | outputDir =>
        match l, hn with
        | [], _ => cases h
        | .value x :: l', hn => exact ih _ _ _ (by simp at hn; omega) (by exact he) h
        | .separator :: _, _ => cases h
        | .option _ _ _ :: _, _ => cases h
      | models =>
        cases hl : leading l with
        | nil => rw [hl] at h; cases h
        | cons v vs =>
          rw [hl] at h
          exact ih _ _ _ (by rw [List.length_drop]; omega) (by exact he) h

lemma tokens_inv {L : Lib} {w : Word} {l : List Word} {ts : List Token} (hw : w ≠ ['-', '-']) (h : tokens L (w :: l) = .ok ts) :
    ∃ t ts', classify L w = .ok t ∧ tokens L l = .ok ts' ∧ ts = t :: ts' := by
  rw [tokens, if_neg hw] at h
  cases hc : classify L w with
  | error e => rw [hc] at h; cases h
  | ok t =>
    rw [hc] at h
    dsimp only at h
    cases ht : tokens L l with
    | error e => rw [ht] at h; cases h
    | ok ts' =>
      rw [ht] at h
      cases h
      exact ⟨t, ts', rfl, rfl, rfl⟩

lemma tokens_sep {L : Lib} {l : List Word} : tokens L (['-', '-'] :: l) = .ok (.separator :: l.map .value) := by
  rw [tokens, if_pos rfl]

/-- a word in front that is a value -/
lemma head_value {L : Lib} {l : List Word} {x : Word} {ts : List Token} (h : tokens L l = .ok (.value x :: ts)) :
    ∃ l', l = x :: l' ∧ Value L.neg x ∧ tokens L l' = .ok ts := by
  match l with
  | [] => cases h
  | w :: l =>
    by_cases hw : w = ['-', '-']
    · subst hw
      rw [tokens_sep] at h
      cases h
    · obtain ⟨t, ts', h1, h2, h3⟩ := tokens_inv hw h
      injection h3 with h3 h4
      subst h3 h4
      have e := classify_same h1
      subst e
      exact ⟨l, rfl, (classify_value hw).1 h1, h2⟩

lemma leading_split {L : Lib} : ∀ {ts : List Token} {l : List Word}, tokens L l = .ok ts →
    ∃ l', l = leading ts ++ l' ∧ (∀ v ∈ leading ts, Value L.neg v) ∧ tokens L l' = .ok (ts.drop (leading ts).length)
  | [], l, h => ⟨l, rfl, nofun, h⟩
  | .value x :: ts, l, h => by
    obtain ⟨l', rfl, hv, h'⟩ := head_value h
    obtain ⟨l'', rfl, hvs, h''⟩ := leading_split h'
    refine ⟨l'', rfl, fun v hm => ?_, h''⟩
    rcases List.mem_cons.1 hm with rfl | hm
    · exact hv
    · exact hvs v hm
  | .separator :: ts, l, h => ⟨l, rfl, nofun, h⟩
  | .option _ _ _ :: ts, l, h => ⟨l, rfl, nofun, h⟩

/-- what is taken without extras is spelled -/
lemma spells_consume {L : Lib} : ∀ (n : Nat) (argv : List Word) (ts : List Token) (ns ns' : Ns), argv.length ≤ n → tokens L argv = .ok ts →
    consume L ns ts = .ok ns' → ns'.extras = false → ∃ ps, Spells L.neg argv ps ∧ ns' = ps.foldl apply ns := by
  intro n
  induction n with
  | zero =>
    intro argv ts ns ns' hn ht h _
    obtain rfl : argv = [] := List.length_eq_zero_iff.1 (Nat.le_zero.1 hn)
    cases ht
    rw [consume] at h
    cases h
    exact ⟨[], .nil, rfl⟩
  | succ n ih =>
    intro argv ts ns ns' hn ht h he
    match argv with
    | [] =>
      cases ht
      rw [consume] at h
      cases h
      exact ⟨[], .nil, rfl⟩
    | w :: l =>
      have dead : ∀ {l : List Token}, consume L { ns with extras := true } l = .ok ns' → False := fun {l} hx => by
        have := consume_extras l.length l _ _ le_rfl rfl hx
        rw [he] at this
        cases this
      by_cases hw : w = ['-', '-']
      · subst hw
        rw [tokens_sep] at ht
        cases ht
        rw [consume] at h
        exact (dead h).elim
      · obtain ⟨t, ts', h1, h2, rfl⟩ := tokens_inv hw ht
        have hn : l.length ≤ n := by simpa using hn
        match t with
        | .value _ => rw [consume] at h; exact (dead h).elim
        | .separator => rw [consume] at h; exact (dead h).elim
        | .option none _ _ => rw [consume] at h; exact (dead h).elim
        | .option (some a) name (some x) =>
          cases a with
          | dataset =>
            rw [consume] at h
            obtain ⟨p, rfl, hp⟩ := option_inv (a := .dataset) (by decide) h1
            obtain ⟨ps, hs, e⟩ := ih _ _ _ _ (by simpa using hn) h2 h he
            exact ⟨_, .datasetEq hp hs, e⟩
          | models =>
            rw [consume] at h
            obtain ⟨p, rfl, hp⟩ := option_inv (a := .models) (by decide) h1
            obtain ⟨ps, hs, e⟩ := ih _ _ _ _ (by simpa using hn) h2 h he
            exact ⟨_, .modelsEq hp hs, e⟩
          | outputDir =>
            rw [consume] at h
            obtain ⟨p, rfl, hp⟩ := option_inv (a := .outputDir) (by decide) h1
            obtain ⟨ps, hs, e⟩ := ih _ _ _ _ (by simpa using hn) h2 h he
            exact ⟨_, .outputDirEq hp hs, e⟩
          | _ => simp [consume] at h
        | .option (some a) name none =>
          rw [consume.eq_def] at h
          dsimp only at h
          cases a with
          | help => cases h
          | plotRawData =>
            obtain ⟨ps, hs, e⟩ := ih _ _ _ _ (by simpa using hn) h2 h he
            exact ⟨_, .plotRawData (option_inv (a := .plotRawData) (by decide) h1) hs, e⟩
          | plotDisVideos =>
            obtain ⟨ps, hs, e⟩ := ih _ _ _ _ (by simpa using hn) h2 h he
            exact ⟨_, .plotDisVideos (option_inv (a := .plotDisVideos) (by decide) h1) hs, e⟩
          | plotObservers =>
            obtain ⟨ps, hs, e⟩ := ih _ _ _ _ (by simpa using hn) h2 h he
            exact ⟨_, .plotObservers (option_inv (a := .plotObservers) (by decide) h1) hs, e⟩
          | dataset =>
            match ts', h2 with
            | [], _ => cases h
            | .separator :: _, _ => cases h
            | .option _ _ _ :: _, _ => cases h
            | .value x :: l', h2 =>
              obtain ⟨l'', rfl, hv, h3⟩ := head_value h2
              obtain ⟨ps, hs, e⟩ := ih _ _ _ _ (by simp at hn; omega) h3 h he
              exact ⟨_, .dataset (option_inv (a := .dataset) (by decide) h1) hv hs, e⟩
          | outputDir =>
            match ts', h2 with
            | [], _ => cases h
            | .separator :: _, _ => cases h
            | .option _ _ _ :: _, _ => cases h
            | .value x :: l', h2 =>
              obtain ⟨l'', rfl, hv, h3⟩ := head_value h2
              obtain ⟨ps, hs, e⟩ := ih _ _ _ _ (by simp at hn; omega) h3 h he
              exact ⟨_, .outputDir (option_inv (a := .outputDir) (by decide) h1) hv hs, e⟩
          | models =>
            obtain ⟨l', e1, hv, h3⟩ := leading_split h2
            cases hl : leading ts' with
            | nil => rw [hl] at h; cases h
            | cons v vs =>
              rw [hl] at h e1 hv h3
              subst e1
              obtain ⟨ps, hs, e⟩ := ih _ _ _ _ (by simp at hn; omega) h3 h he
              exact ⟨_, .models (option_inv (a := .models) (by decide) h1) hv hs, e⟩

/-- the namespace after some pieces -/
lemma foldl_apply (ps : List Piece) :
    (ps.foldl apply {}).dataset = (datasets ps).getLast? ∧ (ps.foldl apply {}).models = (modelLists ps).getLast? ∧
      (ps.foldl apply {}).outputDir = (outputDirs ps).getLast? ∧ (ps.foldl apply {}).asked.rawData = decide (.plotRawData ∈ ps) ∧
      (ps.foldl apply {}).asked.disVideos = decide (.plotDisVideos ∈ ps) ∧ (ps.foldl apply {}).asked.observers = decide (.plotObservers ∈ ps) ∧
      (ps.foldl apply {}).extras = false := by
  induction ps using List.reverseRecOn with
  | nil => exact ⟨rfl, rfl, rfl, rfl, rfl, rfl, rfl⟩
  | append_singleton ps p ih =>
    obtain ⟨h1, h2, h3, h4, h5, h6, h7⟩ := ih
    rw [List.foldl_append]
    simp only [List.foldl_cons, List.foldl_nil]
    cases p <;> simp [apply, datasets, modelLists, outputDirs, List.filterMap_append, h1, h2, h3, h4, h5, h6, h7]

end Sureal.Argv
