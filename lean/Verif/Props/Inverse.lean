import Verif.Lemmas.Inverse
import Verif.Props.Dscore
import Mathlib.Topology.Order.IntermediateValue
import Mathlib.Topology.Instances.Real.Lemmas
/-! # C100: `inversefunc` -/
set_option linter.unusedSectionVars false
namespace Sureal.Props
open Inverse Spec.Inv
variable {K : Type} [Field K] [LinearOrder K] [IsStrictOrderedRing K]

/-- The shorter forms of the arguments: no domain is `[None, None]`, a number `x` is `[x, None]`, a single bool holds for both ends, `None` among
the flags is `False`.  Any other form, and limits that are not in order, are refused. -/
theorem C100_forms (solver : (K → Py (Fl K)) → K → K → Py (Fl K)) (func : K → Py (Fl K)) (domain image : Arg K) (op : Arg Bool) :
    inversefunc solver func .absent image op = inversefunc solver func (.seq [none, none]) image op ∧
    (∀ x, inversefunc solver func (.scalar x) image op = inversefunc solver func (.seq [some x, none]) image op) ∧
    inversefunc solver func domain .absent op = inversefunc solver func domain (.seq [none, none]) op ∧
    inversefunc solver func domain image .absent = inversefunc solver func domain image (.seq [some false, some false]) ∧
    (∀ b, inversefunc solver func domain image (.scalar b) = inversefunc solver func domain image (.seq [some b, some b])) ∧
    (domain = .nested ∨ (∃ l, domain = .seq l ∧ l.length ≠ 2) ∨ image = .nested ∨ (∃ y, image = .scalar y) ∨
        (∃ l, image = .seq l ∧ l.length ≠ 2) ∨ op = .nested ∨ (∃ l, op = .seq l ∧ l.length ≠ 2) ∨
        (∃ a b, domain = .seq [some a, some b] ∧ b ≤ a) ∨ (∃ a b, image = .seq [some a, some b] ∧ b ≤ a) →
      inversefunc solver func domain image op = .error .value) := by
  refine ⟨rfl, fun _ => rfl, rfl, rfl, fun _ => rfl, fun h => ?_⟩
  have hD : ∀ d : Arg K, (∃ p, normDomain d = .ok p) ∨ normDomain d = .error .value := by
    intro d
    unfold normDomain
    split <;> simp
  have hO : ∀ d : Arg Bool, (∃ p, normOpen d = .ok p) ∨ normOpen d = .error .value := by
    intro d
    unfold normOpen
    split <;> simp
  have hI : ∀ d : Arg K, (∃ p, normImage d = .ok p) ∨ normImage d = .error .value := by
    intro d
    unfold normImage
    split <;> simp
  suffices hn : normParams domain image op = .error .value by
    unfold inversefunc
    rw [hn]
  have len : ∀ {α : Type} (l : List (Option α)), l.length ≠ 2 → ∀ a b, l ≠ [a, b] := by
    rintro α l hl a b rfl
    exact hl rfl
  unfold normParams
  rcases hD domain with ⟨d, hd⟩ | hd
  swap
  · rw [hd]
  rw [hd]
  dsimp only
  rcases hO op with ⟨o, ho⟩ | ho
  swap
  · rw [ho]
  rw [ho]
  dsimp only
  rcases hI image with ⟨i, hi⟩ | hi
  swap
  · rw [hi]
  rw [hi]
  dsimp only
  rcases h with rfl | ⟨l, rfl, hl⟩ | rfl | ⟨y, rfl⟩ | ⟨l, rfl, hl⟩ | rfl | ⟨l, rfl, hl⟩ | ⟨a, b, rfl, hab⟩ | ⟨a, b, rfl, hab⟩
  · cases hd
  · match l, hl, hd with
    | [], _, hd => cases hd
    | [_], _, hd => cases hd
    | [_, _], hl, _ => exact absurd rfl hl
    | _ :: _ :: _ :: _, _, hd => cases hd
  · cases hi
  · cases hi
  · match l, hl, hi with
    | [], _, hi => cases hi
    | [_], _, hi => cases hi
    | [_, _], hl, _ => exact absurd rfl hl
    | _ :: _ :: _ :: _, _, hi => cases hi
  · cases ho
  · match l, hl, ho with
    | [], _, ho => cases ho
    | [_], _, ho => cases ho
    | [_, _], hl, _ => exact absurd rfl hl
    | _ :: _ :: _ :: _, _, ho => cases ho
  · cases hd
    have : ordered (some a, some b) = false := by simp [ordered, hab]
    rw [this]
    rfl
  · cases hi
    have : ordered (some a, some b) = false := by simp [ordered, hab]
    rw [this]
    simp only [Bool.not_false, if_true, ite_self]

section
variable {xmin xmax imin imax : Option K} {lo ro : Bool} {func : K → Py (Fl K)} {f : K → K}

theorem ordered_of (h : ∀ a b, xmin = some a → xmax = some b → a < b) : ordered (xmin, xmax) = true := by
  unfold ordered
  split
  · rename_i a b he
    simp only [Prod.mk.injEq] at he
    simpa using h a b he.1 he.2
  · rfl

theorem norm_eq (hd : ordered (xmin, xmax) = true) (hi : ordered (imin, imax) = true) :
    normParams (.seq [xmin, xmax]) (.seq [imin, imax]) (.seq [some lo, some ro]) = .ok ((xmin, xmax), (imin, imax), (lo, ro)) := by
  simp [normParams, normDomain, normOpen, normImage, hd, hi]

/-- the lower and the upper limit that `inv` works with when the function increases -/
theorem limits_up (hf : StrictMonoOn f (Domain xmin xmax lo ro)) (hc : Computes func f xmin xmax lo ro imin imax)
    (ho : ∀ a b, xmin = some a → xmax = some b → a < b) :
    ∃ ymin ymax, limit imin (autoYmin func xmin xmax .up) = .ok ymin ∧
      limit imax (autoYmax func xmin xmax .up) = .ok ymax ∧
      ∀ xs : List K, (∀ x ∈ xs, x ∈ Domain xmin xmax lo ro) →
        tooLow ymin lo ro .up (xs.map fun x => .fin (f x)) = false ∧ tooHigh ymax lo ro .up (xs.map fun x => .fin (f x)) = false := by
  obtain ⟨h1, h2, h3, h4⟩ := hc.up hf
  have low : ∃ ymin, limit imin (autoYmin func xmin xmax .up) = .ok ymin ∧
      ∀ x ∈ Domain xmin xmax lo ro, ∀ m, ymin = some m → (if lo then (Fl.fin (f x)).le m else (Fl.fin (f x)).lt m) = false := by
    cases imin with
    | some m =>
      refine ⟨_, rfl, fun x hx m' hm => ?_⟩
      cases hm
      have := h3 m rfl x hx
      cases lo <;> simp_all
    | none =>
      cases xmin with
      | none => exact ⟨none, by simp [limit, autoYmin], fun x hx m' hm => by cases hm⟩
      | some a =>
        cases lo with
        | true =>
          obtain ⟨v, hv, hb⟩ := h1 a rfl rfl rfl
          refine ⟨some v, by simp [limit, autoYmin, hv], fun x hx m' hm => ?_⟩
          cases hm
          have := hb x hx
          cases v <;> simp_all [Fl.lt, Fl.le]
        | false =>
          have ha : ∀ x ∈ Domain (some a) xmax false ro, a ∈ Domain (some a) xmax false ro := by
            intro x hx
            refine ⟨by simp, fun b hb => ?_⟩
            cases ro
            · simpa using (ho a b rfl hb).le
            · simpa using ho a b rfl hb
          have hr := refs_in (lo := false) (ro := ro) (ordered_of ho)
          have ha := ha _ hr.1
          refine ⟨some (.fin (f a)), by simp [limit, autoYmin, hc.val a ha], fun x hx m' hm => ?_⟩
          cases hm
          have hax : a ≤ x := by simpa using hx.1 a rfl
          simpa using hf.monotoneOn ha hx hax
  have high : ∃ ymax, limit imax (autoYmax func xmin xmax .up) = .ok ymax ∧
      ∀ x ∈ Domain xmin xmax lo ro, ∀ m, ymax = some m → (if ro then m.le (Fl.fin (f x)) else m.lt (Fl.fin (f x))) = false := by
    cases imax with
    | some m =>
      refine ⟨_, rfl, fun x hx m' hm => ?_⟩
      cases hm
      have := h4 m rfl x hx
      cases ro <;> simp_all
    | none =>
      cases xmax with
      | none => exact ⟨none, by simp [limit, autoYmax], fun x hx m' hm => by cases hm⟩
      | some b =>
        cases ro with
        | true =>
          obtain ⟨v, hv, hb⟩ := h2 b rfl rfl rfl
          refine ⟨some v, by simp [limit, autoYmax, hv], fun x hx m' hm => ?_⟩
          cases hm
          have := hb x hx
          cases v <;> simp_all [Fl.lt, Fl.le]
        | false =>
          have hb : b ∈ Domain xmin (some b) lo false := by
            refine ⟨fun a ha => ?_, by simp⟩
            cases lo
            · simpa using (ho a b ha rfl).le
            · simpa using ho a b ha rfl
          refine ⟨some (.fin (f b)), by simp [limit, autoYmax, hc.val b hb], fun x hx m' hm => ?_⟩
          cases hm
          have hax : x ≤ b := by simpa using hx.2 b rfl
          simpa using hf.monotoneOn hx hb hax
  obtain ⟨ymin, e1, l1⟩ := low
  obtain ⟨ymax, e2, l2⟩ := high
  refine ⟨ymin, ymax, e1, e2, fun xs hxs => ⟨?_, ?_⟩⟩
  · unfold tooLow
    split
    · rfl
    · rename_i m
      rw [List.any_eq_false]
      intro y hy
      obtain ⟨x, hx, rfl⟩ := List.mem_map.mp hy
      have := l1 x (hxs x hx) m rfl
      simpa using this
  · unfold tooHigh
    split
    · rfl
    · rename_i m
      rw [List.any_eq_false]
      intro y hy
      obtain ⟨x, hx, rfl⟩ := List.mem_map.mp hy
      have := l2 x (hxs x hx) m rfl
      simpa using this

theorem limits_down (hf : StrictAntiOn f (Domain xmin xmax lo ro)) (hc : Computes func f xmin xmax lo ro imin imax)
    (ho : ∀ a b, xmin = some a → xmax = some b → a < b) :
    ∃ ymin ymax, limit imin (autoYmin func xmin xmax .down) = .ok ymin ∧
      limit imax (autoYmax func xmin xmax .down) = .ok ymax ∧
      ∀ xs : List K, (∀ x ∈ xs, x ∈ Domain xmin xmax lo ro) →
        tooLow ymin lo ro .down (xs.map fun x => .fin (f x)) = false ∧ tooHigh ymax lo ro .down (xs.map fun x => .fin (f x)) = false := by
  obtain ⟨h1, h2, h3, h4⟩ := hc.down hf
  have low : ∃ ymin, limit imin (autoYmin func xmin xmax .down) = .ok ymin ∧
      ∀ x ∈ Domain xmin xmax lo ro, ∀ m, ymin = some m → (if ro then (Fl.fin (f x)).le m else (Fl.fin (f x)).lt m) = false := by
    cases imin with
    | some m =>
      refine ⟨_, rfl, fun x hx m' hm => ?_⟩
      cases hm
      have := h3 m rfl x hx
      cases ro <;> simp_all
    | none =>
      cases xmax with
      | none => exact ⟨none, by simp [limit, autoYmin], fun x hx m' hm => by cases hm⟩
      | some b =>
        cases ro with
        | true =>
          obtain ⟨v, hv, hb⟩ := h1 b rfl rfl rfl
          refine ⟨some v, by simp [limit, autoYmin, hv], fun x hx m' hm => ?_⟩
          cases hm
          have := hb x hx
          cases v <;> simp_all [Fl.lt, Fl.le]
        | false =>
          have hb : b ∈ Domain xmin (some b) lo false := by
            refine ⟨fun a ha => ?_, by simp⟩
            cases lo
            · simpa using (ho a b ha rfl).le
            · simpa using ho a b ha rfl
          refine ⟨some (.fin (f b)), by simp [limit, autoYmin, hc.val b hb], fun x hx m' hm => ?_⟩
          cases hm
          have hax : x ≤ b := by simpa using hx.2 b rfl
          simpa using hf.antitoneOn hx hb hax
  have high : ∃ ymax, limit imax (autoYmax func xmin xmax .down) = .ok ymax ∧
      ∀ x ∈ Domain xmin xmax lo ro, ∀ m, ymax = some m → (if lo then m.le (Fl.fin (f x)) else m.lt (Fl.fin (f x))) = false := by
    cases imax with
    | some m =>
      refine ⟨_, rfl, fun x hx m' hm => ?_⟩
      cases hm
      have := h4 m rfl x hx
      cases lo <;> simp_all
    | none =>
      cases xmin with
      | none => exact ⟨none, by simp [limit, autoYmax], fun x hx m' hm => by cases hm⟩
      | some a =>
        cases lo with
        | true =>
          obtain ⟨v, hv, hb⟩ := h2 a rfl rfl rfl
          refine ⟨some v, by simp [limit, autoYmax, hv], fun x hx m' hm => ?_⟩
          cases hm
          have := hb x hx
          cases v <;> simp_all [Fl.lt, Fl.le]
        | false =>
          have ha : a ∈ Domain (some a) xmax false ro := by
            refine ⟨by simp, fun b hb => ?_⟩
            cases ro
            · simpa using (ho a b rfl hb).le
            · simpa using ho a b rfl hb
          refine ⟨some (.fin (f a)), by simp [limit, autoYmax, hc.val a ha], fun x hx m' hm => ?_⟩
          cases hm
          have hax : a ≤ x := by simpa using hx.1 a rfl
          simpa using hf.antitoneOn ha hx hax
  obtain ⟨ymin, e1, l1⟩ := low
  obtain ⟨ymax, e2, l2⟩ := high
  refine ⟨ymin, ymax, e1, e2, fun xs hxs => ⟨?_, ?_⟩⟩
  · unfold tooLow
    split
    · rfl
    · rename_i m
      rw [List.any_eq_false]
      intro y hy
      obtain ⟨x, hx, rfl⟩ := List.mem_map.mp hy
      have := l1 x (hxs x hx) m rfl
      simpa using this
  · unfold tooHigh
    split
    · rfl
    · rename_i m
      rw [List.any_eq_false]
      intro y hy
      obtain ⟨x, hx, rfl⟩ := List.mem_map.mp hy
      have := l2 x (hxs x hx) m rfl
      simpa using this

/-- **C100 (inverse).** For a strictly monotone function on a domain whose ends may be missing, included or excluded, the callable that is returned
maps the values of the function back to their arguments, provided that the minimisation finds the zero of a function that falls towards it
from both sides. -/
theorem C100_inverse {solver : (K → Py (Fl K)) → K → K → Py (Fl K)} (hs : FindsZero solver)
    (ho : ∀ a b, xmin = some a → xmax = some b → a < b) (hi : ∀ a b, imin = some a → imax = some b → a < b)
    (hf : StrictlyMonotone f (Domain xmin xmax lo ro)) (hc : Computes func f xmin xmax lo ro imin imax) :
    ∃ inv, inversefunc solver func (.seq [xmin, xmax]) (.seq [imin, imax]) (.seq [some lo, some ro]) = .ok inv ∧
      ∀ xs : List K, (∀ x ∈ xs, x ∈ Domain xmin xmax lo ro) → inv (xs.map fun x => .fin (f x)) = .ok (xs.map .fin) := by
  have hod := ordered_of ho
  obtain ⟨r1, r2, r12⟩ := refs_in (lo := lo) (ro := ro) hod
  unfold inversefunc
  rw [norm_eq hod (ordered_of hi)]
  dsimp only
  rw [hc.val _ r2, hc.val _ r1]
  dsimp only
  rw [Fl.fin_sub]
  rcases id hf with hm | hm
  · have ht : sign (Fl.fin (f (refPoints xmin xmax).2 - f (refPoints xmin xmax).1)) = some .up := by
      have := hm r1 r2 r12
      simp [sign, this]
    obtain ⟨ymin, ymax, e1, e2, hl⟩ := limits_up hm hc ho
    rw [ht]
    dsimp only
    rw [e1, e2]
    refine ⟨_, rfl, fun xs hxs => ?_⟩
    obtain ⟨l1, l2⟩ := hl xs hxs
    rw [l1, l2]
    exact invAll_map fun x hx => invOne_eq hs hf hc.val (by decide) (hxs x hx) hod
  · have ht : sign (Fl.fin (f (refPoints xmin xmax).2 - f (refPoints xmin xmax).1)) = some .down := by
      have := hm r1 r2 r12
      simp [sign, this, this.le]
    obtain ⟨ymin, ymax, e1, e2, hl⟩ := limits_down hm hc ho
    rw [ht]
    dsimp only
    rw [e1, e2]
    refine ⟨_, rfl, fun xs hxs => ?_⟩
    obtain ⟨l1, l2⟩ := hl xs hxs
    rw [l1, l2]
    exact invAll_map fun x hx => invOne_eq hs hf hc.val (by decide) (hxs x hx) hod

/-- The assumption on the minimisation can be met. -/
theorem findsZero_exists : ∃ solver : (K → Py (Fl K)) → K → K → Py (Fl K), FindsZero solver := by
  classical
  refine ⟨fun o _ _ => if h : ∃ x₀, o x₀ = .ok (.fin 0) then .ok (.fin h.choose) else .error .value, ?_⟩
  intro g x₀ a b _ h0 hp _ _
  have h : ∃ x, (fun x => (.ok (g x) : Py (Fl K))) x = .ok (.fin 0) := ⟨x₀, by simp [h0]⟩
  dsimp only at h ⊢
  rw [dif_pos h]
  have hz := h.choose_spec
  have : h.choose = x₀ := by
    by_contra hne
    have hp := hp _ hne
    rw [Except.ok.inj hz] at hp
    simp at hp
  rw [this]

/-- **C100 (not monotone).** A function with the same value at the two reference points is refused. -/
theorem C100_constant (solver : (K → Py (Fl K)) → K → K → Py (Fl K)) (ho : ∀ a b, xmin = some a → xmax = some b → a < b)
    (hi : ∀ a b, imin = some a → imax = some b → a < b) {c : K} (hc : ∀ x ∈ Domain xmin xmax lo ro, func x = .ok (.fin c)) :
    inversefunc solver func (.seq [xmin, xmax]) (.seq [imin, imax]) (.seq [some lo, some ro]) = .error .value := by
  have hod := ordered_of ho
  obtain ⟨r1, r2, -⟩ := refs_in (lo := lo) (ro := ro) hod
  unfold inversefunc
  rw [norm_eq hod (ordered_of hi)]
  dsimp only
  rw [hc _ r2, hc _ r1]
  dsimp only
  rw [Fl.fin_sub, sub_self]
  simp [sign]

end

theorem invAll_forall {one : Fl ℝ → Py (Fl ℝ)} {P : ℝ → ℝ → Prop} {ys : List ℝ} (h : ∀ y ∈ ys, ∃ x, P x y ∧ one (.fin y) = .ok (.fin x)) :
    ∃ xs, List.Forall₂ P xs ys ∧ invAll one (ys.map .fin) = .ok (xs.map .fin) := by
  induction ys with
  | nil => exact ⟨[], .nil, rfl⟩
  | cons y ys ih =>
    obtain ⟨x, hx, e⟩ := h y List.mem_cons_self
    obtain ⟨xs, hxs, e'⟩ := ih fun z hz => h z (List.mem_cons_of_mem _ hz)
    refine ⟨x :: xs, .cons hx hxs, ?_⟩
    rw [List.map_cons]
    unfold invAll
    rw [e]
    dsimp only
    rw [e']
    rfl

/-- **C100 (closed interval).** For a continuous, strictly monotone function on `[a, b]` every request is answered with arguments in `[a, b]` at
which the function has the requested values, or with ValueError, the latter exactly if some value is not taken. -/
theorem C100_closed {solver : (ℝ → Py (Fl ℝ)) → ℝ → ℝ → Py (Fl ℝ)} (hs : FindsZero solver) {a b : ℝ} (hab : a < b) {f : ℝ → ℝ}
    (hf : StrictlyMonotone f (Set.Icc a b)) (hcont : ContinuousOn f (Set.Icc a b)) {func : ℝ → Py (Fl ℝ)}
    (hv : ∀ x ∈ Set.Icc a b, func x = .ok (.fin (f x))) :
    ∃ inv, inversefunc solver func (.seq [some a, some b]) .absent .absent = .ok inv ∧
      ∀ ys : List ℝ,
        ((∀ y ∈ ys, ∃ x ∈ Set.Icc a b, f x = y) →
          ∃ xs, List.Forall₂ (fun x y => x ∈ Set.Icc a b ∧ f x = y) xs ys ∧ inv (ys.map .fin) = .ok (xs.map .fin)) ∧
        ((∃ y ∈ ys, ∀ x ∈ Set.Icc a b, f x ≠ y) → inv (ys.map .fin) = .error .value) := by
  have hD : Domain (some a) (some b) false false = Set.Icc a b := by
    ext x
    simp [Domain]
  have hod : ordered (some a, some b) = true := by simpa [ordered] using hab
  have hr := refs_in (lo := false) (ro := false) hod
  rw [hD] at hr
  obtain ⟨r1, r2, r12⟩ := hr
  have ha : a ∈ Set.Icc a b := ⟨le_rfl, hab.le⟩
  have hb : b ∈ Set.Icc a b := ⟨hab.le, le_rfl⟩
  have hf' : StrictlyMonotone f (Domain (some a) (some b) false false) := hD ▸ hf
  have hv' : ∀ x ∈ Domain (some a) (some b) false false, func x = .ok (.fin (f x)) := hD ▸ hv
  have back : ∀ t : Trend, t ≠ .unknown → ∀ ys : List ℝ, (∀ y ∈ ys, ∃ x ∈ Set.Icc a b, f x = y) →
      ∃ xs, List.Forall₂ (fun x y => x ∈ Set.Icc a b ∧ f x = y) xs ys ∧
        invAll (invOne solver (bounded func (some a) (some b) false false t) (some a) (some b) (refPoints (some a) (some b)))
          (ys.map .fin) = .ok (xs.map .fin) := by
    intro t ht ys hys
    refine invAll_forall fun y hy => ?_
    obtain ⟨x, hx, rfl⟩ := hys y hy
    exact ⟨x, ⟨hx, rfl⟩, invOne_eq hs hf' hv' ht (hD ▸ hx) hod⟩
  rw [(C100_forms solver func (.seq [some a, some b]) .absent .absent).2.2.1,
    (C100_forms solver func (.seq [some a, some b]) (.seq [none, none]) .absent).2.2.2.1]
  unfold inversefunc
  rw [norm_eq hod rfl]
  dsimp only
  rw [hv _ r2, hv _ r1]
  dsimp only
  rw [Fl.fin_sub]
  rcases id hf with hm | hm
  · have ht : sign (Fl.fin (f (refPoints (some a) (some b)).2 - f (refPoints (some a) (some b)).1)) = some .up := by
      have := hm r1 r2 r12
      simp [sign, this]
    have e1 : limit none (autoYmin func (some a) (some b) .up) = .ok (some (.fin (f a))) := by simp [limit, autoYmin, hv a ha]
    have e2 : limit none (autoYmax func (some a) (some b) .up) = .ok (some (.fin (f b))) := by simp [limit, autoYmax, hv b hb]
    rw [ht]
    dsimp only
    rw [e1, e2]
    refine ⟨_, rfl, fun ys => ⟨fun hys => ?_, ?_⟩⟩
    · have l1 : tooLow (some (.fin (f a))) false false .up (ys.map .fin) = false := by
        simp only [tooLow, Bool.false_and, Bool.or_self, Bool.false_eq_true, if_false, List.any_map, List.any_eq_false, Function.comp_apply,
          Fl.lt_fin, decide_eq_true_eq, not_lt]
        intro y hy
        obtain ⟨x, hx, rfl⟩ := hys y hy
        exact hm.monotoneOn ha hx hx.1
      have l2 : tooHigh (some (.fin (f b))) false false .up (ys.map .fin) = false := by
        simp only [tooHigh, Bool.false_and, Bool.or_self, Bool.false_eq_true, if_false, List.any_map, List.any_eq_false, Function.comp_apply,
          Fl.lt_fin, decide_eq_true_eq, not_lt]
        intro y hy
        obtain ⟨x, hx, rfl⟩ := hys y hy
        exact hm.monotoneOn hx hb hx.2
      simp only [l1, l2]
      exact back .up (by decide) ys hys
    · rintro ⟨y, hy, hne⟩
      by_cases h1 : y < f a
      · have l1 : tooLow (some (.fin (f a))) false false .up (ys.map .fin) = true := by
          simp only [tooLow, Bool.false_and, Bool.or_self, Bool.false_eq_true, if_false, List.any_map, List.any_eq_true, Function.comp_apply,
            Fl.lt_fin, decide_eq_true_eq]
          exact ⟨y, hy, h1⟩
        simp only [l1, if_true]
      · by_cases h2 : f b < y
        · have l2 : tooHigh (some (.fin (f b))) false false .up (ys.map .fin) = true := by
            simp only [tooHigh, Bool.false_and, Bool.or_self, Bool.false_eq_true, if_false, List.any_map, List.any_eq_true,
              Function.comp_apply, Fl.lt_fin, decide_eq_true_eq]
            exact ⟨y, hy, h2⟩
          simp only [l2, if_true, ite_self]
        · obtain ⟨x, hx, e⟩ := intermediate_value_Icc hab.le hcont ⟨not_lt.mp h1, not_lt.mp h2⟩
          exact absurd e (hne x hx)
  · have ht : sign (Fl.fin (f (refPoints (some a) (some b)).2 - f (refPoints (some a) (some b)).1)) = some .down := by
      have := hm r1 r2 r12
      simp [sign, this, this.le]
    have e1 : limit none (autoYmin func (some a) (some b) .down) = .ok (some (.fin (f b))) := by simp [limit, autoYmin, hv b hb]
    have e2 : limit none (autoYmax func (some a) (some b) .down) = .ok (some (.fin (f a))) := by simp [limit, autoYmax, hv a ha]
    rw [ht]
    dsimp only
    rw [e1, e2]
    refine ⟨_, rfl, fun ys => ⟨fun hys => ?_, ?_⟩⟩
    · have l1 : tooLow (some (.fin (f b))) false false .down (ys.map .fin) = false := by
        simp only [tooLow, Bool.false_and, Bool.or_self, Bool.false_eq_true, if_false, List.any_map, List.any_eq_false, Function.comp_apply,
          Fl.lt_fin, decide_eq_true_eq, not_lt]
        intro y hy
        obtain ⟨x, hx, rfl⟩ := hys y hy
        exact hm.antitoneOn hx hb hx.2
      have l2 : tooHigh (some (.fin (f a))) false false .down (ys.map .fin) = false := by
        simp only [tooHigh, Bool.false_and, Bool.or_self, Bool.false_eq_true, if_false, List.any_map, List.any_eq_false, Function.comp_apply,
          Fl.lt_fin, decide_eq_true_eq, not_lt]
        intro y hy
        obtain ⟨x, hx, rfl⟩ := hys y hy
        exact hm.antitoneOn ha hx hx.1
      simp only [l1, l2]
      exact back .down (by decide) ys hys
    · rintro ⟨y, hy, hne⟩
      by_cases h1 : y < f b
      · have l1 : tooLow (some (.fin (f b))) false false .down (ys.map .fin) = true := by
          simp only [tooLow, Bool.false_and, Bool.or_self, Bool.false_eq_true, if_false, List.any_map, List.any_eq_true, Function.comp_apply,
            Fl.lt_fin, decide_eq_true_eq]
          exact ⟨y, hy, h1⟩
        simp only [l1, if_true]
      · by_cases h2 : f a < y
        · have l2 : tooHigh (some (.fin (f a))) false false .down (ys.map .fin) = true := by
            simp only [tooHigh, Bool.false_and, Bool.or_self, Bool.false_eq_true, if_false, List.any_map, List.any_eq_true,
              Function.comp_apply, Fl.lt_fin, decide_eq_true_eq]
            exact ⟨y, hy, h2⟩
          simp only [l2, if_true, ite_self]
        · obtain ⟨x, hx, e⟩ := intermediate_value_Icc' hab.le hcont ⟨not_lt.mp h1, not_lt.mp h2⟩
          exact absurd e (hne x hx)

/-- with no domain, and different values at 0 and 1, no value is refused -/
theorem no_domain_answers (solver : (K → Py (Fl K)) → K → K → Py (Fl K)) {f : K → K} (h : f 0 ≠ f 1) :
    ∃ inv, inversefunc solver (fun x => .ok (.fin (f x))) .absent .absent .absent = .ok inv ∧
      ∀ y : K, ∃ r, inv [.fin y] = .ok [r] ∧
        ∃ o : K → K, (∀ x, o x = (f x - y) * (f x - y)) ∧ (∀ x, solver (fun x => .ok (.fin (o x))) 0 1 = .ok x → r = x) := by
  have key : ∀ t : Trend, ∃ inv : List (Fl K) → Py (List (Fl K)), (fun ys =>
      if tooLow (K := K) none false false t ys then .error .value
      else if tooHigh (K := K) none false false t ys then .error .value
      else invAll (invOne solver (bounded (fun x => .ok (.fin (f x))) none none false false t) none none (refPoints none none)) ys :
        List (Fl K) → Py (List (Fl K))) = inv ∧ ∀ y : K, ∃ r, inv [.fin y] = .ok [r] ∧
        ∃ o : K → K, (∀ x, o x = (f x - y) * (f x - y)) ∧ (∀ x, solver (fun x => .ok (.fin (o x))) 0 1 = .ok x → r = x) := by
    intro t
    refine ⟨_, rfl, fun y => ?_⟩
    have ho : objective (bounded (fun x => .ok (.fin (f x))) none none false false t) (.fin y) =
        fun x => .ok (.fin ((f x - y) * (f x - y))) := by
      funext x
      simp [objective, bounded, below, above]
    simp only [tooLow, tooHigh, Bool.false_eq_true, if_false, invAll, invOne, atEnd, ho, refPoints]
    cases hso : solver (fun x => .ok (.fin ((f x - y) * (f x - y)))) 0 1 with
    | error e => exact ⟨.nan, rfl, fun x => (f x - y) * (f x - y), fun _ => rfl, fun x hx => by rw [hso] at hx; cases hx⟩
    | ok r => exact ⟨r, rfl, fun x => (f x - y) * (f x - y), fun _ => rfl, fun x hx => by rw [hso] at hx; cases hx; rfl⟩
  unfold inversefunc
  have hn : normParams (.absent : Arg K) .absent .absent = .ok ((none, none), (none, none), (false, false)) := by
    simp [normParams, normDomain, normOpen, normImage, ordered]
  rw [hn]
  dsimp only
  rw [Fl.fin_sub]
  rcases lt_or_gt_of_ne h with h | h
  · have ht : sign (Fl.fin (f (refPoints (none : Option K) none).2 - f (refPoints (none : Option K) none).1)) = some .up := by
      simp [sign, refPoints, h]
    rw [ht]
    obtain ⟨inv, e, hi⟩ := key .up
    exact ⟨inv, by rw [← e]; rfl, hi⟩
  · have ht : sign (Fl.fin (f (refPoints (none : Option K) none).2 - f (refPoints (none : Option K) none).1)) = some .down := by
      simp [sign, refPoints, h, h.le]
    rw [ht]
    obtain ⟨inv, e, hi⟩ := key .down
    exact ⟨inv, by rw [← e]; rfl, hi⟩

/-- **C100 refuted (square).** The square, which is not monotone, is accepted when no domain is given, and an inverse of -1 is returned
whatever the minimisation does. -/
theorem C100_refuted_square (solver : (K → Py (Fl K)) → K → K → Py (Fl K)) :
    ¬ StrictlyMonotone (fun x : K => x * x) Set.univ ∧
    ∃ inv r, inversefunc solver (fun x => .ok (.fin (x * x))) .absent .absent .absent = .ok inv ∧ inv [.fin (-1)] = .ok [r] ∧
      ∀ x : K, x * x ≠ -1 := by
  constructor
  · rintro (h | h)
    · have := h (Set.mem_univ (-1)) (Set.mem_univ 0) (by norm_num)
      norm_num at this
    · have := h (Set.mem_univ 0) (Set.mem_univ 1) (by norm_num)
      norm_num at this
  · obtain ⟨inv, e, hi⟩ := no_domain_answers solver (f := fun x : K => x * x) (by norm_num)
    obtain ⟨r, hr, -⟩ := hi (-1)
    exact ⟨inv, r, e, hr, fun x hx => by nlinarith [mul_self_nonneg x]⟩

/-- **C100 refuted (no preimage).** `x / (1 + |x|)` is strictly increasing with values between -1 and 1; without a domain an inverse of 2 is
returned nevertheless. -/
theorem C100_refuted_unbounded (solver : (K → Py (Fl K)) → K → K → Py (Fl K)) :
    StrictMono (fun x : K => x / (1 + |x|)) ∧ (∀ x : K, x / (1 + |x|) ≠ 2) ∧
    ∃ inv r, inversefunc solver (fun x => .ok (.fin (x / (1 + |x|)))) .absent .absent .absent = .ok inv ∧ inv [.fin 2] = .ok [r] := by
  have pos : ∀ x : K, 0 < 1 + |x| := fun x => by positivity
  refine ⟨fun x y hxy => ?_, fun x hx => ?_, ?_⟩
  · show x / (1 + |x|) < y / (1 + |y|)
    rw [div_lt_div_iff₀ (pos x) (pos y)]
    rcases abs_cases x with ⟨h1, h2⟩ | ⟨h1, h2⟩ <;> rcases abs_cases y with ⟨h3, h4⟩ | ⟨h3, h4⟩ <;> rw [h1, h3] <;> nlinarith
  · rw [div_eq_iff (pos x).ne'] at hx
    linarith [le_abs_self x, abs_nonneg x]
  · obtain ⟨inv, e, hi⟩ := no_domain_answers solver (f := fun x : K => x / (1 + |x|)) (by norm_num)
    obtain ⟨r, hr, -⟩ := hi 2
    exact ⟨inv, r, e, hr⟩

/-- `2 x` on the open interval from 0 to 1 with its default image -/
example : Computes (fun x : ℚ => .ok (.fin (2 * x))) (fun x => 2 * x) (some 0) (some 1) true true none none := by
  refine ⟨fun _ _ => rfl, fun _ => ⟨?_, ?_, by simp, by simp⟩, fun h => ?_⟩
  · rintro _ ⟨rfl⟩ - -
    refine ⟨_, rfl, fun x hx => ?_⟩
    have := hx.1 0 rfl
    simpa using this
  · rintro _ ⟨rfl⟩ - -
    refine ⟨_, rfl, fun x hx => ?_⟩
    have : x < 1 := by simpa using hx.2 1 rfl
    simpa using this
  · have := h (a := 1 / 4) (by simp [Domain]; norm_num) (b := 1 / 2) (by simp [Domain]; norm_num) (by norm_num)
    norm_num at this

/-- the answer of the callable -/
def answer (r : Py (List (Fl ℚ) → Py (List (Fl ℚ)))) (ys : List (Fl ℚ)) : Py (List (Fl ℚ)) :=
  match r with
  | .error e => .error e
  | .ok inv => inv ys

/-- the square on the numbers from 0 on is increasing, -1 is refused there -/
example : (match answer (inversefunc (fun _ _ _ => .ok (.fin 5)) (fun x => .ok (.fin (x * x))) (.scalar 0) .absent .absent) [.fin (-1)] with
    | .error .value => true
    | _ => false) = true := by
  decide +kernel

/-- a decreasing function on [0, 2], at its ends and beyond -/
example : (match answer (inversefunc (fun _ _ _ => .ok (.fin 5)) (fun x => .ok (.fin (4 - x * x))) (.seq [some 0, some 2]) .absent .absent)
      [.fin 4, .fin 0], answer (inversefunc (fun _ _ _ => .ok (.fin 5)) (fun x => .ok (.fin (4 - x * x))) (.seq [some 0, some 2]) .absent .absent)
      [.fin 1, .fin 5] with
    | .ok l, .error .value => l = [.fin 0, .fin 2]
    | _, _ => false) = true := by
  decide +kernel

end Sureal.Props
