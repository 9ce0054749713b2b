import Verif.Lemmas.MleRun
/-! # The MLE models under the mirrored scale: every vote replaced by its negative -/
set_option linter.unusedSectionVars false
namespace Sureal.Mle
open Sureal Spec
variable {E S R C : ℕ}

theorem fl_neg_neg (a : Fl ℝ) : - -a = a := by cases a <;> first | rfl | (simp only [Fl.fin_neg, neg_neg])

theorem neg_add_neg (a b : Fl ℝ) : -a + -b = -(a + b) := by
  cases a <;> cases b <;> first | rfl | (simp only [Fl.fin_neg, Fl.fin_add]; congr 1; ring)

theorem neg_sub_neg' (a b : Fl ℝ) : -a - -b = -(a - b) := by rw [fl_sub_eq, fl_sub_eq, neg_add_neg]

theorem infMul_neg (b : Bool) (x : ℝ) : Fl.infMul b (-x) = -Fl.infMul b x := by
  rcases lt_trichotomy x 0 with h | h | h
  · have : (0 : ℝ) < -x := by linarith
    unfold Fl.infMul
    rw [if_pos this, if_neg (not_lt.mpr h.le), if_pos h]
    cases b <;> rfl
  · subst h
    unfold Fl.infMul
    simp
  · have : -x < 0 := by linarith
    unfold Fl.infMul
    rw [if_neg (not_lt.mpr this.le), if_pos this, if_pos h]
    cases b <;> rfl

theorem infMul_not (b : Bool) (x : ℝ) : Fl.infMul (!b) x = -Fl.infMul b x := by
  unfold Fl.infMul
  split
  · cases b <;> rfl
  · split
    · cases b <;> rfl
    · rfl

theorem neg_mul' (a b : Fl ℝ) : -a * b = -(a * b) := by
  cases a <;> cases b
  case fin.fin => simp only [Fl.fin_neg, Fl.fin_mul]; congr 1; ring
  case pinf.fin y => exact infMul_not true y
  case ninf.fin y => exact infMul_not false y
  case fin.pinf y => exact infMul_neg true y
  case fin.ninf y => exact infMul_neg false y
  all_goals rfl

theorem mul_neg' (a b : Fl ℝ) : a * -b = -(a * b) := by
  cases a <;> cases b
  case fin.fin => simp only [Fl.fin_neg, Fl.fin_mul]; congr 1; ring
  case pinf.fin y => exact infMul_neg true y
  case ninf.fin y => exact infMul_neg false y
  case fin.pinf y => exact infMul_not true y
  case fin.ninf y => exact infMul_not false y
  all_goals rfl

theorem neg_sq' (a : Fl ℝ) : (-a).sq = a.sq := by
  unfold Fl.sq
  rw [neg_mul', mul_neg', fl_neg_neg]

theorem neg_isNan (a : Fl ℝ) : (-a).isNan = a.isNan := by cases a <;> rfl

theorem oneOrNan_neg (a : Fl ℝ) : oneOrNan (-a) = oneOrNan a := by cases a <;> rfl

theorem neg_div' (a b : Fl ℝ) : -a / b = -(a / b) := by
  cases a <;> cases b
  case fin.fin x y =>
    show (if (0 : ℝ) < y ∨ y < 0 then Fl.fin (-x / y) else if (0 : ℝ) < -x then Fl.pinf else if -x < 0 then Fl.ninf else Fl.nan) =
      -(if (0 : ℝ) < y ∨ y < 0 then Fl.fin (x / y) else if (0 : ℝ) < x then Fl.pinf else if x < 0 then Fl.ninf else Fl.nan)
    split
    · rw [Fl.fin_neg, neg_div]
    · rcases lt_trichotomy x 0 with h | h | h
      · rw [if_pos (by linarith), if_neg (by linarith), if_pos h]; rfl
      · subst h; simp
      · rw [if_neg (by linarith), if_pos (by linarith), if_pos h]; rfl
  case fin.pinf x => show Fl.fin (0 : ℝ) = Fl.fin (-0); rw [neg_zero]
  case fin.ninf x => show Fl.fin (0 : ℝ) = Fl.fin (-0); rw [neg_zero]
  case pinf.fin y =>
    show (if y < 0 then Fl.pinf else Fl.ninf) = -(if y < 0 then (Fl.ninf : Fl ℝ) else Fl.pinf)
    split <;> rfl
  case ninf.fin y =>
    show (if y < 0 then Fl.ninf else Fl.pinf) = -(if y < 0 then (Fl.pinf : Fl ℝ) else Fl.ninf)
    split <;> rfl
  all_goals rfl

theorem neg_zero' : -(0 : Fl ℝ) = 0 := by show Fl.fin (-0) = Fl.fin (0 : ℝ); rw [neg_zero]

/-! ### sums -/

theorem sum_neg (xs : List (Fl ℝ)) : Np.sum (xs.map (-·)) = -Np.sum xs := by
  unfold Np.sum
  induction xs with
  | nil => exact neg_zero'.symm
  | cons a xs ih => rw [List.map_cons, List.sum_cons, List.sum_cons, ih, neg_add_neg]

theorem notNan_neg (xs : List (Fl ℝ)) : Np.notNan (xs.map (-·)) = (Np.notNan xs).map (-·) := by
  unfold Np.notNan
  rw [List.filter_map]
  congr 2
  funext x
  show (!(-x).isNan) = _
  rw [neg_isNan]

theorem nansum_neg (xs : List (Fl ℝ)) : Np.nansum (xs.map (-·)) = -Np.nansum xs := by
  unfold Np.nansum
  rw [notNan_neg, sum_neg]

theorem count_neg (xs : List (Fl ℝ)) : Np.countNotNan (xs.map (-·)) = Np.countNotNan xs := by
  unfold Np.countNotNan
  rw [notNan_neg, List.length_map]

theorem nanmean_neg (xs : List (Fl ℝ)) : Np.nanmean (xs.map (-·)) = -Np.nanmean xs := by
  unfold Np.nanmean
  rw [nansum_neg, count_neg, neg_div']

theorem mean_neg (xs : List (Fl ℝ)) : Np.mean (xs.map (-·)) = -Np.mean xs := by
  unfold Np.mean
  rw [sum_neg, List.length_map, neg_div']

theorem nanstd_neg (n : ℕ) (xs : List (Fl ℝ)) : Np.nanstd n (xs.map (-·)) = Np.nanstd n xs := by
  unfold Np.nanstd Np.nanvar
  rw [count_neg, notNan_neg, nanmean_neg, List.map_map]
  have : ((fun x : Fl ℝ => (x - -Np.nanmean xs).sq) ∘ (-·)) = fun x => (x - Np.nanmean xs).sq := by
    funext x
    show (-x - -Np.nanmean xs).sq = _
    rw [neg_sub_neg', neg_sq']
  rw [this]

theorem norm_neg (xs : List (Fl ℝ)) : Np.linalgNorm (xs.map (-·)) = Np.linalgNorm xs := by
  unfold Np.linalgNorm
  have h1 : (xs.map (-·)).all (·.isFinite) = xs.all (·.isFinite) := by
    rw [List.all_map]
    congr 1
    funext x
    show (-x).isFinite = _
    cases x <;> rfl
  have h2 : (xs.map (-·)).map (·.sq) = xs.map (·.sq) := by
    rw [List.map_map]
    congr 1
    funext x
    exact neg_sq' x
  rw [h1, h2]

theorem colL_neg (f : Arr3 (Fl ℝ) E S R) (s : Fin S) : colL (stack0 fun e s r => -f e s r) s = (colL (stack0 f) s).map (-·) := by
  rw [colL_stack0, colL_stack0, List.map_flatten, List.map_ofFn]
  congr 2
  funext r
  show _ = List.map _ _
  rw [List.map_ofFn]
  rfl

theorem rowL_neg (f : Arr3 (Fl ℝ) E S R) (e : Fin E) : rowL (stack1 fun e s r => -f e s r) e = (rowL (stack1 f) e).map (-·) := by
  rw [rowL_stack1, rowL_stack1, List.map_flatten, List.map_ofFn]
  congr 2
  funext r
  show _ = List.map _ _
  rw [List.map_ofFn]
  rfl

theorem sumE_neg (f : Arr3 (Fl ℝ) E S R) : sumE (fun e s r => -f e s r) = fun s => -sumE f s := by
  funext s
  unfold sumE
  rw [colL_neg, nansum_neg]

theorem sumS_neg (f : Arr3 (Fl ℝ) E S R) : sumS (fun e s r => -f e s r) = fun e => -sumS f e := by
  funext e
  unfold sumS
  rw [rowL_neg, nansum_neg]

theorem refresh_neg (a b : Fl ℝ) : refresh (-a) (-b) = -refresh a b := by
  unfold refresh
  rw [neg_mul', neg_mul', neg_add_neg]

/-! ### the action -/

/-- every vote replaced by its negative -/
def negD (d : Data ℝ E S R C) : Data ℝ E S R C := ⟨fun e s r => -d.x e s r, d.cid⟩
/-- the parameters that belong to these votes -/
def negP (p : Params ℝ E S C) : Params ℝ E S C := ⟨fun e => -p.x e, fun s => -p.b s, p.v, p.a⟩
def negF (f : Fit ℝ E S C) : Fit ℝ E S C := ⟨negP f.p, f.std, f.itr⟩

variable (d : Data ℝ E S R C) (p : Params ℝ E S C)

theorem resid_neg : resid (negD d) (negP p) = fun e s r => -resid d p e s r := by
  funext e s r
  unfold resid negD negP
  dsimp only
  rw [neg_sub_neg', neg_sub_neg']

theorem bSimplified_neg : bSimplified (negD d) (negP p) = (fun s => -(bSimplified d p).1 s, (bSimplified d p).2) := by
  have h1 := sumE_neg fun e s r => (d.x e s r - p.x e) / vadd (p.v s) (p.a (d.cid e))
  unfold bSimplified negD negP
  dsimp only
  simp only [neg_sub_neg', oneOrNan_neg, neg_div', h1, refresh_neg]

theorem bOriginal_neg : bOriginal (negD d) (negP p) = (fun s => -(bOriginal d p).1 s, (bOriginal d p).2) := by
  have h1 := sumE_neg fun e s r => (d.x e s r - p.x e - p.b s) / vadd (p.v s) (p.a (d.cid e))
  unfold bOriginal negD negP
  dsimp only
  simp only [neg_sub_neg', oneOrNan_neg]
  simp only [neg_div' (_ - _ - _)]
  rw [h1]
  simp only [neg_div' (sumE _ _), neg_sub_neg', refresh_neg]

theorem vFirst_neg (r v a : Fl ℝ) : vFirst (-r) v a = vFirst r v a := by unfold vFirst; rw [neg_sq']
theorem vSecond_neg (r v a : Fl ℝ) : vSecond (-r) v a = vSecond r v a := by unfold vSecond; rw [neg_sq']
theorem aFirst_neg (r v a : Fl ℝ) : aFirst (-r) v a = aFirst r v a := by unfold aFirst; rw [neg_sq']
theorem aSecond_neg (r v a : Fl ℝ) : aSecond (-r) v a = aSecond r v a := by unfold aSecond; rw [neg_sq']

theorem vSimplified_neg : vSimplified (negD d) (negP p) = vSimplified d p := by
  unfold vSimplified
  rw [resid_neg]
  simp only [vFirst_neg, vSecond_neg]
  rfl

theorem aSimplified_neg : aSimplified (negD d) (negP p) = aSimplified d p := by
  unfold aSimplified
  rw [resid_neg]
  simp only [aFirst_neg, aSecond_neg]
  rfl

theorem xSimplified_neg : xSimplified (negD d) (negP p) = (fun e => -(xSimplified d p).1 e, (xSimplified d p).2) := by
  have h1 := sumS_neg fun e s r => (d.x e s r - p.b s) / vadd (p.v s) (p.a (d.cid e))
  unfold xSimplified negD negP
  dsimp only
  simp only [neg_sub_neg', oneOrNan_neg, neg_div', h1, refresh_neg]

theorem xOriginal_neg : xOriginal (negD d) (negP p) = (fun e => -(xOriginal d p).1 e, (xOriginal d p).2) := by
  have h1 := sumS_neg fun e s r => resid d p e s r / vadd (p.v s) (p.a (d.cid e))
  unfold xOriginal
  rw [resid_neg]
  unfold negD negP
  dsimp only
  simp only [oneOrNan_neg]
  simp only [neg_div' (resid _ _ _ _ _)]
  rw [h1]
  simp only [neg_div' (sumS _ _), neg_sub_neg', refresh_neg]

/-- a density that is the same for the mirrored vote, quality and bias -/
def Even (dens : Fl ℝ → Fl ℝ → Fl ℝ → Fl ℝ → Fl ℝ → Fl ℝ) : Prop := ∀ o x b v a, dens (-o) (-x) (-b) v a = dens o x b v a

theorem even_gauss {pdf : Option String} (h : pdf ≠ some "uniform") {dens : Fl ℝ → Fl ℝ → Fl ℝ → Fl ℝ → Fl ℝ → Fl ℝ}
    (hd : density (K := ℝ) pdf R = .ok dens) : Even dens := by
  unfold density at hd
  dsimp only at hd
  split at hd
  · cases hd
    intro o x b v a
    dsimp only
    unfold gaussian
    rw [neg_add_neg, neg_sub_neg', neg_sq']
  · split at hd
    · split at hd <;> cases hd
    · split at hd
      · rename_i hu
        cases pdf with
        | none => simp at hu
        | some s => exact absurd (congrArg some hu) h
      · cases hd

variable {dens : Fl ℝ → Fl ℝ → Fl ℝ → Fl ℝ → Fl ℝ → Fl ℝ}

theorem logCells_neg (hd : Even dens) : logCells dens (negD d) (negP p) = logCells dens d p := by
  funext e s r
  unfold logCells negD negP
  dsimp only
  rw [hd]

theorem neg_add' (a h : Fl ℝ) : -a + h = -(a + -h) := by rw [← neg_add_neg, fl_neg_neg]

/-- the difference quotients of the mirrored function -/
theorem numerical_neg {n : ℕ} (ll : Fl ℝ → Arr1 (Fl ℝ) n) (y : Arr1 (Fl ℝ) n) :
    ((fun i => refresh (-y i) (-y i - diff1 (fun h => ll (-h)) i / diff2 (fun h => ll (-h)) i), fun i => stdOf (-diff2 (fun h => ll (-h)) i)) :
      Arr1 (Fl ℝ) n × Arr1 (Fl ℝ) n) =
    (fun i => -refresh (y i) (y i - diff1 ll i / diff2 ll i), fun i => stdOf (-diff2 ll i)) := by
  have h2 : diff2 (fun h => ll (-h)) = diff2 ll := by
    funext i
    unfold diff2
    dsimp only
    rw [fl_neg_neg, neg_zero']
    congr 1
    rw [fl_sub_eq, fl_sub_eq, fl_add_assoc, fl_add_comm, fl_add_comm (-_) _]
  have h1 : diff1 (fun h => ll (-h)) = fun i => -diff1 ll i := by
    funext i
    unfold diff1
    dsimp only
    rw [fl_neg_neg]
    generalize ll (eps / ((2 : ℕ) : Fl ℝ)) i = A
    generalize ll (-(eps / ((2 : ℕ) : Fl ℝ))) i = B
    rw [← neg_div']
    congr 1
    rw [fl_sub_eq, fl_sub_eq, ← neg_add_neg, fl_neg_neg, fl_add_comm]
  rw [h1, h2]
  simp only [neg_div', neg_sub_neg', refresh_neg]

theorem bNumerical_neg (hd : Even dens) : bNumerical dens (negD d) (negP p) = (fun s => -(bNumerical dens d p).1 s, (bNumerical dens d p).2) := by
  have hl : ∀ h, sumE (logCells dens (negD d) { negP p with b := fun s => (negP p).b s + h }) =
      sumE (logCells dens d { p with b := fun s => p.b s + -h }) := by
    intro h
    rw [← logCells_neg d _ hd]
    congr 2
    unfold negP
    dsimp only
    simp only [neg_add']
  unfold bNumerical
  simp only [hl]
  exact numerical_neg (fun h => sumE (logCells dens d { p with b := fun s => p.b s + h })) p.b

theorem vNumerical_neg (hd : Even dens) : vNumerical dens (negD d) (negP p) = vNumerical dens d p := by
  have hl : ∀ h, sumE (logCells dens (negD d) { negP p with v := fun s => (negP p).v s + h }) =
      sumE (logCells dens d { p with v := fun s => p.v s + h }) := fun h => by
    rw [← logCells_neg d _ hd]; rfl
  unfold vNumerical
  simp only [hl]
  rfl

theorem aNumerical_neg (hd : Even dens) : aNumerical dens (negD d) (negP p) = aNumerical dens d p := by
  have hl : ∀ h, sumS (logCells dens (negD d) { negP p with a := fun s => (negP p).a s + h }) =
      sumS (logCells dens d { p with a := fun s => p.a s + h }) := fun h => by
    rw [← logCells_neg d _ hd]; rfl
  unfold aNumerical
  simp only [hl]
  rfl

theorem xNumerical_neg (hd : Even dens) : xNumerical dens (negD d) (negP p) = (fun s => -(xNumerical dens d p).1 s, (xNumerical dens d p).2) := by
  have hl : ∀ h, sumS (logCells dens (negD d) { negP p with x := fun s => (negP p).x s + h }) =
      sumS (logCells dens d { p with x := fun s => p.x s + -h }) := by
    intro h
    rw [← logCells_neg d _ hd]
    congr 2
    unfold negP
    dsimp only
    simp only [neg_add']
  unfold xNumerical
  simp only [hl]
  exact numerical_neg (fun h => sumS (logCells dens d { p with x := fun s => p.x s + h })) p.x

/-! ### one pass, and the loop -/

structure Mirrors (u : Updates ℝ E S R C) (d : Data ℝ E S R C) : Prop where
  b : ∀ p, u.b (negD d) (negP p) = (fun s => -(u.b d p).1 s, (u.b d p).2)
  v : ∀ p, u.v (negD d) (negP p) = u.v d p
  a : ∀ p, u.a (negD d) (negP p) = u.a d p
  x : ∀ p, u.x (negD d) (negP p) = (fun s => -(u.x d p).1 s, (u.x d p).2)

theorem step_neg {u : Updates ℝ E S R C} (hu : Mirrors u d) (mode : Mode) :
    step mode u (negD d) (negP p) = (negP (step mode u d p).1, (step mode u d p).2) := by
  have hb := hu.b p
  have hv : ∀ B : Fin S → Fl ℝ, u.v (negD d) { x := (negP p).x, b := fun s => -B s, v := (negP p).v, a := (negP p).a } =
      u.v d { p with b := B } := fun B => hu.v { p with b := B }
  have ha : ∀ B V : Fin S → Fl ℝ, u.a (negD d) { x := (negP p).x, b := fun s => -B s, v := V, a := (negP p).a } =
      u.a d { p with b := B, v := V } := fun B V => hu.a { p with b := B, v := V }
  have hx : ∀ (B V : Fin S → Fl ℝ) (A : Fin C → Fl ℝ), u.x (negD d) { x := (negP p).x, b := fun s => -B s, v := V, a := A } =
      (fun s => -(u.x d { p with b := B, v := V, a := A }).1 s, (u.x d { p with b := B, v := V, a := A }).2) :=
    fun B V A => hu.x { p with b := B, v := V, a := A }
  unfold step
  dsimp only
  rw [hb]
  have e1 : (if mode = .subjectOblivious then (fun _ => 0) else fun s => -(u.b d p).1 s) =
      fun s => -(if mode = .subjectOblivious then (fun _ => 0) else (u.b d p).1) s := by
    split
    · exact funext fun _ => neg_zero'.symm
    · rfl
  dsimp only
  rw [e1]
  generalize (if mode = .subjectOblivious then (fun _ => (0 : Fl ℝ)) else (u.b d p).1) = B
  rw [hv]
  generalize (if mode = .subjectOblivious then (fun _ => (0 : Fl ℝ)) else fun s => Fl.maximum ((u.v d { p with b := B }).1 s) 0) = V
  rw [ha]
  generalize (if mode = .contentOblivious then (fun _ => (0 : Fl ℝ)) else fun s => Fl.maximum ((u.a d { p with b := B, v := V }).1 s) 0) = A
  rw [hx]
  rfl

theorem loop_neg {u : Updates ℝ E S R C} (hu : Mirrors u d) (mode : Mode) (pdf : Option String) (thr : Fl ℝ)
    (n itr : ℕ) (hn : maxItr - itr = n) (p : Params ℝ E S C) :
    loop mode u pdf thr (negD d) itr (negP p) = mapOk negF (loop mode u pdf thr d itr p) := by
  have hnorm : ∀ p, Np.linalgNorm (List.ofFn fun e => (negP p).x e - (negP (step mode u d p).1).x e) =
      Np.linalgNorm (List.ofFn fun e => p.x e - (step mode u d p).1.x e) := by
    intro p
    rw [← norm_neg (List.ofFn fun e => p.x e - (step mode u d p).1.x e), List.map_ofFn]
    congr 2
    funext e
    exact neg_sub_neg' _ _
  induction n generalizing itr p with
  | zero =>
    rw [loop_unfold mode u pdf _ _ itr (negP p), loop_unfold mode u pdf thr d itr p, step_neg d p hu, hnorm]
    cases Np.linalgNorm (List.ofFn fun e => p.x e - (step mode u d p).1.x e) with
    | error e => rfl
    | ok δ =>
      cases density (K := ℝ) pdf R with
      | error e => rfl
      | ok dens =>
        have : maxItr ≤ itr + 1 := by omega
        simp only [if_pos this]
        split <;> rfl
  | succ n ih =>
    rw [loop_unfold mode u pdf _ _ itr (negP p), loop_unfold mode u pdf thr d itr p, step_neg d p hu, hnorm]
    cases Np.linalgNorm (List.ofFn fun e => p.x e - (step mode u d p).1.x e) with
    | error e => rfl
    | ok δ =>
      cases density (K := ℝ) pdf R with
      | error e => rfl
      | ok dens =>
        dsimp only
        rw [ih (itr + 1) (by omega)]
        split
        · rfl
        · split
          · rfl
          · rfl

theorem stdContent_neg (cid : Fin E → Fin C) (r : Arr3 (Fl ℝ) E S R) : stdContent cid (fun e s t => -r e s t) = stdContent cid r := by
  funext c
  have : ((List.finRange E).flatMap fun e => if cid e = c then (List.ofFn fun s => List.ofFn fun t => -r e s t).flatten else []) =
      ((List.finRange E).flatMap fun e => if cid e = c then (List.ofFn fun s => List.ofFn fun t => r e s t).flatten else []).map (-·) := by
    rw [List.map_flatMap]
    congr 1
    funext e
    split
    · rw [List.map_flatten, List.map_ofFn]
      congr 2
      funext s
      show _ = List.map _ _
      rw [List.map_ofFn]
      rfl
    · rfl
  unfold stdContent
  rw [this, nanstd_neg]

theorem init_neg (mode : Mode) (mos : Arr1 (Fl ℝ) E) : init mode (negD d) (fun e => -mos e) = negP (init mode d mos) := by
  unfold init negD negP
  dsimp only
  simp only [neg_sub_neg', neg_zero']
  have hv : (fun s => Np.nanstd 0 (colL (stack0 fun (e : Fin E) (s : Fin S) (t : Fin R) => -(d.x e s t - mos e)) s)) =
      fun s => Np.nanstd 0 (colL (stack0 fun e s t => d.x e s t - mos e) s) := by
    funext s
    rw [colL_neg fun e s t => d.x e s t - mos e, nanstd_neg]
  rw [hv, stdContent_neg d.cid fun e s t => d.x e s t - mos e]

theorem mirrors (m : Method) (pdf : Option String) (hm : m = .numerical → pdf ≠ some "uniform") (u : Updates ℝ E S R C) (hu : updates m pdf = .ok u) :
    Mirrors u d := by
  cases m with
  | numerical =>
    unfold updates at hu
    dsimp only at hu
    cases hd : density (K := ℝ) pdf R with
    | error e => rw [hd] at hu; cases hu
    | ok dens =>
      rw [hd] at hu
      cases hu
      have he := even_gauss (hm rfl) hd
      exact ⟨fun p => bNumerical_neg d p he, fun p => vNumerical_neg d p he, fun p => aNumerical_neg d p he, fun p => xNumerical_neg d p he⟩
  | simplified =>
    cases hu
    exact ⟨bSimplified_neg d, vSimplified_neg d, aSimplified_neg d, xSimplified_neg d⟩
  | original =>
    cases hu
    exact ⟨bOriginal_neg d, vSimplified_neg d, aSimplified_neg d, xOriginal_neg d⟩

theorem fitArr_neg (mode : Mode) (m : Method) (pdf : Option String) (hm : m = .numerical → pdf ≠ some "uniform") (thr : Fl ℝ) (mos : Arr1 (Fl ℝ) E) :
    fitArr mode m pdf thr (negD d) (fun e => -mos e) = mapOk negF (fitArr mode m pdf thr d mos) := by
  unfold fitArr
  cases hu : updates (K := ℝ) (E := E) (S := S) (R := R) (C := C) m pdf with
  | error e => rfl
  | ok u =>
    dsimp only
    rw [init_neg]
    exact loop_neg d (mirrors d m pdf hm u hu) mode pdf thr _ 0 rfl _

theorem centre_neg (z : Bool) : centre z (negP p) = negP (centre z p) := by
  unfold centre
  cases z
  · rfl
  · rw [if_pos rfl, if_pos rfl]
    have hm : Np.mean (List.ofFn (negP p).b) = -Np.mean (List.ofFn p.b) := by
      rw [← mean_neg, List.map_ofFn]; rfl
    dsimp only
    rw [hm]
    unfold negP
    dsimp only
    simp only [neg_add_neg, neg_sub_neg']

theorem meanAlongS_neg (x : Arr3 (Fl ℝ) E S R) : meanAlongS (fun e s r => -x e s r) = fun e => -meanAlongS x e := by
  funext e
  unfold meanAlongS
  rw [rowL_neg, nanmean_neg]

end Sureal.Mle
