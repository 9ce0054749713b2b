import Verif.Model.PcReader
import Verif.Model.Preproc
/-!
# Paired-comparison models (`sureal/pc_subjective_model.py`)

The loops of the two Bradley-Terry models have no bound on the number of passes, so each is modelled as a relation between
the state at the loop head and the outcome (`Loop`, `NrLoop`): there is no outcome if the loop does not end.
`np.linalg.pinv`, `scipy.linalg.pinv`, `scipy.optimize.minimize`, `norm.cdf` and `norm.pdf` are parameters.
Printing (`display`, progress messages) is not modelled apart from the check of its type.
-/
namespace Sureal.Bt
variable {K : Type} [Zero K] [One K] [Add K] [Neg K] [Sub K] [Mul K] [Div K] [NatCast K]
  [LT K] [LE K] [DecidableLT K] [DecidableLE K]

/-- `np.nansum(dataset_reader.opinion_score_3darray, axis=2)` -/
def nansum2 (a : Arr3D (Fl K)) : Arr2 (Fl K) a.E a.S := fun i j => Np.nansum (List.ofFn (a.get i j))

/-- a square matrix of some size -/
structure Square (K : Type) where
  M : Nat
  get : Arr2 (Fl K) M M

/-- the win matrix of a reader's array, with `M, M_ = alpha.shape; assert M == M_` (lines 108-118, 192, 217-218, 304, 330-331) -/
def winMatrix (a : Arr3D (Fl K)) : Py (Square K) :=
  if h : a.E = a.S then .ok ⟨a.E, fun i j => nansum2 a i (Fin.cast h j)⟩ else .error .assertion

/-! ## BT_MLE, lines 182-275 -/
section mle
variable {M : Nat}

/-- `n = alpha + alpha.T`, line 220 -/
def games (al : Arr2 (Fl K) M M) : Arr2 (Fl K) M M := fun i j => al i j + al j i

/-- `p = 1.0 / M * np.ones(M)`, line 223 -/
def start (M : Nat) : Arr1 (Fl K) M := fun _ => 1 / ((M : Nat) : Fl K) * 1

/-- `pp = np.tile(p, (M, 1)).T + np.tile(p, (M, 1))`, lines 241, 260 -/
def pairSum (p : Arr1 (Fl K) M) : Arr2 (Fl K) M M := fun i j => p i + p j

/-- `np.sum(alpha, axis=1) / np.sum(n / pp, axis=1)`, line 243 -/
def ratio (al : Arr2 (Fl K) M M) (p : Arr1 (Fl K) M) : Arr1 (Fl K) M := fun i =>
  Np.sum (rowL al i) / Np.sum (List.ofFn fun j => games al i j / pairSum p i j)

/-- one pass: lines 241-245 -/
def iter (al : Arr2 (Fl K) M M) (p : Arr1 (Fl K) M) : Arr1 (Fl K) M := fun i =>
  ratio al p i / Np.sum (List.ofFn (ratio al p))

variable [MathFn K]

/-- `change = linalg.norm(p - p_prev)`, line 247 -/
def change (p' p : Arr1 (Fl K) M) : Py (Fl K) := Np.linalgNorm (List.ofFn fun i => p' i - p i)

/-- `DELTA_THR = 1e-8`, lines 132, 226 -/
def thr : Fl K := Fl.dec 1 (10 ^ 8)

/-- the loop, lines 228-253: `Loop al p r` if the loop entered with `p` ends with `r` -/
inductive Loop (al : Arr2 (Fl K) M M) : Arr1 (Fl K) M → Py (Arr1 (Fl K) M) → Prop
  | fail {p e} (h : change (iter al p) p = .error e) : Loop al p (.error e)
  | stop {p c} (h : change (iter al p) p = .ok c) (hc : thr.lt c = false) : Loop al p (.ok (iter al p))
  | next {p c r} (h : change (iter al p) p = .ok c) (hc : thr.lt c = true) (hr : Loop al (iter al p) r) : Loop al p r

/-- `lbda_ii`, line 262 -/
def lambdaDiag (al : Arr2 (Fl K) M M) (p : Arr1 (Fl K) M) : Arr1 (Fl K) M := fun i =>
  Np.sum (List.ofFn fun j => -al i j / (p i).sq + games al i j / (pairSum p i j).sq)

/-- `lbda = lbda_ij + np.diag(lbda_ii)` with `lbda_ij = n / pp*2`, lines 263-264 -/
def lambda (al : Arr2 (Fl K) M M) (p : Arr1 (Fl K) M) : Arr2 (Fl K) M M := fun i j =>
  games al i j / pairSum p i j * ((2 : Nat) : Fl K) + if i = j then lambdaDiag al p i else 0

/-- `np.vstack([np.hstack([-lbda, np.ones([M, 1])]), np.hstack([np.ones([1, M]), np.array([[0]])])])`, line 266 -/
def bordered (l : Arr2 (Fl K) M M) : Arr2 (Fl K) (M + 1) (M + 1) := fun i j =>
  if hi : i.val < M then
    if hj : j.val < M then -l ⟨i, hi⟩ ⟨j, hj⟩ else 1
  else if j.val < M then 1 else 0

/-- what `resolve_model` returns -/
structure MleResult (K : Type) (M : Nat) where
  v : Arr1 (Fl K) M
  stdV : Arr1 (Fl K) M
  p : Arr1 (Fl K) M
  stdP : Arr1 (Fl K) M
  covV : Arr2 (Fl K) M M
  covP : Arr2 (Fl K) M M

/-- lines 260-275: everything after the loop -/
def finish (pinv : (k : Nat) → Arr2 (Fl K) k k → Py (Arr2 (Fl K) k k)) (al : Arr2 (Fl K) M M) (p : Arr1 (Fl K) M) :
    Py (MleResult K M) :=
  match pinv (M + 1) (bordered (lambda al p)) with
  | .error e => .error e
  | .ok c =>
    let stdP : Arr1 (Fl K) M := fun i => (c i.castSucc i.castSucc).sqrt
    .ok { v := fun i => (p i).log, stdV := fun i => stdP i / p i, p := p, stdP := stdP,
          covV := fun i j => c i.castSucc j.castSucc / (p i * p j),
          covP := fun i j => c i.castSucc j.castSucc }

/-- `resolve_model(alpha, **more)`, lines 203-275, as a relation.  `1.0 / M` raises ZeroDivisionError for an empty matrix. -/
inductive Resolve (pinv : (k : Nat) → Arr2 (Fl K) k k → Py (Arr2 (Fl K) k k)) (display : Flag)
    (al : Arr2 (Fl K) M M) : Py (MleResult K M) → Prop
  | badFlag (h : display = some none) : Resolve pinv display al (.error .assertion)
  | empty (h : display ≠ some none) (hM : M = 0) : Resolve pinv display al (.error .zeroDivision)
  | fail (h : display ≠ some none) (hM : M ≠ 0) {e} (hl : Loop al (start M) (.error e)) : Resolve pinv display al (.error e)
  | done (h : display ≠ some none) (hM : M ≠ 0) {p} (hl : Loop al (start M) (.ok p)) :
      Resolve pinv display al (finish pinv al p)

end mle

/-! ## BT_NR, lines 38-179 -/
section nr
variable {n : Nat}

/-- `gm[i, j]` for `i < nmo`: `wm[0:nmo, :] + wm[:, 0:nmo].transpose()`, line 124; `gm` is needed for the first `nmo` rows only -/
def gm (wm : Arr2 (Fl K) (n + 1) (n + 1)) (i : Fin n) (j : Fin (n + 1)) : Fl K := wm i.castSucc j + wm j i.castSucc

/-- `gind = (gm > 0)`, line 126 -/
def gind (wm : Arr2 (Fl K) (n + 1) (n + 1)) (i : Fin n) (j : Fin (n + 1)) : Bool := Fl.lt 0 (gm wm i j)

variable [MathFn K]

/-- `rus[gind]`, lines 136-140: probability that `i` beats `j` -/
def rus (ga : Arr1 (Fl K) (n + 1)) (i : Fin n) (j : Fin (n + 1)) : Fl K :=
  (ga i.castSucc).exp / ((ga i.castSucc).exp + (ga j).exp)

/-- `dL = wins - sum(y)`, lines 125, 141-143 -/
def grad (wm : Arr2 (Fl K) (n + 1) (n + 1)) (ga : Arr1 (Fl K) (n + 1)) : Arr1 (Fl K) n := fun i =>
  Np.sum (List.ofFn fun j => wm i.castSucc j) +
    -Np.sum (List.ofFn fun j => if gind wm i j then gm wm i j * rus ga i j else 0)

/-- `y` after line 144 -/
def curv (wm : Arr2 (Fl K) (n + 1) (n + 1)) (ga : Arr1 (Fl K) (n + 1)) (i : Fin n) (j : Fin (n + 1)) : Fl K :=
  if gind wm i j then gm wm i j * rus ga i j * (1 - rus ga i j) else 0

/-- `d2L`, lines 145-146: minus the row sums on the diagonal, overwritten where two videos were compared -/
def hess (wm : Arr2 (Fl K) (n + 1) (n + 1)) (ga : Arr1 (Fl K) (n + 1)) : Arr2 (Fl K) n n := fun i j =>
  if gind wm i j.castSucc then curv wm ga i j.castSucc
  else if i = j then -Np.sum (List.ofFn fun j => curv wm ga i j) else 0

/-- `np.matmul(linalg.pinv(d2L), dL)`, line 150 -/
def matVec (a : Arr2 (Fl K) n n) (x : Arr1 (Fl K) n) : Arr1 (Fl K) n := fun i =>
  Np.sum (List.ofFn fun j => a i j * x j)

/-- `change = np.hstack([change, np.array([0])])`, line 151 -/
def extend (x : Arr1 (Fl K) n) : Arr1 (Fl K) (n + 1) := fun i => if h : i.val < n then x ⟨i, h⟩ else (0 : Fl K)

/-- the change computed in one pass, lines 135-151; `scipy.linalg.pinv` may raise -/
def nrChange (pinv : (k : Nat) → Arr2 (Fl K) k k → Py (Arr2 (Fl K) k k)) (wm : Arr2 (Fl K) (n + 1) (n + 1))
    (ga : Arr1 (Fl K) (n + 1)) : Py (Arr1 (Fl K) (n + 1)) :=
  match pinv n (hess wm ga) with
  | .error e => .error e
  | .ok a => .ok (extend (matVec a (grad wm ga)))

/-- the loop, lines 133-158: `NrLoop pinv wm ga r` if the loop entered with `ga` ends with `r`.  `linalg.norm(change)` is
evaluated for the message of the pass and again for the test. -/
inductive NrLoop (pinv : (k : Nat) → Arr2 (Fl K) k k → Py (Arr2 (Fl K) k k)) (wm : Arr2 (Fl K) (n + 1) (n + 1)) :
    Arr1 (Fl K) (n + 1) → Py (Arr1 (Fl K) (n + 1)) → Prop
  | fail {ga e} (h : nrChange pinv wm ga = .error e) : NrLoop pinv wm ga (.error e)
  | bad {ga c e} (h : nrChange pinv wm ga = .ok c) (hn : Np.linalgNorm (List.ofFn c) = .error e) :
      NrLoop pinv wm ga (.error e)
  | stop {ga c d} (h : nrChange pinv wm ga = .ok c) (hn : Np.linalgNorm (List.ofFn c) = .ok d) (hd : thr.lt d = false) :
      NrLoop pinv wm ga (.ok fun i => ga i - c i)
  | next {ga c d r} (h : nrChange pinv wm ga = .ok c) (hn : Np.linalgNorm (List.ofFn c) = .ok d)
      (hd : thr.lt d = true) (hr : NrLoop pinv wm (fun i => ga i - c i) r) : NrLoop pinv wm ga r

/-- `scores[-1] = 0.0`, line 163 -/
def pinLast (ga : Arr1 (Fl K) (n + 1)) : Arr1 (Fl K) (n + 1) := fun i => if i.val = n then 0 else ga i

/-- the optional z-score, lines 169-175 and 309-316 -/
def zscored {m : Nat} (x : Arr1 (Fl K) m) : Arr1 (Fl K) m := fun i =>
  (x i - Np.mean (List.ofFn x)) / Np.std (List.ofFn x)

/-- `_run_modeling` on a non-empty win matrix, lines 105-179, as a relation between the matrix and the quality scores -/
inductive NrRun (pinv : (k : Nat) → Arr2 (Fl K) k k → Py (Arr2 (Fl K) k k)) (zscore : Flag)
    (wm : Arr2 (Fl K) (n + 1) (n + 1)) : Py (Arr1 (Fl K) (n + 1)) → Prop
  | fail {e} (h : NrLoop pinv wm (fun _ => 0) (.error e)) : NrRun pinv zscore wm (.error e)
  | done {ga} (h : NrLoop pinv wm (fun _ => 0) (.ok ga)) :
      NrRun pinv zscore wm (.ok (if zscore.isTrue then zscored (pinLast ga) else pinLast ga))

end nr

/-! ## THURSTONE_MLE, lines 278-391 -/
section thurstone
variable {M : Nat} [MathFn K]

/-- `neg_log_likelihood_function(v, alpha)`, lines 370-391; `cdf` is `norm.cdf` -/
def nllf (cdf : Fl K → Fl K) (al : Arr2 (Fl K) M M) (v : Arr1 (Fl K) M) : Fl K :=
  let eps : Fl K := Fl.dec 1 (10 ^ 8) / ((M : Nat) : Fl K)
  Neg.neg (Np.sum (List.ofFn fun i => Np.sum (List.ofFn fun j =>
    al i j * (cdf (v i - v j) + eps).log + al j i * (cdf (v j - v i) + eps).log)))

/-- the matrix `L` with `lbda_ii = sum_j L_ij`, `lbda_ij = -L_ij`, simplified version, lines 338-346 -/
def curvSimplified (cdf pdf : Fl K → Fl K) (al : Arr2 (Fl K) M M) (v : Arr1 (Fl K) M) : Arr2 (Fl K) M M := fun i j =>
  let d := v i - v j
  (al i j + al j i) * (-d * cdf d * pdf d - (pdf d).sq) / (cdf d).sq

/-- the same, non-simplified version, lines 348-362 (`phi_vj_m_vi = - phi_vi_m_vj`) -/
def curvFull (cdf pdf : Fl K → Fl K) (al : Arr2 (Fl K) M M) (v : Arr1 (Fl K) M) : Arr2 (Fl K) M M := fun i j =>
  let d := v i - v j
  let phi := cdf d
  let f := pdf d
  let dd := -d * pdf d
  let phi' := -phi
  let f' := f
  let dd' := -dd
  al i j * (phi * dd - f.sq) / phi.sq + al j i * (phi' * dd' - f'.sq) / phi'.sq

/-- `lbda = lbda_ij + np.diag(lbda_ii)`, line 360 -/
def lambdaT (L : Arr2 (Fl K) M M) : Arr2 (Fl K) M M := fun i j =>
  -L i j + if i = j then Np.sum (rowL L i) else 0

/-- what `resolve_model` returns -/
structure ThResult (K : Type) (M : Nat) where
  v : Arr1 (Fl K) M
  std : Arr1 (Fl K) M
  cov : Arr2 (Fl K) M M

/-- `resolve_model(alpha, **more)`, lines 318-367.  `minimize` gets the function and the starting point and returns
`(ret.success, ret.x)`. -/
def thResolve (cdf pdf : Fl K → Fl K) (minimize : (k : Nat) → (Arr1 (Fl K) k → Fl K) → Arr1 (Fl K) k → Bool × Arr1 (Fl K) k)
    (pinv : (k : Nat) → Arr2 (Fl K) k k → Py (Arr2 (Fl K) k k)) (simplified : Flag) (al : Arr2 (Fl K) M M) :
    Py (ThResult K M) :=
  if simplified = some none then .error .assertion
  else
    let ret := minimize M (nllf cdf al) (fun _ => 0)
    if ret.1 then
      let L := if simplified = some (some false) then curvFull cdf pdf al ret.2 else curvSimplified cdf pdf al ret.2
      match pinv (M + 1) (bordered (lambdaT L)) with
      | .error e => .error e
      | .ok c => .ok { v := ret.2, std := fun i => (c i.castSucc i.castSucc).sqrt, cov := fun i j => c i.castSucc j.castSucc }
    else .error .assertion

end thurstone
end Sureal.Bt
