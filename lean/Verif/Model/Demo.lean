import Verif.Model.Ap
/-!
# The standalone demo scripts of the ITU recommendations

`itur_bt500_demo/demo_bt500.py` (votes with repetitions) and `itut_p910_demo/demo_p910.py` (one vote per observer and
video; `itut_p913_demo/demo.py` is the same file).  They do not import sureal, so everything is modelled again from
their own text.  Not modelled: the progress message and the command line.
-/
namespace Sureal
variable {K : Type} [Zero K] [One K] [Add K] [Neg K] [Sub K] [Mul K] [Div K] [NatCast K]
  [LT K] [LE K] [DecidableLT K] [DecidableLE K]

/-- the dictionary `run_alternating_projection` returns -/
structure DemoResult (K : Type) where
  mos : List (Fl K)
  sos : List (Fl K)
  bias : List (Fl K)
  inconsistency : List (Fl K)

namespace Bt500Demo

/-- `stack_3rd_dimension_along_axis(u, axis=0)`, demo_bt500.py:119-123 -/
def stackRows {JK I R : Nat} (u : Arr3 (Fl K) JK I R) : Arr2 (Fl K) (R * JK) I :=
  (List.finRange R).foldl
    (fun o r => fun k i =>
      if h : r.val * JK ≤ k.val ∧ k.val < (r.val + 1) * JK then
        u ⟨k.val - r.val * JK, by have := h.2; rw [Nat.add_mul] at this; omega⟩ i r
      else o k i)
    (fun _ _ => 0)

/-- `stack_3rd_dimension_along_axis(u, axis=1)`, demo_bt500.py:125-129 -/
def stackCols {JK I R : Nat} (u : Arr3 (Fl K) JK I R) : Arr2 (Fl K) JK (R * I) :=
  (List.finRange R).foldl
    (fun o r => fun j k =>
      if h : r.val * I ≤ k.val ∧ k.val < (r.val + 1) * I then
        u j ⟨k.val - r.val * I, by have := h.2; rw [Nat.add_mul] at this; omega⟩ r
      else o j k)
    (fun _ _ => 0)

/-- `weighed_nanmean_2d(a, wts, axis=1)`, demo_bt500.py:68-72 -/
def weighedNanmean {n m : Nat} (a : Arr2 (Fl K) n m) (wts : Arr1 (Fl K) m) : Arr1 (Fl K) n := fun j =>
  Np.nansum (rowL (fun j i => a j i * wts i) j)
    / Np.nansum (rowL (fun j i => (if (a j i).isNan then 0 else 1) * wts i) j)

/-- `np.tile(w_i, R)`, demo_bt500.py:180 -/
def tileN {I : Nat} (w : Arr1 (Fl K) I) (R : Nat) : Arr1 (Fl K) (R * I) := fun k =>
  w ⟨k.val % I, Nat.mod_lt _ (Nat.pos_of_ne_zero (by rintro rfl; exact absurd k.isLt (by simp)))⟩

/-- `one_or_nan`, demo_bt500.py:77-87 -/
def oneOrNan (x : Fl K) : Fl K := if x.isNan then .nan else 1

variable [MathFn K]

/-- `get_sos_j`, demo_bt500.py:90-102 -/
def sos {JK I R : Nat} (sigJ : Arr1 (Fl K) JK) (u : Arr3 (Fl K) JK I R) : Arr1 (Fl K) JK := fun j =>
  1 / (Fl.maximum 0 (Np.nansum (rowL (stackCols fun j i r => oneOrNan (u j i r) / (sigJ j).sq) j))).sqrt

/-- the biases, demo_bt500.py:157-158 and 184-186 -/
def bias {JK I R : Nat} (u : Arr3 (Fl K) JK I R) (m : Arr1 (Fl K) JK) : Arr1 (Fl K) I := fun i =>
  Np.nanmean (colL (stackRows fun j i r => u j i r - m j) i)

/-- the loop variables -/
structure State (K : Type) (JK I : Nat) where
  m : Arr1 (Fl K) JK
  b : Arr1 (Fl K) I
  sigI : Arr1 (Fl K) I
  sigJ : Arr1 (Fl K) JK

/-- one pass through the loop body, demo_bt500.py:167-186 -/
def body {JK I R : Nat} (u : Arr3 (Fl K) JK I R) (m : Arr1 (Fl K) JK) (b : Arr1 (Fl K) I) : State K JK I :=
  let e : Arr3 (Fl K) JK I R := fun j i r => u j i r - m j - b i
  let sigI : Arr1 (Fl K) I := fun i => Np.nanstd 0 (colL (stackRows e) i)
  let sigJ : Arr1 (Fl K) JK := fun j => Np.nanstd 0 (rowL (stackCols e) j)
  let w : Arr1 (Fl K) I := fun i => 1 / ((sigI i).sq + Fl.dec 1 100000000)
  let m' := weighedNanmean (stackCols fun j i r => u j i r - b i) (tileN w R)
  { m := m', b := bias u m', sigI := sigI, sigJ := sigJ }

/-- the loop, demo_bt500.py:164-206, entered with `itr` passes done -/
def loop {JK I R : Nat} (u : Arr3 (Fl K) JK I R) (itr : Nat) (m : Arr1 (Fl K) JK) (b : Arr1 (Fl K) I) : Py (State K JK I) :=
  let t := body u m b
  match Np.linalgNorm (List.ofFn fun j => m j - t.m j) with
  | .error e => .error e
  | .ok delta =>
    if delta.lt (Fl.dec 1 100000000) then .ok t
    else if itr + 1 ≥ 1000 then .ok t
    else loop u (itr + 1) t.m t.b
termination_by 1000 - itr

/-- `run_alternating_projection`, demo_bt500.py:138-219 -/
def run {JK I R : Nat} (u : Arr3 (Fl K) JK I R) : Py (DemoResult K) :=
  let m : Arr1 (Fl K) JK := fun j => Np.nanmean (rowL (stackCols u) j)
  match loop u 0 m (bias u m) with
  | .error e => .error e
  | .ok t =>
    let meanB := Np.mean (List.ofFn t.b)
    .ok { mos := List.ofFn fun j => t.m j + meanB
          sos := List.ofFn (sos t.sigJ u)
          bias := List.ofFn fun i => t.b i - meanB
          inconsistency := List.ofFn t.sigI }

end Bt500Demo

namespace P910Demo

/-- `weighed_nanmean_2d(a, wts, axis=1)`, demo_p910.py:47-51 -/
def weighedNanmean {n m : Nat} (a : Arr2 (Fl K) n m) (wts : Arr1 (Fl K) m) : Arr1 (Fl K) n := fun j =>
  Np.nansum (rowL (fun j i => a j i * wts i) j)
    / Np.nansum (rowL (fun j i => (if (a j i).isNan then 0 else 1) * wts i) j)

/-- `one_or_nan`, demo_p910.py:56-66 -/
def oneOrNan (x : Fl K) : Fl K := if x.isNan then .nan else 1

variable [MathFn K]

/-- `get_sos_j`, demo_p910.py:69-79 -/
def sos {J I : Nat} (sigJ : Arr1 (Fl K) J) (o : Arr2 (Fl K) J I) : Arr1 (Fl K) J := fun j =>
  1 / (Fl.maximum 0 (Np.nansum (rowL (fun j i => oneOrNan (o j i) / (sigJ j).sq) j))).sqrt

/-- the biases, demo_p910.py:99-100 and 125-127 -/
def bias {J I : Nat} (o : Arr2 (Fl K) J I) (m : Arr1 (Fl K) J) : Arr1 (Fl K) I := fun i =>
  Np.nanmean (colL (fun j i => o j i - m j) i)

/-- the loop variables -/
structure State (K : Type) (J I : Nat) where
  m : Arr1 (Fl K) J
  b : Arr1 (Fl K) I
  sigI : Arr1 (Fl K) I
  sigJ : Arr1 (Fl K) J

/-- one pass through the loop body, demo_p910.py:109-127 -/
def body {J I : Nat} (o : Arr2 (Fl K) J I) (m : Arr1 (Fl K) J) (b : Arr1 (Fl K) I) : State K J I :=
  let e : Arr2 (Fl K) J I := fun j i => o j i - m j - b i
  let sigI : Arr1 (Fl K) I := fun i => Np.nanstd 0 (colL e i)
  let sigJ : Arr1 (Fl K) J := fun j => Np.nanstd 0 (rowL e j)
  let w : Arr1 (Fl K) I := fun i => 1 / ((sigI i).sq + Fl.dec 1 100000000)
  let m' := weighedNanmean (fun j i => o j i - b i) w
  { m := m', b := bias o m', sigI := sigI, sigJ := sigJ }

/-- the loop, demo_p910.py:106-146, entered with `itr` passes done -/
def loop {J I : Nat} (o : Arr2 (Fl K) J I) (itr : Nat) (m : Arr1 (Fl K) J) (b : Arr1 (Fl K) I) : Py (State K J I) :=
  let t := body o m b
  match Np.linalgNorm (List.ofFn fun j => m j - t.m j) with
  | .error e => .error e
  | .ok delta =>
    if delta.lt (Fl.dec 1 100000000) then .ok t
    else if itr + 1 ≥ 1000 then .ok t
    else loop o (itr + 1) t.m t.b
termination_by 1000 - itr

/-- `run_alternating_projection`, demo_p910.py:82-159 -/
def run {J I : Nat} (o : Arr2 (Fl K) J I) : Py (DemoResult K) :=
  let m : Arr1 (Fl K) J := fun j => Np.nanmean (rowL o j)
  match loop o 0 m (bias o m) with
  | .error e => .error e
  | .ok t =>
    let meanB := Np.mean (List.ofFn t.b)
    .ok { mos := List.ofFn fun j => t.m j + meanB
          sos := List.ofFn (sos t.sigJ o)
          bias := List.ofFn fun i => t.b i - meanB
          inconsistency := List.ofFn t.sigI }

end P910Demo
end Sureal
