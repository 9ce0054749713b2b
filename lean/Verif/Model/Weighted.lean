import Verif.Model.Ap
/-!
# `weighed_nanmean_2d` (tools/misc.py:249-264) with its checks and numpy's broadcasting

`weighedNanmean0` and `weighedNanmean1` in `Verif.Model.Ap` are its two branches for weights of the expected length.
-/
namespace Sureal
variable {K : Type} [Zero K] [One K] [Add K] [Neg K] [Sub K] [Mul K] [Div K] [NatCast K]
  [LT K] [LE K] [DecidableLT K] [DecidableLE K]

/-- an array of any shape; `get` is only used on valid indices -/
structure NdArr (α : Type) where
  shape : List Nat
  get : List Nat → α

/-- numpy broadcasting of two axis lengths -/
def broadcastLen (a b : Nat) : Option Nat :=
  if a = b then some a else if a = 1 then some b else if b = 1 then some a else none

/-- the index used on an axis of length `a` -/
def broadcastIdx (a i : Nat) : Nat := if a = 1 then 0 else i

/-- `weighed_nanmean_2d(a, weights, axis)`, tools/misc.py:249-264, for a 1-D `weights` -/
def weighedNanmean2d (a : NdArr (Fl K)) (w : List (Fl K)) (axis : Int) : Py (List (Fl K)) :=
  match a.shape with
  | [n, m] =>
    if axis = 0 then
      match broadcastLen n w.length with
      | none => .error .value
      | some l =>
        .ok ((List.range m).map fun j =>
          Np.nansum ((List.range l).map fun i => a.get [broadcastIdx n i, j] * w[broadcastIdx w.length i]?.getD .nan) /
          Np.nansum ((List.range l).map fun i =>
            notNanTimes (a.get [broadcastIdx n i, j]) (w[broadcastIdx w.length i]?.getD .nan)))
    else if axis = 1 then
      match broadcastLen m w.length with
      | none => .error .value
      | some l =>
        .ok ((List.range n).map fun i =>
          Np.nansum ((List.range l).map fun j => a.get [i, broadcastIdx m j] * w[broadcastIdx w.length j]?.getD .nan) /
          Np.nansum ((List.range l).map fun j =>
            notNanTimes (a.get [i, broadcastIdx m j]) (w[broadcastIdx w.length j]?.getD .nan)))
    else .error .assertion
  | _ => .error .assertion

end Sureal
