import Verif.Model.Special
import Verif.Model.MatFun
/-!
# helpers.h: `exp` of a matrix, over an arbitrary element type

The algorithm of `exp` with the comparisons of the element type, so that it can be run on floating-point numbers.
-/
namespace TooN.Special
open TooN.Ops TooN.MatFun

variable {K : Type} [Zero K] [One K] [Add K] [Sub K] [Mul K] [Div K] [LT K] [DecidableLT K]

/-- `exp(m)` (helpers.h:329-339).  `scale x` is `max(0, (int)ceil(log2(x)))`, evaluated by the mathematical library; `none` where
the conversion to `int` is undefined (zero, infinite and NaN arguments).  `1<<s` is undefined for `s ≥ 31`; `ofInt` is its
conversion to the element type, done element by element by `m/(1<<s)`. -/
def expM (abs : K → K) (ofInt : Nat → K) (scale : K → Option Nat) (n : Nat) (m u : Mat K) (fuel : Nat) : Run (Mat K) :=
  match scale (normInfM abs n n m) with
  | none => .ub
  | some s =>
    if 31 ≤ s then .ub
    else
      match expTaylor abs n (applyScalarM (· / ·) n n m (ofInt (2 ^ s)) u) u fuel with
      | some r => .ret (forN s (fun _ r => mulMM n n n r r u) r)
      | none => .running

end TooN.Special
