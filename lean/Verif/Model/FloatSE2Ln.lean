import Verif.Model.FloatPose
import Verif.Model.FloatSE
/-!
# `SO2::ln`, `SE2::ln` in floating point

`so2Ln` and `se2Ln` of `Model/SO.lean`, `Model/SE.lean` with every operation rounded (one rounding per operation, `Precision = double`).
The C library's `atan2` is a parameter.
-/
namespace TooN.FlRot
open scoped Classical
variable {ρ : Rounding}

/-- `SO2::ln` (so2.h:98): `atan2(my_matrix[1][0], my_matrix[0][0])` -/
def so2LnFl (A : Fl ρ → Fl ρ → Fl ρ) (m : Mat (Fl ρ)) : Fl ρ := A (m 1 0) (m 0 0)

/-- `shtot` (se2.h:350-352); `fabs` and the comparison do not round -/
noncomputable def lnSh2Fl (L : Libm ρ) (theta : Fl ρ) : Fl ρ :=
  if |theta.val| > (lit (ρ := ρ) 0.00001).val then L.sin (theta / lit 2) / theta else lit 0.5

/-- `SE2::ln` (se2.h:347-359); `H`, `w` are the storage of the half rotation and of its product with the translation; `none` is the division
of the vector by zero (operators.hh: element by element) -/
noncomputable def se2LnFl (L : Libm ρ) (A : Fl ρ → Fl ρ → Fl ρ) (T : Pose ρ) (H : Mat (Fl ρ)) (w : Vec (Fl ρ)) : Option (Vec (Fl ρ)) :=
  let theta := so2LnFl A T.R
  let shtot := lnSh2Fl L theta
  let halfrotator := so2ExpFl L (theta * lit (-0.5)) H
  let r := soAct 2 halfrotator T.t w
  if lit 2 * shtot = 0 then none else some fun i => if i < 2 then r i / (lit 2 * shtot) else theta

end TooN.FlRot
