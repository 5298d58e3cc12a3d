import Verif.Model.FloatLn
import Verif.Model.FloatPose
import Verif.Model.FloatSE
/-!
# `SE3::ln` in floating point

`Model/SE.lean`'s `se3Ln` with every operation rounded (one rounding per operation, `Precision = double`).  The rotation's logarithm is the
parameter `rot` of `se3LnTransFl`, so that the translation step can be stated for every rotation vector; `se3LnFl` is the whole function.
-/
namespace TooN.FlRot
open scoped Classical
variable {ρ : Rounding}

/-- `shtot` (se3.h:434-437) -/
noncomputable def lnShFl (L : Libm ρ) (theta : Fl ρ) : Fl ρ :=
  if theta > lit 0.00001 then L.sin (theta / lit 2) / theta else lit 0.5

/-- the factor of `rot` subtracted from `rottrans` (se3.h:443-447) -/
noncomputable def lnFacFl (theta shtot : Fl ρ) (t rot : Vec (Fl ρ)) : Fl ρ :=
  if theta > lit 0.001 then Ops.dot 3 t rot * (1 - lit 2 * shtot) / Ops.dot 3 rot rot else Ops.dot 3 t rot / lit 24

/-- the translation half (se3.h:432-449) of `SE3::ln` for the rotation vector `rot`; `H` and `w1` are the storage of the half rotation
matrix and of its product with the translation; `none` is the division of `/=` (vector.hh:303-307) by zero -/
noncomputable def se3LnTransFl (L : Libm ρ) (rot t : Vec (Fl ρ)) (H : Mat (Fl ρ)) (w1 : Vec (Fl ρ)) : Option (Vec (Fl ρ)) :=
  let theta := Fl.sqrt (Ops.dot 3 rot rot)
  let shtot := lnShFl L theta
  let halfrotator := so3ExpFl L (fun i => rot i * lit (-0.5)) H
  let rottrans := soAct 3 halfrotator t w1
  let f := lnFacFl theta shtot t rot
  let rottrans : Vec (Fl ρ) := fun i => rottrans i - rot i * f
  if lit 2 * shtot = 0 then none else some fun i => rottrans i / (lit 2 * shtot)

/-- `SE3::ln` (se3.h:429-455); `none` is a division by zero -/
noncomputable def se3LnFl (L : Libm ρ) (L' : LibmInv ρ) (T : Pose ρ) (J : LnJunk ρ) (H : Mat (Fl ρ)) (w1 : Vec (Fl ρ)) :
    Option (Vec (Fl ρ)) :=
  (so3LnFl L' T.R J).bind fun rot => (se3LnTransFl L rot T.t H w1).map fun p i => if i < 3 then p i else rot (i - 3)

end TooN.FlRot
