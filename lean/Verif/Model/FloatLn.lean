import Verif.Model.FloatExp
import Verif.Model.SO
/-!
# `SO3::ln` in floating point

`Model/SO.lean`'s `so3Ln` with every operation rounded (one rounding per operation, in source order, `Precision = double`; the literals
`M_SQRT1_2`, `M_PI`, `0.5` are rounded once).  The C library's `asin` and `acos` are parameters.
-/
namespace TooN.FlRot
open scoped Classical
variable {ρ : Rounding}

/-- the C library's `asin` and `acos` -/
structure LibmInv (ρ : Rounding) where
  asin : Fl ρ → Fl ρ
  acos : Fl ρ → Fl ρ

/-- storage of the local and temporary vectors of `ln` -/
structure LnJunk (ρ : Rounding) where
  /-- `result` -/
  res : Vec (Fl ρ)
  /-- `r2` -/
  r2 : Vec (Fl ρ)
  /-- the value of `unit(r2)` -/
  un : Vec (Fl ρ)

/-- the column of the symmetric part chosen by the largest diagonal element (so3.h:308-324); `r2` is its storage -/
noncomputable def lnColumnFl (m : Mat (Fl ρ)) (cos_angle : Fl ρ) (r2 : Vec (Fl ρ)) : Vec (Fl ρ) :=
  let d0 := m 0 0 - cos_angle
  let d1 := m 1 1 - cos_angle
  let d2 := m 2 2 - cos_angle
  if d0 * d0 > d1 * d1 ∧ d0 * d0 > d2 * d2 then
    let r2 := r2.set 0 d0
    let r2 := r2.set 1 ((m 1 0 + m 0 1) / lit 2)
    r2.set 2 ((m 0 2 + m 2 0) / lit 2)
  else if d1 * d1 > d2 * d2 then
    let r2 := r2.set 0 ((m 1 0 + m 0 1) / lit 2)
    let r2 := r2.set 1 d1
    r2.set 2 ((m 2 1 + m 1 2) / lit 2)
  else
    let r2 := r2.set 0 ((m 0 2 + m 2 0) / lit 2)
    let r2 := r2.set 1 ((m 2 1 + m 1 2) / lit 2)
    r2.set 2 d2

/-- `v *= s` (vbase.hh: `(*this)[i] *= rhs` for every `i`) on a 3-vector -/
noncomputable def scaleEq (v : Vec (Fl ρ)) (s : Fl ρ) : Vec (Fl ρ) := forN 3 (fun i x => Vec.set x i (x i * s)) v

/-- the antisymmetric part (so3.h:290-295) -/
noncomputable def antiFl (m : Mat (Fl ρ)) (r : Vec (Fl ρ)) : Vec (Fl ρ) :=
  let r := r.set 0 ((m 2 1 - m 1 2) / lit 2)
  let r := r.set 1 ((m 0 2 - m 2 0) / lit 2)
  r.set 2 ((m 1 0 - m 0 1) / lit 2)

/-- `SO3::ln` (so3.h:288-332); `none` is a division by zero -/
noncomputable def so3LnFl (L : LibmInv ρ) (m : Mat (Fl ρ)) (J : LnJunk ρ) : Option (Vec (Fl ρ)) :=
  let cos_angle := (m 0 0 + m 1 1 + m 2 2 - 1) * lit 0.5
  let result := antiFl m J.res
  let sin_angle_abs := Fl.sqrt (Ops.dot 3 result result)
  if cos_angle > lit Lie.mSqrt1_2 then
    if sin_angle_abs > 0 then some (scaleEq result (L.asin sin_angle_abs / sin_angle_abs)) else some result
  else if cos_angle > -lit Lie.mSqrt1_2 then
    let angle := L.acos cos_angle
    if sin_angle_abs = 0 then none else some (scaleEq result (angle / sin_angle_abs))
  else
    let angle := lit Real.pi - L.asin sin_angle_abs
    let r2 := lnColumnFl m cos_angle J.r2
    let r2 := if Ops.dot 3 r2 result < 0 then scaleEq r2 (-1) else r2
    (unitFl 3 r2 J.un).map fun r2 => Ops.applyScalarVL (· * ·) 3 angle r2 result

end TooN.FlRot
