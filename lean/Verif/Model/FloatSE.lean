import Verif.Model.FloatExp
/-!
# SE3::exp, SE2::exp in floating point

As in `Model/FloatExp.lean`: every arithmetic operation rounds, `sin` and `cos` are those of an arbitrary C library, decimal literals are
rounded to the precision of the elements (so this is the code for `SE3<double>` and `SE2<double>`).  Vector expressions are written
element by element (C09).
-/
namespace TooN.FlRot
variable {ρ : Rounding}

/-- the coefficients `A`, `B` and, outside the first branch, `C` of `SE3::exp` (se3.h:394-395, 401-404, 407-420) -/
noncomputable def se3CoeffFl (L : Libm ρ) (w : Vec (Fl ρ)) : Fl ρ × Fl ρ × Option (Fl ρ) :=
  let one_6th : Fl ρ := Fl.of ρ (1 / 6)
  let one_20th : Fl ρ := Fl.of ρ (1 / 20)
  let theta_sq := Ops.dot 3 w w
  let theta := Fl.sqrt theta_sq
  if theta_sq < lit 1e-8 then (1 - one_6th * theta_sq, lit 0.5, none)
  else if theta_sq < lit 1e-6 then
    let C := one_6th * (1 - one_20th * theta_sq)
    (1 - theta_sq * C, lit 0.5 - lit 0.25 * one_6th * theta_sq, some C)
  else
    let inv_theta := 1 / theta
    let A := L.sin theta * inv_theta
    (A, (1 - L.cos theta) * (inv_theta * inv_theta), some ((1 - A) * (inv_theta * inv_theta)))

/-- `SE3::exp` (se3.h:393-427): the rotation matrix and the translation; `R`, `s`, `s'` are the storage of the rotation and of the two
cross products -/
noncomputable def se3ExpFl (L : Libm ρ) (mu : Vec (Fl ρ)) (R : Mat (Fl ρ)) (s s' : Vec (Fl ρ)) : Mat (Fl ρ) × Vec (Fl ρ) :=
  let w : Vec (Fl ρ) := fun i => mu (3 + i)
  let cross := Ops.cross w mu s
  let co := se3CoeffFl L w
  (rodriguesFl w co.1 co.2.1 R,
    match co.2.2 with
    | none => fun i => mu i + lit 0.5 * cross i
    | some C => fun i => mu i + co.2.1 * cross i + C * Ops.cross w cross s' i)

/-- `SE2::exp` (se2.h:312-345) -/
noncomputable def se2ExpFl (L : Libm ρ) (mu : Vec (Fl ρ)) (R : Mat (Fl ρ)) : Mat (Fl ρ) × Vec (Fl ρ) :=
  let one_6th : Fl ρ := Fl.of ρ (1 / 6)
  let one_20th : Fl ρ := Fl.of ρ (1 / 20)
  let theta := mu 2
  let theta_sq := theta * theta
  let cross : Vec (Fl ρ) := fun i => if i = 0 then -theta * mu 1 else theta * mu 0
  let rot := so2ExpFl L theta R
  (rot,
    if theta_sq < lit 1e-8 then fun i => mu i + lit 0.5 * cross i
    else
      let AB : Fl ρ × Fl ρ :=
        if theta_sq < lit 1e-6 then
          (1 - theta_sq * one_6th * (1 - one_20th * theta_sq), lit 0.5 - lit 0.25 * one_6th * theta_sq)
        else
          let inv_theta := 1 / theta
          let sine := rot 1 0
          let cosine := rot 0 0
          (sine * inv_theta, (1 - cosine) * (inv_theta * inv_theta))
      fun i => AB.1 * mu i + AB.2 * cross i)

end TooN.FlRot
