import Verif.Model.FloatRot
/-!
# `SO2::exp` and `SO3::exp` in floating point

The functions of so2.h and so3.h run at the type `Fl ρ` of representable numbers (one rounding per operation, in source
order, `Precision = double`; with `Precision = float` the sub-expressions containing a literal are evaluated in `double`, more
accurately).  `std::sin` and `std::cos` are parameters: the C library does not round them correctly, it only promises a small
error.  The literals `1.0`, `6.0`, `20.0`, `0.5`, `0.25` are exact in binary; here `0.5`, `0.25`, `1e-8`, `1e-6` are rounded like
any decimal literal.
-/
namespace TooN.FlRot
open scoped Classical
variable {ρ : Rounding}

/-- the C library's `sin` and `cos` -/
structure Libm (ρ : Rounding) where
  sin : Fl ρ → Fl ρ
  cos : Fl ρ → Fl ρ

/-- a decimal literal -/
noncomputable abbrev lit (x : ℝ) : Fl ρ := Fl.of ρ x

/-- `SO2::exp` (so2.h:89-95) -/
noncomputable def so2ExpFl (L : Libm ρ) (d : Fl ρ) (m : Mat (Fl ρ)) : Mat (Fl ρ) :=
  let m := (m.set 1 1 (L.cos d)).set 0 0 (L.cos d)
  let m := m.set 1 0 (L.sin d)
  m.set 0 1 (-(m 1 0))

/-- the coefficients `A` and `B` (so3.h:260-283) -/
noncomputable def coeffFl (L : Libm ρ) (w : Vec (Fl ρ)) : Fl ρ × Fl ρ :=
  let one_6th : Fl ρ := Fl.of ρ (1 / 6)
  let one_20th : Fl ρ := Fl.of ρ (1 / 20)
  let theta_sq := Ops.dot 3 w w
  let theta := Fl.sqrt theta_sq
  if theta_sq < lit 1e-8 then (1 - one_6th * theta_sq, lit 0.5)
  else if theta_sq < lit 1e-6 then
    (1 - theta_sq * one_6th * (1 - one_20th * theta_sq), lit 0.5 - lit 0.25 * one_6th * theta_sq)
  else
    let inv_theta := 1 / theta
    (L.sin theta * inv_theta, (1 - L.cos theta) * (inv_theta * inv_theta))

/-- `rodrigues_so3_exp(w, A, B, R)` (so3.h:219-247); `R` is the storage written to -/
noncomputable def rodriguesFl (w : Vec (Fl ρ)) (A B : Fl ρ) (R : Mat (Fl ρ)) : Mat (Fl ρ) :=
  let wx2 := w 0 * w 0
  let wy2 := w 1 * w 1
  let wz2 := w 2 * w 2
  let R := R.set 0 0 (1 - B * (wy2 + wz2))
  let R := R.set 1 1 (1 - B * (wx2 + wz2))
  let R := R.set 2 2 (1 - B * (wx2 + wy2))
  let a := A * w 2
  let b := B * (w 0 * w 1)
  let R := R.set 0 1 (b - a)
  let R := R.set 1 0 (b + a)
  let a := A * w 1
  let b := B * (w 0 * w 2)
  let R := R.set 0 2 (b + a)
  let R := R.set 2 0 (b - a)
  let a := A * w 0
  let b := B * (w 1 * w 2)
  let R := R.set 1 2 (b - a)
  R.set 2 1 (b + a)

/-- `SO3::exp` (so3.h:251-286) -/
noncomputable def so3ExpFl (L : Libm ρ) (w : Vec (Fl ρ)) (R : Mat (Fl ρ)) : Mat (Fl ρ) :=
  rodriguesFl w (coeffFl L w).1 (coeffFl L w).2 R

end TooN.FlRot
