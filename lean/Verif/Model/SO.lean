import Verif.Model.Loop
import Mathlib.Data.Matrix.Mul
import Mathlib.LinearAlgebra.Matrix.Notation
import Mathlib.Analysis.SpecialFunctions.Trigonometric.Inverse
import Mathlib.Analysis.SpecialFunctions.Complex.Arg
/-!
# so2.h, so3.h: rotations

Exact real arithmetic.  All sizes here are fixed (2, 3), so matrices and vectors are Mathlib's `Matrix (Fin n) (Fin n) ℝ`
and `Fin n → ℝ`, and TooN's `*`, `+`, dot product, `T()` are written with Mathlib's operations; that TooN's operators
compute those for every size is C09/C10 (`Props/Ops.lean`).  Every entry of a result which the code assigns is
assigned exactly once from values which do not change in between, unless the comment says otherwise, so results are
written as literals.  `none` = a division by zero (NaN/infinity in the C++); `.abort` = a failing `assert`.
-/
namespace TooN.Lie
open Matrix
open scoped Classical
noncomputable section

/-- `Vector<2>`, `Vector<3>`, … -/
abbrev V (n : Nat) := Fin n → ℝ
/-- `Matrix<2>`, `Matrix<3>`, … -/
abbrev M (n : Nat) := Matrix (Fin n) (Fin n) ℝ

/-- `unit(v) = v * (1/sqrt(v*v))` (helpers.h:153-157) -/
def unitV {n : Nat} (v : V n) : Option (V n) :=
  if Real.sqrt (v ⬝ᵥ v) = 0 then none else some ((1 / Real.sqrt (v ⬝ᵥ v)) • v)

/-- cross product `a ^ b` (operators.hh:210-222) -/
def crossV (a b : V 3) : V 3 := ![a 1 * b 2 - a 2 * b 1, a 2 * b 0 - a 0 * b 2, a 0 * b 1 - a 1 * b 0]

/-! ## SO2 (an `SO2` is its `my_matrix`) -/

/-- `SO2::coerce` (so2.h:82-86) -/
def coerce2 (m : M 2) : Option (M 2) :=
  (unitV (m 0)).bind fun r0 =>
    let m1 := m 1 - (r0 ⬝ᵥ m 1) • r0
    (unitV m1).map fun r1 => Matrix.of ![r0, r1]

/-- `SO2::exp` (so2.h:89-95) -/
def so2Exp (d : ℝ) : M 2 :=
  let m10 := Real.sin d
  !![Real.cos d, -m10; m10, Real.cos d]

/-- `SO2::ln` (so2.h:98); `atan2(y, x)` is the argument of `x + i y` -/
def so2Ln (m : M 2) : ℝ := Complex.arg ⟨m 0 0, m 1 0⟩

/-- `SO2::inverse` (so2.h:101, 129) -/
def so2Inv (m : M 2) : M 2 := m.transpose

/-- `SO2 * SO2` (so2.h:112-114, 131); `*=` (105-108) assigns the same product -/
def so2Mul (a b : M 2) : M 2 := a * b

/-- `SO2::generator` (so2.h:120-125) -/
def so2Gen : M 2 := !![0, -1; 1, 0]

/-! ## SO3 -/

/-- `SO3::coerce` (so3.h:110-119).  The `assert` is evaluated at the end. -/
def coerce3 (m : M 3) : Option (Outcome (M 3)) :=
  (unitV (m 0)).bind fun r0 =>
    let m1 := m 1 - (r0 ⬝ᵥ m 1) • r0
    (unitV m1).bind fun r1 =>
      let m2 := m 2 - (r0 ⬝ᵥ m 2) • r0
      let m2 := m2 - (r1 ⬝ᵥ m2) • r1
      (unitV m2).map fun r2 =>
        if crossV r0 r1 ⬝ᵥ r2 > 0 then .ok (Matrix.of ![r0, r1, r2]) else .abort

/-- `SO3(a, b)` (so3.h:78-98).  `R1.T()[k] = x` writes column `k`. -/
def so3FromTo (a b : V 3) : Option (Outcome (M 3)) :=
  let n := crossV a b
  if n ⬝ᵥ n = 0 then
    if a ⬝ᵥ b ≥ 0 then some (.ok 1) else some .abort
  else
    (unitV n).bind fun n => (unitV a).bind fun ua => (unitV b).map fun ub =>
      let R1T : M 3 := Matrix.of ![ua, n, crossV ua n]
      let mT : M 3 := Matrix.of ![ub, n, crossV ub n]
      .ok (mT.transpose * R1T)

/-- `rodrigues_so3_exp` (so3.h:219-248): all nine entries are assigned -/
def rodrigues (w : V 3) (A B : ℝ) : M 3 :=
  let wx2 := w 0 * w 0
  let wy2 := w 1 * w 1
  let wz2 := w 2 * w 2
  !![1 - B * (wy2 + wz2), B * (w 0 * w 1) - A * w 2, B * (w 0 * w 2) + A * w 1;
     B * (w 0 * w 1) + A * w 2, 1 - B * (wx2 + wz2), B * (w 1 * w 2) - A * w 0;
     B * (w 0 * w 2) - A * w 1, B * (w 1 * w 2) + A * w 0, 1 - B * (wx2 + wy2)]

/-- the coefficients `A`, `B` of `SO3::exp` (so3.h:260-282) -/
def so3Coeff (w : V 3) : ℝ × ℝ :=
  let one_6th : ℝ := 1.0 / 6.0
  let one_20th : ℝ := 1.0 / 20.0
  let theta_sq := w ⬝ᵥ w
  let theta := Real.sqrt theta_sq
  if theta_sq < 1e-8 then (1.0 - one_6th * theta_sq, 0.5)
  else if theta_sq < 1e-6 then
    (1.0 - theta_sq * one_6th * (1.0 - one_20th * theta_sq), 0.5 - 0.25 * one_6th * theta_sq)
  else
    let inv_theta := 1.0 / theta
    (Real.sin theta * inv_theta, (1 - Real.cos theta) * (inv_theta * inv_theta))

/-- `SO3::exp` (so3.h:254-285) -/
def so3Exp (w : V 3) : M 3 := rodrigues w (so3Coeff w).1 (so3Coeff w).2

/-- `M_SQRT1_2` (exact) -/
def mSqrt1_2 : ℝ := Real.sqrt (1 / 2)

/-- the choice of the symmetric-part column in `SO3::ln` (so3.h:308-324) -/
def lnColumn (m : M 3) (cos_angle : ℝ) : V 3 :=
  let d0 := m 0 0 - cos_angle
  let d1 := m 1 1 - cos_angle
  let d2 := m 2 2 - cos_angle
  if d0 * d0 > d1 * d1 ∧ d0 * d0 > d2 * d2 then ![d0, (m 1 0 + m 0 1) / 2, (m 0 2 + m 2 0) / 2]
  else if d1 * d1 > d2 * d2 then ![(m 1 0 + m 0 1) / 2, d1, (m 2 1 + m 1 2) / 2]
  else ![(m 0 2 + m 2 0) / 2, (m 2 1 + m 1 2) / 2, d2]

/-- `SO3::ln` (so3.h:288-332); `M_PI` is exact -/
def so3Ln (m : M 3) : Option (V 3) :=
  let cos_angle := (m 0 0 + m 1 1 + m 2 2 - 1.0) * 0.5
  let result : V 3 := ![(m 2 1 - m 1 2) / 2, (m 0 2 - m 2 0) / 2, (m 1 0 - m 0 1) / 2]
  let sin_angle_abs := Real.sqrt (result ⬝ᵥ result)
  if cos_angle > mSqrt1_2 then
    if sin_angle_abs > 0 then some ((Real.arcsin sin_angle_abs / sin_angle_abs) • result) else some result
  else if cos_angle > -mSqrt1_2 then
    let angle := Real.arccos cos_angle
    if sin_angle_abs = 0 then none else some ((angle / sin_angle_abs) • result)
  else
    let angle := Real.pi - Real.arcsin sin_angle_abs
    let r2 := lnColumn m cos_angle
    let r2 := if r2 ⬝ᵥ result < 0 then (-1 : ℝ) • r2 else r2
    (unitV r2).map fun r2 => angle • r2

/-- `SO3::inverse` (so3.h:130, 186) -/
def so3Inv (m : M 3) : M 3 := m.transpose

/-- `SO3 * SO3` (so3.h:140-143, 182); `*=` (134-137) assigns the same product -/
def so3Mul (a b : M 3) : M 3 := a * b

/-- `SO3::generator(i)` (so3.h:152-157) -/
def so3Gen (i : Fin 3) : M 3 := fun r c =>
  if r = i + 2 ∧ c = i + 1 then 1 else if r = i + 1 ∧ c = i + 2 then -1 else 0

/-- `SO3::generator_field(i, pos)` (so3.h:161-168) -/
def so3GenField (i : Fin 3) (pos : V 3) : V 3 := fun r =>
  if r = i + 2 then pos (i + 1) else if r = i + 1 then -pos (i + 2) else 0

/-- `SO3::adjoint(vect)` (so3.h:175-179) -/
def so3Adjoint (m : M 3) (v : V 3) : V 3 := m.mulVec v

end
end TooN.Lie
