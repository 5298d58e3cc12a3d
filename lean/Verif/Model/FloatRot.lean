import Verif.Model.Float
/-!
# Rotations and rigid transformations stored in floating point

`SO2`/`SO3` hold a matrix and `SE2`/`SE3` a matrix and a vector of the element type; the group operations are matrix and
vector operations on these (so2.h, so3.h, se2.h, se3.h).  `Model/SO.lean` and `Model/SE.lean` model them in exact
arithmetic; here they run at `Fl ρ`.
-/
namespace TooN.FlRot
open scoped Classical
variable {ρ : Rounding}

/-- `SO3 * SO3` (so3.h:134-143, 182) and `SO2 * SO2` (so2.h:105-114, 131): a matrix product; `operator*=` assigns it.  `w` is the
uninitialised storage of the result. -/
noncomputable def soMul (n : ℕ) (a b w : Mat (Fl ρ)) : Mat (Fl ρ) := Ops.mulMM n n n a b w

/-- `R.inverse()` (so3.h:130, 186; so2.h:101, 129): the transpose -/
def soInv (a : Mat (Fl ρ)) : Mat (Fl ρ) := Mat.T a

/-- `R * v` (so3.h:336-339; so2.h:154-157) -/
noncomputable def soAct (n : ℕ) (a : Mat (Fl ρ)) (v w : Vec (Fl ρ)) : Vec (Fl ρ) := Ops.mulMV n n a v w

/-- `R = A[0]; for(i…) R *= A[i];` -/
noncomputable def soChain (n : ℕ) (A W : ℕ → Mat (Fl ρ)) : ℕ → Mat (Fl ρ)
  | 0 => A 0
  | k + 1 => soMul n (soChain n A W k) (A (k + 1)) (W k)

/-- an `SE2`/`SE3` object (se3.h:158-159) -/
structure Pose (ρ : Rounding) where
  R : Mat (Fl ρ)
  t : Vec (Fl ρ)

/-- storage of temporaries and results -/
structure Junk (ρ : Rounding) where
  m : Mat (Fl ρ)
  v1 : Vec (Fl ρ)
  v2 : Vec (Fl ρ)

/-- `SE3 * SE3` (se3.h:101-103): `SE3(rotation * rhs.rotation, translation + rotation * rhs.translation)`; se2.h:87-89 is the same -/
noncomputable def seMul (n : ℕ) (a b : Pose ρ) (w : Junk ρ) : Pose ρ :=
  ⟨soMul n a.R b.R w.m, Ops.addV n a.t (soAct n a.R b.t w.v1) w.v2⟩

/-- `P * x` for a 3-vector (se3.h:284-287; se2.h:204-206): `translation + rotation * x` -/
noncomputable def seAct (n : ℕ) (a : Pose ρ) (x w1 w2 : Vec (Fl ρ)) : Vec (Fl ρ) :=
  Ops.addV n a.t (soAct n a.R x w1) w2

/-- `T = A[0]; for(i…) T = T * A[i];` -/
noncomputable def seChain (n : ℕ) (A : ℕ → Pose ρ) (W : ℕ → Junk ρ) : ℕ → Pose ρ
  | 0 => A 0
  | k + 1 => seMul n (seChain n A W k) (A (k + 1)) (W k)

/-- `my_matrix[k] = v;` on a 3x3 matrix -/
def setRow (m : Mat (Fl ρ)) (k : ℕ) (v : Vec (Fl ρ)) : Mat (Fl ρ) := fun r => if r = k then v else m r

/-- `v -= w;` with `w = r * (r * v)` (so3.h:112, 114, 115): dot product, scaling, componentwise subtraction -/
noncomputable def reject (n : ℕ) (r v w : Vec (Fl ρ)) : Vec (Fl ρ) :=
  let d := Ops.dot n r v
  let p := Ops.applyScalarV (· * ·) n r d w
  forN n (fun i x => Vec.set x i (x i - p i)) v

/-- `SO3::coerce()` (so3.h:110-119).  `w` is the storage of temporaries; `none` is a division by zero, `.abort` a failed `assert`. -/
noncomputable def coerceFl (m : Mat (Fl ρ)) (w : Vec (Fl ρ)) : Option (Outcome (Mat (Fl ρ))) :=
  (unitFl 3 (m 0) w).bind fun r0 =>
  let m := setRow m 0 r0
  let m := setRow m 1 (reject 3 (m 0) (m 1) w)
  (unitFl 3 (m 1) w).bind fun r1 =>
  let m := setRow m 1 r1
  let m := setRow m 2 (reject 3 (m 0) (m 2) w)
  let m := setRow m 2 (reject 3 (m 1) (m 2) w)
  (unitFl 3 (m 2) w).map fun r2 =>
  let m := setRow m 2 r2
  if (0 : Fl ρ) < Ops.dot 3 (Ops.cross (m 0) (m 1) w) (m 2) then .ok m else .abort

/-- `SO2::coerce()` (so2.h:82-86) -/
noncomputable def coerce2Fl (m : Mat (Fl ρ)) (w : Vec (Fl ρ)) : Option (Mat (Fl ρ)) :=
  (unitFl 2 (m 0) w).bind fun r0 =>
  let m := setRow m 0 r0
  let m := setRow m 1 (reject 2 (m 0) (m 1) w)
  (unitFl 2 (m 1) w).map fun r1 => setRow m 1 r1

end TooN.FlRot
