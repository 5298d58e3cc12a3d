import Verif.Model.FloatRot
/-!
# Inverses and adjoints of poses stored in floating point

`SE2/SE3::inverse`, `adjoint`, `trinvadjoint` with every operation rounded (one rounding per operation).  Slices of the 6-vectors are
functions of the index; `w`, `w1`, … are the uninitialised storage of results.
-/
namespace TooN.FlRot
variable {ρ : Rounding}

/-- `SE3::inverse()` (se3.h:84-87), `SE2::inverse()` (se2.h:79-82): `rinv = R.inverse(); return SE3(rinv, -(rinv*t));` -/
noncomputable def seInv (n : ℕ) (a : Pose ρ) (w : Vec (Fl ρ)) : Pose ρ :=
  let rinv := soInv a.R
  let p := soAct n rinv a.t w
  ⟨rinv, fun i => -p i⟩

/-- `SE3::adjoint(vect)` (se3.h:167-174): `slice<3,3>` and `slice<0,3>` are the rotated slices, then `slice<0,3> += t ^ slice<3,3>` -/
noncomputable def se3AdjointFl (a : Pose ρ) (v w1 w2 w3 : Vec (Fl ρ)) : Vec (Fl ρ) :=
  let r3 := soAct 3 a.R (fun i => v (3 + i)) w1
  let r0 := soAct 3 a.R v w2
  let c := Ops.cross a.t r3 w3
  fun i => if i < 3 then r0 i + c i else r3 (i - 3)

/-- `SE3::trinvadjoint(vect)` (se3.h:181-188): the same with `slice<3,3> += t ^ slice<0,3>` -/
noncomputable def se3TrInvAdjointFl (a : Pose ρ) (v w1 w2 w3 : Vec (Fl ρ)) : Vec (Fl ρ) :=
  let r3 := soAct 3 a.R (fun i => v (3 + i)) w1
  let r0 := soAct 3 a.R v w2
  let c := Ops.cross a.t r0 w3
  fun i => if i < 3 then r0 i else r3 (i - 3) + c (i - 3)

/-- `SE2::adjoint(vect)` (se2.h:118-125): `result[2] = vect[2]; result.slice<0,2>() = R * vect.slice<0,2>();
result[0] += vect[2]*t[1]; result[1] -= vect[2]*t[0];` -/
noncomputable def se2AdjointFl (a : Pose ρ) (v w r : Vec (Fl ρ)) : Vec (Fl ρ) :=
  let r := r.set 2 (v 2)
  let p := soAct 2 a.R v w
  let r := (r.set 0 (p 0)).set 1 (p 1)
  let r := r.set 0 (r 0 + v 2 * a.t 1)
  r.set 1 (r 1 - v 2 * a.t 0)

end TooN.FlRot
