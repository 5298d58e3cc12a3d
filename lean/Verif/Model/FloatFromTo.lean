import Verif.Model.FloatRot
/-!
# SO3(a, b) in floating point

As in `Model/FloatRot.lean`: `Model/SO.lean`'s `so3FromTo` with every operation rounded (for `Precision = double`: the local `R1` is a
`Matrix<3>`, which is a matrix of doubles).
-/
namespace TooN.FlRot
open scoped Classical
variable {ρ : Rounding}

/-- `m.T()[k] = v;` on a 3x3 matrix: column `k` -/
def setCol (m : Mat (Fl ρ)) (k : ℕ) (v : Vec (Fl ρ)) : Mat (Fl ρ) := fun r c => if c = k then v r else m r c

/-- `SO3(a, b)` (so3.h:78-98).  `w` is the storage of temporary vectors, `M0` that of `my_matrix`, `M1` that of `R1` and `W` that of the
product; `none` is a division by zero, `.abort` the failed `assert`. -/
noncomputable def so3FromToFl (a b w : Vec (Fl ρ)) (M0 M1 W : Mat (Fl ρ)) : Option (Outcome (Mat (Fl ρ))) :=
  let n := Ops.cross a b w
  if Ops.dot 3 n n = 0 then
    if Ops.dot 3 a b ≥ 0 then some (.ok fun r c => if r = c then 1 else 0) else some .abort
  else
    (unitFl 3 n w).bind fun n =>
    (unitFl 3 a w).bind fun ua =>
    let R1 := setCol M1 0 ua
    let R1 := setCol R1 1 n
    let R1 := setCol R1 2 (Ops.cross (fun r => R1 r 0) n w)
    (unitFl 3 b w).map fun ub =>
    let m := setCol M0 0 ub
    let m := setCol m 1 n
    let m := setCol m 2 (Ops.cross (fun r => m r 0) n w)
    .ok (soMul 3 m (Mat.T R1) W)

end TooN.FlRot
