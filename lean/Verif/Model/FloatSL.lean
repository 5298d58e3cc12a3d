import Verif.Model.Elim
import Verif.Model.Float
/-!
# sl.h in floating point

The product, the inverse and `coerce` of `SL<N>` (`Model/SL.lean` in exact arithmetic) with every operation rounded, for
`Precision` = the type of all intermediate values (for `SL<N,double>`: `1.0/N`, `pow` and the determinant are computed in `double`).
-/
namespace TooN.SLF
open scoped Classical
variable {ρ : Rounding}

/-- the product in `operator*`, `operator*=` (sl.h:81, 85, 105) -/
noncomputable def slMulFl (N : ℕ) (a b w : Mat (Fl ρ)) : Mat (Fl ρ) := Ops.mulMM N N N a b w

/-- `inverse()` (sl.h:77, 101-104): `gaussian_elimination(my_matrix, Identity)`; `none` is a division by zero -/
noncomputable def slInvFl (N : ℕ) (a x : Mat (Fl ρ)) : Option (Mat (Fl ρ)) :=
  Elim.gaussElim N N a (fun i j => if i = j then 1 else 0) x

/-- `std::pow(det, 1.0/N)` (sl.h:112) for `det ≠ 0`, with the `pow` of the library as the parameter `P`: for a negative base and a
non-integral exponent the result is NaN (`none`); the exponent is the integer 1 only for `N = 1` (`pow(d, 1)` is `d`) -/
noncomputable def rootFl (P : Fl ρ → Fl ρ → Fl ρ) (N : ℕ) (d : Fl ρ) : Option (Fl ρ) :=
  if 0 < d then some (P d (Fl.of ρ (1 / (N : ℝ)))) else if N = 1 then some d else none

/-- `coerce()` (sl.h:107-113): `abort` is the failed `assert`, `ok none` a matrix of NaNs, `ub` a division by zero.  `my_matrix /= p` divides
element by element (matrix.hh:210-217). -/
noncomputable def slCoerceFl (P : Fl ρ → Fl ρ → Fl ρ) (N : ℕ) (m : Mat (Fl ρ)) : Outcome (Option (Mat (Fl ρ))) :=
  match Elim.determinant N m with
  | none => .ub
  | some det =>
    if det ≠ 0 then
      match rootFl P N det with
      | none => .ok none
      | some p => .ok (some fun r c => m r c / p)
    else .abort

/-- `lhs * v` (sl.h:190-193) -/
noncomputable def slActFl (N : ℕ) (a : Mat (Fl ρ)) (v u : Vec (Fl ρ)) : Vec (Fl ρ) := Ops.mulMV N N a v u

/-- `v * rhs` (sl.h:195-198) -/
noncomputable def slActLFl (N : ℕ) (v : Vec (Fl ρ)) (a : Mat (Fl ρ)) (u : Vec (Fl ρ)) : Vec (Fl ρ) := Ops.mulVM N N v a u

/-- `T = A[0]; for(i…) T *= A[i];` with `operator*=` (sl.h:85) -/
noncomputable def slChain (N : ℕ) (A W : ℕ → Mat (Fl ρ)) : ℕ → Mat (Fl ρ)
  | 0 => A 0
  | k + 1 => slMulFl N (slChain N A W k) (A (k + 1)) (W k)

end TooN.SLF
