import Verif.Model.Float
import Verif.Model.Elim
/-!
# The vector overload of `gaussian_elimination` with its `double` intermediates

gaussian_elimination.h:54 and :74 declare `v` and `factor` as `double` whatever the element type is.  Here `ρ` is the arithmetic of
`Precision`, `δ` that of `double` and `κ` that of the common type of the two (`double` for `Precision = float`, `long double` for
`Precision = long double`), in which C++ evaluates an expression with operands of both types.
-/
namespace TooN.Elim
open scoped Classical
variable {ρ : Rounding}

/-- Pivot search (gaussian_elimination.h:50-59): `v` is a `double` (54), compared with the `Precision` value `maxval` (55; both are
exactly representable in the common type) and converted back on assignment (56). -/
noncomputable def pivotRowMixed (δ : Rounding) (n i : Nat) (A : Mat (Fl ρ)) : Nat :=
  (forRange (i+1) n (fun ii (st : Nat × Fl ρ) =>
    let v : Fl δ := Fl.of δ (fabs (A ii i)).val
    if v.val > st.2.val then (ii, Fl.of ρ v.val) else st) (i, fabs (A i i))).1

/-- `a -= factor * x` for `Precision` `a`, `x` and `double` `factor` (gaussian_elimination.h:77-78): product and difference in the common
type, then conversion to `Precision`. -/
noncomputable def subMulMixed {δ : Rounding} (κ : Rounding) (a : Fl ρ) (factor : Fl δ) (x : Fl ρ) : Fl ρ :=
  Fl.of ρ (κ.rnd (a.val - κ.rnd (factor.val * x.val)))

/-- One pass of the outer loop (gaussian_elimination.h:49-80).  The right-hand side is an `n × nc` matrix, `nc = 1`, as in `geStep`. -/
noncomputable def geStepMixed (δ κ : Rounding) (n nc : Nat) (i : Nat) (st : Mat (Fl ρ) × Mat (Fl ρ)) :
    Option (Mat (Fl ρ) × Mat (Fl ρ)) :=
  let (A, b) := st
  let argmax := pivotRowMixed δ n i A
  let pivot := A argmax i
  if pivot = 0 then none
  else
    let inv_pivot := 1 / pivot
    let A1 := if argmax ≠ i then swapRows i n i argmax A else A
    let b1 := if argmax ≠ i then swapRows 0 nc i argmax b else b
    let A2 := scaleRow (i+1) n i inv_pivot A1
    let b2 := scaleRow 0 nc i inv_pivot b1
    some (forRange (i+1) n (fun u (st : Mat (Fl ρ) × Mat (Fl ρ)) =>
      let factor : Fl δ := Fl.of δ (st.1 u i).val
      (forRange (i+1) n (fun j A => Mat.set A u j (subMulMixed κ (A u j) factor (A i j))) st.1,
       forRange 0 nc (fun j b => Mat.set b u j (subMulMixed κ (b u j) factor (b i j))) st.2)) (A2, b2))

/-- `gaussian_elimination(A, b)` for a vector (gaussian_elimination.h:43-89) with the `double` intermediates; the back substitution
(82-87) has none. -/
noncomputable def gaussElimVMixed (δ κ : Rounding) (n : Nat) (A : Mat (Fl ρ)) (b : Vec (Fl ρ)) (x : Mat (Fl ρ)) : Option (Vec (Fl ρ)) :=
  (forNM n (geStepMixed δ κ n 1) (A, fun i _ => b i)).bind fun st => some (fun i => geBack n 1 st.1 st.2 x i 0)

end TooN.Elim
