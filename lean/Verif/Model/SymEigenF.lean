import Verif.Model.Loop
/-!
# The closed form of SymEigen.h for 2×2 matrices, for an arbitrary element type

The same code as `SymEigen.compute2`, using nothing but the operations of the element type, so that it can be run on the rounded
numbers `Fl ρ`.  The local variables of the C++ are `double`; here they have the type of the matrix elements, so this is the code for
`Matrix<2,2,double>`.  `sqrt` is `std::sqrt`; `four` and `half` are the constants `4` and `0.5`.
-/
namespace TooN.SymEigenF
variable {K : Type _} [Zero K] [One K] [Add K] [Sub K] [Mul K] [Div K] [Neg K] [LT K] [DecidableLT K]

/-- `disc` after the test for negative values (SymEigen.h:106-114) -/
def disc (four : K) (m : Mat K) : K :=
  let trace := m 0 0 + m 1 1
  let det := m 0 0 * m 1 1 - m 0 1 * m 0 1
  let disc := trace * trace - four * det
  if disc < 0 then 0 else disc

/-- the two values stored in `ev` (SymEigen.h:106, 117-119) -/
def ev0 (sqrt : K → K) (four half : K) (m : Mat K) : K := half * ((m 0 0 + m 1 1) - sqrt (disc four m))
def ev1 (sqrt : K → K) (four half : K) (m : Mat K) : K := half * ((m 0 0 + m 1 1) + sqrt (disc four m))

/-- `ComputeSymEigen<2>::compute` (SymEigen.h:105-133): the new contents of `eig` and `ev`; `none` = division by zero (128) -/
def compute2 [DecidableEq K] (sqrt : K → K) (four half : K) (m eig : Mat K) (ev : Vec K) : Option (Mat K × Vec K) :=
  let ev := Vec.set ev 0 (ev0 sqrt four half m)
  let ev := Vec.set ev 1 (ev1 sqrt four half m)
  let a := m 0 0 - ev 0
  let b := m 0 1
  let magsq := a * a + b * b
  (if magsq = 0 then
      let eig := Mat.set eig 0 0 1
      some (Mat.set eig 0 1 0)
    else
      let eig := Mat.set eig 0 0 (-b)
      let eig := Mat.set eig 0 1 a
      if sqrt magsq = 0 then none
      else
        let s := 1 / sqrt magsq
        some (forN 2 (fun i eig => Mat.set eig 0 i (eig 0 i * s)) eig)).map fun eig =>
  let eig := Mat.set eig 1 0 (-(eig 0 1))
  let eig := Mat.set eig 1 1 (eig 0 0)
  (eig, ev)

end TooN.SymEigenF
