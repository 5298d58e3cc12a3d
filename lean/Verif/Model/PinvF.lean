import Verif.Model.SVD
/-!
# Solving with singular values and eigenvalues, for any element type

`Model/SVD.lean` is written for any element type.  The models of `GR_SVD.h` and `SymEigen.h` are for the real numbers; the functions
of these classes that only *use* the decomposition are repeated here for any element type (`c85_same_code` says that for `ℝ` they
are the ones of those models).
-/
namespace TooN.PinvF
open TooN.Ops
variable {K : Type _} [Zero K] [One K] [Add K] [Mul K] [Div K] [Neg K] [LT K] [DecidableLT K] [DecidableEq K]

/-- `get_largest_singular_value()` (GR_SVD.h:466-472), `std::max` being `a < b ? b : a` -/
def grLargest (N : Nat) (d : Vec K) : K := forRange 1 N (fun i m => if m < d i then d i else m) (d 0)

/-- `get_inv_diag(inv_diag, condition)` (GR_SVD.h:80-86); a division by zero is `none` -/
def grInvDiag (N : Nat) (d : Vec K) (condition : K) (u : Vec K) : Option (Vec K) :=
  let dMax := grLargest N d
  forNM N (fun i inv =>
    if dMax < d i * condition then (if d i = 0 then none else some (Vec.set inv i (1 / d i)))
    else some (Vec.set inv i 0)) u

/-- `backsub(Vector)` (GR_SVD.h:105-112); `U` is `M × N`, `V` is `N × N` -/
def grBacksubV (M N : Nat) (U V : Mat K) (d : Vec K) (condition : K) (rhs j1 j2 j3 j4 : Vec K) : Option (Vec K) :=
  (grInvDiag N d condition j1).map fun inv =>
    mulMV N N V (diagmultVV N inv (mulMV N M (Mat.T U) rhs j2) j3) j4

/-- `backsub(Matrix)` (GR_SVD.h:92-99), `c2` columns -/
def grBacksubM (M N : Nat) (U V : Mat K) (d : Vec K) (condition : K) (c2 : Nat) (rhs : Mat K) (j1 : Vec K) (j2 j3 j4 : Mat K) :
    Option (Mat K) :=
  (grInvDiag N d condition j1).map fun inv =>
    mulMM N N c2 V (diagmultVM N c2 inv (mulMM N M c2 (Mat.T U) rhs j2) j3) j4

/-- `get_pinv(condition)` (GR_SVD.h:115-120) -/
def grPinv (M N : Nat) (U V : Mat K) (d : Vec K) (condition : K) (j1 : Vec K) (j2 j3 : Mat K) : Option (Mat K) :=
  (grInvDiag N d condition j1).map fun inv => mulMM N N M (diagmultMV N N V inv j2) (Mat.T U) j3

/-- `get_inv_diag(condition)` (SymEigen.h:461-472); `abs` is `fabs`.  Simplification: `condition` has the element type
(the code has a `double`, which is the same for `SymEigen<N, double>`) -/
def symInvDiag (abs : K → K) (n : Nat) (ev : Vec K) (condition : K) (u : Vec K) : Option (Vec K) :=
  let max_diag := if ev (n - 1) < -(ev 0) then -(ev 0) else ev (n - 1)
  forNM n (fun i inv =>
    if max_diag < abs (ev i) * condition then (if ev i = 0 then none else some (Vec.set inv i (1 / ev i)))
    else some (Vec.set inv i 0)) u

/-- `backsub(Vector)` (SymEigen.h:433-435) -/
def symBacksubV (abs : K → K) (n : Nat) (Q : Mat K) (ev : Vec K) (condition : K) (rhs j1 j2 j3 j4 : Vec K) : Option (Vec K) :=
  (symInvDiag abs n ev condition j1).map fun inv =>
    mulMV n n (Mat.T Q) (diagmultVV n inv (mulMV n n Q rhs j2) j3) j4

/-- `backsub(Matrix)` (SymEigen.h:442-444), `c` columns -/
def symBacksubM (abs : K → K) (n : Nat) (Q : Mat K) (ev : Vec K) (condition : K) (c : Nat) (rhs : Mat K) (j1 : Vec K)
    (j2 j3 j4 : Mat K) : Option (Mat K) :=
  (symInvDiag abs n ev condition j1).map fun inv =>
    mulMM n n c (Mat.T Q) (diagmultVM n c inv (mulMM n n c Q rhs j2) j3) j4

/-- `get_pinv(condition)` (SymEigen.h:451-453) -/
def symPinv (abs : K → K) (n : Nat) (Q : Mat K) (ev : Vec K) (condition : K) (j1 : Vec K) (j2 j3 : Mat K) : Option (Mat K) :=
  (symInvDiag abs n ev condition j1).map fun inv =>
    mulMM n n n (Mat.T Q) (diagmultVM n n inv Q j2) j3

/-- `get_sqrtm()` (SymEigen.h:523-531); the square root of a negative number is `none` -/
def symSqrtm (sqrt : K → K) (n : Nat) (Q : Mat K) (ev : Vec K) (j1 : Vec K) (j2 j3 : Mat K) : Option (Mat K) :=
  (forNM n (fun i d => if ev i < 0 then none else some (Vec.set d i (sqrt (ev i)))) j1).map fun diag_sqrt =>
    mulMM n n n (Mat.T Q) (diagmultVM n n diag_sqrt Q j2) j3

/-- `get_determinant()` (SymEigen.h:513-519) -/
def symDeterminant (n : Nat) (ev : Vec K) : K := forN n (fun i det => det * ev i) 1

end TooN.PinvF
