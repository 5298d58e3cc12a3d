import Verif.Model.Cholesky
import Verif.Model.Elim
import Verif.Model.WLS
/-!
# Cholesky, gauss_jordan and WLS in an arithmetic with a total division

In IEEE arithmetic a division by zero does not stop the program.  `Chol.backsub`, `Elim.gaussJordan` and `WLS.compute` return `none`
there, which suits exact arithmetic; the definitions below go on with the quotient, as the program does.
-/
namespace TooN.Chol
variable {K : Type _} [Zero K] [One K] [Add K] [Sub K] [Mul K] [Div K] [DecidableEq K]

/-- `y[i] /= my_cholesky(i,i)` (Cholesky.h:145-147) -/
def divDiagT (n : Nat) (m : Mat K) (y : Vec K) : Vec K := forN n (fun i y => Vec.set y i (y i / m i i)) y

/-- `backsub(v)` (Cholesky.h:129-160) -/
def backsubT (n : Nat) (m : Mat K) (v u w : Vec K) : Vec K := bwd n m (divDiagT n m (fwd n m v u)) w

/-- `y[i] *= (1/my_cholesky(i,i))` (Cholesky.h:180-182) -/
def divDiagMT (n nc : Nat) (m y : Mat K) : Mat K := forN n (fun i y => setRow y i nc (fun k => y i k * (1 / m i i))) y

/-- `backsub(M)` (Cholesky.h:164-194) -/
def backsubMT (n nc : Nat) (m B u w : Mat K) : Mat K := bwdM n nc m (divDiagMT n nc m (fwdM n nc m B u)) w

/-- `get_inverse()` (Cholesky.h:200-203) -/
def getInverseT (n : Nat) (m u w : Mat K) : Mat K := backsubMT n n m (fun r c => if r = c then 1 else 0) u w

/-- `mahalanobis(v)` (Cholesky.h:215-217) -/
def mahalanobisT (n : Nat) (m : Mat K) (v u w : Vec K) : K := Ops.dot n v (backsubT n m v u w)

end TooN.Chol
namespace TooN.Elim
variable {K : Type _} [Zero K] [One K] [Sub K] [Mul K] [Div K] [Neg K] [LT K] [DecidableLT K]

/-- One pass of the column loop of `gauss_jordan` (gauss_jordan.h:53-98).  `upd a x f` is the value assigned by
`m[row][c] = m[row][c] - m[col][c]*multiple` (`multiple` is a `double` whatever the element type is). -/
def gjColumnT (upd : K → K → K → K) (R C : Nat) (col : Nat) (m : Mat K) : Mat K :=
  let p := pivotRow R col m
  let m := if col ≠ p then swapRows 0 C col p m else m
  forN R (fun row m =>
    if row ≠ col then
      let multiple := m row col / m col col
      let m := Mat.set m row col 0
      forRange (col+1) C (fun c m => Mat.set m row c (upd (m row c) (m col c) multiple)) m
    else m) m

/-- Final pass (gauss_jordan.h:103-111) -/
def gjFinalT (R C : Nat) (row : Nat) (m : Mat K) : Mat K :=
  let mul := 1 / m row row
  let m := Mat.set m row row 1
  forRange R C (fun col m => Mat.set m row col (m row col * mul)) m

/-- `gauss_jordan(m)` (gauss_jordan.h:48-112) -/
def gaussJordanT (upd : K → K → K → K) (R C : Nat) (m : Mat K) : Mat K :=
  forN R (gjFinalT R C) (forN R (gjColumnT upd R C) m)

end TooN.Elim
namespace TooN.WLS
variable {K : Type _} [Zero K] [One K] [Add K] [Sub K] [Mul K] [Div K] [DecidableEq K]

/-- `compute()` (wls.h:210-219) with `Decomposition = Cholesky` -/
def computeT (n : Nat) (u w : Vec K) (s : St K) : St K :=
  let C := mirror n s.C
  ⟨C, s.v, some (Chol.backsubT n (Chol.compute n C).1 s.v u w)⟩

/-- the calls a program can make on a `WLS` object -/
inductive Op (K : Type _)
  /-- `clear()` (wls.h:60-63) -/
  | clear
  /-- `add_prior(p)`, scalar (wls.h:68-72) -/
  | prior (p : K)
  /-- `add_prior(p)`, vector (wls.h:78-83) -/
  | priorV (p : Vec K)
  /-- `add_prior(p)`, matrix (wls.h:89-91) -/
  | priorM (p : Mat K)
  /-- `add_mJ(m, J, w)` (wls.h:98-108) -/
  | mJ (m : K) (J : Vec K) (w : K)
  /-- `add_mJ(m, J, w)`, `S` measurements (wls.h:115-121) -/
  | mJs (S : Nat) (m : Vec K) (J : Mat K) (w : K)
  /-- `add_mJ(m, J, invcov)` (wls.h:128-134) -/
  | mJcov (N : Nat) (m : Vec K) (J W : Mat K) (ju : Nat → Mat K)
  /-- `add_mJ_rows(m, J, invcov)` (wls.h:141-147) -/
  | mJrows (N : Nat) (m : Vec K) (J W : Mat K) (ju : Nat → Mat K)
  /-- `add_sparse_mJ(m, J1, index1, w)` (wls.h:155-166) -/
  | sparse (k : Nat) (m : K) (J : Vec K) (index : Nat) (w : K)
  /-- `add_sparse_mJ_rows(m, J1, index1, invcov)` (wls.h:174-181) -/
  | sparseRows (N S : Nat) (m : Vec K) (J : Mat K) (index : Nat) (W : Mat K) (ju : Nat → Mat K)
  /-- `add_sparse_mJ_rows(m, J1, index1, J2, index2, invcov)` (wls.h:191-206) -/
  | sparseRows2 (N S1 S2 : Nat) (m : Vec K) (J1 : Mat K) (index1 : Nat) (J2 : Mat K) (index2 : Nat) (W : Mat K) (ju : Nat → Mat K)
  /-- `operator+=(other)` (wls.h:223-226) -/
  | plusEq (other : St K)
  /-- `compute()` (wls.h:210-219) -/
  | compute (u w : Vec K)

/-- the call's effect (wls.h:60-226) -/
def Op.run (n : Nat) : Op K → St K → St K
  | .clear, s => WLS.clear n s
  | .prior p, s => addPriorS n p s
  | .priorV p, s => addPriorV n p s
  | .priorM p, s => addPriorM n p s
  | .mJ m J w, s => addmJ n m J w s
  | .mJs S m J w, s => addmJs n S m J w s
  | .mJcov N m J W ju, s => addmJcov n N m J W ju s
  | .mJrows N m J W ju, s => addmJrows n N m J W ju s
  | .sparse k m J i w, s => addSparse k m J i w s
  | .sparseRows N S m J i W ju, s => addSparseRows N S m J i W ju s
  | .sparseRows2 N S1 S2 m J1 i1 J2 i2 W ju, s => addSparseRows2 N S1 S2 m J1 i1 J2 i2 W ju s
  | .plusEq o, s => WLS.plusEq n o s
  | .compute u w, s => computeT n u w s

/-- the calls of a history in order (wls.h:60-226) -/
def history (n : Nat) (ops : List (Op K)) (s : St K) : St K := ops.foldl (fun s o => o.run n s) s

end TooN.WLS
