import Verif.Model.LU
import Verif.Model.Ops
import Mathlib.Algebra.Order.Field.Basic
/-!
# SVD.h: `SVD<Rows, Cols, Precision>` and `SQSVD` on top of LAPACK's `gesvd`

As in `Model/LU.lean` the decomposition routine is external and works on raw column-major buffers; its
contract is in `Spec/SVD.lean`.  Arithmetic is exact (an ordered field).
-/
namespace TooN.SVD
open TooN.LU TooN.Ops
variable {K : Type _} [Zero K] [One K] [Add K] [Mul K] [Div K] [LE K] [DecidableLE K] [DecidableEq K]

/-- `gesvd_(JOBU, JOBVT, M, N, A, LDA, S, U, LDU, VT, LDVT, ...)` (lapack.h:51-58, 126-136).  SVD.h passes the same pointer
`uorvt` for `U` and `VT`; with one of the jobs 'S' and the other 'O' exactly one of the two is referenced, so the
result is: the new contents of `A`, of `S` and of the buffer `uorvt`. -/
abbrev Gesvd (K : Type _) := (jobu jobvt : Char) → (M N : Nat) → (A : Buf K) → (lda : Nat) →
  (ldu ldvt : Nat) → Buf K × Vec K × Buf K

/-- the members `my_copy`, `my_diagonal`, `my_square` (SVD.h:278-280) and the sizes -/
structure St (K : Type _) where
  rows : Nat
  cols : Nat
  copy : Buf K
  diag : Vec K
  square : Buf K

/-- `is_vertical()` (SVD.h:166-168) -/
def St.isVertical (s : St K) : Prop := s.rows ≥ s.cols
instance (s : St K) : Decidable s.isVertical := inferInstanceAs (Decidable (_ ≥ _))
/-- `min_dim()` (SVD.h:170) -/
def St.minDim (s : St K) : Nat := min s.rows s.cols

/-- constructor/`compute(m)` followed by `do_compute()` (SVD.h:107-120, 123-164); the workspace query (call with
`LWORK = -1`, which changes nothing but `size`) is not modelled. -/
def compute (gesvd : Gesvd K) (rows cols : Nat) (mat : Mat K) : St K :=
  let a := pack cols mat
  let lda := cols
  let m := cols
  let n := rows
  let ldvt := lda
  let vertical : Bool := rows ≥ cols
  let JOBU := if vertical then 'O' else 'S'
  let JOBVT := if vertical then 'S' else 'O'
  let ldu := if vertical then lda else min rows cols
  let r := gesvd JOBVT JOBU m n a lda ldvt ldu
  ⟨rows, cols, r.1, r.2.1, r.2.2⟩

/-- `get_U()` (SVD.h:236-244): `rows × min_dim` -/
def getU (s : St K) : Mat K := if s.isVertical then cview s.cols s.copy else cview s.minDim s.square
/-- `get_VT()` (SVD.h:252-260): `min_dim × cols` -/
def getVT (s : St K) : Mat K := if s.isVertical then cview s.minDim s.square else cview s.cols s.copy
/-- `get_diagonal()` (SVD.h:247) -/
def getDiagonal (s : St K) : Vec K := s.diag

/-- `get_inv_diag(inv_diag, condition)` (SVD.h:267-275) into a vector with contents `u`; a division by zero is
`none`. -/
def getInvDiag (s : St K) (condition : K) (u : Vec K) : Option (Vec K) :=
  forNM s.minDim (fun i inv =>
    if s.diag i * condition ≤ s.diag 0 then some (Vec.set inv i 0)
    else if s.diag i = 0 then none else some (Vec.set inv i (1 / s.diag i))) u

/-- uninitialised contents of the temporaries created by one call -/
structure Junk (K : Type _) where
  v1 : Vec K
  v2 : Vec K
  v3 : Vec K
  m1 : Mat K
  m2 : Mat K
  m3 : Mat K

/-- `backsub(Matrix)` (SVD.h:180-185), `c2` columns -/
def backsubM (s : St K) (condition : K) (c2 : Nat) (rhs : Mat K) (j : Junk K) : Option (Mat K) :=
  (getInvDiag s condition j.v1).map fun inv =>
    mulMM s.cols s.minDim c2 (Mat.T (getVT s))
      (diagmultVM s.minDim c2 inv (mulMM s.minDim s.rows c2 (Mat.T (getU s)) rhs j.m1) j.m2) j.m3

/-- `backsub(Vector)` (SVD.h:193-198) -/
def backsubV (s : St K) (condition : K) (rhs : Vec K) (j : Junk K) : Option (Vec K) :=
  (getInvDiag s condition j.v1).map fun inv =>
    mulMV s.cols s.minDim (Mat.T (getVT s))
      (diagmultVV s.minDim inv (mulMV s.minDim s.rows (Mat.T (getU s)) rhs j.v2) j.v3) j.v3

/-- `get_pinv(condition)` (SVD.h:204-208) -/
def getPinv (s : St K) (condition : K) (j : Junk K) : Option (Mat K) :=
  (getInvDiag s condition j.v1).map fun inv =>
    mulMM s.cols s.minDim s.rows (diagmultMV s.cols s.minDim (Mat.T (getVT s)) inv j.m1) (Mat.T (getU s)) j.m2

/-- `determinant()` (SVD.h:212-218) -/
def determinant (s : St K) : K :=
  forRange 1 s.minDim (fun i result => result * s.diag i) (s.diag 0)

/-- `rank(condition)` (SVD.h:222-231) -/
def rank (s : St K) (condition : K) : Nat :=
  if s.diag 0 = 0 then 0
  else forN s.minDim (fun i result => if s.diag i * condition ≤ s.diag 0 then result + 1 else result) 1

/-- `condition_no` (SVD.h:38: `static const double condition_no=1e9;`) -/
def conditionNo [OfNat K 1000000000] : K := 1000000000

end TooN.SVD
