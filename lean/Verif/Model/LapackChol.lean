import Verif.Model.LU
import Verif.Model.Ops
import Mathlib.Data.Real.Basic
/-!
# Lapack_Cholesky.h: `Lapack_Cholesky<Size, Precision>` on top of LAPACK

LAPACK is external: functions on raw buffers, with the arguments that the C++ code passes (`UPLO` is always `"L"`).
Their documented contracts are in `Spec/LapackChol.lean`.  A failed `assert` is `none`.
-/
namespace TooN.LapackChol
open LU (Buf cview fview pack)
noncomputable section

/-- the external routines (lapack.h:117-123, 139-155), `UPLO = "L"`; the last component is `INFO` -/
structure Lapack where
  potrf : (N : Nat) → (A : Buf ℝ) → (lda : Nat) → Buf ℝ × Int
  potrs : (N NRHS : Nat) → (A : Buf ℝ) → (lda : Nat) → (B : Buf ℝ) → (ldb : Nat) → Buf ℝ × Int
  potri : (N : Nat) → (A : Buf ℝ) → (lda : Nat) → Buf ℝ × Int

/-- the members (Lapack_Cholesky.h:177-179); `my_cholesky_lapack` is a row-major buffer -/
structure St where
  chol : Mat ℝ
  lapack : Buf ℝ
  rank : Int

/-- copy of the LAPACK triangle, zeros above (Lapack_Cholesky.h:98-108) into the matrix `chol` -/
def copyL (n : Nat) (lapack : Buf ℝ) (chol : Mat ℝ) : Mat ℝ :=
  forN n (fun i chol =>
    let chol := forN (i + 1) (fun j chol => Mat.set chol i j (cview n lapack j i)) chol
    forRange (i + 1) n (fun j chol => Mat.set chol i j 0) chol) chol

/-- `do_compute()` (Lapack_Cholesky.h:94-115) -/
def doCompute (lp : Lapack) (n : Nat) (lapack : Buf ℝ) (chol : Mat ℝ) : Option St :=
  let r := lp.potrf n lapack n
  let chol := copyL n r.1 chol
  if r.2 ≥ 0 then
    some { chol := chol, lapack := r.1, rank := if r.2 > 0 then r.2 - 1 else n }
  else none

/-- the constructor (Lapack_Cholesky.h:75-80): both members are initialised with `m` -/
def construct (lp : Lapack) (n : Nat) (m : Mat ℝ) : Option St := doCompute lp n (pack n m) m

/-- `compute(m)` (Lapack_Cholesky.h:85-90) on an object with members `st` -/
def compute (lp : Lapack) (n : Nat) (st : St) (m : Mat ℝ) : Option St := doCompute lp n (pack n m) st.chol

/-- `backsub(Vector)` (Lapack_Cholesky.h:119-130): the right hand side is an `n × 1` Fortran matrix -/
def backsubV (lp : Lapack) (n : Nat) (st : St) (v : Vec ℝ) : Option (Vec ℝ) :=
  let r := lp.potrs n 1 st.lapack n v n
  if r.2 = 0 then some r.1 else none

/-- a freshly allocated column-major copy with `n` rows (Lapack_Cholesky.h:136) -/
def packCol (n : Nat) (m : Mat ℝ) : Buf ℝ := fun k => m (k % n) (k / n)

/-- `backsub(Matrix)` (Lapack_Cholesky.h:132-143): the result is a column-major matrix -/
def backsubM (lp : Lapack) (n cols : Nat) (st : St) (m : Mat ℝ) : Option (Mat ℝ) :=
  let r := lp.potrs n cols st.lapack n (packCol n m) n
  if r.2 = 0 then some (fview n r.1) else none

/-- `mahalanobis(v)` (Lapack_Cholesky.h:145-148) -/
def mahalanobis (lp : Lapack) (n : Nat) (st : St) (v : Vec ℝ) : Option ℝ :=
  (backsubV lp n st v).map fun x => Ops.dot n v x

/-- `get_L()` (Lapack_Cholesky.h:150-152) -/
def getL (st : St) : Mat ℝ := st.chol

/-- `determinant()` (Lapack_Cholesky.h:154-159); `my_cholesky[0][0]` is read also for size 0 -/
def determinant (n : Nat) (st : St) : ℝ :=
  let det := forRange 1 n (fun i det => det * st.chol i i) (st.chol 0 0)
  det * det

/-- `get_inverse()` (Lapack_Cholesky.h:161-174) -/
def getInverse (lp : Lapack) (n : Nat) (st : St) : Option (Mat ℝ) :=
  let r := lp.potri n st.lapack n
  if r.2 = 0 then
    some (forRange 1 n (fun i M => forN i (fun j M => Mat.set M i j (M j i)) M) (cview n r.1))
  else none

end
end TooN.LapackChol
