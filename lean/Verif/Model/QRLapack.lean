import Verif.Model.LapackChol
/-!
# QR_Lapack.h: `QR_Lapack<Rows, Cols, Precision>` on top of LAPACK

LAPACK is external (functions on raw column-major buffers, contracts in `Spec/QRLapack.lean`).  The workspace query and the message
on `INFO < 0` are not modelled.  Pivot entries are Fortran numbers (from 1), so naturals.
-/
namespace TooN.QRLapack
open LU (Buf fview)
open LapackChol (packCol)
noncomputable section

/-- the external routines (lapack.h:80-85, 164-182): `geqp3` returns the new `A`, `JPVT` and `TAU`, `orgqr` the new `A` -/
structure Lapack where
  geqp3 : (M N : Nat) → (A : Buf ℝ) → (lda : Nat) → (jpvt : Nat → Nat) → Buf ℝ × (Nat → Nat) × Buf ℝ
  orgqr : (M N K : Nat) → (A : Buf ℝ) → (lda : Nat) → (tau : Buf ℝ) → Buf ℝ

/-- the members returned by `get_R`, `get_Q`, `get_P` (QR_Lapack.h:161-165); the first two as matrices -/
structure St where
  copy : Mat ℝ
  Q : Mat ℝ
  pivot : Nat → Int

/-- `square_size()` (QR_Lapack.h:168-171) -/
def squareSize (M N : Nat) : Nat := min M N

/-- the initial pivot vector (QR_Lapack.h:72, 112-117) -/
def initPivot (doPivoting : Bool) : Nat → Nat := fun i => if doPivoting then 0 else i + 1

/-- "zero out the lower triangle" (QR_Lapack.h:150-153) of the matrix `copy` -/
def zeroLower (k : Nat) (copy : Mat ℝ) : Mat ℝ :=
  forRange 1 k (fun r copy => forN r (fun c copy => Mat.set copy r c 0) copy) copy

/-- constructor and `compute()` (QR_Lapack.h:67-78, 101-159) of an `M × N` matrix.  `copy` and `Q` are column-major (161, 163);
the assignment 137 copies the leading square block into the buffer of `Q`. -/
def construct (lp : Lapack) (M N : Nat) (m : Mat ℝ) (doPivoting : Bool) : St :=
  let copy := packCol M m
  let r := lp.geqp3 M N copy M (initPivot doPivoting)
  let copy := r.1
  let K := squareSize M N
  let Q := packCol K (fview M copy)
  let Q := lp.orgqr K K K Q K r.2.2
  { copy := zeroLower K (fview M copy), Q := fview K Q, pivot := fun i => (r.2.1 i : Int) - 1 }

/-- `get_R()` (QR_Lapack.h:81-84) -/
def getR (st : St) : Mat ℝ := st.copy
/-- `get_Q()` (QR_Lapack.h:87-90) -/
def getQ (st : St) : Mat ℝ := st.Q
/-- `get_P()` (QR_Lapack.h:94-97) -/
def getP (st : St) : Nat → Int := st.pivot

end
end TooN.QRLapack
