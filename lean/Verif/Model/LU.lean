import Verif.Model.Loop
import Mathlib.Algebra.Field.Basic
/-!
# LU.h: `LU<Size, Precision>` on top of LAPACK

LAPACK/BLAS are external: a record of functions on raw buffers (the arguments the C++ code passes), whose
documented contracts are in `Spec/LU.lean`.  A C++ row-major matrix with `ld` columns and a Fortran
column-major matrix with leading dimension `ld` are two readings of the same buffer.
-/
namespace TooN.LU
variable {K : Type _} [Field K]

/-- a contiguous block of memory -/
abbrev Buf (K : Type _) := Nat → K

/-- `m[r][c]` of a row-major matrix with `ld` columns (mbase.hh / allocator.hh: `data[r*num_cols + c]`) -/
def cview (ld : Nat) (b : Buf K) : Mat K := fun r c => b (r * ld + c)
/-- Fortran element `(r, c)` (0-based) of an array with leading dimension `ld` -/
def fview (ld : Nat) (b : Buf K) : Mat K := fun r c => b (c * ld + r)

/-- a freshly allocated row-major copy with `ld` columns (LU.h:86 `my_lu=m`, 105 `result(rhs)`, 157) -/
def pack (ld : Nat) (m : Mat K) : Buf K := fun k => m (k / ld) (k % ld)

/-- The external routines (lapack.h:37-60), with the arguments of the Fortran calls. -/
structure Lapack (K : Type _) where
  /-- `getrf_(M, N, A, lda, IPIV)`: new contents of `A` and `IPIV` -/
  getrf : (M N : Nat) → (A : Buf K) → (lda : Nat) → Buf K × (Nat → Nat)
  /-- `trsm_(SIDE, UPLO, TRANSA, DIAG, M, N, ALPHA, A, lda, B, ldb)`: new contents of `B` -/
  trsm : (side uplo transa diag : Char) → (M N : Nat) → (alpha : K) → (A : Buf K) → (lda : Nat) →
    (B : Buf K) → (ldb : Nat) → Buf K
  /-- `getri_(N, A, lda, IPIV, ...)`: new contents of `A` -/
  getri : (N : Nat) → (A : Buf K) → (lda : Nat) → (ipiv : Nat → Nat) → Buf K

/-- the members `my_lu`, `my_IPIV` -/
structure St (K : Type _) where
  lu : Buf K
  ipiv : Nat → Nat

/-- `compute(m)` (LU.h:80-96) for a square matrix (the two size tests, 82-83) of size `n` -/
def compute (lp : Lapack K) (n : Nat) (m : Mat K) : St K :=
  let r := lp.getrf n n (pack n m) n
  ⟨r.1, r.2⟩

/-- the swap loop of `backsub(Vector)` (LU.h:145-150) -/
def swapLoopV (n : Nat) (ipiv : Nat → Nat) (result : Vec K) : Vec K :=
  forDown n (fun i result =>
    let swaprow := ipiv i - 1
    let temp := result i
    let result := Vec.set result i (result swaprow)
    Vec.set result swaprow temp) result

/-- `backsub(Vector)` (LU.h:130-152).  `result[0..n)` is a buffer; Fortran sees it as `1 × n`. -/
def backsubV (lp : Lapack K) (n : Nat) (s : St K) (rhs : Vec K) : Vec K :=
  let result : Buf K := fun k => rhs k
  let result := lp.trsm 'R' 'U' 'N' 'N' 1 n 1 s.lu n result 1
  let result := lp.trsm 'R' 'L' 'N' 'U' 1 n 1 s.lu n result 1
  swapLoopV n s.ipiv result

/-- the swap loop of `backsub(Matrix)` (LU.h:116-123).  `NRHS` is the *template* parameter: the inner loop
runs `max NRHS 0` times, and `NRHS = Dynamic = -1` for a dynamically sized right hand side. -/
def swapLoopM (n : Nat) (NRHS : Int) (ipiv : Nat → Nat) (result : Mat K) : Mat K :=
  forDown n (fun i result =>
    let swaprow := ipiv i - 1
    forN NRHS.toNat (fun j result =>
      let temp := result i j
      let result := Mat.set result i j (result swaprow j)
      Mat.set result swaprow j temp) result) result

/-- `backsub(Matrix)` (LU.h:101-125); `cols = rhs.num_cols()`. -/
def backsubM (lp : Lapack K) (n : Nat) (s : St K) (NRHS : Int) (cols : Nat) (rhs : Mat K) : Mat K :=
  let result := pack cols rhs
  let result := lp.trsm 'R' 'U' 'N' 'N' cols n 1 s.lu n result cols
  let result := lp.trsm 'R' 'L' 'N' 'U' cols n 1 s.lu n result cols
  swapLoopM n NRHS s.ipiv (cview cols result)

/-- `get_inverse()` (LU.h:156-168); the workspace query is not modelled -/
def getInverse (lp : Lapack K) (n : Nat) (s : St K) : Mat K :=
  cview n (lp.getri n s.lu n s.ipiv)

/-- `get_sign()` (LU.h:178-186) -/
def getSign (n : Nat) (s : St K) : K :=
  forN (n - 1) (fun i result => if s.ipiv i > i + 1 then -result else result) 1

/-- `determinant()` (LU.h:190-196) -/
def determinant (n : Nat) (s : St K) : K :=
  forN n (fun i result => result * cview n s.lu i i) (getSign n s)

/-- `get_lu()` (LU.h:175) -/
def getLu (n : Nat) (s : St K) : Mat K := cview n s.lu

end TooN.LU
