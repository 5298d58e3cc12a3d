import Verif.Model.Helpers
import Verif.Model.LU
import Verif.Model.Loop
import Verif.Model.Ops
import Mathlib.Analysis.SpecialFunctions.Sqrt
import Mathlib.Analysis.SpecialFunctions.Pow.Real
import Mathlib.Analysis.SpecialFunctions.Complex.Arg
/-!
# SymEigen.h: eigendecomposition of symmetric matrices

Exact real arithmetic.  `none` stands for a division by zero or the square root of a negative number (an IEEE
NaN/infinity in the C++).  The general case calls LAPACK's `syev`; its contract is in `Spec/SymEigen.lean`.
-/
namespace TooN.SymEigen
open TooN.LU TooN.Ops TooN.Helpers
open scoped Classical
noncomputable section

/-- the members `my_evectors`, `my_evalues` (SymEigen.h:557-562) and the size; row `i` of `evectors` is the `i`-th
eigenvector -/
structure St where
  n : Nat
  evectors : Mat ℝ
  evalues : Vec ℝ

/-- `syev_(JOBZ, UPLO, N, A, LDA, W, ...)` (lapack.h:59-61, 156-161): the new contents of `A` and of `W` -/
abbrev Syev := (jobz uplo : Char) → (N : Nat) → (A : Buf ℝ) → (lda : Nat) → Buf ℝ × Vec ℝ

/-- `ComputeSymEigen<Size>::compute` (SymEigen.h:64-90) for sizes other than 2, 3 (and Dynamic).  The workspace
query, which changes nothing but `size`, and the message printed when `info != 0` are not modelled. -/
def computeN (syev : Syev) (n : Nat) (m : Mat ℝ) : St :=
  let evectors := pack n m
  let r := syev 'V' 'U' n evectors n
  ⟨n, cview n r.1, r.2⟩

/-- `ComputeSymEigen<2>::compute` (SymEigen.h:105-133).  `eig`, `ev` are the previous contents. -/
def compute2 (m : Mat ℝ) (eig : Mat ℝ) (ev : Vec ℝ) : Option St :=
  let trace := m 0 0 + m 1 1
  let det := m 0 0 * m 1 1 - m 0 1 * m 0 1
  let disc := trace * trace - 4 * det
  let disc := if disc < 0 then 0 else disc
  let root_disc := Real.sqrt disc
  let ev := Vec.set ev 0 (0.5 * (trace - root_disc))
  let ev := Vec.set ev 1 (0.5 * (trace + root_disc))
  let a := m 0 0 - ev 0
  let b := m 0 1
  let magsq := a * a + b * b
  (if magsq = 0 then
      let eig := Mat.set eig 0 0 1
      some (Mat.set eig 0 1 0)
    else
      let eig := Mat.set eig 0 0 (-b)
      let eig := Mat.set eig 0 1 a
      if Real.sqrt magsq = 0 then none
      else
        let s := 1 / Real.sqrt magsq
        some (forN 2 (fun i eig => Mat.set eig 0 i (eig 0 i * s)) eig)).map fun eig =>
  let eig := Mat.set eig 1 0 (-(eig 0 1))
  let eig := Mat.set eig 1 1 (eig 0 0)
  ⟨2, eig, ev⟩

/-! ## 3×3 -/

/-- `makeVector(a, b, c)` (elements beyond the size are irrelevant) -/
def mk3 (a b c : ℝ) : Vec ℝ := fun i => if i = 0 then a else if i = 1 then b else c

/-- the three compare-and-swap steps used twice (SymEigen.h:206-211 on `ev`, 302-316 on `ns` with `is` swapped along) -/
def sort3 {α : Type} (key : α → ℝ) (t : α × α × α) : α × α × α :=
  let t := if key t.1 > key t.2.1 then (t.2.1, t.1, t.2.2) else t
  let t := if key t.2.1 > key t.2.2 then (t.1, t.2.2, t.2.1) else t
  if key t.1 > key t.2.1 then (t.2.1, t.1, t.2.2) else t

/-- coefficient `a` of the characteristic polynomial (SymEigen.h:176) -/
def cA (m : Mat ℝ) : ℝ := -(m 0 0) - m 1 1 - m 2 2
/-- coefficient `b` (SymEigen.h:177) -/
def cB (m : Mat ℝ) : ℝ :=
  m 0 0 * m 1 1 + m 0 0 * m 2 2 + m 1 1 * m 2 2 - m 0 1 * m 0 1 - m 0 2 * m 0 2 - m 1 2 * m 1 2
/-- coefficient `c` (SymEigen.h:178) -/
def cC (m : Mat ℝ) : ℝ :=
  m 0 0 * (m 1 2 * m 1 2) + (m 0 2 * m 0 2) * m 1 1 + (m 0 1 * m 0 1) * m 2 2 - m 0 1 * m 0 2 * m 1 2 * 2
    - m 0 0 * m 1 1 * m 2 2

/-- the eigenvalues before sorting, from the coefficients (SymEigen.h:181-204); `atan2(y, x)` is the argument of
`x + i y` -/
def roots3 (a b c : ℝ) : ℝ × ℝ × ℝ :=
  let p := b - a * a / 3
  let q := c + (2 * a * a * a - 9 * a * b) / 27
  let alpha := -q / 2
  let beta_descriminant := min 0 (q * q / 4 + p * p * p / 27)
  let beta := Real.sqrt (-beta_descriminant)
  let r2 := alpha * alpha - beta_descriminant
  let cuberoot_r := r2 ^ (1 / 6 : ℝ)
  let theta3 := Complex.arg ⟨alpha, beta⟩ / 3
  let A_plus_B := 2 * cuberoot_r * Real.cos theta3
  let A_minus_B := -2 * cuberoot_r * Real.sin theta3
  (A_plus_B - a / 3, -A_plus_B / 2 + A_minus_B * Real.sqrt 3 / 2 - a / 3,
    -A_plus_B / 2 - A_minus_B * Real.sqrt 3 / 2 - a / 3)

/-- the sorted eigenvalues (SymEigen.h:176-211) -/
def evals3 (m : Mat ℝ) : ℝ × ℝ × ℝ := sort3 id (roots3 (cA m) (cB m) (cC m))

/-- the first choice of an eigenvector for `l` (SymEigen.h:222-224, 225-227, 228-230) -/
def vecZ (m : Mat ℝ) (l : ℝ) : Vec ℝ :=
  mk3 (m 0 1 * m 1 2 - m 0 2 * (m 1 1 - l)) (m 0 1 * m 0 2 - m 1 2 * (m 0 0 - l))
    ((m 0 0 - l) * (m 1 1 - l) - m 0 1 * m 0 1)
/-- what is added if that is small (SymEigen.h:244-246, 252-254, 260-262) -/
def vecY (m : Mat ℝ) (l : ℝ) : Vec ℝ :=
  mk3 (m 0 1 * (l - m 2 2) + m 1 2 * m 0 2) ((l - m 0 0) * (l - m 2 2) - m 0 2 * m 0 2)
    (m 1 2 * (l - m 0 0) + m 0 1 * m 0 2)
/-- what is added if that is still small (SymEigen.h:271-273, 279-281, 287-289) -/
def vecX (m : Mat ℝ) (l : ℝ) : Vec ℝ :=
  mk3 ((l - m 1 1) * (l - m 2 2) - m 1 2 * m 1 2) (m 0 1 * (l - m 2 2) + m 1 2 * m 0 2)
    (m 0 2 * (l - m 1 1) + m 1 2 * m 0 1)

/-- `v += w` on three elements -/
def add3 (v w : Vec ℝ) : Vec ℝ := mk3 (v 0 + w 0) (v 1 + w 1) (v 2 + w 2)

/-- the unnormalised eigenvector for `l` and its recorded norm after both repairs (SymEigen.h:222-291; the code treats
the three rows alternately, but no row's computation reads another row) -/
def row3 (m : Mat ℝ) (eps l : ℝ) : Vec ℝ × ℝ :=
  let e := vecZ m l
  let s : Vec ℝ × ℝ := (e, norm1 3 e)
  let s := if s.2 < eps then let e := add3 s.1 (vecY m l); (e, norm1 3 e) else s
  if s.2 < eps then let e := add3 s.1 (vecX m l); (e, norm1 3 e) else s

/-- replace row `i` -/
def setRow (eig : Mat ℝ) (i : Nat) (v : Vec ℝ) : Mat ℝ := fun r => if r = i then v else eig r

/-- `normalize(eig[i])` -/
def normRow (eig : Mat ℝ) (i : Nat) : Option (Mat ℝ) := (normalize 3 (eig i)).map (setRow eig i)

/-- the identity matrix written by `eig = TooN::Identity` -/
def ident : Mat ℝ := fun r c => if r = c then 1 else 0

/-- "one small one" (SymEigen.h:321-324): note the literal indices 1 and 2 -/
def oneSmall (eig : Mat ℝ) (i0 i1 i2 : Nat) : Option (Mat ℝ) :=
  (normRow eig 1).bind fun eig => (normRow eig 2).map fun eig =>
    setRow eig i0 (cross (eig i1) (eig i2) (eig i0))

/-- two small ones (SymEigen.h:328-338); `unit(p - e*(p*e))` -/
def twoSmall (eig : Mat ℝ) (i0 i1 i2 : Nat) : Option (Mat ℝ) :=
  (normRow eig i2).bind fun eig =>
    let e := eig i2
    let p := mk3 (e 1) (e 2) (e 0)
    let d := dot 3 p e
    (unit 3 (mk3 (p 0 - e 0 * d) (p 1 - e 1 * d) (p 2 - e 2 * d)) (eig i0)).map fun v1 =>
      let v2 := cross v1 e (eig i1)
      setRow (setRow eig i0 v1) i1 v2

/-- `ComputeSymEigen<3>::compute` (SymEigen.h:148-349).  `ev` is the previous content of the eigenvalues. -/
def compute3 (m : Mat ℝ) (ev : Vec ℝ) : Option St :=
  let a_norm := norm1M 3 3 m
  let eps := 1e-7 * a_norm
  if a_norm = 0 then some ⟨3, ident, ev⟩ else
  let l := evals3 m
  let ev := mk3 l.1 l.2.1 l.2.2
  let r0 := row3 m eps (ev 0)
  let r1 := row3 m eps (ev 1)
  let r2 := row3 m eps (ev 2)
  let eig : Mat ℝ := fun r => if r = 0 then r0.1 else if r = 1 then r1.1 else r2.1
  (if r0.2 < eps ∨ r1.2 < eps ∨ r2.2 < eps then
    let t := sort3 (α := ℝ × Nat) Prod.fst ((r0.2, 0), (r1.2, 1), (r2.2, 2))
    if t.2.1.1 ≥ eps then oneSmall eig t.1.2 t.2.1.2 t.2.2.2
    else if t.2.2.1 ≥ eps then twoSmall eig t.1.2 t.2.1.2 t.2.2.2
    else some ident
  else
    (normRow eig 0).bind fun eig => (normRow eig 1).bind fun eig => normRow eig 2).map fun eig => ⟨3, eig, ev⟩

/-! ## Derived quantities -/

/-- `get_inv_diag(condition)` (SymEigen.h:461-472); the size must be positive -/
def getInvDiag (s : St) (condition : ℝ) (u : Vec ℝ) : Option (Vec ℝ) :=
  let max_diag := if -(s.evalues 0) > s.evalues (s.n - 1) then -(s.evalues 0) else s.evalues (s.n - 1)
  forNM s.n (fun i inv =>
    if |s.evalues i| * condition > max_diag then
      (if s.evalues i = 0 then none else some (Vec.set inv i (1 / s.evalues i)))
    else some (Vec.set inv i 0)) u

/-- `backsub(Vector)` (SymEigen.h:433-435) with the condition number as a parameter (`symeigen_condition_no` there) -/
def backsubV (s : St) (condition : ℝ) (rhs : Vec ℝ) (j1 j2 j3 j4 : Vec ℝ) : Option (Vec ℝ) :=
  (getInvDiag s condition j1).map fun inv =>
    mulMV s.n s.n (Mat.T s.evectors) (diagmultVV s.n inv (mulMV s.n s.n s.evectors rhs j2) j3) j4

/-- `backsub(Matrix)` (SymEigen.h:442-444), `c` columns -/
def backsubM (s : St) (condition : ℝ) (c : Nat) (rhs : Mat ℝ) (j1 : Vec ℝ) (j2 j3 j4 : Mat ℝ) : Option (Mat ℝ) :=
  (getInvDiag s condition j1).map fun inv =>
    mulMM s.n s.n c (Mat.T s.evectors) (diagmultVM s.n c inv (mulMM s.n s.n c s.evectors rhs j2) j3) j4

/-- `get_pinv(condition)` (SymEigen.h:451-453) -/
def getPinv (s : St) (condition : ℝ) (j1 : Vec ℝ) (j2 j3 : Mat ℝ) : Option (Mat ℝ) :=
  (getInvDiag s condition j1).map fun inv =>
    mulMM s.n s.n s.n (Mat.T s.evectors) (diagmultVM s.n s.n inv s.evectors j2) j3

/-- `is_posdef()` (SymEigen.h:495-501): the early return is the `none` of the loop -/
def isPosdef (s : St) : Bool :=
  (forNM s.n (fun i (_ : Unit) => if s.evalues i ≤ 0 then none else some ()) ()).isSome
/-- `is_negdef()` (SymEigen.h:504-510) -/
def isNegdef (s : St) : Bool :=
  (forNM s.n (fun i (_ : Unit) => if s.evalues i ≥ 0 then none else some ()) ()).isSome
/-- `get_determinant()` (SymEigen.h:513-519) -/
def getDeterminant (s : St) : ℝ := forN s.n (fun i det => det * s.evalues i) 1

/-- `std::sqrt`; a negative argument gives a NaN -/
def sqrtC (x : ℝ) : Option ℝ := if x < 0 then none else some (Real.sqrt x)

/-- `get_sqrtm()` (SymEigen.h:523-531) -/
def getSqrtm (s : St) (j1 : Vec ℝ) (j2 j3 : Mat ℝ) : Option (Mat ℝ) :=
  (forNM s.n (fun i d => (sqrtC (s.evalues i)).map (Vec.set d i)) j1).map fun diag_sqrt =>
    mulMM s.n s.n s.n (Mat.T s.evectors) (diagmultVM s.n s.n diag_sqrt s.evectors j2) j3

/-- one iteration of the loop of `get_isqrtm` (SymEigen.h:547-552) -/
def isqrtStep (s : St) (condition max_diag : ℝ) (i : Nat) (d : Vec ℝ) : Option (Vec ℝ) :=
  (sqrtC (s.evalues i)).bind fun r =>
    let d := Vec.set d i r
    if |d i| * condition > max_diag then
      (if d i = 0 then none else some (Vec.set d i (1 / d i)))
    else some (Vec.set d i 0)

/-- `get_isqrtm(condition)` (SymEigen.h:539-555); the size must be positive -/
def getIsqrtm (s : St) (condition : ℝ) (j1 : Vec ℝ) (j2 j3 : Mat ℝ) : Option (Mat ℝ) :=
  (if -(s.evalues 0) > s.evalues (s.n - 1) then (sqrtC (s.evalues 0)).map (fun x => -x)
    else sqrtC (s.evalues (s.n - 1))).bind fun max_diag =>
  (forNM s.n (isqrtStep s condition max_diag) j1).map fun diag_isqrt =>
    mulMM s.n s.n s.n (Mat.T s.evectors) (diagmultVM s.n s.n diag_isqrt s.evectors j2) j3

/-- `symeigen_condition_no` (SymEigen.h:49) -/
def conditionNo : ℝ := 1000000000

end
end TooN.SymEigen
