import Verif.Model.Elim
import Mathlib.Analysis.SpecialFunctions.Pow.Real
/-!
# sl.h: the groups SL(N)

Matrices are `Mat ℝ` (entries `< N` meaningful).  `TooN::exp` and `TooN::log` of a matrix (helpers.h:330-381) are parameters
`expM`, `logM` here; `Model/MatFun.lean` models their code.
-/
namespace TooN.SL
open Classical
noncomputable section

/-- `dim` (sl.h:61) -/
def dim (N : Nat) : Nat := N * N - 1
/-- `COUNT_DIAG`, `DIAG_LIMIT` (sl.h:118, 121) -/
def diagLimit (N : Nat) : Nat := N - 1
/-- `COUNT_SYMM` (sl.h:119) -/
def countSymm (N : Nat) : Nat := (dim N - diagLimit N) / 2
/-- `SYMM_LIMIT` (sl.h:122) -/
def symmLimit (N : Nat) : Nat := countSymm N + diagLimit N

/-- the loop `while(col > N - row - 1){ col -= N - row - 1; ++row; } col += row;` of `generator` (sl.h:170-175, 178-183)
run for at most `fuel` iterations of the test; `none` when it is still running then -/
def decode (N : Int) : Nat → Int → Int → Option (Int × Int)
  | 0, _, _ => none
  | f + 1, row, col =>
    if col > N - row - 1 then decode N f (row + 1) (col - (N - row - 1)) else some (row, col + row)

/-- `generator(i)` (sl.h:162-188) with loop budget `fuel`: `abort` is the failed `assert`, `ub` an element access outside
the `N`×`N` matrix or a loop that has not ended -/
def generator (fuel N : Nat) (i : Int) : Outcome (Mat ℝ) :=
  if -1 < i ∧ i < dim N then
    if i < diagLimit N then
      let k := i.toNat
      .ok (Mat.set (Mat.set (fun _ _ => 0) k k 1) (k + 1) (k + 1) (-1))
    else if i < symmLimit N then
      match decode N fuel 0 (i - diagLimit N + 1) with
      | none => .ub
      | some (r, c) =>
        if 0 ≤ r ∧ r < N ∧ 0 ≤ c ∧ c < N then
          .ok (Mat.set (Mat.set (fun _ _ => 0) c.toNat r.toNat 1) r.toNat c.toNat 1)
        else .ub
    else
      match decode N fuel 0 (i - symmLimit N + 1) with
      | none => .ub
      | some (r, c) =>
        if 0 ≤ r ∧ r < N ∧ 0 ≤ c ∧ c < N then
          .ok (Mat.set (Mat.set (fun _ _ => 0) r.toNat c.toNat (-1)) c.toNat r.toNat 1)
        else .ub
  else .abort

/-- the first loop of `exp` (sl.h:132-134): `t = 0; t += generator(i) * v[i]` for `i < dim` -/
def tangent (fuel N : Nat) (v : Vec ℝ) : Outcome (Mat ℝ) :=
  forN (dim N) (fun i st => st.bind fun t => (generator fuel N i).bind fun g => .ok (fun r c => t r c + g r c * v i))
    (.ok fun _ _ => 0)

/-- `exp(v)` (sl.h:128-138) -/
def exp (fuel N : Nat) (expM : Mat ℝ → Mat ℝ) (v : Vec ℝ) : Outcome (Mat ℝ) :=
  (tangent fuel N v).bind fun t => .ok (expM t)

/-- the diagonal loop of `ln` (sl.h:144-148): state `(v, last)` -/
def lnDiag (N : Nat) (l : Mat ℝ) (v : Vec ℝ) : Vec ℝ × ℝ :=
  forN (diagLimit N) (fun i st => (Vec.set st.1 i (l i i + st.2), l i i)) (v, 0)

/-- the second loop of `ln` (sl.h:149-158): state `(v, row, col)` -/
def lnOff (N : Nat) (l : Mat ℝ) (v : Vec ℝ) : Vec ℝ × Nat × Nat :=
  forRange (diagLimit N) (symmLimit N) (fun i st =>
    let row := st.2.1
    let col := st.2.2
    let v := Vec.set st.1 i ((l row col + l col row) * 0.5)
    let v := Vec.set v (i + countSymm N) ((-l row col + l col row) * 0.5)
    if col + 1 = N then (v, row + 1, row + 1 + 1) else (v, row, col + 1)) (v, 0, 1)

/-- `ln()` (sl.h:140-160) given `l = log(my_matrix)`; `junk` is the uninitialised vector -/
def lnCoords (N : Nat) (l : Mat ℝ) (junk : Vec ℝ) : Vec ℝ := (lnOff N l (lnDiag N l junk).1).1

/-- `ln()` (sl.h:140-160) -/
def ln (N : Nat) (logM : Mat ℝ → Mat ℝ) (m : Mat ℝ) (junk : Vec ℝ) : Vec ℝ := lnCoords N (logM m) junk

/-- the matrix product `a.get_matrix() * b.get_matrix()` of `operator*` and `operator*=` (sl.h:81, 85, 105), elementwise by
C09 -/
def mul (N : Nat) (a b : Mat ℝ) : Mat ℝ := fun r c => forN N (fun k s => s + a r k * b k c) 0

/-- `inverse()` (sl.h:77, 101-104): `gaussian_elimination(my_matrix, Identity)`; `none` is a division by zero -/
def inverse (N : Nat) (a x : Mat ℝ) : Option (Mat ℝ) :=
  Elim.gaussElim N N a (fun i j => if i = j then 1 else 0) x

/-- `std::pow(d, 1.0/N)` for `d ≠ 0`: a negative base gives NaN (`none`) unless the exponent is the integer 1 -/
def rootN (N : Nat) (d : ℝ) : Option ℝ :=
  if 0 < d then some (d ^ (1 / (N : ℝ))) else if N = 1 then some d else none

/-- `coerce()` (sl.h:107-113): `abort` is the failed `assert`; `ok none` is a matrix of NaNs. Also what the constructor from a
matrix (sl.h:72) and `operator>>` (sl.h:217-221) do after the elements are stored. -/
def coerce (N : Nat) (m : Mat ℝ) : Outcome (Option (Mat ℝ)) :=
  match Elim.determinant N m with
  | none => .ub
  | some det =>
    if |det| > 0 then
      match rootN N det with
      | none => .ok none
      | some p => .ok (some fun r c => m r c / p)
    else .abort

end
end TooN.SL
