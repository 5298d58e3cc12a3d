import Verif.Model.Loop
import Mathlib.Order.Defs.LinearOrder
import Mathlib.Algebra.Notation.Defs
/-!
# gauss_jordan.h, gaussian_elimination.h, determinant.h

The definitions use only the operations and comparisons of the element type: exact arithmetic for a linearly
ordered field (C16–C18), rounded arithmetic for `Fl ρ` (`Model/Float.lean`, C63).  A division by zero (inf/NaN in
the program) makes the function return `none`.
-/
namespace TooN.Elim
variable {K : Type _} [Zero K] [One K] [Sub K] [Mul K] [Div K] [Neg K] [LT K] [DecidableLT K] [DecidableEq K]

/-- `std::abs` -/
def fabs (x : K) : K := if x < 0 then -x else x

/-- Pivot search in column `i`, rows `i…n-1`: `argmax`/`maxval` loop, gauss_jordan.h:66-73,
gaussian_elimination.h:50-59 and 114-123, determinant.h:109-118. -/
def pivotRow (n i : Nat) (A : Mat K) : Nat :=
  (forRange (i+1) n (fun ii (st : Nat × K) => if fabs (A ii i) > st.2 then (ii, fabs (A ii i)) else st)
    (i, fabs (A i i))).1

/-- swap of columns `lo ≤ j < hi` of rows `p` and `q`, one element at a time:
gauss_jordan.h:75-76 (vector swap, operators.hh:722-731), gaussian_elimination.h:64-65/128-132,
determinant.h:127-128. -/
def swapRows (lo hi p q : Nat) (A : Mat K) : Mat K :=
  forRange lo hi (fun j A => Mat.set (Mat.set A p j (A q j)) q j (A p j)) A

/-- One pass of the column loop of `gauss_jordan` (gauss_jordan.h:53-98); `R × C` matrix. -/
def gjColumn (R C : Nat) (col : Nat) (m : Mat K) : Option (Mat K) :=
  let p := pivotRow R col m
  let m := if col ≠ p then swapRows 0 C col p m else m
  forNM R (fun row m =>
    if row ≠ col then
      if m col col = 0 then none
      else
        let multiple := m row col / m col col
        let m := Mat.set m row col 0
        some (forRange (col+1) C (fun c m => Mat.set m row c (m row c - m col c * multiple)) m)
    else some m) m

/-- Final pass (gauss_jordan.h:103-111). -/
def gjFinal (R C : Nat) (row : Nat) (m : Mat K) : Option (Mat K) :=
  if m row row = 0 then none
  else
    let mul := 1 / m row row
    let m := Mat.set m row row 1
    some (forRange R C (fun col m => Mat.set m row col (m row col * mul)) m)

/-- `gauss_jordan(m)` for an `R × C` matrix (gauss_jordan.h:48-112). -/
def gaussJordan (R C : Nat) (m : Mat K) : Option (Mat K) :=
  (forNM R (gjColumn R C) m).bind (forNM R (gjFinal R C))

/-- `A[u][j] -= factor*A[i][j]` for `lo ≤ j < hi` (gaussian_elimination.h:76-77/142-143; with
`lo = 0` also the row operation `b[u] -= factor*b[i]`, 78/144). -/
def subRow (lo hi u i : Nat) (factor : K) (A : Mat K) : Mat K :=
  forRange lo hi (fun j A => Mat.set A u j (A u j - factor * A i j)) A

/-- `A[i][j] *= s` for `lo ≤ j < hi` (gaussian_elimination.h:69-71/135-137). -/
def scaleRow (lo hi i : Nat) (s : K) (A : Mat K) : Mat K :=
  forRange lo hi (fun j A => Mat.set A i j (A i j * s)) A

/-- One pass of the outer loop of `gaussian_elimination` (gaussian_elimination.h:113-146) for an
`n × n` matrix `A` and an `n × nc` right-hand side `b`.  The vector overload (43-89) is line by line the
same code with `b[i]` in place of the row `b[i]`, i.e. `nc = 1`, except that its `v` and `factor` (54, 74) are declared
`double` instead of `Precision`.  That makes no difference in exact arithmetic and for `Precision = double`; for
`Precision = float` the update of line 77 is evaluated in double precision and rounded twice, which is `geStepU` with
the update of `Model/ElimMixed.lean`. -/
def geStep (n nc : Nat) (i : Nat) (st : Mat K × Mat K) : Option (Mat K × Mat K) :=
  let (A, b) := st
  let argmax := pivotRow n i A
  let pivot := A argmax i
  if pivot = 0 then none
  else
    let inv_pivot := 1 / pivot
    let A1 := if argmax ≠ i then swapRows i n i argmax A else A
    let b1 := if argmax ≠ i then swapRows 0 nc i argmax b else b
    let A2 := scaleRow (i+1) n i inv_pivot A1
    let b2 := scaleRow 0 nc i inv_pivot b1
    some (forRange (i+1) n (fun u (st : Mat K × Mat K) =>
      let factor := st.1 u i
      (subRow (i+1) n u i factor st.1, subRow 0 nc u i factor st.2)) (A2, b2))

/-- The row update of gaussian_elimination.h:76-78 with the expression `a - factor*x` evaluated by `upd`. -/
def subRowU (upd : K → K → K → K) (lo hi u i : Nat) (factor : K) (A : Mat K) : Mat K :=
  forRange lo hi (fun j A => Mat.set A u j (upd (A u j) factor (A i j))) A

/-- One pass of the outer loop of the vector overload of `gaussian_elimination` (gaussian_elimination.h:49-80), with
the compound assignment `a -= factor*x` of lines 77-78 evaluated by `upd` (lines 77-78 mix `Precision` and `double`). -/
def geStepU (upd : K → K → K → K) (n nc : Nat) (i : Nat) (st : Mat K × Mat K) : Option (Mat K × Mat K) :=
  let (A, b) := st
  let argmax := pivotRow n i A
  let pivot := A argmax i
  if pivot = 0 then none
  else
    let inv_pivot := 1 / pivot
    let A1 := if argmax ≠ i then swapRows i n i argmax A else A
    let b1 := if argmax ≠ i then swapRows 0 nc i argmax b else b
    let A2 := scaleRow (i+1) n i inv_pivot A1
    let b2 := scaleRow 0 nc i inv_pivot b1
    some (forRange (i+1) n (fun u (st : Mat K × Mat K) =>
      let factor := st.1 u i
      (subRowU upd (i+1) n u i factor st.1, subRowU upd 0 nc u i factor st.2)) (A2, b2))

/-- `geStepU` for an arithmetic in which division by zero is defined, such as IEEE arithmetic: the program does not test
the pivot (gaussian_elimination.h:125-126/61-62: the assertion is commented out) and goes on with `1/pivot`. -/
def geStepT (upd : K → K → K → K) (n nc : Nat) (i : Nat) (st : Mat K × Mat K) : Mat K × Mat K :=
  let (A, b) := st
  let argmax := pivotRow n i A
  let pivot := A argmax i
  let inv_pivot := 1 / pivot
  let A1 := if argmax ≠ i then swapRows i n i argmax A else A
  let b1 := if argmax ≠ i then swapRows 0 nc i argmax b else b
  let A2 := scaleRow (i+1) n i inv_pivot A1
  let b2 := scaleRow 0 nc i inv_pivot b1
  forRange (i+1) n (fun u (st : Mat K × Mat K) =>
    let factor := st.1 u i
    (subRowU upd (i+1) n u i factor st.1, subRowU upd 0 nc u i factor st.2)) (A2, b2)

/-- Back substitution (gaussian_elimination.h:148-156, vector: 82-87); `x` is uninitialised. -/
def geBack (n nc : Nat) (A b x : Mat K) : Mat K :=
  forDown n (fun i x => forN nc (fun k x =>
    forRange (i+1) n (fun j x => Mat.set x i k (x i k - A i j * x j k)) (Mat.set x i k (b i k))) x) x

/-- `gaussian_elimination(A, b)` (gaussian_elimination.h:104-158). -/
def gaussElim (n nc : Nat) (A b x : Mat K) : Option (Mat K) :=
  (forNM n (geStep n nc) (A, b)).bind fun st => some (geBack n nc st.1 st.2 x)

/-- `gaussian_elimination(A, b)` with the row update evaluated by `upd` (gaussian_elimination.h:43-89). -/
def gaussElimU (upd : K → K → K → K) (n nc : Nat) (A b x : Mat K) : Option (Mat K) :=
  (forNM n (geStepU upd n nc) (A, b)).bind fun st => some (geBack n nc st.1 st.2 x)

/-- `gaussian_elimination(A, b)` (gaussian_elimination.h:43-89, 104-158) in an arithmetic with a total division. -/
def gaussElimT (upd : K → K → K → K) (n nc : Nat) (A b x : Mat K) : Mat K :=
  let st := forN n (geStepT upd n nc) (A, b)
  geBack n nc st.1 st.2 x

/-- `gaussian_elimination(A, b)` for a vector (gaussian_elimination.h:43-89). -/
def gaussElimV (n : Nat) (A : Mat K) (b : Vec K) (x : Mat K) : Option (Vec K) :=
  (gaussElim n 1 A (fun i _ => b i) x).bind fun x => some (fun i => x i 0)

/-- State of `determinant_gaussian_elimination`: still running, returned early, or divided by zero. -/
inductive DetState (K : Type _)
  | run (A : Mat K) (det : K)
  | ret (d : K)
  | divZero

/-- One pass of the loop (determinant.h:106-144). -/
def detStep (n : Nat) (i : Nat) (s : DetState K) : DetState K :=
  match s with
  | .run A det =>
    let argmax := pivotRow n i A
    let pivot := A argmax i
    let det1 := if argmax ≠ i then det * (-1) else det
    let A1 := if argmax ≠ i then swapRows i n i argmax A else A
    let det2 := det1 * A1 i i
    if det2 = 0 then .ret 0
    else if i + 1 < n ∧ pivot = 0 then .divZero       -- the division at determinant.h:139
    else .run (forRange (i+1) n (fun u A =>
      let factor := A u i / pivot
      forRange (i+1) n (fun j A => Mat.set A u j (A u j - factor * A i j)) A) A1) det2
  | s => s

/-- `detStep` for an arithmetic in which division by zero is defined (determinant.h:106-144). -/
def detStepT (n : Nat) (i : Nat) (s : DetState K) : DetState K :=
  match s with
  | .run A det =>
    let argmax := pivotRow n i A
    let pivot := A argmax i
    let det1 := if argmax ≠ i then det * (-1) else det
    let A1 := if argmax ≠ i then swapRows i n i argmax A else A
    let det2 := det1 * A1 i i
    if det2 = 0 then .ret 0
    else .run (forRange (i+1) n (fun u A =>
      let factor := A u i / pivot
      forRange (i+1) n (fun j A => Mat.set A u j (A u j - factor * A i j)) A) A1) det2
  | s => s

/-- `determinant_gaussian_elimination(A)` (determinant.h:90-147). -/
def detGauss (n : Nat) (A : Mat K) : Option K :=
  match forN n (detStep n) (.run A 1) with
  | .run _ d => some d
  | .ret d => some d
  | .divZero => none

/-- `determinant_gaussian_elimination(A)` (determinant.h:90-147) in an arithmetic with a total division. -/
def detGaussT (n : Nat) (A : Mat K) : K :=
  match forN n (detStepT n) (.run A 1) with
  | .run _ d => d
  | .ret d => d
  | .divZero => 0      -- not reached

/-- `determinant(A)` (determinant.h:173-185) without LAPACK. -/
def determinant (n : Nat) (A : Mat K) : Option K :=
  if n = 2 then some (A 0 0 * A 1 1 - A 1 0 * A 0 1) else detGauss n A

/-- `determinant(A)` (determinant.h:173-185) without LAPACK, in an arithmetic with a total division. -/
def determinantT (n : Nat) (A : Mat K) : K :=
  if n = 2 then A 0 0 * A 1 1 - A 1 0 * A 0 1 else detGaussT n A

end TooN.Elim
