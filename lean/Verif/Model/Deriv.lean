import Verif.Model.Loop
import Mathlib.Data.Real.Basic
/-!
# functions/derivatives.h: Ridders' extrapolation, numerical gradient and Hessian

Exact real arithmetic.  Values are `Option ℝ`, where `none` is any value that is not finite (NaN or an infinity; the code
tells these apart only in ways which do not matter in exact arithmetic: once a finite extrapolation has been seen, an
infinite last entry of a row stops the loop through the comparison with `t*best_err` and a NaN through `isnan`).
The functor handed to `extrapolate_to_zero` carries state (its local copy `x` of the point), so a call returns the new state.
-/
namespace TooN.Deriv
open scoped Classical
noncomputable section

/-- `const Precision c = 1.1` (derivatives.h:50) -/
def c : ℝ := 1.1
/-- `t = 2` (derivatives.h:50) -/
def t : ℝ := 2
/-- `Npts` (derivatives.h:52) -/
def npts : Nat := 400

/-- `isfinite` -/
def fin (v : Option ℝ) : Prop := v ≠ none

/-- `(cj * P_i[j-1] - P_i_1[j-1]) / (cj - 1)` (derivatives.h:129) -/
def entry (cj : ℝ) (a b : Option ℝ) : Option ℝ :=
  match a, b with
  | some a, some b => some ((cj * a - b) / (cj - 1))
  | _, _ => none

/-- `abs(u - v)` -/
def absDiff (u v : Option ℝ) : Option ℝ :=
  match u, v with
  | some u, some v => some |u - v|
  | _, _ => none

/-- `max(err1, err2)`; if either is not finite the result counts as not finite -/
def maxO (u v : Option ℝ) : Option ℝ :=
  match u, v with
  | some u, some v => some (max u v)
  | _, _ => none

/-- `err < best_err && isfinite(err)`, where `best_err = HUGE_VAL` is `none` -/
def better (err best : Option ℝ) : Prop :=
  match err, best with
  | some e, some b => e < b
  | some _, none => True
  | none, _ => False

/-- the variables of one row (derivatives.h:95-151) -/
structure Row where
  P : Nat → Option ℝ
  cj : ℝ
  bestErr : Option ℝ
  bestPoint : Option ℝ
  everOk : Bool
  better : Bool

/-- the body of the `j` loop (derivatives.h:119-151); `any_ok` is never set -/
def rowStep (P1 : Nat → Option ℝ) (j : Nat) (r : Row) : Row :=
  let cj := r.cj * c
  let p := entry cj (r.P (j - 1)) (P1 (j - 1))
  let P := Function.update r.P j p
  let everOk := if fin p then true else r.everOk
  let err1 := absDiff (P j) (P (j - 1))
  let err2 := absDiff (P j) (P1 (j - 1))
  let err := maxO err1 err2
  if better err r.bestErr then
    { P := P, cj := cj, bestErr := err, bestPoint := P j, everOk := everOk, better := true }
  else { r with P := P, cj := cj, everOk := everOk }

/-- variables that survive from row to row (derivatives.h:95-105); `calls` counts the calls of the functor -/
structure Ext where
  P : Nat → Option ℝ
  P1 : Nat → Option ℝ
  bestErr : Option ℝ
  bestPoint : Option ℝ
  everOk : Bool
  x : ℝ
  calls : Nat

/-- before the loop (derivatives.h:95-105); the elements of the two `std::vector`s beyond their size are irrelevant -/
def extInit : Ext :=
  { P := fun _ => some 0, P1 := fun _ => some 0, bestErr := none, bestPoint := none, everOk := false, x := 1, calls := 0 }

/-- `abs(P_i[i] - P_i_1[i-1]) > t * best_err || isnan(P_i[i])` (derivatives.h:156) -/
def offRails (i : Nat) (e : Ext) : Prop :=
  match absDiff (e.P i) (e.P1 (i - 1)), e.bestErr with
  | some d, some b => d > t * b
  | some _, none => False
  | none, _ => True

/-- a row of the table (derivatives.h:107-151) for the value `y = f(x)`: the new variables and `better` -/
def rowPass (i : Nat) (y : Option ℝ) (e : Ext) : Ext × Bool :=
  let P1 := e.P
  let P := Function.update e.P1 0 y
  let r := forRange 1 (i + 1) (rowStep P1)
    { P := P, cj := 1, bestErr := e.bestErr, bestPoint := e.bestPoint, everOk := e.everOk, better := false }
  ({ P := r.P, P1 := P1, bestErr := r.bestErr, bestPoint := r.bestPoint, everOk := r.everOk, x := e.x / c,
     calls := e.calls + 1 }, r.better)

variable {S : Type}

/-- the loop over the rows (derivatives.h:106-158); the first argument is `Npts - i` -/
def extLoop (F : S → ℝ → Option ℝ × S) : Nat → Nat → S → Ext → Ext × S
  | 0, _, s, e => (e, s)
  | n + 1, i, s, e =>
    let r := F s e.x
    let p := rowPass i r.1 e
    if p.1.everOk = true ∧ p.2 = false ∧ i > 0 ∧ offRails i p.1 then (p.1, r.2)
    else extLoop F n (i + 1) r.2 p.1

/-- `extrapolate_to_zero(f)` (derivatives.h:44-161): `(best_point, best_err)` (`none` = `HUGE_VAL`), the state of the functor
afterwards and the number of calls -/
def extrapolate (F : S → ℝ → Option ℝ × S) (s : S) : (Option ℝ × Option ℝ) × S × Nat :=
  let r := extLoop F npts 0 s extInit
  ((r.1.bestPoint, r.1.bestErr), r.2, r.1.calls)

/-- `hh * max(abs(v[i]) * 1e-3, 1e-3)` (derivatives.h:184, 219, 255) -/
def step (v : Vec ℝ) (i : Nat) (hh : ℝ) : ℝ := hh * max (|v i| * 1e-3) 1e-3

/-- `CentralDifferenceGradient::operator()` (derivatives.h:178-193); the state is the member `x` -/
def gradCall (f : Vec ℝ → Option ℝ) (v : Vec ℝ) (i : Nat) (x : Vec ℝ) (hh : ℝ) : Option ℝ × Vec ℝ :=
  let h := step v i hh
  let x := Vec.set x i (v i - h)
  let f1 := f x
  let x := Vec.set x i (v i + h)
  let f2 := f x
  let x := Vec.set x i (v i)
  (match f1, f2 with
    | some f1, some f2 => some ((f2 - f1) / (2 * h))
    | _, _ => none, x)

/-- `CentralDifferenceSecond::operator()` (derivatives.h:213-229) -/
def secondCall (f : Vec ℝ → Option ℝ) (v : Vec ℝ) (central : Option ℝ) (i : Nat) (x : Vec ℝ) (hh : ℝ) : Option ℝ × Vec ℝ :=
  let h := step v i hh
  let x := Vec.set x i (v i - h)
  let f1 := f x
  let x := Vec.set x i (v i + h)
  let f2 := f x
  let x := Vec.set x i (v i)
  (match f1, f2, central with
    | some f1, some f2, some ce => some ((f2 - 2 * ce + f1) / (h * h))
    | _, _, _ => none, x)

/-- `CentralCrossDifferenceSecond::operator()` (derivatives.h:249-275); `x` is not restored -/
def crossCall (f : Vec ℝ → Option ℝ) (v : Vec ℝ) (i j : Nat) (x : Vec ℝ) (hh : ℝ) : Option ℝ × Vec ℝ :=
  let h := step v i hh
  let x := Vec.set (Vec.set x i (v i + h)) j (v j + h)
  let a := f x
  let x := Vec.set (Vec.set x i (v i - h)) j (v j + h)
  let b := f x
  let x := Vec.set (Vec.set x i (v i + h)) j (v j - h)
  let c := f x
  let x := Vec.set (Vec.set x i (v i - h)) j (v j - h)
  let d := f x
  (match a, b, c, d with
    | some a, some b, some c, some d => some ((a - b - c + d) / (4 * h * h))
    | _, _, _, _ => none, x)

/-- `numerical_gradient_with_errors(f, x)` (derivatives.h:376-392): columns 0 and 1 of the result (uninitialised `u`, `w`
before), with the final contents of the functor's copy of the point and the number of functor calls.  `numerical_gradient` (352-366) runs the same
loop and keeps only the first column. -/
def gradient (n : Nat) (f : Vec ℝ → Option ℝ) (v : Vec ℝ) (u w : Vec (Option ℝ)) :
    Vec (Option ℝ) × Vec (Option ℝ) × Vec ℝ × Nat :=
  forN n (fun i st =>
    let r := extrapolate (gradCall f v i) st.2.2.1
    (Vec.set st.1 i r.1.1, Vec.set st.2.1 i r.1.2, r.2.1, st.2.2.2 + r.2.2)) (u, w, v, 0)

/-- the body of the loop over pairs of axes of `numerical_hessian_with_errors` (derivatives.h:419-425): the two matrices and the
functor's copy of the point -/
def pairStep (f : Vec ℝ → Option ℝ) (v : Vec ℝ) (r cc : Nat) (st : Mat (Option ℝ) × Mat (Option ℝ) × Vec ℝ) :
    Mat (Option ℝ) × Mat (Option ℝ) × Vec ℝ :=
  let e := extrapolate (crossCall f v r cc) st.2.2
  (Mat.set (Mat.set st.1 cc r e.1.1) r cc e.1.1, Mat.set (Mat.set st.2.1 cc r e.1.2) r cc e.1.2, e.2.1)

/-- the loop over pairs of axes of `numerical_hessian_with_errors` (derivatives.h:417-425) -/
def crossLoop (n : Nat) (f : Vec ℝ → Option ℝ) (v : Vec ℝ) (H E : Mat (Option ℝ)) :
    Mat (Option ℝ) × Mat (Option ℝ) × Vec ℝ :=
  forN n (fun r st => forRange (r + 1) n (fun cc st => pairStep f v r cc st) st) (H, E, v)

/-- the loop over the diagonal (derivatives.h:427-433) -/
def diagLoop (n : Nat) (f : Vec ℝ → Option ℝ) (v : Vec ℝ) (H E : Mat (Option ℝ)) :
    Mat (Option ℝ) × Mat (Option ℝ) × Vec ℝ :=
  forN n (fun i st =>
      let e := extrapolate (secondCall f v (f v) i) st.2.2
      (Mat.set st.1 i i e.1.1, Mat.set st.2.1 i i e.1.2, e.2.1)) (H, E, v)

/-- `numerical_hessian_with_errors(f, x)` (derivatives.h:406-436) from uninitialised matrices `U`, `W`.  `numerical_hessian`
(444-470) runs the same loops and keeps only the first matrix. -/
def hessian (n : Nat) (f : Vec ℝ → Option ℝ) (v : Vec ℝ) (U W : Mat (Option ℝ)) : Mat (Option ℝ) × Mat (Option ℝ) :=
  let x := crossLoop n f v U W
  let d := diagLoop n f v x.1 x.2.1
  (d.1, d.2.1)

end
end TooN.Deriv
