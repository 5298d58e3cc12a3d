import Mathlib.Analysis.SpecialFunctions.Pow.Real
import Mathlib.Analysis.Real.Sqrt
/-!
# golden_section.h and brent.h: one-dimensional minimisers

Exact real arithmetic, the functor is an arbitrary `f : ℝ → ℝ` (so no NaN values).  The list `log` records, newest first,
every point at which the functor has been evaluated: it is the observable trace of the search.
-/
namespace TooN.Line
open scoped Classical
noncomputable section

/-- `const Precision g = (3.0 - sqrt(5))/2` (golden_section.h:55, brent.h:64) -/
def g : ℝ := (3 - Real.sqrt 5) / 2

/-! ## golden_section_search -/

/-- local variables of `golden_section_search` (golden_section.h:51-57) with the trace of evaluated points -/
structure GS where
  a : ℝ
  x1 : ℝ
  x2 : ℝ
  c : ℝ
  fx1 : ℝ
  fx2 : ℝ
  log : List ℝ

/-- the set-up of the four point bracket (golden_section.h:60-77) -/
def gsInit (f : ℝ → ℝ) (a b c fb : ℝ) : GS :=
  if |b - a| > |c - b| then
    let x1 := b - g * (b - a)
    { a := a, x1 := x1, x2 := b, c := c, fx1 := f x1, fx2 := fb, log := [x1] }
  else
    let x2 := b + g * (c - b)
    { a := a, x1 := b, x2 := x2, c := c, fx1 := fb, fx2 := f x2, log := [x2] }

/-- the body of the loop (golden_section.h:85-110) -/
def gsStep (f : ℝ → ℝ) (s : GS) : GS :=
  if s.fx1 > s.fx2 then
    let a := s.x1
    let x1 := s.x2
    let x2 := x1 + g * (s.c - x1)
    { a := a, x1 := x1, x2 := x2, c := s.c, fx1 := s.fx2, fx2 := f x2, log := x2 :: s.log }
  else
    let c := s.x2
    let x2 := s.x1
    let x1 := x2 - g * (x2 - s.a)
    { a := s.a, x1 := x1, x2 := x2, c := c, fx1 := f x1, fx2 := s.fx1, log := x1 :: s.log }

/-- the loop condition (golden_section.h:82-83); `itnum` is set to 1 at line 82 and never changed -/
def gsCond (maxiterations : Int) (tol : ℝ) (s : GS) : Prop :=
  |s.c - s.a| > tol * (|s.x2| + |s.x1|) ∧ (1 : Int) < maxiterations

/-- the loop, run for at most `fuel` tests of the condition; `none` = still running -/
def gsLoop (f : ℝ → ℝ) (maxiterations : Int) (tol : ℝ) : Nat → GS → Option GS
  | 0, _ => none
  | fuel + 1, s => if gsCond maxiterations tol s then gsLoop f maxiterations tol fuel (gsStep f s) else some s

/-- the returned pair and the trace (golden_section.h:112-115) -/
def gsOut (s : GS) : ℝ × ℝ × List ℝ := if s.fx1 < s.fx2 then (s.x1, s.fx1, s.log) else (s.x2, s.fx2, s.log)

/-- `golden_section_search(a, b, c, fb, func, maxiterations, tol)` (golden_section.h:51-116): returned point, returned value
and evaluated points; `none` = has not returned after `fuel` tests of the loop condition -/
def goldenSection (f : ℝ → ℝ) (fuel : Nat) (a b c fb : ℝ) (maxiterations : Int) (tol : ℝ) : Option (ℝ × ℝ × List ℝ) :=
  (gsLoop f maxiterations tol fuel (gsInit f a b c fb)).map gsOut

/-- `golden_section_search(a, b, c, func, maxiterations, tol)` (golden_section.h:130-133) -/
def goldenSection' (f : ℝ → ℝ) (fuel : Nat) (a b c : ℝ) (maxiterations : Int) (tol : ℝ) : Option (ℝ × ℝ × List ℝ) :=
  (goldenSection f fuel a b c (f b) maxiterations tol).map fun r => (r.1, r.2.1, r.2.2 ++ [b])

/-! ## brent_line_search -/

/-- local variables of `brent_line_search` (brent.h:55-84) -/
structure BR where
  a : ℝ
  x : ℝ
  b : ℝ
  fx : ℝ
  w : ℝ
  v : ℝ
  fw : ℝ
  fv : ℝ
  d : ℝ
  e : ℝ
  log : List ℝ

/-- the start values (brent.h:81-84) -/
def brInit (a x b fx : ℝ) : BR :=
  { a := a, x := x, b := b, fx := fx, w := x, v := x, fw := fx, fv := fx, d := 0, e := 0, log := [] }

/-- golden section step: the new `(d, e)` (brent.h:131-136 and 149-154) -/
def brGolden (s : BR) : ℝ × ℝ :=
  let xm := (s.a + s.b) / 2
  let e := if s.x > xm then s.a - s.x else s.b - s.x
  (g * e, e)

/-- the step chosen in one iteration: the new `(d, e)` (brent.h:89-155).  The division `p/q` is only evaluated when
`q ≠ 0` (short-circuit `||`, line 127). -/
def brMove (tolerance epsilon : ℝ) (s : BR) : ℝ × ℝ :=
  let tol1 := |s.x| * tolerance + epsilon
  if |s.e| > tol1 ∧ s.w ≠ s.v then
    let fxw := s.fw - s.fx
    let fxv := s.fv - s.fx
    let xw := s.w - s.x
    let xv := s.v - s.x
    let p := fxv * xw * xw - fxw * xv * xv
    let q := 2 * (fxv * xw - fxw * xv)
    if q = 0 ∨ s.x + p / q < s.a ∨ s.x + p / q > s.b ∨ |p / q| > |s.e / 2| then brGolden s
    else (p / q, s.d)
  else brGolden s

/-- one iteration of the loop (brent.h:88-197) -/
def brStep (f : ℝ → ℝ) (tolerance epsilon : ℝ) (s : BR) : BR :=
  let m := brMove tolerance epsilon s
  let u := s.x + m.1
  let fu := f u
  let s := { s with d := m.1, e := m.2, log := u :: s.log }
  if fu < s.fx then
    let s := if u > s.x then { s with a := s.x } else { s with b := s.x }
    { s with v := s.w, fv := s.fw, w := s.x, fw := s.fx, x := u, fx := fu }
  else
    let s := if u < s.x then { s with a := u } else { s with b := u }
    if fu ≤ s.fw ∨ s.w = s.x then { s with v := s.w, fv := s.fw, w := u, fw := fu }
    else if fu ≤ s.fv ∨ s.v = s.x ∨ s.v = s.w then { s with v := u, fv := fu }
    else s

/-- the tolerance part of the loop condition (brent.h:86) -/
def brCond (tolerance epsilon : ℝ) (s : BR) : Prop := |s.b - s.a| > (|s.a| + |s.b|) * tolerance + epsilon

/-- the loop with `i` counting up to `maxiterations` (brent.h:84-198): the argument is `maxiterations - i` -/
def brLoop (f : ℝ → ℝ) (tolerance epsilon : ℝ) : Nat → BR → BR
  | 0, s => s
  | n + 1, s => if brCond tolerance epsilon s then brLoop f tolerance epsilon n (brStep f tolerance epsilon s) else s

/-- `brent_line_search(a, x, b, fx, func, maxiterations, tolerance, epsilon)` (brent.h:55-201): returned point, returned
value and evaluated points.  For `maxiterations ≤ 0` the loop is not entered. -/
def brent (f : ℝ → ℝ) (a x b fx : ℝ) (maxiterations : Int) (tolerance epsilon : ℝ) : ℝ × ℝ × List ℝ :=
  let s := brLoop f tolerance epsilon maxiterations.toNat (brInit a x b fx)
  (s.x, s.fx, s.log)

end
end TooN.Line
