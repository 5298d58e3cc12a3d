import Verif.Model.Mach
/-!
# The optimisers over an arbitrary floating-point type

golden_section.h, brent.h, downhill_simplex.h and conjugate_gradient.h with every operation and comparison done in the type
`M.F` about whose arithmetic nothing is known.  The lists `log` and the counters record the calls of the functor.
-/
namespace TooN.Mach
open scoped Classical
noncomputable section

variable {M : Mach} {n : Nat}

/-! ## golden_section_search -/

/-- local variables of `golden_section_search` (golden_section.h:57) with the evaluated points, newest first -/
structure GS (M : Mach) where
  a : M.F
  x1 : M.F
  x2 : M.F
  c : M.F
  fx1 : M.F
  fx2 : M.F
  log : List M.F

/-- the set-up of the four point bracket (golden_section.h:60-77) -/
def gsInit (f : M.F → M.F) (a b c fb : M.F) : GS M :=
  if M.abs (b - a) > M.abs (c - b) then
    let x1 := b - M.gold * (b - a)
    { a := a, x1 := x1, x2 := b, c := c, fx1 := f x1, fx2 := fb, log := [x1] }
  else
    let x2 := b + M.gold * (c - b)
    { a := a, x1 := b, x2 := x2, c := c, fx1 := fb, fx2 := f x2, log := [x2] }

/-- the body of the loop (golden_section.h:85-110) -/
def gsStep (f : M.F → M.F) (s : GS M) : GS M :=
  if s.fx1 > s.fx2 then
    let x2 := s.x2 + M.gold * (s.c - s.x2)
    { a := s.x1, x1 := s.x2, x2 := x2, c := s.c, fx1 := s.fx2, fx2 := f x2, log := x2 :: s.log }
  else
    let x1 := s.x1 - M.gold * (s.x1 - s.a)
    { a := s.a, x1 := x1, x2 := s.x1, c := s.x2, fx1 := f x1, fx2 := s.fx1, log := x1 :: s.log }

/-- the loop condition (golden_section.h:82-83); `itnum` is set to 1 at line 82 and never changed -/
def gsCond (maxiterations : Int) (tol : M.F) (s : GS M) : Prop :=
  M.abs (s.c - s.a) > tol * (M.abs s.x2 + M.abs s.x1) ∧ (1 : Int) < maxiterations

/-- the loop, run for at most `fuel` tests of the condition; `none` = still running -/
def gsLoop (f : M.F → M.F) (maxiterations : Int) (tol : M.F) : Nat → GS M → Option (GS M)
  | 0, _ => none
  | fuel + 1, s => if gsCond maxiterations tol s then gsLoop f maxiterations tol fuel (gsStep f s) else some s

/-- the returned pair and the trace (golden_section.h:112-115) -/
def gsOut (s : GS M) : M.F × M.F × List M.F := if s.fx1 < s.fx2 then (s.x1, s.fx1, s.log) else (s.x2, s.fx2, s.log)

/-- `golden_section_search(a, b, c, fb, func, maxiterations, tol)` (golden_section.h:51-116): returned point, returned value
and evaluated points; `none` = has not returned after `fuel` tests of the loop condition -/
def goldenSection (f : M.F → M.F) (fuel : Nat) (a b c fb : M.F) (maxiterations : Int) (tol : M.F) :
    Option (M.F × M.F × List M.F) :=
  (gsLoop f maxiterations tol fuel (gsInit f a b c fb)).map gsOut

/-! ## brent_line_search -/

/-- local variables of `brent_line_search` (brent.h:55-84) -/
structure BR (M : Mach) where
  a : M.F
  x : M.F
  b : M.F
  fx : M.F
  w : M.F
  v : M.F
  fw : M.F
  fv : M.F
  d : M.F
  e : M.F
  log : List M.F

/-- the start values (brent.h:81-84) -/
def brInit (a x b fx : M.F) : BR M :=
  { a := a, x := x, b := b, fx := fx, w := x, v := x, fw := fx, fv := fx, d := M.lit 0, e := M.lit 0, log := [] }

/-- golden section step: the new `(d, e)` (brent.h:131-136 and 149-154) -/
def brGolden (s : BR M) : M.F × M.F :=
  let xm := (s.a + s.b) / M.lit 2
  let e := if s.x > xm then s.a - s.x else s.b - s.x
  (M.gold * e, e)

/-- the step chosen in one iteration: the new `(d, e)` (brent.h:89-155) -/
def brMove (tolerance epsilon : M.F) (s : BR M) : M.F × M.F :=
  let tol1 := M.abs s.x * tolerance + epsilon
  if M.abs s.e > tol1 ∧ ¬ eqv s.w s.v then
    let fxw := s.fw - s.fx
    let fxv := s.fv - s.fx
    let xw := s.w - s.x
    let xv := s.v - s.x
    let p := fxv * xw * xw - fxw * xv * xv
    let q := M.lit 2 * (fxv * xw - fxw * xv)
    if eqv q (M.lit 0) ∨ s.x + p / q < s.a ∨ s.x + p / q > s.b ∨ M.abs (p / q) > M.abs (s.e / M.lit 2) then brGolden s
    else (p / q, s.d)
  else brGolden s

/-- one iteration of the loop (brent.h:88-197) -/
def brStep (f : M.F → M.F) (tolerance epsilon : M.F) (s : BR M) : BR M :=
  let m := brMove tolerance epsilon s
  let u := s.x + m.1
  let fu := f u
  let s := { s with d := m.1, e := m.2, log := u :: s.log }
  if fu < s.fx then
    let s := if u > s.x then { s with a := s.x } else { s with b := s.x }
    { s with v := s.w, fv := s.fw, w := s.x, fw := s.fx, x := u, fx := fu }
  else
    let s := if u < s.x then { s with a := u } else { s with b := u }
    if fu ≤ s.fw ∨ eqv s.w s.x then { s with v := s.w, fv := s.fw, w := u, fw := fu }
    else if fu ≤ s.fv ∨ eqv s.v s.x ∨ eqv s.v s.w then { s with v := u, fv := fu }
    else s

/-- the tolerance part of the loop condition (brent.h:86) -/
def brCond (tolerance epsilon : M.F) (s : BR M) : Prop :=
  M.abs (s.b - s.a) > (M.abs s.a + M.abs s.b) * tolerance + epsilon

/-- the loop with `i` counting up to `maxiterations` (brent.h:84-198): the argument is `maxiterations - i` -/
def brLoop (f : M.F → M.F) (tolerance epsilon : M.F) : Nat → BR M → BR M
  | 0, s => s
  | n + 1, s => if brCond tolerance epsilon s then brLoop f tolerance epsilon n (brStep f tolerance epsilon s) else s

/-- `brent_line_search(a, x, b, fx, func, maxiterations, tolerance, epsilon)` (brent.h:55-201): returned point, returned
value and evaluated points.  For `maxiterations ≤ 0` the loop is not entered. -/
def brent (f : M.F → M.F) (a x b fx : M.F) (maxiterations : Int) (tolerance epsilon : M.F) : M.F × M.F × List M.F :=
  let s := brLoop f tolerance epsilon maxiterations.toNat (brInit a x b fx)
  (s.x, s.fx, s.log)

/-! ## DownhillSimplex -/

/-- the tunable members (downhill_simplex.h:305-310) -/
structure Params (M : Mach) where
  alpha : M.F
  rho : M.F
  gamma : M.F
  sigma : M.F
  epsilon : M.F
  zeroEps : M.F

/-- the data members `simplex` and `values` (downhill_simplex.h:314-318), and the number of calls of the functor so far -/
structure Sx (M : Mach) (n : Nat) where
  simplex : Nat → Pt M n
  values : Nat → M.F
  evals : Nat

/-- write a row and its value -/
def Sx.put (s : Sx M n) (i : Nat) (x : Pt M n) (v : M.F) : Sx M n :=
  { s with simplex := Function.update s.simplex i x, values := Function.update s.values i v }

/-- `get_best()`: `std::min_element` over the `n+1` values (downhill_simplex.h:188-191) -/
def getBest (n : Nat) (values : Nat → M.F) : Nat :=
  forRange 1 (n + 1) (fun i best => if values i < values best then i else best) 0

/-- `get_worst()`: `std::max_element` (downhill_simplex.h:194-197) -/
def getWorst (n : Nat) (values : Nat → M.F) : Nat :=
  forRange 1 (n + 1) (fun i worst => if values worst < values i then i else worst) 0

/-- `restart(func, c, spread)` (downhill_simplex.h:138-148) -/
def restart (f : Pt M n → M.F) (c : Pt M n) (spread : M.F) (s : Sx M n) : Sx M n :=
  let simplex := forN (n + 1) (fun i m => Function.update m i c) s.simplex
  let simplex : Nat → Pt M n := forN n (fun i (m : Nat → Pt M n) =>
    Function.update m i (fun j => if (j : Nat) = i then m i j + spread else m i j)) simplex
  let values := forN (n + 1) (fun i v => Function.update v i (f (simplex i))) s.values
  { simplex := simplex, values := values, evals := s.evals + (n + 1) }

/-- `restart(func, spread)` (downhill_simplex.h:170-173); the row is copied into a temporary `Vector<N>` first -/
def restartBest (f : Pt M n → M.F) (spread : M.F) (s : Sx M n) : Sx M n :=
  restart f (s.simplex (getBest n s.values)) spread s

/-- `finished()` (downhill_simplex.h:155-164) -/
def finished (p : Params M) (s : Sx M n) : Bool :=
  let span := nrm (vsub (s.simplex (getBest n s.values)) (s.simplex (getWorst n s.values)))
  let scale := nrm (s.simplex (getBest n s.values))
  if span / scale < p.epsilon ∨ span < p.zeroEps then true else false

/-- the variables of the scan in `find_next_point` (downhill_simplex.h:208-213) -/
structure Scan (M : Mach) (n : Nat) where
  secondWorst : M.F
  bestval : M.F
  best : Nat
  x0 : Pt M n

/-- one step of the scan (downhill_simplex.h:214-231) -/
def scanStep (s : Sx M n) (worst i : Nat) (sc : Scan M n) : Scan M n :=
  let sc := if s.values i < sc.bestval then { sc with bestval := s.values i, best := i } else sc
  if i ≠ worst then
    let sc := if s.values i > sc.secondWorst then { sc with secondWorst := s.values i } else sc
    { sc with x0 := vadd sc.x0 (s.simplex i) }
  else sc

/-- the scan loop (downhill_simplex.h:208-231) -/
def scan (s : Sx M n) (worst : Nat) : Scan M n :=
  forN (n + 1) (scanStep s worst) { secondWorst := -M.huge, bestval := M.huge, best := 0, x0 := fun _ => M.lit 0 }

/-- shrinking around the best point (downhill_simplex.h:288-293) -/
def shrink (f : Pt M n → M.F) (sigma : M.F) (best : Nat) (s : Sx M n) : Sx M n :=
  forN (n + 1) (fun i s =>
      if i ≠ best then
        let x := vadd (s.simplex best) (smulL sigma (vsub (s.simplex i) (s.simplex best)))
        { s.put i x (f x) with evals := s.evals + 1 }
      else s) s

/-- `find_next_point(func)` (downhill_simplex.h:201-294) -/
def findNext (f : Pt M n → M.F) (p : Params M) (s : Sx M n) : Sx M n :=
  let worst := getWorst n s.values
  let worstVal := s.values worst
  let sc := scan s worst
  let x0 := smulR sc.x0 (M.lit 1 / M.lit n)
  let xr := vsub (smulL (M.lit 1 + p.alpha) x0) (smulL p.alpha (s.simplex worst))
  let fr := f xr
  let s := { s with evals := s.evals + 1 }
  if fr < sc.bestval then
    let xe := vadd (smulL p.rho xr) (smulL (M.lit 1 - p.rho) x0)
    let fe := f xe
    let s := { s with evals := s.evals + 1 }
    if fe < fr then s.put worst xe fe else s.put worst xr fr
  else if fr < sc.secondWorst then s.put worst xr fr
  else if fr < worstVal then
    let xc := vsub (smulL (M.lit 1 + p.gamma) x0) (smulL p.gamma (s.simplex worst))
    let fc := f xc
    let s := { s with evals := s.evals + 1 }
    if fc ≤ fr then s.put worst xc fc else shrink f p.sigma sc.best s
  else shrink f p.sigma sc.best s

/-- `iterate(func)` (downhill_simplex.h:299-303) -/
def iterate (f : Pt M n → M.F) (p : Params M) (s : Sx M n) : Sx M n × Bool :=
  let s := findNext f p s
  (s, !finished p s)

/-- what a client can do with the object; the parameters are public members and may be changed before any iteration -/
inductive Op (M : Mach) (n : Nat)
  | restart (c : Pt M n) (spread : M.F)
  | restartBest (spread : M.F)
  | iterate (p : Params M)

/-- the effect of a client operation -/
def Op.run (f : Pt M n → M.F) : Op M n → Sx M n → Sx M n
  | .restart c sp, s => Mach.restart f c sp s
  | .restartBest sp, s => Mach.restartBest f sp s
  | .iterate p, s => (Mach.iterate f p s).1

/-- a client's history -/
def runOps (f : Pt M n → M.F) : List (Op M n) → Sx M n → Sx M n
  | [], s => s
  | o :: os, s => runOps f os (o.run f s)

/-! ## bracket_minimum_forward and ConjugateGradient -/

/-- outcome of a call: returned, not returned within the given number of loop tests, or a failed assertion -/
inductive Res (α : Type)
  | ret (a : α)
  | running
  | assertFail

/-- sequencing -/
def Res.bind {α β : Type} : Res α → (α → Res β) → Res β
  | .ret a, k => k a
  | .running, _ => .running
  | .assertFail, _ => .assertFail

/-- the returned 3×2 matrix: abscissae and values -/
structure Bracket (M : Mach) where
  a : M.F
  av : M.F
  b : M.F
  bv : M.F
  c : M.F
  cv : M.F

/-- `Zeros` -/
def Bracket.zeros (M : Mach) : Bracket M :=
  { a := M.lit 0, av := M.lit 0, b := M.lit 0, bv := M.lit 0, c := M.lit 0, cv := M.lit 0 }

/-- backing off from an invalid region (conjugate_gradient.h:83-97): returns `lambda` and the value there -/
def halveNan (φ : M.F → M.F) : Nat → M.F → Res (M.F × M.F)
  | 0, _ => .running
  | fuel + 1, lambda => if NaN (φ lambda) then halveNan φ fuel (lambda * M.lit (1 / 2)) else .ret (lambda, φ lambda)

/-- backing up after a step too far (conjugate_gradient.h:125-143) -/
def backLoop (φ : M.F → M.F) (lastGood bad : M.F) : Nat → M.F → Res (M.F × M.F)
  | 0, _ => .running
  | fuel + 1, l =>
    let l := l * M.lit (1 / 2)
    let c := lastGood + (bad - lastGood) * l
    if NaN (φ c) then backLoop φ lastGood bad fuel l else .ret (c, φ c)

/-- going downhill (conjugate_gradient.h:100-145).  Here `b = lambda` and `last_good_lambda = lambda` at the top of the
loop.  `av`, `bv` are the values at `a`, `b`. -/
def downLoop (φ : M.F → M.F) : Nat → M.F → M.F → M.F → M.F → Res (Bracket M)
  | 0, _, _, _, _ => .running
  | fuel + 1, lambda, a, av, bv =>
    let c := lambda * M.lit 2
    if NaN (φ c) then (backLoop φ lambda c fuel (M.lit 1)).bind fun r =>
        .ret { a := a, av := av, b := lambda, bv := bv, c := r.1, cv := r.2 }
    else if φ c > bv then .ret { a := a, av := av, b := lambda, bv := bv, c := c, cv := φ c }
    else downLoop φ fuel c lambda bv (φ c)

/-- backing up from an overshoot (conjugate_gradient.h:146-168) -/
def upLoop (φ : M.F → M.F) (av zeps : M.F) : Nat → M.F → M.F → M.F → Res (Bracket M)
  | 0, _, _, _ => .running
  | fuel + 1, lambda, c, cv =>
    let lambda := lambda * M.lit (1 / 2)
    let bv := φ lambda
    if bv < av then .ret { a := M.lit 0, av := av, b := lambda, bv := bv, c := c, cv := cv }
    else if lambda < zeps then .ret (Bracket.zeros M)
    else upLoop φ av zeps fuel lambda lambda bv

/-- `bracket_minimum_forward(a_val, func, initial_lambda, zeps)` (conjugate_gradient.h:76-176) -/
def bracketForward (φ : M.F → M.F) (fuel : Nat) (av lambda0 zeps : M.F) : Res (Bracket M) :=
  (halveNan φ fuel lambda0).bind fun r =>
    if r.2 < av then downLoop φ fuel r.1 (M.lit 0) av r.2 else upLoop φ av zeps fuel r.1 r.1 r.2

/-- the data members (conjugate_gradient.h:227-249); all are public -/
structure CG (M : Mach) (n : Nat) where
  g : Pt M n
  h : Pt M n
  minusH : Pt M n
  oldG : Pt M n
  oldH : Pt M n
  x : Pt M n
  oldX : Pt M n
  y : M.F
  oldY : M.F
  tolerance : M.F
  epsilon : M.F
  maxIterations : Int
  lambda0 : M.F
  lsTolerance : M.F
  lsEpsilon : M.F
  lsMaxIterations : Int
  bracketEpsilon : M.F
  iterations : Int

/-- `init(start, func, deriv)` (conjugate_gradient.h:277-306).  `old_g`, `old_h`, `old_x` keep whatever the constructor left
in them; `sqrt(numeric_limits<double>::epsilon())` is `2⁻²⁶`. -/
def cgInit (garbage : CG M n) (start : Pt M n) (y : M.F) (deriv : Pt M n) : CG M n :=
  { garbage with
    x := start, g := deriv, h := deriv, minusH := vneg deriv, y := y, oldY := y
    tolerance := M.lit (1 / 2 ^ 26), epsilon := M.lit (1 / 10 ^ 20), maxIterations := (n : Int) * 100
    lambda0 := M.lit 1, lsTolerance := M.lit (1 / 2 ^ 26), lsEpsilon := M.lit (1 / 10 ^ 20), lsMaxIterations := 100
    bracketEpsilon := M.lit (1 / 10 ^ 20), iterations := 0 }

/-- the constructor (conjugate_gradient.h:255-260) -/
def cgConstruct (garbage : CG M n) (start : Pt M n) (f : Pt M n → M.F) (deriv : Pt M n → Pt M n) : CG M n :=
  cgInit garbage start (f start) (deriv start)

/-- `LineSearch::operator()` (conjugate_gradient.h:59-62) with start `x` and direction `minus_h` (line 324) -/
def line (f : Pt M n → M.F) (s : CG M n) (t : M.F) : M.F := f (vadd s.x (smulL t s.minusH))

/-- `find_next_point(func)` (conjugate_gradient.h:322-371) -/
def cgNext (f : Pt M n → M.F) (fuel : Nat) (s : CG M n) : Res (CG M n) :=
  let φ := line f s
  (bracketForward φ fuel s.y s.lambda0 s.bracketEpsilon).bind fun k =>
    let s := { s with oldY := s.y, oldX := s.x, iterations := s.iterations + 1 }
    if eqv k.a (M.lit 0) ∧ eqv k.b (M.lit 0) ∧ eqv k.c (M.lit 0) then .ret s
    else if k.c < k.b then .ret { s with x := vsub s.x (smulR s.h k.c), y := k.cv }
    else if ¬ (k.a < k.b ∧ k.b < k.c) then .assertFail
    else if ¬ (k.av > k.bv ∧ k.bv < k.cv) then .assertFail
    else
      let m := brent φ k.a k.b k.c k.bv s.lsMaxIterations s.lsTolerance s.lsEpsilon
      if ¬ (m.1 ≥ k.a ∧ m.1 ≤ k.c) then .assertFail
      else if ¬ (m.2.1 ≤ k.bv) then .assertFail
      else .ret { s with x := vsub s.x (smulL m.1 s.h), y := m.2.1 }

/-- `finished()` (conjugate_gradient.h:375-379) -/
def cgFinished (s : CG M n) : Prop :=
  s.iterations > s.maxIterations ∨
    M.lit 2 * M.abs (s.y - s.oldY) ≤ s.tolerance * (M.abs s.y + M.abs s.oldY + s.epsilon)

/-- `update_vectors_PR(grad)` (conjugate_gradient.h:389-400) -/
def updatePR (s : CG M n) (grad : Pt M n) : CG M n :=
  let gamma := (dot grad grad - dot s.g grad) / dot s.g s.g
  let h := vadd grad (smulL gamma s.h)
  { s with oldG := s.g, oldH := s.h, g := grad, h := h, minusH := vneg h }

/-- `iterate(func, deriv)` (conjugate_gradient.h:419-430): the new state and the returned value -/
def cgIterate (f : Pt M n → M.F) (deriv : Pt M n → Pt M n) (fuel : Nat) (s : CG M n) : Res (CG M n × Bool) :=
  (cgNext f fuel s).bind fun s =>
    if cgFinished s then .ret (s, false) else .ret (updatePR s (deriv s.x), true)

end
end TooN.Mach
