import Verif.Model.Loop
import Mathlib.Analysis.Real.Sqrt
import Mathlib.Data.Fintype.BigOperators
/-!
# downhill_simplex.h: `DownhillSimplex`

Exact real arithmetic; the functor is an arbitrary `f` on points of `ℝ^n` with real values (no NaN or infinities).  Points
are Mathlib vectors `Fin n → ℝ` with Mathlib's operations, which TooN's operators compute by C09/C10.  The simplex has rows
`0 … n`.  `HUGE_VAL` (infinite for `double`) is `none` in the comparisons of `find_next_point`.
-/
namespace TooN.Simplex
open scoped Classical
noncomputable section

/-- points -/
abbrev Pt (n : Nat) := Fin n → ℝ

variable {n : Nat}

/-- the tunable members (downhill_simplex.h:305-310) -/
structure Params where
  alpha : ℝ
  rho : ℝ
  gamma : ℝ
  sigma : ℝ
  epsilon : ℝ
  zeroEps : ℝ

/-- the constructor's values (downhill_simplex.h:120-127); `sqrt(numeric_limits<double>::epsilon())` is `2⁻²⁶` -/
def Params.default : Params :=
  { alpha := 1, rho := 2, gamma := 1 / 2, sigma := 1 / 2, epsilon := 2⁻¹ ^ 26, zeroEps := 10⁻¹ ^ 20 }

/-- the data members `simplex` and `values` (downhill_simplex.h:314-318), and the number of evaluations of the functor so far -/
structure St (n : Nat) where
  simplex : Nat → Pt n
  values : Nat → ℝ
  evals : Nat

/-- write a row and its value -/
def St.put (s : St n) (i : Nat) (x : Pt n) (v : ℝ) : St n :=
  { s with simplex := Function.update s.simplex i x, values := Function.update s.values i v }

/-- `get_best()`: `std::min_element` over the `n+1` values (downhill_simplex.h:188-191): the first smallest -/
def getBest (n : Nat) (values : Nat → ℝ) : Nat :=
  forRange 1 (n + 1) (fun i best => if values i < values best then i else best) 0

/-- `get_worst()`: `std::max_element` (downhill_simplex.h:194-197): the first largest -/
def getWorst (n : Nat) (values : Nat → ℝ) : Nat :=
  forRange 1 (n + 1) (fun i worst => if values worst < values i then i else worst) 0

/-- `restart(func, c, spread)` (downhill_simplex.h:138-148) -/
def restart (f : Pt n → ℝ) (c : Pt n) (spread : ℝ) (s : St n) : St n :=
  let simplex := forN (n + 1) (fun i m => Function.update m i c) s.simplex
  let simplex : Nat → Pt n := forN n (fun i (m : Nat → Pt n) =>
    Function.update m i (fun j => if (j : Nat) = i then m i j + spread else m i j)) simplex
  let values := forN (n + 1) (fun i v => Function.update v i (f (simplex i))) s.values
  { simplex := simplex, values := values, evals := s.evals + (n + 1) }

/-- `restart(func, spread)` (downhill_simplex.h:170-173); the row is copied into a temporary `Vector<N>` first -/
def restartBest (f : Pt n → ℝ) (spread : ℝ) (s : St n) : St n :=
  restart f (s.simplex (getBest n s.values)) spread s

/-- Euclidean norm of a vector, helpers.h:97-101 -/
def nrm (v : Pt n) : ℝ := Real.sqrt (∑ i, v i * v i)

/-- `finished()` (downhill_simplex.h:155-164).  For `scale == 0` the quotient is infinite or NaN and compares false. -/
def finished (p : Params) (s : St n) : Bool :=
  let span := nrm (s.simplex (getBest n s.values) - s.simplex (getWorst n s.values))
  let scale := nrm (s.simplex (getBest n s.values))
  if (scale ≠ 0 ∧ span / scale < p.epsilon) ∨ span < p.zeroEps then true else false

/-- the variables of the scan in `find_next_point` (downhill_simplex.h:208-213); `none` = ±`HUGE_VAL` -/
structure Scan (n : Nat) where
  secondWorst : Option ℝ
  bestval : Option ℝ
  best : Nat
  x0 : Pt n

/-- `v < bestval`, where `none` is `+HUGE_VAL` -/
def ltTop (v : ℝ) : Option ℝ → Prop
  | none => True
  | some b => v < b
/-- `v > second_worst_val`, where `none` is `-HUGE_VAL` -/
def gtBot (v : ℝ) : Option ℝ → Prop
  | none => True
  | some b => v > b
/-- `v < second_worst_val`, where `none` is `-HUGE_VAL` -/
def ltBot (v : ℝ) : Option ℝ → Prop
  | none => False
  | some b => v < b

/-- the scan loop (downhill_simplex.h:208-231) -/
def scan (s : St n) (worst : Nat) : Scan n :=
  forN (n + 1) (fun i sc =>
      let sc := if ltTop (s.values i) sc.bestval then { sc with bestval := some (s.values i), best := i } else sc
      if i ≠ worst then
        let sc := if gtBot (s.values i) sc.secondWorst then { sc with secondWorst := some (s.values i) } else sc
        { sc with x0 := sc.x0 + s.simplex i }
      else sc)
    { secondWorst := none, bestval := none, best := 0, x0 := 0 }

/-- shrinking around the best point (downhill_simplex.h:288-293) -/
def shrink (f : Pt n → ℝ) (sigma : ℝ) (best : Nat) (s : St n) : St n :=
  forN (n + 1) (fun i s =>
      if i ≠ best then
        let x := s.simplex best + sigma • (s.simplex i - s.simplex best)
        { s.put i x (f x) with evals := s.evals + 1 }
      else s) s

/-- `find_next_point(func)` (downhill_simplex.h:201-294).  For `n = 0` the code divides by zero (`1.0 / num_cols`) and
scales an empty vector, which has no effect. -/
def findNext (f : Pt n → ℝ) (p : Params) (s : St n) : St n :=
  let worst := getWorst n s.values
  let worstVal := s.values worst
  let sc := scan s worst
  let x0 := (1 / (n : ℝ)) • sc.x0
  let xr := (1 + p.alpha) • x0 - p.alpha • s.simplex worst
  let fr := f xr
  let s := { s with evals := s.evals + 1 }
  if ltTop fr sc.bestval then
    let xe := p.rho • xr + (1 - p.rho) • x0
    let fe := f xe
    let s := { s with evals := s.evals + 1 }
    if fe < fr then s.put worst xe fe else s.put worst xr fr
  else if ltBot fr sc.secondWorst then s.put worst xr fr
  else if fr < worstVal then
    let xc := (1 + p.gamma) • x0 - p.gamma • s.simplex worst
    let fc := f xc
    let s := { s with evals := s.evals + 1 }
    if fc ≤ fr then s.put worst xc fc else shrink f p.sigma sc.best s
  else shrink f p.sigma sc.best s

/-- `iterate(func)` (downhill_simplex.h:299-303) -/
def iterate (f : Pt n → ℝ) (p : Params) (s : St n) : St n × Bool :=
  let s := findNext f p s
  (s, !finished p s)

/-- the constructor (downhill_simplex.h:117-130): the members are uninitialised before `restart` -/
def construct (f : Pt n → ℝ) (c : Pt n) (spread : ℝ) (garbage : St n) : St n :=
  restart f c spread { garbage with evals := 0 }

/-- what a client can do with the object; the parameters are public members and may be changed before any iteration -/
inductive Op (n : Nat)
  | restart (c : Pt n) (spread : ℝ)
  | restartBest (spread : ℝ)
  | iterate (p : Params)

/-- the effect of a client operation -/
def Op.run (f : Pt n → ℝ) : Op n → St n → St n
  | .restart c sp, s => Simplex.restart f c sp s
  | .restartBest sp, s => Simplex.restartBest f sp s
  | .iterate p, s => (Simplex.iterate f p s).1

/-- a client's history -/
def runOps (f : Pt n → ℝ) : List (Op n) → St n → St n
  | [], s => s
  | o :: os, s => runOps f os (o.run f s)

end
end TooN.Simplex
