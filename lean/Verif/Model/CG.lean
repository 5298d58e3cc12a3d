import Verif.Model.LineSearch
import Mathlib.Data.Matrix.Mul
/-!
# conjugate_gradient.h: `bracket_minimum_forward` and `ConjugateGradient`

Exact real arithmetic.  Function values are `Option ℝ`, where `none` is NaN: every comparison with NaN is false.  Points are
Mathlib vectors `Fin n → ℝ` (TooN's operators compute Mathlib's operations, C09).  Loops without a bound have a `fuel`
argument.  Assertions are modelled (`assertFail`).  If Brent's search meets a NaN the model stops with `nanInBrent`: the
behaviour from there on is not modelled.
-/
namespace TooN.CG
open scoped Classical
noncomputable section

/-- points -/
abbrev Pt (n : Nat) := Fin n → ℝ

/-- outcome of a call -/
inductive Res (α : Type)
  | ret (a : α)
  | running
  | assertFail
  | nanInBrent
  deriving DecidableEq

/-- sequencing -/
def Res.bind {α β : Type} : Res α → (α → Res β) → Res β
  | .ret a, k => k a
  | .running, _ => .running
  | .assertFail, _ => .assertFail
  | .nanInBrent, _ => .nanInBrent

/-- `u < v` on values that may be NaN -/
def ltO : Option ℝ → Option ℝ → Prop
  | some u, some v => u < v
  | _, _ => False

/-! ## bracket_minimum_forward -/

/-- the returned 3×2 matrix: abscissae and values -/
structure Bracket where
  a : ℝ
  av : Option ℝ
  b : ℝ
  bv : Option ℝ
  c : ℝ
  cv : Option ℝ

/-- `Zeros` -/
def Bracket.zeros : Bracket := { a := 0, av := some 0, b := 0, bv := some 0, c := 0, cv := some 0 }

/-- backing off from an invalid region (conjugate_gradient.h:81-97): returns `lambda` and the value there -/
def halveNan (φ : ℝ → Option ℝ) : Nat → ℝ → Res (ℝ × ℝ)
  | 0, _ => .running
  | fuel + 1, lambda =>
    match φ lambda with
    | some v => .ret (lambda, v)
    | none => halveNan φ fuel (lambda / 2)

/-- backing up after a step too far (conjugate_gradient.h:125-143) -/
def backLoop (φ : ℝ → Option ℝ) (lastGood bad : ℝ) : Nat → ℝ → Res (ℝ × ℝ)
  | 0, _ => .running
  | fuel + 1, l =>
    let l := l / 2
    let c := lastGood + (bad - lastGood) * l
    match φ c with
    | some v => .ret (c, v)
    | none => backLoop φ lastGood bad fuel l

/-- going downhill (conjugate_gradient.h:100-145).  Here `b = lambda` and `last_good_lambda = lambda` at the top of the loop.
`av` is the value at `a`. -/
def downLoop (φ : ℝ → Option ℝ) : Nat → ℝ → ℝ → ℝ → ℝ → Res Bracket
  | 0, _, _, _, _ => .running
  | fuel + 1, lambda, a, av, bv =>
    let c := lambda * 2
    match φ c with
    | none => (backLoop φ lambda c fuel 1).bind fun r =>
        .ret { a := a, av := some av, b := lambda, bv := some bv, c := r.1, cv := some r.2 }
    | some cv =>
      if cv > bv then .ret { a := a, av := some av, b := lambda, bv := some bv, c := c, cv := some cv }
      else downLoop φ fuel c lambda bv cv

/-- backing up from an overshoot (conjugate_gradient.h:146-168) -/
def upLoop (φ : ℝ → Option ℝ) (av : Option ℝ) (zeps : ℝ) : Nat → ℝ → ℝ → Option ℝ → Res Bracket
  | 0, _, _, _ => .running
  | fuel + 1, lambda, c, cv =>
    let lambda := lambda / 2
    let bv := φ lambda
    if ltO bv av then .ret { a := 0, av := av, b := lambda, bv := bv, c := c, cv := cv }
    else if lambda < zeps then .ret Bracket.zeros
    else upLoop φ av zeps fuel lambda lambda bv

/-- `bracket_minimum_forward(a_val, func, initial_lambda, zeps)` (conjugate_gradient.h:76-176) -/
def bracketForward (φ : ℝ → Option ℝ) (fuel : Nat) (av : Option ℝ) (lambda0 zeps : ℝ) : Res Bracket :=
  (halveNan φ fuel lambda0).bind fun r =>
    match av with
    | some a => if r.2 < a then downLoop φ fuel r.1 0 a r.2 else upLoop φ (some a) zeps fuel r.1 r.1 (some r.2)
    | none => upLoop φ none zeps fuel r.1 r.1 (some r.2)

/-! ## ConjugateGradient -/

/-- the data members (conjugate_gradient.h:227-249); all are public -/
structure St (n : Nat) where
  g : Pt n
  h : Pt n
  minusH : Pt n
  oldG : Pt n
  oldH : Pt n
  x : Pt n
  oldX : Pt n
  y : Option ℝ
  oldY : Option ℝ
  tolerance : ℝ
  epsilon : ℝ
  maxIterations : Int
  lambda0 : ℝ
  lsTolerance : ℝ
  lsEpsilon : ℝ
  lsMaxIterations : Int
  bracketEpsilon : ℝ
  iterations : Int

variable {n : Nat}

/-- `init(start, func, deriv)` (conjugate_gradient.h:277-306); `sqrt(numeric_limits<double>::epsilon())` is `2⁻²⁶`.  `old_g`,
`old_h`, `old_x` keep whatever the constructor left in them. -/
def init (garbage : St n) (start : Pt n) (y : Option ℝ) (deriv : Pt n) : St n :=
  { garbage with
    x := start, g := deriv, h := deriv, minusH := -deriv, y := y, oldY := y
    tolerance := 2⁻¹ ^ 26, epsilon := 10⁻¹ ^ 20, maxIterations := (n : Int) * 100
    lambda0 := 1, lsTolerance := 2⁻¹ ^ 26, lsEpsilon := 10⁻¹ ^ 20, lsMaxIterations := 100
    bracketEpsilon := 10⁻¹ ^ 20, iterations := 0 }

/-- the constructor (conjugate_gradient.h:255-260) -/
def construct (garbage : St n) (start : Pt n) (f : Pt n → Option ℝ) (deriv : Pt n → Pt n) : St n :=
  init garbage start (f start) (deriv start)

/-- `LineSearch::operator()` (conjugate_gradient.h:59-62) with start `x` and direction `minus_h` (line 324) -/
def line (f : Pt n → Option ℝ) (s : St n) (t : ℝ) : Option ℝ := f (s.x + t • s.minusH)

/-- `find_next_point(func)` (conjugate_gradient.h:322-371) -/
def findNext (f : Pt n → Option ℝ) (fuel : Nat) (s : St n) : Res (St n) :=
  let φ := line f s
  (bracketForward φ fuel s.y s.lambda0 s.bracketEpsilon).bind fun k =>
    let s := { s with oldY := s.y, oldX := s.x, iterations := s.iterations + 1 }
    if k.a = 0 ∧ k.b = 0 ∧ k.c = 0 then .ret s
    else if k.c < k.b then .ret { s with x := s.x - k.c • s.h, y := k.cv }
    else if ¬ (k.a < k.b ∧ k.b < k.c) then .assertFail
    else if ¬ (ltO k.bv k.av ∧ ltO k.bv k.cv) then .assertFail
    else
      let m := Line.brent (fun t => (φ t).getD 0) k.a k.b k.c (k.bv.getD 0) s.lsMaxIterations s.lsTolerance s.lsEpsilon
      if ∃ t ∈ m.2.2, φ t = none then .nanInBrent
      else if ¬ (m.1 ≥ k.a ∧ m.1 ≤ k.c) then .assertFail
      else if ¬ (m.2.1 ≤ k.bv.getD 0) then .assertFail
      else .ret { s with x := s.x - m.1 • s.h, y := some m.2.1 }

/-- `finished()` (conjugate_gradient.h:375-379) -/
def finished (s : St n) : Prop :=
  s.iterations > s.maxIterations ∨
    match s.y, s.oldY with
    | some y, some oldY => 2 * |y - oldY| ≤ s.tolerance * (|y| + |oldY| + s.epsilon)
    | _, _ => False

/-- `update_vectors_PR(grad)` (conjugate_gradient.h:389-400); `none` = division by zero -/
def updatePR (s : St n) (grad : Pt n) : Option (St n) :=
  if s.g ⬝ᵥ s.g = 0 then none
  else
    let gamma := (grad ⬝ᵥ grad - s.g ⬝ᵥ grad) / (s.g ⬝ᵥ s.g)
    some { s with oldG := s.g, oldH := s.h, g := grad, h := grad + gamma • s.h, minusH := -(grad + gamma • s.h) }

/-- `iterate(func, deriv)` (conjugate_gradient.h:419-430): the new state and the returned value; `none` = division by zero -/
def iterate (f : Pt n → Option ℝ) (deriv : Pt n → Pt n) (fuel : Nat) (s : St n) : Res (Option (St n) × Bool) :=
  (findNext f fuel s).bind fun s =>
    if finished s then .ret (some s, false) else .ret (updatePR s (deriv s.x), true)

end
end TooN.CG
