import Verif.Model.Loop
import Verif.Model.Ops
import Mathlib.Algebra.Order.Field.Basic
import Mathlib.Analysis.SpecialFunctions.Sqrt
/-!
# helpers.h: norms, projection, small utilities, extremum queries

`sqrt` versions are over `ℝ`; everything else over the weakest algebraic structure.  A division by zero is
`none`.  `n`, `R`, `C` are the run-time sizes.
-/
namespace TooN.Helpers
open TooN.Ops
variable {K : Type _}

/-- `norm_sq(v) = v*v` (helpers.h:106-109) -/
def normSq [Add K] [Mul K] [Zero K] (n : Nat) (v : Vec K) : K := dot n v v

/-- `norm_1(v)` (helpers.h:114-121) -/
def norm1 [Lattice K] [AddCommGroup K] (n : Nat) (v : Vec K) : K := forN n (fun i s => s + |v i|) 0

/-- `norm_inf(v)` (helpers.h:126-136); reads `v[0]`, so the size must be positive -/
def normInf [LinearOrder K] [AddCommGroup K] (n : Nat) (v : Vec K) : K :=
  forRange 1 n (fun i s => max s |v i|) |v 0|

noncomputable section
open Classical in
/-- `norm(v) = sqrt(v*v)` (helpers.h:97-101), `norm_2` (142-145) -/
def norm (n : Nat) (v : Vec ℝ) : ℝ := Real.sqrt (dot n v v)

open Classical in
/-- `unit(v) = v * (1/sqrt(v*v))` (helpers.h:153-157) -/
def unit (n : Nat) (v u : Vec ℝ) : Option (Vec ℝ) :=
  if Real.sqrt (dot n v v) = 0 then none else some (applyScalarV (· * ·) n v (1 / Real.sqrt (dot n v v)) u)

open Classical in
/-- `normalize(v)`: `v /= sqrt(v*v)` (helpers.h:162-175; `/=` vector.hh:302-307) -/
def normalize (n : Nat) (v : Vec ℝ) : Option (Vec ℝ) :=
  let s := Real.sqrt (dot n v v)
  if s = 0 then none else some (forN n (fun i v => Vec.set v i (v i / s)) v)

/-- `norm_fro(m)` (helpers.h:240-249) -/
def normFro (R C : Nat) (m : Mat ℝ) : ℝ :=
  Real.sqrt (forN R (fun r n => forN C (fun c n => n + m r c * m r c) n) 0)
end

/-- `norm_inf(m)` (helpers.h:254-266) -/
def normInfM [LinearOrder K] [AddCommGroup K] (R C : Nat) (m : Mat K) : K :=
  forN R (fun r n => max n (forN C (fun c s => s + |m r c|) 0)) 0

/-- `norm_1(m)` (helpers.h:271-283) -/
def norm1M [LinearOrder K] [AddCommGroup K] (R C : Nat) (m : Mat K) : K :=
  forN C (fun c n => max n (forN R (fun r s => s + |m r c|) 0)) 0

/-- `project(v)`, `v` of size `n+1` (helpers.h:182-185) -/
def project [Zero K] [Div K] [DecidableEq K] (n : Nat) (v u : Vec K) : Option (Vec K) :=
  if v n = 0 then none else some (applyScalarV (· / ·) n v (v n) u)

/-- `unproject(v)`, `v` of size `n` (helpers.h:193-199) -/
def unproject [One K] (n : Nat) (v u : Vec K) : Vec K :=
  Vec.set (forN n (fun i res => Vec.set res i (v i)) u) n 1

/-- `project(m)`, `m` of size `(n+1) × C` (helpers.h:204-218) -/
def projectM [Zero K] [Div K] [DecidableEq K] (n C : Nat) (m u : Mat K) : Option (Mat K) :=
  let result := evalM n C m u
  forNM C (fun c result =>
    if m n c = 0 then none
    else some (forN n (fun r result => Mat.set result r c (result r c / m n c)) result)) result

/-- `unproject(m)`, `m` of size `n × C` (helpers.h:223-235) -/
def unprojectM [One K] (n C : Nat) (m u : Mat K) : Mat K :=
  forN C (fun c res => Mat.set res n c 1) (evalM n C m u)

/-- `inv(m)` for a 2×2 matrix (helpers.h:65-73); `Data` fills row by row -/
def inv2 [Zero K] [One K] [Sub K] [Mul K] [Div K] [Neg K] [DecidableEq K] (m u : Mat K) : Option (Mat K) :=
  let det := m 0 0 * m 1 1 - m 1 0 * m 0 1
  if det = 0 then none else
  let d := 1 / det
  let r := Mat.set u 0 0 (m 1 1 * d)
  let r := Mat.set r 0 1 (-(m 0 1) * d)
  let r := Mat.set r 1 0 (-(m 1 0) * d)
  some (Mat.set r 1 1 (m 0 0 * d))

/-- `Fill(v, p)`, `Fill(m, p)` (helpers.h:79-92) -/
def fillV (n : Nat) (p : K) (v : Vec K) : Vec K := forN n (fun i v => Vec.set v i p) v
def fillM (R C : Nat) (p : K) (m : Mat K) : Mat K := evalM R C (fun _ _ => p) m

/-- `isfinite(v)` (helpers.h:385-392); `fin` is `std::isfinite` -/
def isFinite (fin : K → Bool) (n : Nat) (v : Vec K) : Bool :=
  (forNM n (fun i (_ : Unit) => if !fin (v i) then none else some ()) ()).isSome
/-- `isnan(v)` (helpers.h:396-403) and `isnan(m)` (405-411); `nan` is `std::isnan` -/
def isNan (nan : K → Bool) (n : Nat) (v : Vec K) : Bool :=
  (forNM n (fun i (_ : Unit) => if nan (v i) then none else some ()) ()).isNone
def isNanM (nan : K → Bool) (R C : Nat) (m : Mat K) : Bool :=
  (forNM R (fun r (_ : Unit) => if isNan nan C (m r) then none else some ()) ()).isNone

/-- `Symmetrize(m)` (helpers.h:417-427) for an `n × n` matrix -/
def symmetrize [Add K] [Div K] [OfNat K 2] (n : Nat) (m : Mat K) : Mat K :=
  forN (n - 1) (fun r m => forRange (r+1) n (fun c m =>
    let temp := (m r c + m c r) / 2
    Mat.set (Mat.set m r c temp) c r temp) m) m

/-- `trace(m)` (helpers.h:431-438) -/
def trace [Add K] [Zero K] (n : Nat) (m : Mat K) : K := forN n (fun i tr => tr + m i i) 0

/-- `cross_product_matrix(vec)` (helpers.h:444-461) -/
def crossProductMatrix [Zero K] [Neg K] (vec : Vec K) (u : Mat K) : Mat K :=
  let m := Mat.set u 0 0 0
  let m := Mat.set m 0 1 (-(vec 2))
  let m := Mat.set m 0 2 (vec 1)
  let m := Mat.set m 1 0 (vec 2)
  let m := Mat.set m 1 1 0
  let m := Mat.set m 1 2 (-(vec 0))
  let m := Mat.set m 2 0 (-(vec 1))
  let m := Mat.set m 2 1 (vec 0)
  Mat.set m 2 2 0

/-! ## extremum queries; `cmp` is `std::less` (min) or `std::greater` (max) -/

/-- `Internal::accumulate` on a vector with `accumulate_element_functor_vector` (helpers.h:464-474, 534-554):
`min_element(v)`, `max_element(v)` (805-817) -/
def accElemV [Zero K] (cmp : K → K → Bool) (n : Nat) (v : Vec K) : K × Nat :=
  if n = 0 then (0, 0)
  else forRange 1 n (fun ii s => if cmp (v ii) s.1 then (v ii, ii) else s) (v 0, 0)

/-- the same with `accumulate_functor_vector` (helpers.h:517-532): `min_value(v)`, `max_value(v)` (740-752) -/
def accV [Zero K] (cmp : K → K → Bool) (n : Nat) (v : Vec K) : K :=
  if n = 0 then 0
  else forRange 1 n (fun ii best => if cmp (v ii) best then v ii else best) (v 0)

/-- `Internal::accumulate` on a matrix with `accumulate_element_functor_matrix` (helpers.h:476-488, 573-597):
`min_element(m)`, `max_element(m)` (822-837) -/
def accElemM [Zero K] (cmp : K → K → Bool) (R C : Nat) (m : Mat K) : K × (Nat × Nat) :=
  if R = 0 ∨ C = 0 then (0, (0, 0))
  else forN R (fun r s => forN C (fun c s => if cmp (m r c) s.1 then (m r c, (r, c)) else s) s) (m 0 0, (0, 0))

/-- with `accumulate_functor_matrix` (helpers.h:556-571): `min_value(m)`, `max_value(m)` (757-769) -/
def accM [Zero K] (cmp : K → K → Bool) (R C : Nat) (m : Mat K) : K :=
  if R = 0 ∨ C = 0 then 0
  else forN R (fun r best => forN C (fun c best => if cmp (m r c) best then m r c else best) best) (m 0 0)

/-- `accumulate_horizontal` with `accumulate_element_horizontal_functor` (helpers.h:489-501, 697-733):
`min/max_element_horizontal`.  The result of `func.null()` is discarded, so a matrix without columns is read out of
bounds.  `ofIdx` is the conversion of an index to the element type. -/
def accElemH (cmp : K → K → Bool) (ofIdx : Nat → K) (R C : Nat) (m : Mat K) (u w : Vec K) :
    Outcome (Vec K × Vec K) :=
  if 0 < R ∧ C = 0 then .ub
  else .ok (forN R (fun r s =>
    forRange 1 C (fun c s => if cmp (m r c) (s.1 r) then (Vec.set s.1 r (m r c), Vec.set s.2 r (ofIdx c)) else s)
      (Vec.set s.1 r (m r 0), Vec.set s.2 r (ofIdx 0))) (u, w))

/-- `accumulate_vertical` with `accumulate_element_vertical_functor` (helpers.h:502-514, 629-665):
`min/max_element_vertical` -/
def accElemVert (cmp : K → K → Bool) (ofIdx : Nat → K) (R C : Nat) (m : Mat K) (u w : Vec K) :
    Outcome (Vec K × Vec K) :=
  if 0 < C ∧ R = 0 then .ub
  else .ok (forN C (fun c s =>
    forRange 1 R (fun r s => if cmp (m r c) (s.1 c) then (Vec.set s.1 c (m r c), Vec.set s.2 c (ofIdx r)) else s)
      (Vec.set s.1 c (m 0 c), Vec.set s.2 c (ofIdx 0))) (u, w))

/-- `accumulate_horizontal` with `accumulate_horizontal_functor` (helpers.h:667-695): `min/max_value_horizontal` (789-801) -/
def accH (cmp : K → K → Bool) (R C : Nat) (m : Mat K) (u : Vec K) : Outcome (Vec K) :=
  if 0 < R ∧ C = 0 then .ub
  else .ok (forN R (fun r s =>
    forRange 1 C (fun c s => if cmp (m r c) (s r) then Vec.set s r (m r c) else s) (Vec.set s r (m r 0))) u)

/-- `accumulate_vertical` with `accumulate_vertical_functor` (helpers.h:599-627): `min/max_value_vertical` (773-785) -/
def accVert (cmp : K → K → Bool) (R C : Nat) (m : Mat K) (u : Vec K) : Outcome (Vec K) :=
  if 0 < C ∧ R = 0 then .ub
  else .ok (forN C (fun c s =>
    forRange 1 R (fun r s => if cmp (m r c) (s c) then Vec.set s c (m r c) else s) (Vec.set s c (m 0 c))) u)

/-- `std::less`, `std::greater` -/
def less [LT K] [DecidableLT K] (a b : K) : Bool := decide (a < b)
def greater [LT K] [DecidableLT K] (a b : K) : Bool := decide (b < a)

end TooN.Helpers
