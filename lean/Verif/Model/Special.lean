import Verif.Model.Helpers
import Verif.Model.Elim
/-!
# Functions of helpers.h written with `std::abs`, `std::max` and comparisons, for an arbitrary element type

The models of `Model/Helpers.lean` and `Model/MatFun.lean` use the order of the real numbers.  In IEEE arithmetic comparisons with
NaN are false, so `std::max(a, b)`, which is `a < b ? b : a`, is not a maximum.  The definitions below use nothing but the
operations and the `<` of the element type.  `abs` and `sqrt` are `std::abs` and `std::sqrt`.
-/
namespace TooN.Special
open TooN.Ops
variable {K : Type _} [Zero K] [One K] [Add K] [Sub K] [Mul K] [Div K] [Neg K] [LT K] [DecidableLT K]

/-- `std::max(a, b)` -/
def smax (a b : K) : K := if a < b then b else a

/-- `norm_1(v)` (helpers.h:114-121) -/
def norm1 (abs : K → K) (n : Nat) (v : Vec K) : K := forN n (fun i s => s + abs (v i)) 0

/-- `norm_inf(v)` (helpers.h:126-136) -/
def normInf (abs : K → K) (n : Nat) (v : Vec K) : K := forRange 1 n (fun i s => smax s (abs (v i))) (abs (v 0))

/-- `norm(v)` (helpers.h:97-101) -/
def norm (sqrt : K → K) (n : Nat) (v : Vec K) : K := sqrt (dot n v v)

/-- `unit(v)` (helpers.h:153-157) -/
def unit (sqrt : K → K) (n : Nat) (v u : Vec K) : Vec K := applyScalarV (· * ·) n v (1 / sqrt (dot n v v)) u

/-- `norm_fro(m)` (helpers.h:240-249) -/
def normFro (sqrt : K → K) (R C : Nat) (m : Mat K) : K :=
  sqrt (forN R (fun r n => forN C (fun c n => n + m r c * m r c) n) 0)

/-- `norm_inf(m)` (helpers.h:254-266) -/
def normInfM (abs : K → K) (R C : Nat) (m : Mat K) : K :=
  forN R (fun r n => smax n (forN C (fun c s => s + abs (m r c)) 0)) 0

/-- `norm_1(m)` (helpers.h:271-283) -/
def norm1M (abs : K → K) (R C : Nat) (m : Mat K) : K :=
  forN C (fun c n => smax n (forN R (fun r s => s + abs (m r c)) 0)) 0

/-- The loop of `Internal::exp_taylor(m)` (helpers.h:295-299), at most `fuel` iterations.  `u` stands for the uninitialised
memory of the temporaries, which are all overwritten. -/
def expTaylorLoop (abs : K → K) (n : Nat) (m u : Mat K) : Nat → Mat K → Mat K → K → Option (Mat K)
  | 0, _, _, _ => none
  | fuel+1, result, f, k =>
    if 0 < normInfM abs n n (subM n n (addM n n result f u) result u) then
      expTaylorLoop abs n m u fuel (addM n n result f result) (applyScalarM (· / ·) n n (mulMM n n n m f u) k u) (k + 1)
    else some result

/-- `Internal::exp_taylor(m)` (helpers.h:290-301) -/
def expTaylor (abs : K → K) (n : Nat) (m u : Mat K) (fuel : Nat) : Option (Mat K) :=
  expTaylorLoop abs n m u fuel (zerosM n n u) (forN n (fun r m => Mat.set m r r 1) (zerosM n n u)) 1

/-- The loop of `Internal::log_taylor` (helpers.h:313-317) -/
def logTaylorLoop (abs : K → K) (n : Nat) (X u : Mat K) : Nat → Mat K → Mat K → K → Option (Mat K)
  | 0, _, _, _ => none
  | fuel+1, sum, F, k =>
    if 0 < normInfM abs n n (subM n n (addM n n sum (applyScalarM (· / ·) n n F k u) u) sum u) then
      logTaylorLoop abs n X u fuel (addM n n sum (applyScalarM (· / ·) n n F k u) sum) (mulMM n n n (negM n n F u u) X u) (k + 1)
    else some sum

/-- `m - Identity*1.0` (helpers.h:309, 376; `subIdentity` for a square matrix) -/
def minusId (n : Nat) (m u : Mat K) : Mat K := addIdentityEval n n (-1) m false u

/-- `Internal::log_taylor(m)` (helpers.h:307-319) -/
def logTaylor (abs : K → K) (n : Nat) (m u : Mat K) (fuel : Nat) : Option (Mat K) :=
  let X := minusId n m u
  logTaylorLoop abs n X u fuel (zerosM n n u) X 1

/-- `log(m)` (helpers.h:372-381); `sqrt` is the matrix square root of helpers.h:348-362, `half` the constant `0.5` and `pow2`
the function `pow(2.0, counter)` -/
def logLoop (abs : K → K) (half : K) (pow2 : Nat → K) (sqrt : Mat K → Option (Mat K)) (n : Nat) (u : Mat K) (fuelT : Nat) :
    Nat → Nat → Mat K → Option (Mat K)
  | 0, _, _ => none
  | fuel+1, counter, A =>
    if half < normInfM abs n n (minusId n A u) then
      (sqrt A).bind (logLoop abs half pow2 sqrt n u fuelT fuel (counter + 1))
    else (logTaylor abs n A u fuelT).map fun r => applyScalarM (· * ·) n n r (pow2 counter) u

end TooN.Special
