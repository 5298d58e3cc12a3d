import Verif.Model.SE
import Mathlib.Algebra.TrivSqZeroExt.Basic
/-!
# functions/fadbad.h: TooN types over FADBAD's forward-mode numbers

FADBAD is external.  `fadbad::F<double, D>` is a value with `D` partial derivatives, with the arithmetic of forward mode
differentiation: `(a, a') + (b, b') = (a + b, a' + b')`, `(a, a') * (b, b') = (a b, a b' + b a')`, `sin (a, a') = (sin a, cos a · a')`, …
— the trivial square-zero extension `ℝ[ε]`.  A constant has zero derivatives; `x.diff(d)` makes `x` the independent variable number `d`;
the variant `F<double>` with `diff(d, size)` has the same arithmetic with `D = size`.  TooN's vector and matrix operators are written
with Mathlib's over this ring, as in `Model/SO.lean`.
-/
namespace TooN.Fad
open Matrix TooN.Lie
noncomputable section

/-- `fadbad::F<double, D>` -/
abbrev F (D : Nat) := TrivSqZeroExt ℝ (Fin D → ℝ)

variable {D : Nat}
/-- `x.val()` -/
def val (x : F D) : ℝ := x.fst
/-- `x.deriv(d)` -/
def deriv (x : F D) (d : Fin D) : ℝ := x.snd d
/-- the number with the given value and derivatives -/
def mk (c : ℝ) (g : Fin D → ℝ) : F D := (TrivSqZeroExt.inl c : F D) + TrivSqZeroExt.inr g
/-- `F<double, D> x = c` -/
def const (c : ℝ) : F D := (TrivSqZeroExt.inl c : F D)
/-- `x` after `x.diff(d)` -/
def diff (x : F D) (d : Nat) : F D := mk x.fst fun k => if (k : Nat) = d then 1 else 0
/-- `sin(x)`, `cos(x)` of FADBAD -/
def fsin (x : F D) : F D := mk (Real.sin x.fst) (Real.cos x.fst • x.snd)
@[inherit_doc fsin] def fcos (x : F D) : F D := mk (Real.cos x.fst) (-Real.sin x.fst • x.snd)

/-- `fadbad::abs` (functions/fadbad.h:46-49) -/
def fabs (x : F D) : F D := if val x < 0 then -x else x

/-- `get_value` (functions/fadbad.h:60-66) -/
def getValue (n : Nat) (v : Nat → F D) : Vec ℝ := forN n (fun i result => Vec.set result i (val (v i))) (fun _ => 0)

/-- `make_fad_vector` (functions/fadbad.h:76-82 and 68-74 with `size = D`): the loop stops at the first `i` with `i = n` or
`start + i = D`, i.e. runs for `i < min n (D - start)` -/
def makeFadVector (D n : Nat) (v : Vec ℝ) (start : Nat) : Nat → F D :=
  forN (min n (D - start)) (fun i result => Vec.set result i (diff (result i) (start + i))) (fun i => const (v i))

/-- `get_derivative` of a static vector (functions/fadbad.h:84-90), `r0` its uninitialised result -/
def getDerivative (n : Nat) (v : Nat → F D) (dim : Fin D) (r0 : Vec ℝ) : Vec ℝ :=
  forN n (fun i r => Vec.set r i (deriv (v i) dim)) r0

/-- `get_jacobian` (functions/fadbad.h:92-98): one column per derivative; `init` are the uninitialised results -/
def getJacobian (n : Nat) (v : Nat → F D) (init : Mat ℝ) (r0 : Vec ℝ) : Mat ℝ :=
  forN D (fun i result => fun r c =>
    if c = i ∧ r < n then (if h : i < D then getDerivative n v ⟨i, h⟩ r0 r else result r c) else result r c) init

/-- `get_derivative` of a static matrix (functions/fadbad.h:100-107) -/
def getDerivativeM (R C : Nat) (v : Nat → Nat → F D) (dim : Fin D) (r0 : Mat ℝ) : Mat ℝ :=
  forN R (fun r result => forN C (fun c result => Mat.set result r c (deriv (v r c) dim)) result) r0

/-- element assignment -/
def setM {n : Nat} (m : Matrix (Fin n) (Fin n) (F D)) (r c : Fin n) (x : F D) : Matrix (Fin n) (Fin n) (F D) :=
  fun i j => if i = r ∧ j = c then x else m i j

/-- `make_fad_so3` (functions/fadbad.h:128-145 and 109-126): the matrix of the `SO3`, in the order of the assignments -/
def makeFadSO3 (D start : Nat) : Matrix (Fin 3) (Fin 3) (F D) :=
  let m := 1
  let m := setM m 2 1 (diff (m 2 1) start)
  let m := setM m 1 2 (m 2 1 * -1)
  let m := setM m 0 2 (diff (m 0 2) (start + 1))
  let m := setM m 2 0 (m 0 2 * -1)
  let m := setM m 1 0 (diff (m 1 0) (start + 2))
  setM m 0 1 (m 1 0 * -1)

/-- a rigid transformation over `F` -/
structure FSE (D n : Nat) where
  R : Matrix (Fin n) (Fin n) (F D)
  t : Fin n → F D

/-- `make_fad_se3` (functions/fadbad.h:152-155 and 147-150) -/
def makeFadSE3 (D start : Nat) : FSE D 3 := ⟨makeFadSO3 D (start + 3), fun i => makeFadVector D 3 (fun _ => 0) start i⟩

/-- `SO2<F>::exp` (so2.h:89-95) -/
def so2ExpF (d : F D) : Matrix (Fin 2) (Fin 2) (F D) :=
  let m10 := fsin d
  !![fcos d, -m10; m10, fcos d]

/-- `make_fad_so2` (functions/fadbad.h:174-179 and 167-172) through the constructor so2.h:70 -/
def makeFadSO2 (D start : Nat) : Matrix (Fin 2) (Fin 2) (F D) := so2ExpF (diff (const 0) start)

/-- `SE2<F>::exp` (se2.h:310-345) for angles with `theta² < 1e-8` (the only ones used here; comparison of `F`s compares values) -/
def se2ExpSmallF (mu : Fin 3 → F D) : FSE D 2 :=
  let theta := mu 2
  let cross : Fin 2 → F D := ![-theta * mu 1, theta * mu 0]
  ⟨so2ExpF theta, fun i => ![mu 0, mu 1] i + const 0.5 * cross i⟩

/-- `make_fad_se2` (functions/fadbad.h:162-165 and 157-160): the value of the angle is 0 -/
def makeFadSE2 (D start : Nat) : FSE D 2 := se2ExpSmallF fun i => makeFadVector D 3 (fun _ => 0) start i

/-- a matrix, vector of constants (mixed products `F * double`) -/
def cM {m n : Nat} (a : Matrix (Fin m) (Fin n) ℝ) : Matrix (Fin m) (Fin n) (F D) := fun i j => const (a i j)
@[inherit_doc cM] def cV {n : Nat} (v : V n) : Fin n → F D := fun i => const (v i)

/-- `make_left_fad_so3` (functions/fadbad.h:186-189 and 181-184; product so3.h:181-182) -/
def makeLeftFadSO3 (D : Nat) (r : M 3) (start : Nat) : Matrix (Fin 3) (Fin 3) (F D) := makeFadSO3 D start * cM r
/-- `make_left_fad_so2` (functions/fadbad.h:206-209 and 201-204; product so2.h:130-131) -/
def makeLeftFadSO2 (D : Nat) (r : M 2) (start : Nat) : Matrix (Fin 2) (Fin 2) (F D) := makeFadSO2 D start * cM r
/-- product of a transformation over `F` with a real one (se3.h:101-103, se2.h:87-89) -/
def FSE.mulR {n : Nat} (a : FSE D n) (b : SE n) : FSE D n := ⟨a.R * cM b.R, a.t + a.R.mulVec (cV b.t)⟩
/-- `make_left_fad_se3` (functions/fadbad.h:196-199 and 191-194) -/
def makeLeftFadSE3 (D : Nat) (t : SE 3) (start : Nat) : FSE D 3 := (makeFadSE3 D start).mulR t
/-- `make_left_fad_se2` (functions/fadbad.h:216-219 and 211-214) -/
def makeLeftFadSE2 (D : Nat) (t : SE 2) (start : Nat) : FSE D 2 := (makeFadSE2 D start).mulR t
/-- `SE * Vector` for real vectors (se3.h:285-287, se2.h:204-206) -/
def FSE.act {n : Nat} (a : FSE D n) (x : V n) : Fin n → F D := a.t + a.R.mulVec (cV x)

end
end TooN.Fad
