import Verif.Model.SE
import Verif.Model.Elim
import Mathlib.Analysis.SpecialFunctions.Log.Basic
/-!
# sim2.h, sim3.h: similarity transformations

Conventions as in `Model/SE.lean`.  `none` is a division by zero or the logarithm of a non-positive number.
-/
namespace TooN.Lie
open Matrix
open scoped Classical
noncomputable section

/-- `SIM2`, `SIM3`: members `my_se2`/`my_se3` (rotation and translation) and `my_scale` (sim2.h:152-153, sim3.h:176-177) -/
@[ext] structure SIM (n : Nat) where
  R : M n
  t : V n
  s : ℝ

/-- the default constructor (sim2.h:53, sim3.h:51) -/
def SIM.id {n : Nat} : SIM n := ⟨1, 0, 1⟩

/-- `SIM3::inverse` (sim3.h:85-89) -/
def sim3Inv (a : SIM 3) : Option (SIM 3) :=
  let rinv := a.R.transpose
  if a.s = 0 then none else
    let inv_scale := 1 / a.s
    some ⟨rinv, -(inv_scale • rinv.mulVec a.t), inv_scale⟩

/-- `SIM2::inverse` (sim2.h:84-88) -/
def sim2Inv (a : SIM 2) : Option (SIM 2) :=
  let rinv := a.R.transpose
  if a.s = 0 then none else
    let inv_scale := 1 / a.s
    some ⟨rinv, -(rinv.mulVec (inv_scale • a.t)), inv_scale⟩

/-- `operator*` (sim2.h:93-95, sim3.h:108-110) -/
def SIM.mul {n : Nat} (a b : SIM n) : SIM n := ⟨a.R * b.R, a.t + a.R.mulVec (a.s • b.t), a.s * b.s⟩

/-- `SIM3::operator*=` (sim3.h:93-98): `*this` is object `i`, `rhs` is object `j` (possibly the same) -/
def sim3MulEq (h : Objs (SIM 3)) (i j : Nat) : Objs (SIM 3) :=
  let h := h.put i { h i with t := (h i).t + (h i).R.mulVec ((h i).s • (h j).t) }
  let h := h.put i { h i with R := (h i).R * (h j).R }
  h.put i { h i with s := (h i).s * (h j).s }

/-- `SIM3::left_multiply_by` (sim3.h:112-117) -/
def sim3LeftMul (h : Objs (SIM 3)) (i j : Nat) : Objs (SIM 3) :=
  let h := h.put i { h i with t := (h j).t + (h j).R.mulVec ((h j).s • (h i).t) }
  let h := h.put i { h i with R := (h j).R * (h i).R }
  h.put i { h i with s := (h j).s * (h i).s }

/-- `SIM2::operator*=` (sim2.h:99-102): `*this = *this * rhs` -/
def sim2MulEq (h : Objs (SIM 2)) (i j : Nat) : Objs (SIM 2) := h.put i (SIM.mul (h i) (h j))

/-- `operator=(Identity)` (sim3.h:101-103) -/
def sim3AssignIdentity (h : Objs (SIM 3)) (i : Nat) : Objs (SIM 3) := h.put i SIM.id

/-- `SIM3 * SE3` (sim3.h:182-187): a default-constructed `SIM3` gets the rotation and translation -/
def sim3MulSE (a : SIM 3) (b : SE 3) : SIM 3 :=
  let rhs : SIM 3 := SIM.id
  let rhs := { rhs with R := b.R }
  let rhs := { rhs with t := b.t }
  SIM.mul a rhs

/-- `transform * Vector<n>` (sim2.h:219-221, sim3.h:313-315) -/
def SIM.act {n : Nat} (a : SIM n) (x : V n) : V n := a.t + a.R.mulVec (a.s • x)

/-- `transform * Vector<n+1>` (sim2.h:200-205, sim3.h:294-299) -/
def SIM.actH {n : Nat} (a : SIM n) (v : V (n + 1)) : V (n + 1) :=
  Fin.snoc (a.R.mulVec (a.s • pos v) + v (Fin.last n) • a.t) (v (Fin.last n))

/-- `Vector<n+1> * transform` (sim2.h:241-246, sim3.h:335-340) -/
def SIM.actT {n : Nat} (v : V (n + 1)) (a : SIM n) : V (n + 1) :=
  Fin.snoc (a.R.vecMul (a.s • pos v)) (v (Fin.last n) + pos v ⬝ᵥ a.t)

/-- `transform * Matrix` (sim2.h:275-279, sim3.h:369-373) -/
def SIM.actM {n c : Nat} (a : SIM n) (m : Matrix (Fin (n + 1)) (Fin c) ℝ) : Matrix (Fin (n + 1)) (Fin c) ℝ :=
  fun r i => a.actH (fun k => m k i) r

/-- `Matrix * transform` (sim2.h:309-313, sim3.h:403-407) -/
def SIM.actMT {n r : Nat} (m : Matrix (Fin r) (Fin (n + 1)) ℝ) (a : SIM n) : Matrix (Fin r) (Fin (n + 1)) ℝ :=
  fun i c => SIM.actT (m i) a c

/-- `SIM3::generator(i)` (sim3.h:119-134) for `0 ≤ i < 7` -/
def sim3Gen (i : Fin 7) : M 4 :=
  if h : i.val < 3 then put 0 ⟨i.val, by omega⟩ 3 1
  else if i.val < 6 then put (put 0 (ix3 (i.val + 1)) (ix3 (i.val + 2)) (-1)) (ix3 (i.val + 2)) (ix3 (i.val + 1)) 1
  else put (put (put 0 0 0 1) 1 1 1) 2 2 1

/-- `SIM3::generator_field(i, pos)` (sim3.h:138-152) -/
def sim3GenField (i : Fin 7) (p : V 4) : V 4 :=
  if h : i.val < 3 then Function.update 0 ⟨i.val, by omega⟩ (p 3)
  else if i.val < 6 then
    Function.update (Function.update 0 (ix3 (i.val + 1)) (-p (ix3 (i.val + 2)))) (ix3 (i.val + 2)) (p (ix3 (i.val + 1)))
  else ![p 0, p 1, p 2, 0]

/-- `SIM2::generator(i)` (sim2.h:110-127) for `0 ≤ i < 4` -/
def sim2Gen (i : Fin 4) : M 3 :=
  if h : i.val < 2 then put 0 ⟨i.val, by omega⟩ 2 1
  else if i.val = 2 then put (put 0 0 1 (-1)) 1 0 1
  else put (put 0 0 0 1) 1 1 1

/-- `SIM3::adjoint(vect)` (sim3.h:194-201); `init` is the indeterminate initial content of the uninitialised `result` -/
def sim3Adjoint (init : V 7) (a : SIM 3) (v : V 7) : V 7 :=
  let r3 := a.R.mulVec (hi (pos v))
  let r0 := a.R.mulVec (lo (pos v))
  Fin.snoc (join (r0 + crossV a.t r3) r3) (init 6)

/-- `SIM3::trinvadjoint(vect)` (sim3.h:208-215) -/
def sim3TrInvAdjoint (init : V 7) (a : SIM 3) (v : V 7) : V 7 :=
  let r3 := a.R.mulVec (hi (pos v))
  let r0 := a.R.mulVec (lo (pos v))
  Fin.snoc (join r0 (r3 + crossV a.t r0)) (init 6)

/-- `SIM2::adjoint(vect)` (sim2.h:132-139) -/
def sim2Adjoint (init : V 4) (a : SIM 2) (v : V 4) : V 4 :=
  let r := a.R.mulVec ![v 0, v 1]
  ![r 0 + v 2 * a.t 1, r 1 - v 2 * a.t 0, v 2, init 3]

/-- the two loops of the matrix forms (sim2.h:141-148, sim3.h:219-231, 235-247), where every call of the vector form has its
own uninitialised `result`: `ic j` in the call for column `j`, `ir i` in the call for row `i` -/
def onColsThenRowsI {k : Nat} (ic ir : Fin k → V k) (f : V k → V k → V k) (m : M k) : M k :=
  let r : M k := fun i j => f (ic j) (fun l => m l j) i
  fun i j => f (ir i) (r i) j

/-- `SIM3::adjoint(M)` (sim3.h:219-231) -/
def sim3AdjointM (ic ir : Fin 7 → V 7) (a : SIM 3) (m : M 7) : M 7 :=
  onColsThenRowsI ic ir (fun i v => sim3Adjoint i a v) m
/-- `SIM3::trinvadjoint(M)` (sim3.h:235-247) -/
def sim3TrInvAdjointM (ic ir : Fin 7 → V 7) (a : SIM 3) (m : M 7) : M 7 :=
  onColsThenRowsI ic ir (fun i v => sim3TrInvAdjoint i a v) m
/-- `SIM2::adjoint(M)` (sim2.h:141-148) -/
def sim2AdjointM (ic ir : Fin 4 → V 4) (a : SIM 2) (m : M 4) : M 4 :=
  onColsThenRowsI ic ir (fun i v => sim2Adjoint i a v) m

/-- `compute_rodrigues_coefficients_sim3(s, t)` (sim3.h:423-457).  `1/2` and `1/6` in the first branch are divisions of
`int`s, as in the source. -/
def simCoeff (s t : ℝ) : ℝ × ℝ × ℝ :=
  let es := Real.exp s
  let sin := Real.sin
  let cos := Real.cos
  let eps : ℝ := 1e-6
  if |s| < eps ∧ |t| < eps then
    (1 + s / 2 + s * s / 6, ((1 / 2 : Int) : ℝ) + s / 3 - t * t / 24 + s * s / 8,
      ((1 / 6 : Int) : ℝ) + s / 8 - t * t / 120 + s * s / 20)
  else if |s| < eps then
    (1 + s / 2 + s * s / 6,
      (1 - cos t) / (t * t) + (sin t - cos t * t) * s / (t * t * t) +
        (2 * sin t * t - t * t * cos t - 2 + 2 * cos t) * s * s / (2 * t * t * t * t),
      (t - sin t) / (t * t * t) - (-t * t - 2 + 2 * cos t + 2 * sin t * t) * s / (2 * t * t * t * t) -
        (-t * t * t + 6 * cos t * t + 3 * sin t * t * t - 6 * sin t) * s * s / (6 * t * t * t * t * t))
  else if |t| < eps then
    ((es - 1) / s,
      (s * es + 1 - es) / (s * s) - (6 * s * es + 6 - 6 * es + es * s * s * s - 3 * es * s * s) * t * t / (6 * s * s * s * s),
      (es * s * s - 2 * s * es + 2 * es - 2) / (2 * s * s * s) -
        (es * s * s * s * s - 4 * es * s * s * s + 12 * es * s * s - 24 * s * es + 24 * es - 24) * t * t / (24 * s * s * s * s * s))
  else
    let a := es * sin t
    let b := es * cos t
    let inv_s_theta := 1 / (s * s + t * t)
    let c0 := (es - 1) / s
    (c0, (a * s + (1 - b) * t) * inv_s_theta / t, (c0 - ((b - 1) * s + a * t) * inv_s_theta) / (t * t))

/-- `SIM3::exp` (sim3.h:463-483) -/
def sim3Exp (mu : V 7) : SIM 3 :=
  let w := hi (pos mu)
  let u := lo (pos mu)
  let t := Real.sqrt (w ⬝ᵥ w)
  let c := simCoeff (mu 6) t
  let cross := crossV w u
  ⟨so3Exp w, c.1 • u + c.2.1 • cross + c.2.2 • crossV w cross, Real.exp (mu 6)⟩

/-- a fixed-size matrix as stored elements (zero outside) -/
def toMat {r c : Nat} (m : Matrix (Fin r) (Fin c) ℝ) : Mat ℝ :=
  fun i j => if h : i < r ∧ j < c then m ⟨i, h.1⟩ ⟨j, h.2⟩ else 0
/-- a fixed-size vector as stored elements -/
def toVec {n : Nat} (v : V n) : Vec ℝ := fun i => if h : i < n then v ⟨i, h⟩ else 0

/-- `gaussian_elimination(W, b)` on fixed sizes (gaussian_elimination.h:43-89); `x0` is the uninitialised result -/
def solveV {n : Nat} (x0 : Mat ℝ) (W : M n) (b : V n) : Option (V n) :=
  (Elim.gaussElimV n (toMat W) (toVec b) x0).map fun y i => y i.val

/-- `cross_product_matrix` (helpers.h:444-460) -/
def crossMat (v : V 3) : M 3 := !![0, -v 2, v 1; v 2, 0, -v 0; -v 1, v 0, 0]

/-- `SIM3::ln` (sim3.h:486-509) -/
def sim3Ln (x0 : Mat ℝ) (a : SIM 3) : Option (V 7) :=
  (so3Ln a.R).bind fun rot =>
    let theta := Real.sqrt (rot ⬝ᵥ rot)
    if a.s ≤ 0 then none else
      let s := Real.log a.s
      let coeff := simCoeff s theta
      let cross := crossMat rot
      let W := coeff.1 • (1 : M 3) + coeff.2.1 • cross + coeff.2.2 • (cross * cross)
      (solveV x0 W a.t).map fun u => Fin.snoc (join u rot) s

/-- `SIM2::exp` (sim2.h:327-350) -/
def sim2Exp (mu : V 4) : SIM 2 :=
  let theta := mu 2
  let coeff := simCoeff (mu 3) theta
  let cross : V 2 := ![-theta * mu 1, theta * mu 0]
  ⟨so2Exp theta, coeff.2.2 • ![mu 0, mu 1] + coeff.2.1 • cross, Real.exp (mu 3)⟩

/-- `SIM2::ln` (sim2.h:353-372) -/
def sim2Ln (x0 : Mat ℝ) (a : SIM 2) : Option (V 4) :=
  let theta := so2Ln a.R
  if a.s ≤ 0 then none else
    let s := Real.log a.s
    let coeff := simCoeff s theta
    let cross : M 2 := put (put 0 0 1 (-theta)) 1 0 theta
    let W := coeff.2.2 • (1 : M 2) + coeff.2.1 • cross
    (solveV x0 W a.t).map fun u => ![u 0, u 1, theta, s]

/-- what `operator<<` writes (sim3.h:252-262, sim2.h:158-168): row `i` is `matrix[i] * scale` followed by `translation[i]` -/
def SIM.written {n : Nat} (a : SIM n) : M n × V n := (fun i j => a.R i j * a.s, a.t)

/-- `operator>>` for SIM3 (sim3.h:267-275) on the parsed numbers: rows of the matrix and translation -/
def sim3Read (x : M 3 × V 3) : Option (Outcome (SIM 3)) :=
  let m := x.1
  let s := (Real.sqrt (m 0 ⬝ᵥ m 0) + Real.sqrt (m 1 ⬝ᵥ m 1) + Real.sqrt (m 2 ⬝ᵥ m 2)) / 3
  (coerce3 m).map fun o => match o with
    | .ok r => .ok ⟨r, x.2, s⟩
    | .abort => .abort
    | .ub => .ub

/-- `operator>>` for SIM2 (sim2.h:173-179) -/
def sim2Read (x : M 2 × V 2) : Option (SIM 2) :=
  let m := x.1
  let s := (Real.sqrt (m 0 ⬝ᵥ m 0) + Real.sqrt (m 1 ⬝ᵥ m 1)) / 2
  (coerce2 m).map fun r => ⟨r, x.2, s⟩

end
end TooN.Lie
