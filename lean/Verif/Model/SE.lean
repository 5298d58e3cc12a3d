import Verif.Model.SO
/-!
# se2.h, se3.h: rigid transformations

Conventions as in `Model/SO.lean`.  The members shared by the two headers are written once for every dimension `n` and
cited in both.
-/
namespace TooN.Lie
open Matrix
open scoped Classical
noncomputable section

/-- `SE2`, `SE3`: members `my_rotation`, `my_translation` (se2.h:138-139, se3.h:158-159) -/
@[ext] structure SE (n : Nat) where
  R : M n
  t : V n

/-- `inverse()` (se2.h:79-82, se3.h:84-87) -/
def SE.inv {n : Nat} (a : SE n) : SE n :=
  let rinv := a.R.transpose
  ⟨rinv, -(rinv.mulVec a.t)⟩

/-- `operator*` (se2.h:87-89, se3.h:101-103) -/
def SE.mul {n : Nat} (a b : SE n) : SE n := ⟨a.R * b.R, a.t + a.R.mulVec b.t⟩

/-- objects in memory: `h i` is the object at address `i` -/
abbrev Objs (α : Type) := Nat → α

/-- store `x` at `i` -/
def Objs.put {α : Type} (h : Objs α) (i : Nat) (x : α) : Objs α := fun k => if k = i then x else h k

/-- `SE3::operator*=` (se3.h:92-96): `*this` is object `i`, `rhs` is object `j` (possibly the same); each statement
reads the current contents -/
def se3MulEq (h : Objs (SE 3)) (i j : Nat) : Objs (SE 3) :=
  let h := h.put i { h i with t := (h i).t + (h i).R.mulVec (h j).t }
  h.put i { h i with R := (h i).R * (h j).R }

/-- `SE3::left_multiply_by` (se3.h:105-109) -/
def se3LeftMul (h : Objs (SE 3)) (i j : Nat) : Objs (SE 3) :=
  let h := h.put i { h i with t := (h j).t + (h j).R.mulVec (h i).t }
  h.put i { h i with R := (h j).R * (h i).R }

/-- `SE2::operator*=` (se2.h:94-97): `*this = *this * rhs` -/
def se2MulEq (h : Objs (SE 2)) (i j : Nat) : Objs (SE 2) := h.put i (SE.mul (h i) (h j))

/-- `SO2 * SE2` (se2.h:365-367), `SO3 * SE3` (se3.h:459-461) -/
def soMulSE {n : Nat} (r : M n) (a : SE n) : SE n := ⟨r * a.R, r.mulVec a.t⟩

/-- the first `n` coordinates of a homogeneous vector: `slice<0,n>()` -/
def pos {n : Nat} (v : V (n + 1)) : V n := fun i => v i.castSucc

/-- `transform * Vector<n>` (se2.h:204-206, se3.h:285-287) -/
def SE.act {n : Nat} (a : SE n) (x : V n) : V n := a.t + a.R.mulVec x

/-- `transform * Vector<n+1>` (se2.h:185-190, se3.h:266-271): the leading slice, then `res[n] = rhs[n]` -/
def SE.actH {n : Nat} (a : SE n) (v : V (n + 1)) : V (n + 1) :=
  Fin.snoc (a.R.mulVec (pos v) + v (Fin.last n) • a.t) (v (Fin.last n))

/-- `Vector<n+1> * transform` (se2.h:226-231, se3.h:307-312) -/
def SE.actT {n : Nat} (v : V (n + 1)) (a : SE n) : V (n + 1) :=
  Fin.snoc (a.R.vecMul (pos v)) (v (Fin.last n) + pos v ⬝ᵥ a.t)

/-- `transform * Matrix` (se2.h:260-264, se3.h:341-345): column `i` of the result is `lhs` times column `i` -/
def SE.actM {n c : Nat} (a : SE n) (m : Matrix (Fin (n + 1)) (Fin c) ℝ) : Matrix (Fin (n + 1)) (Fin c) ℝ :=
  fun r i => a.actH (fun k => m k i) r

/-- `Matrix * transform` (se2.h:294-298, se3.h:375-379): row `i` of the result is row `i` times `rhs` -/
def SE.actMT {n r : Nat} (m : Matrix (Fin r) (Fin (n + 1)) ℝ) (a : SE n) : Matrix (Fin r) (Fin (n + 1)) ℝ :=
  fun i c => SE.actT (m i) a c

/-! ## SE3's Lie algebra -/

/-- `vect.slice<0,3>()` -/
def lo (v : V 6) : V 3 := ![v 0, v 1, v 2]
/-- `vect.slice<3,3>()` -/
def hi (v : V 6) : V 3 := ![v 3, v 4, v 5]
/-- the 6-vector with these slices -/
def join (a b : V 3) : V 6 := ![a 0, a 1, a 2, b 0, b 1, b 2]

/-- entry `(r, c)` set to `x` in a matrix -/
def put {m n : Nat} (a : Matrix (Fin m) (Fin n) ℝ) (r : Fin m) (c : Fin n) (x : ℝ) : Matrix (Fin m) (Fin n) ℝ :=
  fun i j => if i = r ∧ j = c then x else a i j

/-- the indices `(i+1)%3`, `(i+2)%3` used by the generators -/
def ix3 (k : Nat) : Fin 4 := ⟨k % 3, by omega⟩

/-- `SE3::generator(i)` (se3.h:111-120) for `0 ≤ i < 6` -/
def se3Gen (i : Fin 6) : M 4 :=
  if h : i.val < 3 then put 0 ⟨i.val, by omega⟩ 3 1
  else put (put 0 (ix3 (i.val + 1)) (ix3 (i.val + 2)) (-1)) (ix3 (i.val + 2)) (ix3 (i.val + 1)) 1

/-- `SE3::generator_field(i, pos)` (se3.h:124-134) -/
def se3GenField (i : Fin 6) (p : V 4) : V 4 :=
  if h : i.val < 3 then Function.update 0 ⟨i.val, by omega⟩ (p 3)
  else Function.update (Function.update 0 (ix3 (i.val + 1)) (-p (ix3 (i.val + 2)))) (ix3 (i.val + 2)) (p (ix3 (i.val + 1)))

/-- `SE3::adjoint(vect)` (se3.h:167-174) -/
def se3Adjoint (a : SE 3) (v : V 6) : V 6 :=
  let r3 := a.R.mulVec (hi v)
  let r0 := a.R.mulVec (lo v)
  join (r0 + crossV a.t r3) r3

/-- `SE3::trinvadjoint(vect)` (se3.h:181-188) -/
def se3TrInvAdjoint (a : SE 3) (v : V 6) : V 6 :=
  let r3 := a.R.mulVec (hi v)
  let r0 := a.R.mulVec (lo v)
  join r0 (r3 + crossV a.t r0)

/-- the two loops of the matrix forms (se2.h:128-135, se3.h:192-204, 208-220): first every column of the result is the
transformed column of `M`, then every row of the result is replaced by its transform -/
def onColsThenRows {k : Nat} (f : V k → V k) (m : M k) : M k :=
  let r : M k := fun i j => f (fun l => m l j) i
  fun i j => f (r i) j

/-- `SE3::adjoint(M)` (se3.h:192-204) -/
def se3AdjointM (a : SE 3) (m : M 6) : M 6 := onColsThenRows (se3Adjoint a) m

/-- `SE3::trinvadjoint(M)` (se3.h:208-220) -/
def se3TrInvAdjointM (a : SE 3) (m : M 6) : M 6 := onColsThenRows (se3TrInvAdjoint a) m

/-- `SE3::exp` (se3.h:393-427) -/
def se3Exp (mu : V 6) : SE 3 :=
  let one_6th : ℝ := 1.0 / 6.0
  let one_20th : ℝ := 1.0 / 20.0
  let w := hi mu
  let theta_sq := w ⬝ᵥ w
  let theta := Real.sqrt theta_sq
  let cross := crossV w (lo mu)
  if theta_sq < 1e-8 then
    let A := 1.0 - one_6th * theta_sq
    let B := 0.5
    ⟨rodrigues w A B, lo mu + (0.5 : ℝ) • cross⟩
  else if theta_sq < 1e-6 then
    let C := one_6th * (1.0 - one_20th * theta_sq)
    let A := 1.0 - theta_sq * C
    let B := 0.5 - 0.25 * one_6th * theta_sq
    ⟨rodrigues w A B, lo mu + B • cross + C • crossV w cross⟩
  else
    let inv_theta := 1.0 / theta
    let A := Real.sin theta * inv_theta
    let B := (1 - Real.cos theta) * (inv_theta * inv_theta)
    let C := (1 - A) * (inv_theta * inv_theta)
    ⟨rodrigues w A B, lo mu + B • cross + C • crossV w cross⟩

/-- `SE3::ln` (se3.h:430-456); `none` as in `so3Ln`, or on division by `rot*rot = 0` (excluded by `theta > 0.001`) or
by `2*shtot = 0` -/
def se3Ln (a : SE 3) : Option (V 6) :=
  (so3Ln a.R).bind fun rot =>
    let theta := Real.sqrt (rot ⬝ᵥ rot)
    let shtot := if theta > 0.00001 then Real.sin (theta / 2) / theta else 0.5
    let halfrotator := so3Exp ((-0.5 : ℝ) • rot)
    let rottrans := halfrotator.mulVec a.t
    let rottrans :=
      if theta > 0.001 then rottrans - ((a.t ⬝ᵥ rot) * (1 - 2 * shtot) / (rot ⬝ᵥ rot)) • rot
      else rottrans - ((a.t ⬝ᵥ rot) / 24) • rot
    if 2 * shtot = 0 then none else some (join ((1 / (2 * shtot)) • rottrans) rot)

/-! ## SE2's Lie algebra -/

/-- `SE2::generator(i)` (se2.h:104-113) for `0 ≤ i < 3` -/
def se2Gen (i : Fin 3) : M 3 :=
  if i.val < 2 then put 0 i 2 1 else put (put 0 0 1 (-1)) 1 0 1

/-- `SE2::adjoint(vect)` (se2.h:118-125) -/
def se2Adjoint (a : SE 2) (v : V 3) : V 3 :=
  let r := a.R.mulVec ![v 0, v 1]
  ![r 0 + v 2 * a.t 1, r 1 - v 2 * a.t 0, v 2]

/-- `SE2::adjoint(M)` (se2.h:128-135) -/
def se2AdjointM (a : SE 2) (m : M 3) : M 3 := onColsThenRows (se2Adjoint a) m

/-- `SE2::exp` (se2.h:312-344) -/
def se2Exp (mu : V 3) : SE 2 :=
  let one_6th : ℝ := 1.0 / 6.0
  let one_20th : ℝ := 1.0 / 20.0
  let theta := mu 2
  let theta_sq := theta * theta
  let cross : V 2 := ![-theta * mu 1, theta * mu 0]
  let R := so2Exp theta
  if theta_sq < 1e-8 then ⟨R, ![mu 0, mu 1] + (0.5 : ℝ) • cross⟩
  else if theta_sq < 1e-6 then
    let A := 1.0 - theta_sq * one_6th * (1.0 - one_20th * theta_sq)
    let B := 0.5 - 0.25 * one_6th * theta_sq
    ⟨R, A • ![mu 0, mu 1] + B • cross⟩
  else
    let inv_theta := 1.0 / theta
    let sine := R 1 0
    let cosine := R 0 0
    let A := sine * inv_theta
    let B := (1 - cosine) * (inv_theta * inv_theta)
    ⟨R, A • ![mu 0, mu 1] + B • cross⟩

/-- `SE2::ln` (se2.h:347-359); `none` = division by `2*shtot = 0` -/
def se2Ln (a : SE 2) : Option (V 3) :=
  let theta := so2Ln a.R
  let shtot := if |theta| > 0.00001 then Real.sin (theta / 2) / theta else 0.5
  let halfrotator := so2Exp (theta * -0.5)
  let r := halfrotator.mulVec a.t
  if 2 * shtot = 0 then none else some ![r 0 / (2 * shtot), r 1 / (2 * shtot), theta]

end
end TooN.Lie
