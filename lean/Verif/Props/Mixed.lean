import Verif.Model.Mixed
import Mathlib.Data.Rat.Lemmas
import Mathlib.Tactic.Ring
import Mathlib.Tactic.NormNum
/-!
# C53, C54: scalar products and scaled operators with mixed element types
-/
namespace TooN.Mixed

/-- **C53** `m*s` and `s*v` denote the exact product for every combination of element types. -/
theorem c53_right_scalar_and_vector (p1 p2 : Ty) (x : p1.val) (s : p2.val) :
    toQ _ (matTimesScalar p1 p2 x s) = toQ p1 x * toQ p2 s ∧
    toQ _ (scalarTimesVec p1 p2 s x) = toQ p2 s * toQ p1 x := by
  cases p1 <;> cases p2 <;> simp [matTimesScalar, scalarTimesVec, mulOp, bmul, conv, join, toQ]

/-- **C53** `s*m` is exact when scalar and matrix have the same element type.  `_partial`: false in general,
see below. -/
theorem c53_left_scalar_matrix_partial (p : Ty) (s x : p.val) :
    toQ _ (scalarTimesMat p p s x) = toQ p s * toQ p x := by
  cases p <;> simp [scalarTimesMat, mulOp, bmul, conv, join, toQ]

/-- **C53, negative**: an `int` scalar times a `double` matrix truncates every matrix element:
`2*M` is `2*trunc(M)`. -/
theorem c53_int_times_double_matrix (s : Int) (x : Rat) :
    scalarTimesMat .dbl .int s x = (s : Rat) * ((Int.tdiv x.num x.den : Int) : Rat) := by
  simp [scalarTimesMat, mulOp, bmul, conv, join]

/-- a `double` scalar times an `int` matrix truncates the scalar -/
theorem c53_double_times_int_matrix (s : Rat) (x : Int) :
    scalarTimesMat .int .dbl s x = ((Int.tdiv s.num s.den : Int) : Rat) * (x : Rat) := by
  simp [scalarTimesMat, mulOp, bmul, conv, join]

/-- so the full claim `s*m = exact product` is false of the code: `2 * [1/2]` gives `0`, not `1`. -/
theorem c53_full_claim_false :
    ¬ (∀ (p1 p2 : Ty) (s : p2.val) (x : p1.val), toQ _ (scalarTimesMat p1 p2 s x) = toQ p2 s * toQ p1 x) := by
  intro h
  have := h .dbl .int (2 : Int) (1/2 : Rat)
  have e : Int.tdiv (1/2 : Rat).num (1/2 : Rat).den = 0 := by
    have h1 : (1/2 : Rat).num = 1 := by decide +kernel
    have h2 : (1/2 : Rat).den = 2 := by decide +kernel
    rw [h1, h2]; decide
  rw [show scalarTimesMat .dbl .int (2:Int) (1/2 : Rat) = _ from c53_int_times_double_matrix 2 (1/2), e] at this
  have this : (2 : Rat) * ((0:Int):Rat) = ((2:Int):Rat) * (1/2) := this
  norm_num at this

/-- **C54** multiplying a scaled operator by a scalar is exact. -/
theorem c54_op_times (pl pr : Ty) (v : pl.val) (r : pr.val) :
    toQ _ (opTimes pl pr v r) = toQ pl v * toQ pr r := by
  cases pl <;> cases pr <;> simp [opTimes, bmul, conv, join, toQ]

/-- **C54** dividing a scaled operator by a scalar is exact when its value is stored as `double`.
`_partial`: false for an `int` value, see below. -/
theorem c54_op_divide_partial (pr : Ty) (v : Rat) (r : pr.val) :
    toQ _ (opDivide .dbl pr v r) = v / toQ pr r := by
  cases pr <;> simp [opDivide, bmul, bdiv, conv, join, toQ, div_eq_mul_inv]

/-- **C54, negative**: `(Ones*v)/r` with an `int` value `v` and any `int` divisor `r ≥ 2` is all zeros. -/
theorem c54_int_divide_gives_zero (v r : Int) (hr : 2 ≤ r) : opDivide .int .int v r = (0 : Int) := by
  have : Int.tdiv 1 r = 0 := Int.tdiv_eq_zero_of_lt (by omega) (by omega)
  simp [opDivide, bmul, bdiv, conv, join, this]

/-- **C54, negative**: `(Identity*2)/4.0` is zero instead of one half. -/
theorem c54_full_claim_false :
    ¬ (∀ (pl pr : Ty) (v : pl.val) (r : pr.val), toQ _ (opDivide pl pr v r) = toQ pl v / toQ pr r) := by
  intro h
  have := h .int .int (6 : Int) (2 : Int)
  rw [show opDivide .int .int (6:Int) (2:Int) = (0:Int) from c54_int_divide_gives_zero 6 2 (by decide)] at this
  have this : ((0:Int):Rat) = ((6:Int):Rat) / ((2:Int):Rat) := this
  norm_num at this

end TooN.Mixed
