import Verif.Model.Loop
import Mathlib.Data.Rat.Defs
import Mathlib.Order.Lattice
import Mathlib.Order.Defs.LinearOrder
/-!
# A C++ floating-point type

`Mach` is what the optimisers use of their template parameter `Precision`: operations about which *nothing* is assumed (so
they may round, overflow, underflow or return NaN in any way), and comparisons, which are those of a linear order on the
values that are not NaN and are false as soon as one operand is NaN.  IEEE-754 `float` and `double` are instances (`+0` and
`-0` have the same key).  Nothing here is TooN code; it is the semantics of the types the code is instantiated with.
-/
namespace TooN

/-- a floating-point type -/
structure Mach where
  /-- the values -/
  F : Type
  /-- the ordered set in which values that are not NaN are compared -/
  K : Type
  ord : LinearOrder K
  /-- position in the order; `none` = NaN -/
  key : F → Option K
  add : F → F → F
  sub : F → F → F
  mul : F → F → F
  div : F → F → F
  neg : F → F
  abs : F → F
  sqrt : F → F
  /-- the value of a numeric literal or of an `int` converted to the type -/
  lit : ℚ → F
  /-- the value of `(3.0 - sqrt(5))/2` converted to the type -/
  gold : F
  /-- `HUGE_VAL` -/
  huge : F

namespace Mach
variable (M : Mach)

instance : LinearOrder M.K := M.ord
instance : Add M.F := ⟨M.add⟩
instance : Sub M.F := ⟨M.sub⟩
instance : Mul M.F := ⟨M.mul⟩
instance : Div M.F := ⟨M.div⟩
instance : Neg M.F := ⟨M.neg⟩

/-- `x < y` of C++ -/
instance : LT M.F := ⟨fun x y => ∃ a b, M.key x = some a ∧ M.key y = some b ∧ a < b⟩
/-- `x <= y` of C++ -/
instance : LE M.F := ⟨fun x y => ∃ a b, M.key x = some a ∧ M.key y = some b ∧ a ≤ b⟩

variable {M}

/-- `x == y` of C++ -/
def eqv (x y : M.F) : Prop := ∃ a, M.key x = some a ∧ M.key y = some a
/-- `isnan(x)` -/
def NaN (x : M.F) : Prop := M.key x = none

/-- the property of `HUGE_VAL` used by the code: nothing is above it or below its negation -/
def HugeOk (M : Mach) : Prop :=
  (∀ x : M.F, ¬ NaN x → x ≤ M.huge) ∧ ∀ x : M.F, ¬ NaN x → -M.huge ≤ x

/-! Vector operations of TooN (C09): element by element. -/

/-- points -/
abbrev Pt (M : Mach) (n : Nat) := Fin n → M.F

/-- `Vector + Vector`, operators.hh:145-150 -/
def vadd {n : Nat} (a b : Pt M n) : Pt M n := fun i => a i + b i
/-- `Vector - Vector`, operators.hh:145-150 -/
def vsub {n : Nat} (a b : Pt M n) : Pt M n := fun i => a i - b i
/-- `scalar * Vector`, operators.hh:535-540 -/
def smulL {n : Nat} (s : M.F) (a : Pt M n) : Pt M n := fun i => s * a i
/-- `Vector * scalar`, operators.hh:507-512 -/
def smulR {n : Nat} (a : Pt M n) (s : M.F) : Pt M n := fun i => a i * s
/-- `-Vector`, operators.hh:184-188: multiplication by `-1` -/
def vneg {n : Nat} (a : Pt M n) : Pt M n := fun i => a i * M.lit (-1)
/-- `Vector * Vector`, operators.hh:198-208 -/
def dot {n : Nat} (a b : Pt M n) : M.F :=
  forN n (fun i s => if h : i < n then s + a ⟨i, h⟩ * b ⟨i, h⟩ else s) (M.lit 0)
/-- `norm`, helpers.h:97-101 -/
def nrm {n : Nat} (a : Pt M n) : M.F := M.sqrt (dot a a)

end Mach
end TooN
