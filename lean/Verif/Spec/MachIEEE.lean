import Verif.Spec.IEEE
import Verif.Model.Mach
import Mathlib.Data.EReal.Basic
/-!
# The floating-point type of a binary format

Values are the finite representable numbers, the two infinities and NaN.  Every operation returns the rounded exact result, an
infinity when that exceeds the largest finite number, and NaN for the invalid operations of IEEE-754.  The sign of zero is not
represented: the quotient of a non-zero number by zero has the sign of the numerator.
-/
namespace TooN
open scoped Classical

/-- a value of the format -/
inductive XF (G : Grid) where
  | fin (x : ℝ) (h : G.rnd x = x ∧ |x| ≤ G.big)
  | pinf
  | ninf
  | nan

namespace XF
variable {G : Grid}
noncomputable section

/-- rounding with overflow -/
def ofReal (G : Grid) (x : ℝ) : XF G :=
  if h : G.rnd x ≤ G.big ∧ -G.big ≤ G.rnd x then .fin (G.rnd x) ⟨G.idem x, abs_le.2 ⟨h.2, h.1⟩⟩
  else if G.big < G.rnd x then .pinf else .ninf

/-- an infinity with the sign of `x`, NaN for zero -/
def infOf (G : Grid) (x : ℝ) : XF G := if 0 < x then .pinf else if x < 0 then .ninf else .nan

def neg : XF G → XF G
  | .fin x h => .fin (-x) ⟨by rw [G.neg, h.1], by rw [abs_neg]; exact h.2⟩
  | .pinf => .ninf
  | .ninf => .pinf
  | .nan => .nan

def abs : XF G → XF G
  | .fin x h => .fin |x| ⟨by rcases abs_cases x with ⟨e, -⟩ | ⟨e, -⟩ <;> rw [e]
                            <;> [exact h.1; rw [G.neg, h.1]], by rw [abs_abs]; exact h.2⟩
  | .pinf => .pinf
  | .ninf => .pinf
  | .nan => .nan

def add : XF G → XF G → XF G
  | .nan, _ => .nan
  | _, .nan => .nan
  | .pinf, .ninf => .nan
  | .ninf, .pinf => .nan
  | .pinf, _ => .pinf
  | _, .pinf => .pinf
  | .ninf, _ => .ninf
  | _, .ninf => .ninf
  | .fin x _, .fin y _ => ofReal G (x + y)

def sub (a b : XF G) : XF G := add a (neg b)

def mul : XF G → XF G → XF G
  | .nan, _ => .nan
  | _, .nan => .nan
  | .pinf, .pinf => .pinf
  | .pinf, .ninf => .ninf
  | .ninf, .pinf => .ninf
  | .ninf, .ninf => .pinf
  | .pinf, .fin y _ => infOf G y
  | .fin x _, .pinf => infOf G x
  | .ninf, .fin y _ => infOf G (-y)
  | .fin x _, .ninf => infOf G (-x)
  | .fin x _, .fin y _ => ofReal G (x * y)

def div : XF G → XF G → XF G
  | .nan, _ => .nan
  | _, .nan => .nan
  | .fin x _, .fin y _ => if y = 0 then infOf G x else ofReal G (x / y)
  | .fin _ _, .pinf => ofReal G 0
  | .fin _ _, .ninf => ofReal G 0
  | .pinf, .fin y _ => if y < 0 then .ninf else .pinf
  | .ninf, .fin y _ => if y < 0 then .pinf else .ninf
  | _, _ => .nan

def sqrt : XF G → XF G
  | .fin x _ => if x < 0 then .nan else ofReal G (Real.sqrt x)
  | .pinf => .pinf
  | _ => .nan

/-- position in the order -/
def key : XF G → Option EReal
  | .fin x _ => some (x : EReal)
  | .pinf => some ⊤
  | .ninf => some ⊥
  | .nan => none

end
end XF

/-- the floating-point type of a binary format -/
noncomputable abbrev Mach.ofGrid (G : Grid) : Mach where
  F := XF G
  K := EReal
  ord := inferInstance
  key := XF.key
  add := XF.add
  sub := XF.sub
  mul := XF.mul
  div := XF.div
  neg := XF.neg
  abs := XF.abs
  sqrt := XF.sqrt
  lit := fun q => XF.ofReal G q
  gold := XF.ofReal G ((3 - Real.sqrt 5) / 2)
  huge := .pinf

/-! the operations and comparisons of the type, so that they can be written on `XF G` -/
noncomputable instance (G : Grid) : Add (XF G) := Mach.instAddF (Mach.ofGrid G)
noncomputable instance (G : Grid) : Sub (XF G) := Mach.instSubF (Mach.ofGrid G)
noncomputable instance (G : Grid) : Mul (XF G) := Mach.instMulF (Mach.ofGrid G)
noncomputable instance (G : Grid) : Div (XF G) := Mach.instDivF (Mach.ofGrid G)
noncomputable instance (G : Grid) : Neg (XF G) := Mach.instNegF (Mach.ofGrid G)
noncomputable instance (G : Grid) : LT (XF G) := Mach.instLTF (Mach.ofGrid G)
noncomputable instance (G : Grid) : LE (XF G) := Mach.instLEF (Mach.ofGrid G)

theorem Grid.rnd_zero (G : Grid) : G.rnd 0 = 0 := by
  have := G.neg 0
  rw [neg_zero] at this
  linarith

noncomputable instance (G : Grid) : Zero (XF G) := ⟨.fin 0 ⟨G.rnd_zero, by rw [abs_zero]; linarith [G.two_le]⟩⟩
noncomputable instance (G : Grid) : One (XF G) := ⟨.fin 1 ⟨G.one, by rw [abs_one]; linarith [G.two_le]⟩⟩
noncomputable instance (G : Grid) : DecidableEq (XF G) := fun _ _ => Classical.propDecidable _
noncomputable instance (G : Grid) : DecidableLT (XF G) := fun _ _ => Classical.propDecidable _

end TooN
