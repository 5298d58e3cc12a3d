import Verif.Spec.Float
import Verif.Model.Ops
/-!
# Floating-point element types

The element types the library is used with are `float` and `double`; the other model files work with exact
arithmetic.  The functions of `Model/Ops.lean`, `Model/Cholesky.lean` and `Model/Elim.lean` use nothing
but the arithmetic operations of the element type, so they can be run at the type `Fl ρ` of
representable numbers, whose operations round after every operation.  This is what the compiled code does
(one rounding per `+ - * /` in source order; no fused multiply-add, no extended precision, no
reassociation, no overflow or underflow).
-/
namespace TooN
open scoped Classical

/-- representable numbers (values of the C++ type `float` or `double`) -/
@[ext] structure Fl (ρ : Rounding) where
  /-- the real number represented -/
  val : ℝ
  repr : ρ.rnd val = val

namespace Fl
variable {ρ : Rounding}

/-- result of an operation whose exact value is `x` -/
noncomputable def of (ρ : Rounding) (x : ℝ) : Fl ρ := ⟨ρ.rnd x, ρ.idem x⟩

theorem rnd_zero (ρ : Rounding) : ρ.rnd 0 = 0 := by
  have := ρ.err 0; simpa using this

noncomputable instance : Zero (Fl ρ) := ⟨⟨0, rnd_zero ρ⟩⟩
noncomputable instance : One (Fl ρ) := ⟨⟨1, ρ.one⟩⟩
noncomputable instance : Add (Fl ρ) := ⟨fun a b => of ρ (a.val + b.val)⟩
noncomputable instance : Sub (Fl ρ) := ⟨fun a b => of ρ (a.val - b.val)⟩
noncomputable instance : Mul (Fl ρ) := ⟨fun a b => of ρ (a.val * b.val)⟩
noncomputable instance : Div (Fl ρ) := ⟨fun a b => of ρ (a.val / b.val)⟩
noncomputable instance : Neg (Fl ρ) := ⟨fun a => ⟨-a.val, by rw [ρ.neg, a.repr]⟩⟩
instance : LT (Fl ρ) := ⟨fun a b => a.val < b.val⟩
instance : LE (Fl ρ) := ⟨fun a b => a.val ≤ b.val⟩
noncomputable instance : DecidableEq (Fl ρ) := fun _ _ => Classical.propDecidable _
noncomputable instance : DecidableLT (Fl ρ) := fun _ _ => Classical.propDecidable _
/-- `std::sqrt` (correctly rounded, as IEEE-754 requires) -/
noncomputable def sqrt (a : Fl ρ) : Fl ρ := of ρ (Real.sqrt a.val)

@[simp] theorem val_zero : (0 : Fl ρ).val = 0 := rfl
@[simp] theorem val_one : (1 : Fl ρ).val = 1 := rfl
@[simp] theorem val_neg (a : Fl ρ) : (-a).val = -a.val := rfl
theorem val_add (a b : Fl ρ) : (a + b).val = ρ.rnd (a.val + b.val) := rfl
theorem val_sub (a b : Fl ρ) : (a - b).val = ρ.rnd (a.val - b.val) := rfl
theorem val_mul (a b : Fl ρ) : (a * b).val = ρ.rnd (a.val * b.val) := rfl
theorem val_div (a b : Fl ρ) : (a / b).val = ρ.rnd (a.val / b.val) := rfl
theorem val_sqrt (a : Fl ρ) : (sqrt a).val = ρ.rnd (Real.sqrt a.val) := rfl
theorem lt_def (a b : Fl ρ) : a < b ↔ a.val < b.val := Iff.rfl
theorem eq_iff (a b : Fl ρ) : a = b ↔ a.val = b.val := Fl.ext_iff
theorem eq_zero_iff (a : Fl ρ) : a = 0 ↔ a.val = 0 := Fl.ext_iff

end Fl

/-- the real matrix/vector represented by a matrix/vector of representable numbers -/
def rmat {ρ : Rounding} (A : Mat (Fl ρ)) : Mat ℝ := fun r c => (A r c).val
def rvec {ρ : Rounding} (v : Vec (Fl ρ)) : Vec ℝ := fun i => (v i).val

/-- `norm(v) = sqrt(v*v)` (helpers.h:97-101) in rounded arithmetic -/
noncomputable def normFl {ρ : Rounding} (n : ℕ) (v : Vec (Fl ρ)) : Fl ρ := Fl.sqrt (Ops.dot n v v)

/-- `unit(v) = v * (1/sqrt(v*v))` (helpers.h:153-157) in rounded arithmetic; `none` = division by zero -/
noncomputable def unitFl {ρ : Rounding} (n : ℕ) (v u : Vec (Fl ρ)) : Option (Vec (Fl ρ)) :=
  if Fl.sqrt (Ops.dot n v v) = 0 then none
  else some (Ops.applyScalarV (· * ·) n v (1 / Fl.sqrt (Ops.dot n v v)) u)

/-- `normalize(v)`: `v /= sqrt(v*v)` (helpers.h:162-175) in rounded arithmetic -/
noncomputable def normalizeFl {ρ : Rounding} (n : ℕ) (v : Vec (Fl ρ)) : Option (Vec (Fl ρ)) :=
  if Fl.sqrt (Ops.dot n v v) = 0 then none
  else some (forN n (fun i w => Vec.set w i (w i / Fl.sqrt (Ops.dot n v v))) v)

end TooN
