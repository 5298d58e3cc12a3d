import Verif.Model.Float
/-!
# Element types with contracted multiply-add

C++ compilers may evaluate `a ± x*y` with one rounding instead of two (`-ffp-contract=fast`, GCC's default, on processors with
fused multiply-add).  `Fu ρ c` is the type of representable numbers in which a product remembers, besides its rounded value, the
number an addition or subtraction that takes it as its right operand uses; whether that is the exact product (fused) or the rounded
one is up to the policy `c`.  Every other use of the product - as a factor, as a stored element, as the left operand - sees the rounded
value.  The generic models (`Model/Ops.lean`, `Model/Cholesky.lean`, `Model/Elim.lean`, `Model/WLS.lean`) are run unchanged at this
type.  Simplifications: the policy may depend on the operands but not on the place in the program; a sum of two products fuses the
right one only.
-/
namespace TooN
open scoped Classical

/-- which products are fused into the sum that consumes them -/
structure Contract (ρ : Rounding) where
  /-- the number an addition uses for the product `x*y` -/
  prod : ℝ → ℝ → ℝ
  ok : ∀ x y, prod x y = x * y ∨ prod x y = ρ.rnd (x * y)

/-- every multiply-add is fused -/
def Contract.always (ρ : Rounding) : Contract ρ := ⟨fun x y => x * y, fun _ _ => .inl rfl⟩
/-- none is -/
def Contract.never (ρ : Rounding) : Contract ρ := ⟨fun x y => ρ.rnd (x * y), fun _ _ => .inr rfl⟩

/-- representable numbers with the contraction policy `c` -/
@[ext] structure Fu (ρ : Rounding) (c : Contract ρ) where
  /-- the value -/
  val : ℝ
  /-- what a sum that takes this number as its right operand uses -/
  ex : ℝ
  rel : ρ.rnd ex = val

namespace Fu
variable {ρ : Rounding} {c : Contract ρ}

theorem repr (a : Fu ρ c) : ρ.rnd a.val = a.val := by rw [← a.rel, ρ.idem]

/-- a result that is not a product -/
noncomputable def of (c : Contract ρ) (x : ℝ) : Fu ρ c := ⟨ρ.rnd x, ρ.rnd x, ρ.idem x⟩

noncomputable instance : Zero (Fu ρ c) := ⟨⟨0, 0, Fl.rnd_zero ρ⟩⟩
noncomputable instance : One (Fu ρ c) := ⟨⟨1, 1, ρ.one⟩⟩
noncomputable instance : Add (Fu ρ c) := ⟨fun a b => of c (a.val + b.ex)⟩
noncomputable instance : Sub (Fu ρ c) := ⟨fun a b => of c (a.val - b.ex)⟩
noncomputable instance : Mul (Fu ρ c) := ⟨fun a b => ⟨ρ.rnd (a.val * b.val), c.prod a.val b.val, by
  rcases c.ok a.val b.val with h | h
  · rw [h]
  · rw [h, ρ.idem]⟩⟩
noncomputable instance : Div (Fu ρ c) := ⟨fun a b => of c (a.val / b.val)⟩
noncomputable instance : Neg (Fu ρ c) := ⟨fun a => ⟨-a.val, -a.val, by rw [ρ.neg, a.repr]⟩⟩
instance : LT (Fu ρ c) := ⟨fun a b => a.val < b.val⟩
instance : LE (Fu ρ c) := ⟨fun a b => a.val ≤ b.val⟩
noncomputable instance : DecidableEq (Fu ρ c) := fun _ _ => Classical.propDecidable _
noncomputable instance : DecidableLT (Fu ρ c) := fun _ _ => Classical.propDecidable _
/-- `std::sqrt` -/
noncomputable def sqrt (a : Fu ρ c) : Fu ρ c := of c (Real.sqrt a.val)

@[simp] theorem val_zero : (0 : Fu ρ c).val = 0 := rfl
@[simp] theorem val_one : (1 : Fu ρ c).val = 1 := rfl
@[simp] theorem val_neg (a : Fu ρ c) : (-a).val = -a.val := rfl
theorem val_add (a b : Fu ρ c) : (a + b).val = ρ.rnd (a.val + b.ex) := rfl
theorem val_sub (a b : Fu ρ c) : (a - b).val = ρ.rnd (a.val - b.ex) := rfl
theorem val_mul (a b : Fu ρ c) : (a * b).val = ρ.rnd (a.val * b.val) := rfl
theorem ex_mul (a b : Fu ρ c) : (a * b).ex = c.prod a.val b.val := rfl
theorem val_div (a b : Fu ρ c) : (a / b).val = ρ.rnd (a.val / b.val) := rfl
theorem val_sqrt (a : Fu ρ c) : (sqrt a).val = ρ.rnd (Real.sqrt a.val) := rfl
theorem lt_def (a b : Fu ρ c) : a < b ↔ a.val < b.val := Iff.rfl

end Fu

/-- the real matrix represented by a matrix of such numbers -/
def umat {ρ : Rounding} {c : Contract ρ} (A : Mat (Fu ρ c)) : Mat ℝ := fun r c => (A r c).val

end TooN
