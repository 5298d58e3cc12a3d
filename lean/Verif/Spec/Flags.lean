import Verif.Proof.XF
import Verif.Proof.Bridge
/-!
# The status flags of IEEE-754

IEEE-754 arithmetic raises a flag when an operation is invalid, divides by zero, overflows or underflows.  `FX G und` is a number of
the format together with the statement that none of these flags was raised when it, and the numbers it was computed from, were
computed.  The inexact flag is not considered.  `und z` says that the exact result `z` underflows.
-/
namespace TooN.Special
open scoped Classical

theorem neg_fin {G : Grid} {x : XF G} (h : ¬ NonFin x) : ¬ NonFin (-x) := by
  cases x with
  | fin v hv => exact fun hh => hh (-v) _ rfl
  | pinf => exact (h nonFin_pinf).elim
  | ninf => exact (h nonFin_ninf).elim
  | nan => exact (h nonFin_nan).elim

/-- a number with its history of exceptions: `ok` = none so far -/
structure FX (G : Grid) (und : ℝ → Prop) where
  val : XF G
  ok : Prop
  /-- a number that is not finite has raised a flag, or was not finite from the start -/
  fin : ok → ¬ NonFin val

namespace FX
variable {G : Grid} {und : ℝ → Prop}

/-- the exact result of an operation on finite numbers does not underflow -/
def exactly (o : ℝ → ℝ → ℝ) (und : ℝ → Prop) : XF G → XF G → Prop
  | .fin x _, .fin y _ => ¬ und (o x y)
  | _, _ => True

/-- a number given from outside: without flag if it is finite -/
def inp (x : XF G) : FX G und := ⟨x, ¬ NonFin x, id⟩

noncomputable section
instance : Zero (FX G und) := ⟨⟨0, True, fun _ h => h _ _ rfl⟩⟩
instance : One (FX G und) := ⟨⟨1, True, fun _ h => h _ _ rfl⟩⟩
/-- sums can only overflow -/
instance : Add (FX G und) := ⟨fun a b => ⟨a.val + b.val, a.ok ∧ b.ok ∧ ¬ NonFin (a.val + b.val), fun h => h.2.2⟩⟩
instance : Sub (FX G und) := ⟨fun a b => ⟨a.val - b.val, a.ok ∧ b.ok ∧ ¬ NonFin (a.val - b.val), fun h => h.2.2⟩⟩
instance : Mul (FX G und) := ⟨fun a b => ⟨a.val * b.val, a.ok ∧ b.ok ∧ ¬ NonFin (a.val * b.val) ∧ exactly (· * ·) und a.val b.val,
  fun h => h.2.2.1⟩⟩
instance : Div (FX G und) := ⟨fun a b => ⟨a.val / b.val, a.ok ∧ b.ok ∧ ¬ NonFin (a.val / b.val) ∧ exactly (· / ·) und a.val b.val,
  fun h => h.2.2.1⟩⟩
instance : Neg (FX G und) := ⟨fun a => ⟨-a.val, a.ok, fun h => neg_fin (a.fin h)⟩⟩
/-- flags do not influence comparisons -/
instance : LT (FX G und) := ⟨fun a b => a.val < b.val⟩
instance : DecidableLT (FX G und) := fun _ _ => Classical.propDecidable _
instance : DecidableEq (FX G und) := fun _ _ => Classical.propDecidable _
/-- square roots -/
def sqrt (a : FX G und) : FX G und :=
  ⟨XF.sqrt a.val, a.ok ∧ ¬ NonFin (XF.sqrt a.val) ∧ exactly (fun x _ => Real.sqrt x) und a.val a.val,
    fun h => h.2.1⟩
end
end FX

/-- Rounding in the format agrees with rounding with unbounded exponent where nothing underflows; sums never underflow. -/
structure Agree (G : Grid) (und : ℝ → Prop) (ρ : Rounding) : Prop where
  rep : ∀ {x}, G.rnd x = x → ρ.rnd x = x
  add : ∀ {x y}, G.rnd x = x → G.rnd y = y → G.rnd (x + y) = ρ.rnd (x + y)
  rnd : ∀ {z}, ¬ und z → G.rnd z = ρ.rnd z

/-- the binary formats and round-to-nearest -/
theorem agree_ieee (p : ℕ) (emin emax : ℤ) (hp : 2 ≤ p) (h1 : emin ≤ -2) (h2 : emin + p - 1 ≤ emax) (h3 : 1 ≤ emax) :
    Agree (Grid.ieee p emin emax hp h1 h2 h3) (Underflows p emin) (Rounding.nearest p (by omega)) where
  rep := fun h => rep_standard (by omega) h
  add := fun hx hy => agree_add (by omega) hx hy
  rnd := fun h => agree_of_not_underflow (by omega) h

/-- the number as an element of the standard model (0 if it is not finite) -/
noncomputable def toFl {G : Grid} {und : ℝ → Prop} {ρ : Rounding} (hA : Agree G und ρ) : XF G → Fl ρ
  | .fin x h => ⟨x, hA.rep h.1⟩
  | _ => 0

end TooN.Special
