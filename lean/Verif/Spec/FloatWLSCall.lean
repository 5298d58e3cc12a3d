import Verif.Spec.FloatWLS
import Verif.Model.WLSRun
import Verif.Model.Float
/-!
# What the calls of a `WLS` session mean
-/
namespace TooN.WLS
variable {ρ : Rounding}

/-- what a call means: priors are diagonal, a sparse Jacobian is zero outside its block (wls.h:64-66, 73-77, 93-97, 148-154) -/
noncomputable def Call.info : Call (Fl ρ) → Info
  | .prior p => .prior fun _ => p.val
  | .priors p => .prior (rvec p)
  | .mJ m J w => .meas m.val (rvec J) w.val
  | .sparse m k J1 idx w => .meas m.val (fun j => if idx ≤ j ∧ j < idx + k then (J1 (j - idx)).val else 0) w.val

end TooN.WLS
