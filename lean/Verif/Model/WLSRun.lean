import Verif.Model.WLS
/-!
# A sequence of calls to a `WLS` object

`Model/WLS.lean` models the calls one by one; here a history of priors and scalar measurements followed by `compute()`, for
any element type (the definitions use only its operations).
-/
namespace TooN.WLS
variable {K : Type _} [Zero K] [One K] [Add K] [Sub K] [Mul K] [Div K] [DecidableEq K]

/-- a call that adds information -/
inductive Call (K : Type _)
  /-- `add_prior(p)`, scalar (wls.h:68-72) -/
  | prior (p : K)
  /-- `add_prior(p)`, vector (wls.h:78-83) -/
  | priors (p : Vec K)
  /-- `add_mJ(m, J, w)` (wls.h:98-108) -/
  | mJ (m : K) (J : Vec K) (w : K)
  /-- `add_sparse_mJ(m, J1, index, w)` with `J1.size() = k` (wls.h:155-166) -/
  | sparse (m : K) (k : Nat) (J1 : Vec K) (index : Nat) (w : K)

/-- the call's effect -/
def Call.run (n : Nat) : Call K → St K → St K
  | .prior p, s => addPriorS n p s
  | .priors p, s => addPriorV n p s
  | .mJ m J w, s => addmJ n m J w s
  | .sparse m k J1 i w, s => addSparse k m J1 i w s

/-- `WLS<n> wls; for(k<N) <call k>;` -/
def session (n N : Nat) (calls : Nat → Call K) (C0 : Mat K) (v0 : Vec K) : St K :=
  forN N (fun k s => (calls k).run n s) (construct n C0 v0)

end TooN.WLS
