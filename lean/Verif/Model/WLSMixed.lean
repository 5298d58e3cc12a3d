import Verif.Model.WLSRun
import Verif.Model.Float
/-!
# `WLS` with its `double` intermediate

wls.h:103 and :161 declare `double Jw = weight * J[r]` whatever the element type is.  `addUpperU` is `addUpper` of `Model/WLS.lean` with
the type of `Jw` and the three expressions it occurs in as parameters; `ρ` is the arithmetic of `Precision`, `δ` that of `double`, `κ`
that of the common type of the two.
-/
namespace TooN.WLS
variable {K D : Type _} [Zero K] [One K] [Add K] [Sub K] [Mul K] [Div K] [DecidableEq K]

/-- the expressions that involve `Jw`: its initialiser (103/161), `v += m*Jw` (104/162) and `C += Jw*J[c]` (106/164) -/
structure JwOps (K D : Type _) where
  /-- `double Jw = weight * J[r]` -/
  jw : K → K → D
  /-- `v += m * Jw` -/
  accV : K → K → D → K
  /-- `C += Jw * J[c]` -/
  accC : K → D → K → K

/-- everything computed in the element type -/
def JwOps.std (K : Type _) [Add K] [Mul K] : JwOps K K := ⟨fun w a => w * a, fun v m j => v + m * j, fun c j a => c + j * a⟩

/-- the upper-triangle update of `add_mJ` / `add_sparse_mJ` (wls.h:101-107, 159-165) -/
def addUpperU (o : JwOps K D) (k off : Nat) (m : K) (J : Vec K) (weight : K) (s : St K) : St K :=
  forN k (fun r s =>
    let Jw := o.jw weight (J r)
    let s : St K := { s with v := Vec.set s.v (r + off) (o.accV (s.v (r + off)) m Jw) }
    { s with C := forRange r k (fun c C => Mat.set C (r + off) (c + off) (o.accC (C (r + off) (c + off)) Jw (J c))) s.C }) s

/-- the call's effect (wls.h:68-72, 78-83, 98-108, 155-166) -/
def Call.runU (o : JwOps K D) (n : Nat) : Call K → St K → St K
  | .prior p, s => addPriorS n p s
  | .priors p, s => addPriorV n p s
  | .mJ m J w, s => addUpperU o n 0 m J w s
  | .sparse m k J1 i w, s => addUpperU o k i m J1 w s

/-- `WLS<n> wls; for(k<N) <call k>;` (wls.h:45-166) -/
def sessionU (o : JwOps K D) (n N : Nat) (calls : Nat → Call K) (C0 : Mat K) (v0 : Vec K) : St K :=
  forN N (fun k s => (calls k).runU o n s) (construct n C0 v0)

/-- the C++ semantics of the three expressions: `weight*J[r]` is computed in `Precision` and converted to `double`; the other two are
computed in the common type and converted to `Precision` on assignment (wls.h:103-106, 161-164) -/
noncomputable def JwOps.mixed (ρ δ κ : Rounding) : JwOps (Fl ρ) (Fl δ) :=
  ⟨fun w a => Fl.of δ (w * a).val,
   fun v m j => Fl.of ρ (κ.rnd (v.val + κ.rnd (m.val * j.val))),
   fun c j a => Fl.of ρ (κ.rnd (c.val + κ.rnd (j.val * a.val)))⟩

end TooN.WLS
