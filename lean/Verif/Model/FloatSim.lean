import Verif.Model.FloatPose
/-!
# Similarity transformations stored in floating point

`SIM2`, `SIM3` of sim2.h, sim3.h (`Model/SIM.lean` in exact arithmetic) with every operation rounded, one rounding per operation and
`Precision` the same type on both sides.
-/
namespace TooN.FlRot
open scoped Classical
variable {ρ : Rounding}

/-- a `SIM2`/`SIM3` object: the members `my_se2`/`my_se3` and `my_scale` (sim2.h:152-153, sim3.h:176-177) -/
structure Sim (ρ : Rounding) where
  R : Mat (Fl ρ)
  t : Vec (Fl ρ)
  s : Fl ρ

/-- storage of the temporaries and results of a product of two transformations -/
structure SimJunk (ρ : Rounding) where
  m : Mat (Fl ρ)
  v1 : Vec (Fl ρ)
  v2 : Vec (Fl ρ)
  v3 : Vec (Fl ρ)

/-- `transform * Vector<n>` (sim2.h:219-221, sim3.h:313-315): `translation + rotation * (scale * rhs)` -/
noncomputable def simAct (n : ℕ) (a : Sim ρ) (x w1 w2 w3 : Vec (Fl ρ)) : Vec (Fl ρ) :=
  Ops.addV n a.t (soAct n a.R (Ops.applyScalarVL (· * ·) n a.s x w1) w2) w3

/-- `operator*` (sim2.h:93-95, sim3.h:108-110) -/
noncomputable def simMul (n : ℕ) (a b : Sim ρ) (w : SimJunk ρ) : Sim ρ :=
  ⟨soMul n a.R b.R w.m, Ops.addV n a.t (soAct n a.R (Ops.applyScalarVL (· * ·) n a.s b.t w.v1) w.v2) w.v3, a.s * b.s⟩

/-- `SIM3::inverse` (sim3.h:85-89): `SIM3(rinv, -(inv_scale*(rinv*translation)), inv_scale)`; `none` is the division by zero.  The literal
`1` is converted exactly, and `-v` is a multiplication by `-1`, which does not round. -/
noncomputable def sim3InvFl (a : Sim ρ) (w1 w2 : Vec (Fl ρ)) : Option (Sim ρ) :=
  let rinv := soInv a.R
  if a.s = 0 then none else
    let inv_scale := 1 / a.s
    let p := Ops.applyScalarVL (· * ·) 3 inv_scale (soAct 3 rinv a.t w1) w2
    some ⟨rinv, fun i => -p i, inv_scale⟩

/-- `SIM2::inverse` (sim2.h:84-88): `SIM2(rinv, -(rinv*(inv_scale*translation)), inv_scale)` -/
noncomputable def sim2InvFl (a : Sim ρ) (w1 w2 : Vec (Fl ρ)) : Option (Sim ρ) :=
  let rinv := soInv a.R
  if a.s = 0 then none else
    let inv_scale := 1 / a.s
    let p := soAct 2 rinv (Ops.applyScalarVL (· * ·) 2 inv_scale a.t w1) w2
    some ⟨rinv, fun i => -p i, inv_scale⟩

/-- `T = A[0]; for(i…) T = T * A[i];` -/
noncomputable def simChain (n : ℕ) (A : ℕ → Sim ρ) (W : ℕ → SimJunk ρ) : ℕ → Sim ρ
  | 0 => A 0
  | k + 1 => simMul n (simChain n A W k) (A (k + 1)) (W k)

end TooN.FlRot
