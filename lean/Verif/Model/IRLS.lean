import Verif.Model.WLS
import Mathlib.Analysis.SpecialFunctions.Log.Deriv
/-!
# irls.h: reweighting functors and `IRLS<Size, Precision, Reweight>`, real arithmetic
-/
namespace TooN.IRLS
open scoped Classical
noncomputable section

/-- the three methods IRLS needs from a reweighting class (irls.h:101-102) -/
structure Reweight where
  reweight : ℝ → ℝ
  true_scale : ℝ → ℝ
  objective : ℝ → ℝ

/-- `RobustI` with `sd_inlier = sd` (irls.h:43-49) -/
def RobustI (sd : ℝ) : Reweight where
  reweight x := 1 / (sd + |x|)
  true_scale x := 1 / (sd + |x|) - |x| * (1 / (sd + |x|)) * (1 / (sd + |x|))
  objective x := |x| + sd * Real.log (sd * (1 / (sd + |x|)))

/-- `RobustII` with `sd_inlier = s2` (irls.h:56-62) -/
def RobustII (s2 : ℝ) : Reweight where
  reweight d := 1 / (s2 + d*d)
  true_scale d := d - 2*d*(1 / (s2 + d*d))
  objective d := 0.5 * Real.log (1 + d*d/s2)

/-- `ILinear` (irls.h:69-74) -/
def ILinear : Reweight where
  reweight _ := 1
  true_scale _ := 1
  objective d := d*d

/-- `RobustIII::reweight` (irls.h:87-91) -/
def robustIII_reweight (s2 x : ℝ) : ℝ :=
  let d := 1 + x*x/s2
  1/(d*d)
/-- `RobustIII::objective` (irls.h:93-96).  There is no `true_scale`, so `RobustIII` cannot be used in
`IRLS::add_mJ`. -/
def robustIII_objective (s2 x : ℝ) : ℝ := x*x / (2*(1 + x*x/s2))

/-- `set_sd` of RobustI (irls.h:44), of RobustII/III (irls.h:57, 84) -/
def setSdI (x : ℝ) : ℝ := x
def setSdII (x : ℝ) : ℝ := x * x

structure St where
  wls : WLS.St ℝ
  residual : ℝ
  trueC : Mat ℝ

/-- `IRLS(size)` (irls.h:110-115) -/
def construct (n : Nat) (C0 : Mat ℝ) (v0 : Vec ℝ) : St := ⟨WLS.construct n C0 v0, 0, fun _ _ => 0⟩

/-- `add_mJ(m, J)` (irls.h:117-131), static size.  `Vector<Size,Precision> scaledm(m*ts)` converts the scalar to
`int` and calls `Vector(int size)`, which for a static vector ignores its argument (vector.hh:156, allocator.hh:128):
`scaledm` is *uninitialised*, with contents `u`. -/
def addmJ (rw' : Reweight) (n : Nat) (m : ℝ) (J : Vec ℝ) (u : Vec ℝ) (s : St) : St :=
  let scale := rw'.reweight m
  { wls := WLS.addmJ n m J scale s.wls
    residual := s.residual + rw'.objective m
    trueC := WLS.plusEqM n n 0 0 (fun r c => u r * u c) s.trueC }

/-- `operator+=` (irls.h:133-136); `my_residual` is not touched -/
def plusEq (n : Nat) (meas s : St) : St :=
  { s with wls := WLS.plusEq n meas.wls s.wls
           trueC := WLS.plusEqM n n 0 0 meas.trueC s.trueC }

/-- `clear()` (irls.h:144-148) -/
def clear (n : Nat) (s : St) : St :=
  { wls := WLS.clear n s.wls, residual := 0, trueC := Ops.zerosM n n s.trueC }

/-- `compute()` is inherited from WLS -/
def compute (n : Nat) (u w : Vec ℝ) (s : St) : St := { s with wls := WLS.compute n u w s.wls }

end
end TooN.IRLS
