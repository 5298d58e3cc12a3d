import Verif.Model.IRLS
import Verif.Props.WLS
import Mathlib.Analysis.Calculus.Deriv.Inv
import Mathlib.Analysis.Calculus.Deriv.Pow
import Mathlib.Analysis.Calculus.Deriv.Abs
import Mathlib.Tactic.FieldSimp
/-!
# C26: IRLS
-/
set_option linter.unusedSectionVars false
namespace TooN.IRLS
open Finset

/-- what irls.h documents for a reweighting class at residual `x`: `objective' (x) = x w(x)` -/
def ObjectiveOK (r : Reweight) (x : ℝ) : Prop := HasDerivAt r.objective (x * r.reweight x) x
/-- `true_scale x = w x + x w'(x)` -/
def TrueScaleOK (r : Reweight) (x : ℝ) : Prop := ∃ w', HasDerivAt r.reweight w' x ∧ r.true_scale x = r.reweight x + x * w'

/-- **C26** `RobustI::true_scale`, away from the kink of `|x|` -/
theorem c26_robustI_true_scale (sd x : ℝ) (h : 0 < sd) (hx : x ≠ 0) : TrueScaleOK (RobustI sd) x := by
  have hne : sd + |x| ≠ 0 := by positivity
  refine ⟨_, ((hasDerivAt_abs hx).const_add sd).inv hne |>.congr_of_eventuallyEq
    (Filter.Eventually.of_forall fun y => by simp [RobustI]), ?_⟩
  simp only [RobustI]
  have hs : x * (SignType.sign x : ℝ) = |x| := by
    rcases lt_or_gt_of_ne hx with h | h
    · simp [sign_neg h, abs_of_neg h]
    · simp [sign_pos h, abs_of_pos h]
  rw [← hs]
  rw [← hs] at hne
  field_simp
  ring

theorem log_form (sd t : ℝ) (h : 0 < sd) (ht : 0 ≤ t) :
    t + sd * Real.log (sd * (1 / (sd + t))) = t + sd * (Real.log sd - Real.log (sd + t)) := by
  rw [Real.log_mul h.ne' (by positivity), Real.log_div one_ne_zero (by positivity), Real.log_one]
  ring

/-- **C26** `RobustI::objective`, at every residual -/
theorem c26_robustI_objective (sd x : ℝ) (h : 0 < sd) : ObjectiveOK (RobustI sd) x := by
  unfold ObjectiveOK
  let g : ℝ → ℝ := fun t => t + sd * (Real.log sd - Real.log (sd + t))
  have hobj : (RobustI sd).objective = fun y => g |y| := by
    funext y; exact log_form sd |y| h (abs_nonneg y)
  have hg : ∀ t, 0 ≤ t → HasDerivAt g (t / (sd + t)) t := by
    intro t ht
    have hne : sd + t ≠ 0 := by positivity
    have h1 : HasDerivAt (fun t => Real.log (sd + t)) (1 / (sd + t)) t :=
      ((hasDerivAt_id t).const_add sd).log hne
    have h2 := (hasDerivAt_id t).add ((h1.const_sub (Real.log sd)).const_mul sd)
    refine h2.congr_deriv ?_
    field_simp
    ring
  rw [hobj]
  simp only [RobustI]
  by_cases hx : x = 0
  · subst hx
    have h0 := hg 0 le_rfl
    rw [zero_div] at h0
    rw [zero_mul]
    rw [hasDerivAt_iff_isLittleO] at h0 ⊢
    have ht : Filter.Tendsto (fun y : ℝ => |y|) (nhds 0) (nhds 0) := by
      have := (continuous_abs (G := ℝ)).tendsto 0
      rwa [abs_zero] at this
    have h1 := h0.comp_tendsto ht
    simp only [Function.comp_def, sub_zero, smul_zero, abs_zero] at h1 ⊢
    exact h1.trans_isBigO (Asymptotics.isBigO_refl _ _ |>.norm_left |>.congr_left (fun y => Real.norm_eq_abs y))
  · have := (hg |x| (abs_nonneg x)).comp x (hasDerivAt_abs hx)
    refine this.congr_deriv ?_
    have hne : sd + |x| ≠ 0 := by positivity
    have hs : |x| * (SignType.sign x : ℝ) = x := by
      rcases lt_or_gt_of_ne hx with h | h
      · simp [sign_neg h, abs_of_neg h]
      · simp [sign_pos h, abs_of_pos h]
    rw [div_mul_eq_mul_div, hs]
    ring

theorem sq_pos' (s2 x : ℝ) (h : 0 < s2) : s2 + x * x ≠ 0 := by
  have := mul_self_nonneg x; positivity

/-- **C26** `RobustII::objective` -/
theorem c26_robustII_objective (s2 x : ℝ) (h : 0 < s2) : ObjectiveOK (RobustII s2) x := by
  unfold ObjectiveOK
  have hne : 1 + x * x / s2 ≠ 0 := by
    have : 0 ≤ x * x / s2 := div_nonneg (mul_self_nonneg x) h.le
    positivity
  have h1 : HasDerivAt (fun y => 1 + y * y / s2) ((1 * x + x * 1) / s2) x :=
    (((hasDerivAt_id x).mul (hasDerivAt_id x)).div_const s2).const_add 1
  have h2 := (h1.log hne).const_mul (0.5 : ℝ)
  refine h2.congr_deriv ?_
  simp only [RobustII]
  have := sq_pos' s2 x h
  have h3 : s2 + x ^ 2 ≠ 0 := by rw [pow_two]; exact this
  field_simp
  ring

/-- **C26** `RobustII::reweight` has derivative `-2x w²`, so `true_scale` should be `w - 2x²w²`... -/
theorem c26_robustII_weight_deriv (s2 x : ℝ) (h : 0 < s2) :
    HasDerivAt (RobustII s2).reweight (-(2 * x) * (RobustII s2).reweight x ^ 2) x := by
  have hne := sq_pos' s2 x h
  have h1 : HasDerivAt (fun y => s2 + y * y) (1 * x + x * 1) x :=
    ((hasDerivAt_id x).mul (hasDerivAt_id x)).const_add s2
  have h2 := h1.inv hne
  refine (h2.congr_of_eventuallyEq (Filter.Eventually.of_forall fun y => by simp [RobustII])).congr_deriv ?_
  simp only [RobustII]
  field_simp
  ring

/-- **C26** ... which the code violates: `RobustII::true_scale(0) = 0`, documented `w(0) = 1/σ`, for every `σ`. -/
theorem c26_robustII_true_scale_wrong (s2 : ℝ) (h : 0 < s2) : ¬ TrueScaleOK (RobustII s2) 0 := by
  rintro ⟨w', _, e⟩
  simp [RobustII] at e
  exact h.ne' e.symm

/-- **C26** `ILinear::true_scale` -/
theorem c26_linear_true_scale (x : ℝ) : TrueScaleOK ILinear x :=
  ⟨0, hasDerivAt_const x 1, by simp [ILinear]⟩

/-- **C26** `ILinear::objective` is twice the documented integral: the relation fails at every `x ≠ 0`. -/
theorem c26_linear_objective_wrong (x : ℝ) (hx : x ≠ 0) : ¬ ObjectiveOK ILinear x := by
  intro h
  have h1 : HasDerivAt ILinear.objective (1 * x + x * 1) x := (hasDerivAt_id x).mul (hasDerivAt_id x)
  have := h.unique h1
  simp [ILinear] at this
  exact hx this

/-- **C26** `RobustIII::objective` -/
theorem c26_robustIII_objective (s2 x : ℝ) (h : 0 < s2) :
    HasDerivAt (robustIII_objective s2) (x * robustIII_reweight s2 x) x := by
  have hq : 0 ≤ x * x / s2 := div_nonneg (mul_self_nonneg x) h.le
  have hne : 1 + x * x / s2 ≠ 0 := by positivity
  have h1 : HasDerivAt (fun y => 2 * (1 + y * y / s2)) (2 * ((1 * x + x * 1) / s2)) x :=
    ((((hasDerivAt_id x).mul (hasDerivAt_id x)).div_const s2).const_add 1).const_mul 2
  have h2 := ((hasDerivAt_id x).mul (hasDerivAt_id x)).div h1 (by simpa using hne)
  refine h2.congr_deriv ?_
  simp only [robustIII_reweight, Pi.mul_apply, id]
  have h3 : s2 + x ^ 2 ≠ 0 := by rw [pow_two]; exact sq_pos' s2 x h
  have h4 : s2 ≠ 0 := h.ne'
  have e : 1 + x * x / s2 = (s2 + x ^ 2) / s2 := by field_simp
  rw [e]
  field_simp
  ring

/-- weights are positive, so robust reweighting keeps the information matrix positive semidefinite -/
theorem c26_weights_positive (sd x : ℝ) (h : 0 < sd) :
    0 < (RobustI sd).reweight x ∧ 0 < (RobustII sd).reweight x ∧ 0 < ILinear.reweight x ∧
    0 < robustIII_reweight sd x := by
  refine ⟨?_, ?_, ?_, ?_⟩
  · show 0 < 1 / (sd + |x|); positivity
  · show 0 < 1 / (sd + x * x); have := mul_self_nonneg x; positivity
  · show (0:ℝ) < 1; norm_num
  · have : 0 ≤ x * x / sd := div_nonneg (mul_self_nonneg x) h.le
    simp only [robustIII_reweight]; positivity

/-- `set_sd(x)` makes the "half weight" residual of RobustI and of RobustII equal to `|x|`: `w(x) = w(0)/2`. -/
theorem c26_set_sd (x : ℝ) (h : 0 < x) :
    (RobustI (setSdI x)).reweight x = (RobustI (setSdI x)).reweight 0 / 2 ∧
    (RobustII (setSdII x)).reweight x = (RobustII (setSdII x)).reweight 0 / 2 := by
  constructor
  · simp only [RobustI, setSdI, abs_of_pos h, abs_zero]; field_simp; ring
  · simp only [RobustII, setSdII]; field_simp; ring

/-- the state after adding a list of (measurement, Jacobian, uninitialised memory) triples to a new object -/
noncomputable def run (r : Reweight) (n : Nat) (C0 : Mat ℝ) (v0 : Vec ℝ) (l : List (ℝ × Vec ℝ × Vec ℝ)) : St :=
  l.foldl (fun s z => addmJ r n z.1 z.2.1 z.2.2 s) (construct n C0 v0)

theorem run_snoc (r : Reweight) (n : Nat) (C0 : Mat ℝ) (v0 : Vec ℝ) (l : List (ℝ × Vec ℝ × Vec ℝ)) (z) :
    run r n C0 v0 (l ++ [z]) = addmJ r n z.1 z.2.1 z.2.2 (run r n C0 v0 l) := by
  simp [run]

/-- **C26** every `IRLS::add_mJ` history is the WLS history with weights `reweight(m)`, and the residual is the
sum of the objectives. -/
theorem c26_history (r : Reweight) (n : Nat) (C0 : Mat ℝ) (v0 : Vec ℝ) (l : List (ℝ × Vec ℝ × Vec ℝ)) :
    WLS.Reach n (run r n C0 v0 l).wls (l.map fun z => WLS.Meas.scalar z.1 (asV n z.2.1) (r.reweight z.1)) ∧
    (run r n C0 v0 l).residual = (l.map fun z => r.objective z.1).sum := by
  induction l using List.reverseRecOn with
  | nil => exact ⟨.construct C0 v0, rfl⟩
  | append_singleton l z ih =>
    rw [run_snoc]
    refine ⟨?_, ?_⟩
    · rw [List.map_append]
      exact .mJ z.1 z.2.1 (r.reweight z.1) ih.1
    · show (run r n C0 v0 l).residual + r.objective z.1 = _
      rw [ih.2]; simp

/-- **C26** hence `compute()` minimises the reweighted sum of squares `Σ w(mᵢ) (mᵢ - Jᵢ·x)²`. -/
theorem c26_minimises (r : Reweight) (n : Nat) (C0 : Mat ℝ) (v0 : Vec ℝ) (l : List (ℝ × Vec ℝ × Vec ℝ))
    (hpd : SymPosDef (l.map fun z => Matrix.of fun i j : Fin n => r.reweight z.1 * z.2.1 i * z.2.1 j).sum)
    (u w : Vec ℝ) :
    ∃ mu, (compute n u w (run r n C0 v0 l)).wls.mu = some mu ∧
      ∀ x : Fin n → ℝ, x ≠ asV n mu →
        (l.map fun z => r.reweight z.1 * (z.1 - dotProduct (asV n z.2.1) (asV n mu)) ^ 2).sum <
        (l.map fun z => r.reweight z.1 * (z.1 - dotProduct (asV n z.2.1) x) ^ 2).sum := by
  obtain ⟨hr, -⟩ := c26_history r n C0 v0 l
  have hinfo : (l.map fun z => Matrix.of fun i j : Fin n => r.reweight z.1 * z.2.1 i * z.2.1 j).sum =
      ((l.map fun z => WLS.Meas.scalar z.1 (asV n z.2.1) (r.reweight z.1)).map
        fun z : WLS.Meas n ℝ => z.J.transpose * z.W * z.J).sum := by
    rw [List.map_map]
    congr 1
    refine List.map_congr_left fun z _ => ?_
    ext i j
    exact (WLS.info_scalar z.1 (asV n z.2.1) (r.reweight z.1) i j).symm
  rw [hinfo] at hpd
  obtain ⟨mu, h1, -, h3⟩ := WLS.c23_minimiser hr hpd u w
  refine ⟨mu, h1, fun x hx => ?_⟩
  have hcost : ∀ x : Fin n → ℝ, (l.map fun z => r.reweight z.1 * (z.1 - dotProduct (asV n z.2.1) x) ^ 2).sum =
      ((l.map fun z => WLS.Meas.scalar z.1 (asV n z.2.1) (r.reweight z.1)).map
        fun z : WLS.Meas n ℝ => dotProduct (z.m - z.J.mulVec x) (z.W.mulVec (z.m - z.J.mulVec x))).sum := by
    intro x
    rw [List.map_map]
    congr 1
    refine List.map_congr_left fun z _ => ?_
    show _ = (WLS.Meas.scalar z.1 (asV n z.2.1) (r.reweight z.1)).cost x
    have e : ∀ (N : Nat) (m : Fin N → ℝ) (J : Matrix (Fin N) (Fin n) ℝ) (W : Matrix (Fin N) (Fin N) ℝ),
      (⟨N, m, J, W⟩ : WLS.Meas n ℝ).cost x = dotProduct (m - J.mulVec x) (W.mulVec (m - J.mulVec x)) :=
      fun _ _ _ _ => rfl
    rw [WLS.Meas.scalar, e]
    simp [Matrix.mulVec, dotProduct]
    ring
  rw [hcost, hcost]
  exact h3 x hx

/-- **C26** the hypothesis is met: one measurement of one parameter, with any robust estimator. -/
example (sd m : ℝ) (h : 0 < sd) :
    SymPosDef (([(m, (fun _ => 1), (fun _ => 0))] : List (ℝ × Vec ℝ × Vec ℝ)).map fun z =>
      Matrix.of fun i j : Fin 1 => (RobustI sd).reweight z.1 * z.2.1 i * z.2.1 j).sum := by
  have hw := (c26_weights_positive sd m h).1
  constructor
  · ext i j; simp
  · intro x hx
    have hx0 : x 0 ≠ 0 := fun h0 => hx (funext fun i => by rw [Subsingleton.elim i 0]; exact h0)
    have : 0 < x 0 * x 0 := mul_self_pos.2 hx0
    simp [Matrix.mulVec, dotProduct]
    nlinarith [mul_pos hw this]

/-- **C26** `get_true_C_inv()` never depends on the measurements: each `add_mJ` adds `u uᵀ` with `u`
uninitialised memory, whatever `m`, `J` and the estimator are. -/
theorem c26_true_C_inv_is_garbage (r r' : Reweight) (n : Nat) (m m' : ℝ) (J J' u : Vec ℝ) (s : St) :
    (addmJ r n m J u s).trueC = (addmJ r' n m' J' u s).trueC ∧
    (0 < n → ∃ u', (addmJ r n m J u s).trueC 0 0 ≠ (addmJ r n m J u' s).trueC 0 0) := by
  refine ⟨rfl, fun hn => ?_⟩
  refine ⟨fun _ => |u 0| + 1, ?_⟩
  show WLS.plusEqM n n 0 0 _ s.trueC 0 0 ≠ WLS.plusEqM n n 0 0 _ s.trueC 0 0
  rw [WLS.plusEqM_apply, WLS.plusEqM_apply, if_pos (by omega), if_pos (by omega)]
  intro h
  have h' : u 0 * u 0 = (|u 0| + 1) * (|u 0| + 1) := by simpa using h
  have := abs_nonneg (u 0)
  have h2 := abs_mul_abs_self (u 0)
  nlinarith

/-- **C26** `a += b` loses the residual of `b`. -/
theorem c26_plusEq_loses_residual (n : Nat) (a b : St) : (plusEq n b a).residual = a.residual := rfl

/-- **C26** `a += b` combines the measurements as WLS does. -/
theorem c26_plusEq_wls (n : Nat) (a b : St) {ms ms' : List (WLS.Meas n ℝ)} (ha : WLS.Reach n a.wls ms)
    (hb : WLS.Reach n b.wls ms') : WLS.Reach n (plusEq n b a).wls (ms ++ ms') := .plusEq ha hb

/-- **C26** `clear()` -/
theorem c26_clear (n : Nat) (s : St) {ms : List (WLS.Meas n ℝ)} (h : WLS.Reach n s.wls ms) :
    WLS.Reach n (clear n s).wls [] ∧ (clear n s).residual = 0 ∧ asM n n (clear n s).trueC = 0 := by
  refine ⟨.clear h, rfl, ?_⟩
  ext i j
  show Ops.zerosM n n s.trueC i j = 0
  rw [Ops.zerosM, evalM_apply, if_pos ⟨i.2, j.2⟩]

end TooN.IRLS
