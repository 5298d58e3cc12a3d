import Verif.Model.IRLSLoop
import Verif.Proof.IRLSLoop
import Verif.Props.IRLS
import Mathlib.Analysis.Complex.ExponentialBounds
/-!
# C80: the reweighting iteration decreases the robust cost and converges
-/
set_option linter.unusedSectionVars false
namespace TooN.IRLS
open Finset Filter Topology

/-! ## Specification -/

/-- the robust cost of the parameters `x`: `Σᵢ objective(yᵢ - Jᵢ·x)` -/
def robustCost (r : Reweight) (n N : Nat) (y : Vec ℝ) (J : Mat ℝ) (x : Fin n → ℝ) : ℝ :=
  ∑ i : Fin N, r.objective (y i - ∑ j : Fin n, J i j * x j)

/-- the measurements determine the parameters -/
def FullRank (n N : Nat) (J : Mat ℝ) : Prop :=
  ∀ v : Fin n → ℝ, (∀ i : Fin N, ∑ j : Fin n, J i j * v j = 0) → v = 0

/-- every directional derivative of the cost is 0 at `x` -/
def Stationary (r : Reweight) (n N : Nat) (y : Vec ℝ) (J : Mat ℝ) (x : Fin n → ℝ) : Prop :=
  ∀ v : Fin n → ℝ, HasDerivAt (fun t : ℝ => robustCost r n N y J (x + t • v)) 0 0

/-! ## The library's estimators -/

theorem estI (sd : ℝ) (h : 0 < sd) : Estimator (RobustI sd) (1 / 2) where
  kpos := by norm_num
  deriv t := by
    have := c26_robustI_objective sd t h
    exact this.congr_deriv (by ring)
  wpos t := (c26_weights_positive sd t h).1
  anti s t hst := by
    simp only [RobustI]
    have := abs_nonneg s
    gcongr

theorem estII (s2 : ℝ) (h : 0 < s2) : Estimator (RobustII s2) (1 / 2) where
  kpos := by norm_num
  deriv t := by
    have := c26_robustII_objective s2 t h
    exact this.congr_deriv (by ring)
  wpos t := (c26_weights_positive s2 t h).2.1
  anti s t hst := by
    simp only [RobustII]
    have h1 := mul_self_nonneg s
    have h2 : s * s ≤ t * t := by rw [← abs_mul_abs_self s, ← abs_mul_abs_self t]; exact mul_self_le_mul_self (abs_nonneg _) hst
    gcongr

theorem estLin : Estimator ILinear 1 where
  kpos := one_pos
  deriv t := by
    have h1 : HasDerivAt ILinear.objective (1 * t + t * 1) t := (hasDerivAt_id t).mul (hasDerivAt_id t)
    exact h1.congr_deriv (by simp [ILinear]; ring)
  wpos t := one_pos
  anti s t _ := le_rfl

/-- `RobustIII` with any `true_scale` a derived class may give it -/
theorem estIII (s2 : ℝ) (h : 0 < s2) (ts : ℝ → ℝ) : Estimator ⟨robustIII_reweight s2, ts, robustIII_objective s2⟩ (1 / 2) where
  kpos := by norm_num
  deriv t := by
    have := c26_robustIII_objective s2 t h
    exact this.congr_deriv (by ring)
  wpos t := (c26_weights_positive s2 t h).2.2.2
  anti s t hst := by
    simp only [robustIII_reweight]
    have h1 := mul_self_nonneg s
    have h2 : s * s ≤ t * t := by rw [← abs_mul_abs_self s, ← abs_mul_abs_self t]; exact mul_self_le_mul_self (abs_nonneg _) hst
    have h3 : 0 ≤ s * s / s2 := div_nonneg h1 h.le
    have h4 : s * s / s2 ≤ t * t / s2 := by gcongr
    have h5 : 0 ≤ 1 + t * t / s2 := by linarith
    gcongr

/-- the objective of `RobustI` controls the residual -/
theorem obj_I_bound (sd : ℝ) (h : 0 < sd) (t : ℝ) : |t| ≤ 2 * (RobustI sd).objective t + sd := by
  show |t| ≤ 2 * (|t| + sd * Real.log (sd * (1 / (sd + |t|)))) + sd
  rw [log_form sd |t| h (abs_nonneg t)]
  -- log ((sd + a) / (2 sd)) ≤ (sd + a) / (2 sd) - 1, and log 2 < 0.7
  have ha := abs_nonneg t
  have h1 : Real.log ((sd + |t|) / (2 * sd)) ≤ (sd + |t|) / (2 * sd) - 1 := Real.log_le_sub_one_of_pos (by positivity)
  rw [Real.log_div (by positivity) (by positivity), Real.log_mul (by norm_num) h.ne'] at h1
  have h2 := Real.log_two_lt_d9
  have h3 : sd * ((sd + |t|) / (2 * sd)) = (sd + |t|) / 2 := by field_simp
  have h4 := mul_le_mul_of_nonneg_left h1 h.le
  have h5 : sd * Real.log 2 ≤ sd * 0.75 := mul_le_mul_of_nonneg_left (by linarith) h.le
  nlinarith

theorem coerI (sd : ℝ) (h : 0 < sd) : Coercive (RobustI sd) := fun C =>
  ⟨2 * C + sd, fun t ht => (obj_I_bound sd h t).trans (by linarith)⟩

theorem coerII (s2 : ℝ) (h : 0 < s2) : Coercive (RobustII s2) := by
  intro C
  refine ⟨√(s2 * (Real.exp (2 * C) - 1)), fun t ht => Real.abs_le_sqrt ?_⟩
  have ht : 0.5 * Real.log (1 + t * t / s2) ≤ C := ht
  have hq : 0 ≤ t * t / s2 := div_nonneg (mul_self_nonneg t) h.le
  have h1 : Real.log (1 + t * t / s2) ≤ 2 * C := by linarith
  have h2 := (Real.log_le_iff_le_exp (by positivity)).1 h1
  have h3 : t ^ 2 = s2 * (t * t / s2) := by field_simp
  rw [h3]
  exact mul_le_mul_of_nonneg_left (by linarith) h.le

theorem coerLin : Coercive ILinear := by
  intro C
  refine ⟨√C, fun t ht => Real.abs_le_sqrt ?_⟩
  have ht : t * t ≤ C := ht
  linarith [pow_two t]

theorem contI (sd : ℝ) (h : 0 < sd) : Continuous (RobustI sd).reweight := by
  show Continuous fun x : ℝ => 1 / (sd + |x|)
  exact continuous_const.div (by fun_prop) fun x => by positivity

theorem contII (s2 : ℝ) (h : 0 < s2) : Continuous (RobustII s2).reweight := by
  show Continuous fun x : ℝ => 1 / (s2 + x * x)
  exact continuous_const.div (by fun_prop) fun x => sq_pos' s2 x h

theorem strongI (sd : ℝ) (h : 0 < sd) (R : ℝ) (hR : 0 ≤ R) : Strong (RobustI sd) (sd / (sd + R) ^ 2) R := by
  intro s t hs ht hst
  show sd / (sd + R) ^ 2 * (t - s) ≤ t * (1 / (sd + |t|)) - s * (1 / (sd + |s|))
  have has := abs_nonneg s
  have hat := abs_nonneg t
  have hp : 0 < (sd + |t|) * (sd + |s|) := by positivity
  -- the numerator is at least sd (t - s)
  have hnum : sd * (t - s) ≤ t * (sd + |s|) - s * (sd + |t|) := by
    have : s * |t| ≤ t * |s| := by
      rcases le_total 0 s with h0 | h0
      · rw [abs_of_nonneg h0, abs_of_nonneg (h0.trans hst)]; linarith
      · rcases le_total 0 t with h1 | h1
        · rw [abs_of_nonpos h0, abs_of_nonneg h1]; nlinarith
        · rw [abs_of_nonpos h0, abs_of_nonpos h1]; linarith
    nlinarith
  have e : t * (1 / (sd + |t|)) - s * (1 / (sd + |s|)) = (t * (sd + |s|) - s * (sd + |t|)) / ((sd + |t|) * (sd + |s|)) := by
    field_simp
  rw [e, le_div_iff₀ hp]
  refine le_trans ?_ hnum
  have hle : (sd + |t|) * (sd + |s|) ≤ (sd + R) ^ 2 := by
    rw [pow_two]; exact mul_le_mul (by linarith) (by linarith) (by positivity) (by positivity)
  have h0 : 0 ≤ sd * (t - s) := mul_nonneg h.le (by linarith)
  have : sd / (sd + R) ^ 2 * (t - s) * ((sd + |t|) * (sd + |s|)) = sd * (t - s) * (((sd + |t|) * (sd + |s|)) / (sd + R) ^ 2) := by ring
  rw [this]
  exact mul_le_of_le_one_right h0 ((div_le_one (by positivity)).2 hle)

theorem strictI (sd : ℝ) (h : 0 < sd) : StrictScore (RobustI sd) := by
  intro s t hst
  have := strongI sd h (max |s| |t|) (le_max_of_le_left (abs_nonneg s)) s t (le_max_left _ _) (le_max_right _ _) hst.le
  have h2 : 0 < sd / (sd + max |s| |t|) ^ 2 * (t - s) := by
    have : 0 ≤ max |s| |t| := le_max_of_le_left (abs_nonneg s)
    exact mul_pos (by positivity) (by linarith)
  show s * _ < t * _
  linarith

/-! ## From the calls to the vectors -/

section link
variable (r : Reweight) (n N : Nat) (y : Vec ℝ) (J : Mat ℝ)

theorem robustCost_eq (x : Fin n → ℝ) : robustCost r n N y J x = cost r (fun i : Fin N => y i) (fun (i : Fin N) (j : Fin n) => J i j) x := rfl

theorem fullRank_iff : FullRank n N J ↔ Spans (N := N) (fun i (j : Fin n) => J i j) := Iff.rfl

theorem dot_res (i : Fin N) (x : Vec ℝ) :
    y i - Ops.dot n (J i) x = res (fun i : Fin N => y i) (fun (i : Fin N) (j : Fin n) => J i j) i (asV n x) := by
  rw [dot_eq, sum_range_fin]; rfl

theorem hasDeriv_cost {κ : ℝ} (E : Estimator r κ) (x v : Fin n → ℝ) :
    HasDerivAt (fun t : ℝ => robustCost r n N y J (x + t • v))
      (-(2 * κ) * score r (fun i : Fin N => y i) (fun (i : Fin N) (j : Fin n) => J i j) x v) 0 := by
  have h : ∀ i ∈ (univ : Finset (Fin N)), HasDerivAt
      (fun t : ℝ => r.objective (res (fun i : Fin N => y i) (fun (i : Fin N) (j : Fin n) => J i j) i (x + t • v)))
      (-(2 * κ) * (r.reweight (res (fun i : Fin N => y i) (fun (i : Fin N) (j : Fin n) => J i j) i x) *
        res (fun i : Fin N => y i) (fun (i : Fin N) (j : Fin n) => J i j) i x * dotProduct (fun j : Fin n => J i j) v)) 0 := by
    intro i _
    have e : (fun t : ℝ => res (fun i : Fin N => y i) (fun (i : Fin N) (j : Fin n) => J i j) i (x + t • v)) =
        fun t => res (fun i : Fin N => y i) (fun (i : Fin N) (j : Fin n) => J i j) i x - t * dotProduct (fun j : Fin n => J i j) v := by
      funext t
      rw [res_add, dotProduct_smul, smul_eq_mul]
    have h1 : HasDerivAt (fun t : ℝ => res (fun i : Fin N => y i) (fun (i : Fin N) (j : Fin n) => J i j) i (x + t • v))
        (-dotProduct (fun j : Fin n => J i j) v) 0 := by
      rw [e]
      exact (((hasDerivAt_id (0:ℝ)).mul_const _).const_sub _).congr_deriv (by ring)
    have e0 : res (fun i : Fin N => y i) (fun (i : Fin N) (j : Fin n) => J i j) i x =
        res (fun i : Fin N => y i) (fun (i : Fin N) (j : Fin n) => J i j) i (x + (0:ℝ) • v) := by simp
    have h2 := E.deriv (res (fun i : Fin N => y i) (fun (i : Fin N) (j : Fin n) => J i j) i (x + (0:ℝ) • v))
    have h3 := HasDerivAt.comp (0:ℝ) h2 h1
    refine h3.congr_deriv ?_
    rw [← e0]; ring
  have := HasDerivAt.fun_sum h
  rw [← mul_sum] at this
  exact this

theorem stationary_iff {κ : ℝ} (E : Estimator r κ) (x : Fin n → ℝ) :
    Stationary r n N y J x ↔ ∀ v, score r (fun i : Fin N => y i) (fun (i : Fin N) (j : Fin n) => J i j) x v = 0 := by
  have hk := E.kpos
  refine forall_congr' fun v => ⟨fun h => ?_, fun h => ?_⟩
  · have := h.unique (hasDeriv_cost r n N y J E x v)
    exact (mul_eq_zero.1 this.symm).resolve_left (by linarith)
  · have := hasDeriv_cost r n N y J E x v
    rw [h, mul_zero] at this
    exact this

/-- the measurements one pass hands to WLS -/
noncomputable def passMeas (x : Vec ℝ) (i : Nat) : WLS.Meas n ℝ :=
  WLS.Meas.scalar (y i - Ops.dot n (J i) x) (asV n (J i)) (r.reweight (y i - Ops.dot n (J i) x))

theorem addAll_reach (g : Nat → Vec ℝ) (x : Vec ℝ) (s : St) (hs : WLS.Reach n s.wls []) (h0 : s.residual = 0) (k : Nat) :
    WLS.Reach n (forN k (fun i s => addmJ r n (y i - Ops.dot n (J i) x) (J i) (g i) s) s).wls ((List.range k).map (passMeas r n y J x)) ∧
    (forN k (fun i s => addmJ r n (y i - Ops.dot n (J i) x) (J i) (g i) s) s).residual =
      ∑ i ∈ Finset.range k, r.objective (y i - Ops.dot n (J i) x) := by
  induction k with
  | zero => exact ⟨hs, h0⟩
  | succ k ih =>
    rw [forN_succ, List.range_succ, List.map_append, sum_range_succ, ← ih.2]
    exact ⟨.mJ _ _ _ ih.1, rfl⟩

theorem listSum {M : Type _} [AddCommMonoid M] (f : Nat → M) (k : Nat) : ((List.range k).map f).sum = ∑ i : Fin k, f i := by
  rw [← Finset.sum_range]
  induction k with
  | zero => rfl
  | succ k ih => rw [List.range_succ, List.map_append, List.sum_append, ih, sum_range_succ]; simp

/-- one pass succeeds and its step solves the weighted normal equations -/
theorem pass_step {κ : ℝ} (E : Estimator r κ) (hJ : FullRank n N J) (g : Junk) (x : Vec ℝ) (s : St)
    (hs : ∃ ms, WLS.Reach n s.wls ms) :
    (∃ ms, WLS.Reach n (pass r n N y J g x s).wls ms) ∧
    (pass r n N y J g x s).residual = robustCost r n N y J (asV n x) ∧
    ∃ mu, (pass r n N y J g x s).wls.mu = some mu ∧
      NormalEq r (fun i : Fin N => y i) (fun (i : Fin N) (j : Fin n) => J i j) (asV n x) (asV n mu) := by
  obtain ⟨ms, hs⟩ := hs
  obtain ⟨h1, h2⟩ := addAll_reach r n y J g.add x (clear n s) (.clear hs) rfl N
  set w : Fin N → ℝ := fun i => r.reweight (res (fun i : Fin N => y i) (fun (i : Fin N) (j : Fin n) => J i j) i (asV n x)) with hw
  have hinfo : ∀ i j : Fin n, ((List.range N).map fun k => (passMeas r n y J x k).info).sum i j = ∑ k : Fin N, w k * J k i * J k j := by
    intro i j
    rw [listSum, Matrix.sum_apply]
    refine sum_congr rfl fun k _ => ?_
    rw [passMeas, WLS.info_scalar, dot_res]; rfl
  have hrhs : ∀ i : Fin n, ((List.range N).map fun k => (passMeas r n y J x k).rhs).sum i =
      ∑ k : Fin N, w k * res (fun i : Fin N => y i) (fun (i : Fin N) (j : Fin n) => J i j) k (asV n x) * J k i := by
    intro i
    rw [listSum, Finset.sum_apply]
    refine sum_congr rfl fun k _ => ?_
    rw [passMeas, WLS.rhs_scalar, dot_res]
    show _ = w k * _ * J k i
    show _ * (w k * J k i) = _
    ring
  have hmul : ∀ (H : Matrix (Fin n) (Fin n) ℝ), (∀ i j, H i j = ∑ k : Fin N, w k * J k i * J k j) → ∀ a b : Fin n → ℝ,
      dotProduct b (H.mulVec a) = ∑ k : Fin N, w k * dotProduct (fun j : Fin n => J k j) a * dotProduct (fun j : Fin n => J k j) b := by
    intro H hH a b
    have e1 : ∀ i, H.mulVec a i = ∑ k : Fin N, w k * J k i * dotProduct (fun j : Fin n => J k j) a := by
      intro i
      simp only [Matrix.mulVec, dotProduct, hH, sum_mul, mul_sum]
      rw [sum_comm]
      exact sum_congr rfl fun k _ => sum_congr rfl fun j _ => by ring
    have e2 : dotProduct b (H.mulVec a) = ∑ i, b i * ∑ k : Fin N, w k * J k i * dotProduct (fun j : Fin n => J k j) a :=
      sum_congr rfl fun i _ => by rw [e1]
    rw [e2]
    simp only [mul_sum]
    rw [sum_comm]
    refine sum_congr rfl fun k _ => ?_
    have e3 : dotProduct (fun j : Fin n => J k j) b = ∑ i : Fin n, J k i * b i := rfl
    rw [e3, mul_sum]
    exact sum_congr rfl fun j _ => by ring
  have hpd : SymPosDef (((List.range N).map (passMeas r n y J x)).map fun z => z.J.transpose * z.W * z.J).sum := by
    rw [List.map_map]
    change SymPosDef ((List.range N).map fun k => (passMeas r n y J x k).info).sum
    constructor
    · ext i j
      rw [Matrix.transpose_apply, hinfo, hinfo]
      exact sum_congr rfl fun k _ => by ring
    · intro v hv
      rw [hmul _ hinfo v v]
      have := decrease_pos (y := fun i : Fin N => y i) (J := fun (i : Fin N) (j : Fin n) => J i j) E hJ (x := asV n x) hv
      refine this.trans_le (le_of_eq (sum_congr rfl fun k _ => ?_))
      rw [hw]; ring
  obtain ⟨mu, e1, e2, -⟩ := WLS.c23_minimiser h1 hpd g.u g.w
  refine ⟨⟨_, .compute g.u g.w h1⟩, ?_, mu, e1, ?_⟩
  · show (forN N _ (clear n s)).residual = _
    rw [h2, Finset.sum_range, robustCost_eq]
    exact sum_congr rfl fun i _ => by rw [dot_res]
  · intro v
    rw [List.map_map, List.map_map] at e2
    change Matrix.mulVec ((List.range N).map fun k => (passMeas r n y J x k).info).sum (asV n mu) =
      ((List.range N).map fun k => (passMeas r n y J x k).rhs).sum at e2
    have := hmul _ hinfo (asV n mu) v
    rw [e2] at this
    refine this.symm.trans ?_
    unfold score
    simp only [dotProduct, hrhs, mul_sum]
    rw [sum_comm]
    exact sum_congr rfl fun k _ => sum_congr rfl fun i _ => by ring

theorem asV_plusEqV (mu x : Vec ℝ) : asV n (WLS.plusEqV n 0 mu x) = asV n x + asV n mu := by
  funext i
  show WLS.plusEqV n 0 mu x i = x i + mu i
  rw [WLS.plusEqV_apply, if_pos (by omega)]; simp

/-- the iteration never fails, and its iterates are a `Run` -/
theorem iterate_run {κ : ℝ} (E : Estimator r κ) (hJ : FullRank n N J) (g : Nat → Junk) (x : Vec ℝ) (s : St)
    (hs : ∃ ms, WLS.Reach n s.wls ms) :
    ∃ (xs : Nat → Vec ℝ) (ss : Nat → St) (mus : Nat → Fin n → ℝ),
      (∀ k, iterate r n N y J g x s k = some (xs k, ss k)) ∧
      (∀ k, (ss (k+1)).residual = robustCost r n N y J (asV n (xs k))) ∧
      (∀ k, ∃ mu, (ss (k+1)).wls.mu = some mu ∧ mus k = asV n mu) ∧
      Run r (fun i : Fin N => y i) (fun (i : Fin N) (j : Fin n) => J i j) (fun k => asV n (xs k)) mus := by
  have hex : ∀ k, ∃ x' s', iterate r n N y J g x s k = some (x', s') ∧ ∃ ms, WLS.Reach n s'.wls ms := by
    intro k
    induction k with
    | zero => exact ⟨x, s, rfl, hs⟩
    | succ k ih =>
      obtain ⟨x', s', e, hr⟩ := ih
      obtain ⟨h1, -, mu, h3, -⟩ := pass_step r n N y J E hJ (g k) x' s' hr
      refine ⟨WLS.plusEqV n 0 mu x', pass r n N y J (g k) x' s', ?_, h1⟩
      simp only [iterate, e, h3]
  choose xs ss he hr using hex
  have hst := fun k => pass_step r n N y J E hJ (g k) (xs k) (ss k) (hr k)
  choose mus hmu hne using fun k => (hst k).2.2
  have hsucc : ∀ k, xs (k+1) = WLS.plusEqV n 0 (mus k) (xs k) ∧ ss (k+1) = pass r n N y J (g k) (xs k) (ss k) := by
    intro k
    have h1 := he (k+1)
    simp only [iterate, he k, hmu k] at h1
    injection h1 with h1
    injection h1 with h1 h2
    exact ⟨h1.symm, h2.symm⟩
  refine ⟨xs, ss, fun k => asV n (mus k), he, fun k => ?_, fun k => ⟨mus k, ?_, rfl⟩, ⟨hne, fun k => ?_⟩⟩
  · rw [(hsucc k).2]; exact (hst k).2.1
  · rw [(hsucc k).2]; exact hmu k
  · show asV n (xs (k+1)) = _
    rw [(hsucc k).1, asV_plusEqV]

end link

/-! ## Theorems -/

/-- the estimators irls.h ships for `IRLS`, with positive `sd_inlier` where there is one; `κ` is the factor between `objective'`
and `2 t w(t)` (C26: the objective of `ILinear` is twice the documented integral) -/
inductive Shipped : Reweight → ℝ → Prop
  | I (sd : ℝ) : 0 < sd → Shipped (RobustI sd) (1 / 2)
  | II (s2 : ℝ) : 0 < s2 → Shipped (RobustII s2) (1 / 2)
  | linear : Shipped ILinear 1

theorem Shipped.est {r : Reweight} {κ : ℝ} : Shipped r κ → Estimator r κ
  | .I sd h => estI sd h
  | .II s2 h => estII s2 h
  | .linear => estLin

theorem Shipped.coercive {r : Reweight} {κ : ℝ} : Shipped r κ → Coercive r
  | .I sd h => coerI sd h
  | .II s2 h => coerII s2 h
  | .linear => coerLin

theorem Shipped.cont {r : Reweight} {κ : ℝ} : Shipped r κ → Continuous r.reweight
  | .I sd h => contI sd h
  | .II s2 h => contII s2 h
  | .linear => continuous_const

section thms
variable {r : Reweight} {κ : ℝ} {n N : Nat} {y : Vec ℝ} {J : Mat ℝ} {g : Nat → Junk} {x0 : Vec ℝ} {s0 : St}

/-- **C80** every pass succeeds: from an object with any history of calls and from any starting point, whatever the uninitialised
memory holds, if the Jacobians determine the parameters then every `compute()` finds a solution. -/
theorem c80_runs (hr : Shipped r κ) (hJ : FullRank n N J) (hs : ∃ ms, WLS.Reach n s0.wls ms) (k : Nat) :
    ∃ x s, iterate r n N y J g x0 s0 k = some (x, s) := by
  obtain ⟨xs, ss, mus, h, -⟩ := iterate_run r n N y J hr.est hJ g x0 s0 hs
  exact ⟨_, _, h k⟩

/-- **C80** each pass decreases the robust cost.  After a pass from `x`, `get_residual()` is the robust cost at `x`; with `get_mu() = μ`,
the cost at `x + μ` is lower by at least `κ Σ w(rᵢ) (Jᵢ·μ)²`; the cost strictly decreases unless the parameters do not move,
and they do not move exactly at the stationary points of the cost. -/
theorem c80_descent (hr : Shipped r κ) (hJ : FullRank n N J) (hs : ∃ ms, WLS.Reach n s0.wls ms) (k : Nat) {x x' : Vec ℝ} {s s' : St}
    (h : iterate r n N y J g x0 s0 k = some (x, s)) (h' : iterate r n N y J g x0 s0 (k + 1) = some (x', s')) :
    s'.residual = robustCost r n N y J (asV n x) ∧
    (∃ mu, s'.wls.mu = some mu ∧ asV n x' = asV n x + asV n mu ∧
      robustCost r n N y J (asV n x') ≤ robustCost r n N y J (asV n x) -
        κ * ∑ i : Fin N, r.reweight (y i - ∑ j : Fin n, J i j * x j) * (∑ j : Fin n, J i j * mu j) ^ 2) ∧
    robustCost r n N y J (asV n x') ≤ robustCost r n N y J (asV n x) ∧
    (asV n x' ≠ asV n x → robustCost r n N y J (asV n x') < robustCost r n N y J (asV n x)) ∧
    (asV n x' = asV n x ↔ Stationary r n N y J (asV n x)) := by
  obtain ⟨xs, ss, mus, h1, h2, h3, H⟩ := iterate_run r n N y J hr.est hJ g x0 s0 hs
  have E := hr.est
  rw [h1 k] at h; rw [h1 (k+1)] at h'
  cases h; cases h'
  obtain ⟨mu, e1, e2⟩ := h3 k
  have hx : asV n (xs (k+1)) = asV n (xs k) + mus k := H.next k
  have hst := cost_step E (H.eq k)
  rw [← hx] at hst
  have hle : robustCost r n N y J (asV n (xs (k+1))) ≤ robustCost r n N y J (asV n (xs k)) := H.antitone E (Nat.le_succ k)
  refine ⟨h2 k, ⟨mu, e1, by rw [hx, e2], ?_⟩, hle, fun hne => ?_, ?_⟩
  · rw [e2] at hst
    exact hst
  · have hmu : mus k ≠ 0 := fun h0 => hne (by rw [hx, h0, add_zero])
    have := mul_pos E.kpos (decrease_pos (y := fun i : Fin N => y i) E hJ (x := asV n (xs k)) hmu)
    have h4 : robustCost r n N y J (asV n (xs (k+1))) ≤ robustCost r n N y J (asV n (xs k)) - _ := hst
    linarith
  · rw [stationary_iff r n N y J E, hx, add_eq_left]
    exact step_zero_iff E hJ (H.eq k)

/-- **C80** the iteration is well behaved for every shipped estimator: the iterates stay bounded, the steps tend to 0, every
directional derivative of the cost tends to 0 along them, and every limit point of the iterates is a stationary point. -/
theorem c80_limits (hr : Shipped r κ) (hJ : FullRank n N J) (hs : ∃ ms, WLS.Reach n s0.wls ms) {xs : Nat → Vec ℝ} {ss : Nat → St}
    (h : ∀ k, iterate r n N y J g x0 s0 k = some (xs k, ss k)) :
    (∃ B, ∀ k (i : Fin n), |xs k i| ≤ B) ∧
    (∀ i : Fin n, Tendsto (fun k => xs (k+1) i - xs k i) atTop (𝓝 0)) ∧
    (∀ v : Fin n → ℝ, Tendsto (fun k => deriv (fun t : ℝ => robustCost r n N y J (asV n (xs k) + t • v)) 0) atTop (𝓝 0)) ∧
    (∀ (φ : Nat → Nat) (z : Fin n → ℝ), Tendsto φ atTop atTop → Tendsto (fun k => asV n (xs (φ k))) atTop (𝓝 z) →
      Stationary r n N y J z) := by
  obtain ⟨xs', ss', mus, h1, -, -, H⟩ := iterate_run r n N y J hr.est hJ g x0 s0 hs
  have he : xs' = xs := by
    funext k
    have := (h1 k).symm.trans (h k)
    injection this with this
    injection this
  subst he
  have E := hr.est
  refine ⟨?_, fun i => ?_, fun v => ?_, fun φ z hφ hz => ?_⟩
  · obtain ⟨B, hB⟩ := H.bdd hJ E hr.coercive
    exact ⟨B, fun k i => (norm_le_pi_norm (asV n (xs' k)) i).trans (hB k)⟩
  · have := tendsto_pi_nhds.1 (H.steps_to_zero hJ E hr.coercive) i
    refine this.congr fun k => ?_
    have := congrFun (H.next k) i
    have this : xs' (k+1) i = xs' k i + mus k i := this
    rw [this]; ring
  · have := (H.score_to_zero hJ E hr.coercive v).const_mul (-(2 * κ))
    rw [mul_zero] at this
    exact this.congr fun k => ((hasDeriv_cost r n N y J E (asV n (xs' k)) v).deriv).symm
  · exact (stationary_iff r n N y J E z).2 (H.limit_stationary hJ E hr.coercive hr.cont hφ hz)

/-- **C80** with `RobustI` (a convex objective) the iterates converge from every start to the unique minimiser of the robust cost. -/
theorem c80_robustI_converges {sd : ℝ} (h0 : 0 < sd) (hJ : FullRank n N J) (hs : ∃ ms, WLS.Reach n s0.wls ms) {xs : Nat → Vec ℝ}
    {ss : Nat → St} (h : ∀ k, iterate (RobustI sd) n N y J g x0 s0 k = some (xs k, ss k)) :
    ∃ z, Tendsto (fun k => asV n (xs k)) atTop (𝓝 z) ∧
      ∀ x, x ≠ z → robustCost (RobustI sd) n N y J z < robustCost (RobustI sd) n N y J x := by
  obtain ⟨xs', ss', mus, h1, -, -, H⟩ := iterate_run _ n N y J (estI sd h0) hJ g x0 s0 hs
  have he : xs' = xs := by
    funext k
    have := (h1 k).symm.trans (h k)
    injection this with this
    injection this
  subst he
  obtain ⟨z, hz, -, hm⟩ := H.converges hJ (estI sd h0) (coerI sd h0) (contI sd h0) (strictI sd h0)
  exact ⟨z, hz, hm⟩

/-- **C80** and they converge linearly: with `F` the robust cost and `F₀ = F(x₀)`, after `k` passes the gap to the cost of any other point `z` that is
at least as good as the start has shrunk by `(1 - (σ/(2σ + 2F₀))²)ᵏ`; with `z` the minimiser this bounds the error of `get_residual()`. -/
theorem c80_robustI_rate {sd : ℝ} (h0 : 0 < sd) (hJ : FullRank n N J) (hs : ∃ ms, WLS.Reach n s0.wls ms) {xs : Nat → Vec ℝ}
    {ss : Nat → St} (h : ∀ k, iterate (RobustI sd) n N y J g x0 s0 k = some (xs k, ss k)) (z : Fin n → ℝ)
    (hz : robustCost (RobustI sd) n N y J z ≤ robustCost (RobustI sd) n N y J (asV n x0)) (k : Nat) :
    robustCost (RobustI sd) n N y J (asV n (xs k)) - robustCost (RobustI sd) n N y J z ≤
      (1 - (sd / (2 * sd + 2 * robustCost (RobustI sd) n N y J (asV n x0))) ^ 2) ^ k *
        (robustCost (RobustI sd) n N y J (asV n x0) - robustCost (RobustI sd) n N y J z) := by
  obtain ⟨xs', ss', mus, h1, -, -, H⟩ := iterate_run _ n N y J (estI sd h0) hJ g x0 s0 hs
  have he : xs' = xs := by
    funext k
    have := (h1 k).symm.trans (h k)
    injection this with this
    injection this
  subst he
  have E := estI sd h0
  have hx0 : xs' 0 = x0 := by
    have := h1 0
    simp only [iterate] at this
    injection this with this
    injection this with h _
    exact h.symm
  set F0 := robustCost (RobustI sd) n N y J (asV n x0) with hF0
  have hzero : (RobustI sd).objective 0 = 0 := by
    simp only [RobustI, abs_zero, add_zero]
    rw [mul_one_div_cancel h0.ne', Real.log_one]; ring
  have hbd : ∀ x : Fin n → ℝ, robustCost (RobustI sd) n N y J x ≤ F0 →
      ∀ i, |res (fun i : Fin N => y i) (fun (i : Fin N) (j : Fin n) => J i j) i x| ≤ 2 * F0 + sd := by
    intro x hx i
    have h2 := res_obj_le (y := fun i : Fin N => y i) (J := fun (i : Fin N) (j : Fin n) => J i j) E i x
    rw [hzero, mul_zero, sub_zero] at h2
    have h3 : (RobustI sd).objective _ ≤ F0 := h2.trans hx
    exact (obj_I_bound sd h0 _).trans (by linarith)
  have hF00 : 0 ≤ F0 := by
    have := cost_lower (y := fun i : Fin N => y i) (J := fun (i : Fin N) (j : Fin n) => J i j) E (asV n x0)
    rw [hzero, mul_zero] at this
    exact this
  have hrate : sd / (sd + (2 * F0 + sd)) ^ 2 / (RobustI sd).reweight 0 = (sd / (2 * sd + 2 * F0)) ^ 2 := by
    simp only [RobustI, abs_zero, add_zero]
    have e : sd + (2 * F0 + sd) = 2 * sd + 2 * F0 := by ring
    rw [e, div_div_eq_mul_div, div_one, div_pow]
    ring
  have hle1 : (sd / (2 * sd + 2 * F0)) ^ 2 ≤ 1 := by
    refine pow_le_one₀ (by positivity) ((div_le_one (by positivity)).2 (by linarith))
  induction k with
  | zero => rw [hx0, pow_zero, one_mul]
  | succ k ih =>
    have hk : robustCost (RobustI sd) n N y J (asV n (xs' k)) ≤ F0 := by
      have := H.antitone E (Nat.zero_le k)
      have h2 : robustCost (RobustI sd) n N y J (asV n (xs' k)) ≤ robustCost (RobustI sd) n N y J (asV n (xs' 0)) := this
      rwa [hx0] at h2
    have hg := gap_step E (m := sd / (sd + (2 * F0 + sd)) ^ 2) (by positivity) (strongI sd h0 (2 * F0 + sd) (by linarith))
      (H.eq k) (hbd _ hk) (hbd z hz)
    rw [← H.next k, hrate] at hg
    have hg' : robustCost (RobustI sd) n N y J (asV n (xs' (k+1))) - robustCost (RobustI sd) n N y J z ≤
      (1 - (sd / (2 * sd + 2 * F0)) ^ 2) * (robustCost (RobustI sd) n N y J (asV n (xs' k)) - robustCost (RobustI sd) n N y J z) := hg
    refine hg'.trans ((mul_le_mul_of_nonneg_left ih (by linarith)).trans (le_of_eq ?_))
    rw [pow_succ]; ring

/-- **C80** with `ILinear` one pass from any start lands on the unique least squares solution. -/
theorem c80_linear_one_pass (hJ : FullRank n N J) (hs : ∃ ms, WLS.Reach n s0.wls ms) {x1 : Vec ℝ}
    {s1 : St} (h : iterate ILinear n N y J g x0 s0 1 = some (x1, s1)) (x : Fin n → ℝ) (hx : x ≠ asV n x1) :
    ∑ i : Fin N, (y i - ∑ j : Fin n, J i j * x1 j) ^ 2 < ∑ i : Fin N, (y i - ∑ j : Fin n, J i j * x j) ^ 2 := by
  obtain ⟨xs, ss, mus, h1, -, -, H⟩ := iterate_run _ n N y J estLin hJ g x0 s0 hs
  rw [h1 1] at h
  cases h
  have hsc : StrictScore ILinear := by
    intro s t hst
    simpa [ILinear] using hst
  have hst : ∀ v, score ILinear (fun i : Fin N => y i) (fun (i : Fin N) (j : Fin n) => J i j) (asV n (xs 1)) v = 0 := by
    intro v
    have h2 := H.eq 0 v
    rw [H.next 0]
    unfold score at h2 ⊢
    simp only [ILinear, one_mul] at h2 ⊢
    simp only [res_add, sub_mul, sum_sub_distrib]
    rw [← h2, sub_self]
  have := stationary_min hJ estLin hsc hst x hx
  have e : ∀ z : Fin n → ℝ, cost ILinear (fun i : Fin N => y i) (fun (i : Fin N) (j : Fin n) => J i j) z =
      ∑ i : Fin N, (y i - ∑ j : Fin n, J i j * z j) ^ 2 := by
    intro z
    exact sum_congr rfl fun i _ => (pow_two _).symm
  rw [e, e] at this
  exact this

end thms

/-- the hypotheses hold: `n = 1` parameter measured directly, `N ≥ 1` times, on a new object -/
theorem rank_one (N : Nat) (hN : 0 < N) : FullRank 1 N (fun _ _ => 1) := by
  intro v hv
  have := hv ⟨0, hN⟩
  funext i
  rw [Subsingleton.elim i 0]
  simpa using this

/-- **C80** `RobustII` is not convex and the iteration can rest at a point that is not a minimiser: one parameter measured as
`10` and as `-10` with `σ = 1`, started at 0, stays at 0 for ever although the cost at 10 is lower. -/
theorem c80_robustII_stuck_wrong (g : Nat → Junk) (s0 : St) (hs : ∃ ms, WLS.Reach 1 s0.wls ms) :
    (∀ k, ∃ x s, iterate (RobustII 1) 1 2 (fun i => if i = 0 then 10 else -10) (fun _ _ => 1) g (fun _ => 0) s0 k = some (x, s) ∧
      asV 1 x = 0) ∧
    robustCost (RobustII 1) 1 2 (fun i => if i = 0 then 10 else -10) (fun _ _ => 1) (fun _ => 10) <
      robustCost (RobustII 1) 1 2 (fun i => if i = 0 then 10 else -10) (fun _ _ => 1) 0 := by
  constructor
  · obtain ⟨xs, ss, mus, h1, -, -, H⟩ := iterate_run (RobustII 1) 1 2 (fun i => if i = 0 then 10 else -10) (fun _ _ => 1)
      (estII 1 one_pos) (rank_one 2 (by norm_num)) g (fun _ => 0) s0 hs
    intro k
    refine ⟨_, _, h1 k, ?_⟩
    induction k with
    | zero =>
      have := h1 0
      simp only [iterate] at this
      injection this with this
      injection this with h _
      rw [← h]; rfl
    | succ k ih =>
      have hx : asV 1 (xs (k+1)) = asV 1 (xs k) + mus k := H.next k
      rw [hx, ih, zero_add]
      have h2 := H.eq k
      rw [ih] at h2
      refine (step_zero_iff (estII 1 one_pos) (rank_one 2 (by norm_num)) h2).2 fun v => ?_
      simp [score, res, Fin.sum_univ_two, dotProduct, RobustII]
  · simp only [robustCost, Fin.sum_univ_two, RobustII]
    norm_num
    have e : Real.log 101 + Real.log 101 = Real.log (101 * 101) := (Real.log_mul (by norm_num) (by norm_num)).symm
    have : Real.log 401 < Real.log (101 * 101) := Real.log_lt_log (by norm_num) (by norm_num)
    linarith

/-- **C80** the hypotheses are met by a new object, and then three measurements of one parameter converge under `RobustI` -/
example (g : Nat → Junk) (C0 : Mat ℝ) (v0 : Vec ℝ) :
    ∃ z, ∃ xs : Nat → Vec ℝ, (∀ k, ∃ s, iterate (RobustI 1) 1 3 (fun i => if i = 2 then 100 else i) (fun _ _ => 1) g (fun _ => 50)
        (construct 1 C0 v0) k = some (xs k, s)) ∧ Tendsto (fun k => asV 1 (xs k)) atTop (𝓝 z) := by
  have hs : ∃ ms, WLS.Reach 1 (construct 1 C0 v0).wls ms := ⟨_, .construct C0 v0⟩
  choose xs ss h using c80_runs (y := fun i => if i = 2 then 100 else i) (g := g) (x0 := fun _ => 50)
    (Shipped.I 1 one_pos) (rank_one 3 (by norm_num)) hs
  obtain ⟨z, hz, -⟩ := c80_robustI_converges one_pos (rank_one 3 (by norm_num)) hs h
  exact ⟨z, xs, fun k => ⟨ss k, h k⟩, hz⟩

end TooN.IRLS
