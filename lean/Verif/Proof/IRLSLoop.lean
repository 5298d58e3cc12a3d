import Verif.Model.IRLS
import Mathlib.Analysis.Calculus.MeanValue
import Mathlib.Analysis.Calculus.Deriv.MeanValue
import Mathlib.Analysis.Calculus.Deriv.Pow
import Mathlib.Analysis.Normed.Module.FiniteDimension
import Mathlib.Data.Matrix.Mul
import Mathlib.Topology.Sequences
import Mathlib.Tactic
/-!
# Iteratively reweighted least squares as a majorise-minimise method
-/
set_option linter.unusedSectionVars false
namespace TooN.IRLS
open Finset Filter Topology

/-- what the iteration needs of an estimator: `objective' (t) = 2κ t w(t)`, and weights that are positive and do not grow with
`|t|` -/
structure Estimator (r : Reweight) (κ : ℝ) : Prop where
  kpos : 0 < κ
  deriv : ∀ t, HasDerivAt r.objective (2 * κ * (t * r.reweight t)) t
  wpos : ∀ t, 0 < r.reweight t
  anti : ∀ s t, |s| ≤ |t| → r.reweight t ≤ r.reweight s

namespace Estimator
variable {r : Reweight} {κ : ℝ} (E : Estimator r κ)
include E

theorem even_w (t : ℝ) : r.reweight (-t) = r.reweight t :=
  le_antisymm (E.anti _ _ (abs_neg t).ge) (E.anti _ _ (abs_neg t).le)

theorem even (t : ℝ) : r.objective (-t) = r.objective t := by
  have hd : ∀ s, HasDerivAt (fun s => r.objective (-s) - r.objective s) 0 s := by
    intro s
    have h1 := (E.deriv (-s)).scomp s (hasDerivAt_neg s)
    refine (h1.sub (E.deriv s)).congr_deriv ?_
    rw [E.even_w]; simp
  have hc := is_const_of_deriv_eq_zero (fun s => (hd s).differentiableAt) (fun s => (hd s).deriv) t 0
  simp only [neg_zero, sub_self] at hc
  linarith

theorem abs_obj (t : ℝ) : r.objective |t| = r.objective t := by
  rcases abs_choice t with h | h <;> rw [h]
  exact E.even t

/-- the quadratic through `t` with the weight of `t` lies above the objective -/
theorem majorise (s t : ℝ) : r.objective s ≤ r.objective t + κ * r.reweight t * (s ^ 2 - t ^ 2) := by
  set g : ℝ → ℝ := fun z => r.objective z - κ * r.reweight t * z ^ 2 with hg
  have hd : ∀ z, HasDerivAt g (2 * κ * z * (r.reweight z - r.reweight t)) z := by
    intro z
    refine ((E.deriv z).sub ((hasDerivAt_pow 2 z).const_mul (κ * r.reweight t))).congr_deriv ?_
    push_cast; ring
  have hcont : Continuous g := continuous_iff_continuousAt.2 fun z => (hd z).continuousAt
  have key : g |s| ≤ g |t| := by
    rcases le_total |s| |t| with h | h
    · refine (monotoneOn_of_deriv_nonneg (convex_Icc 0 |t|) hcont.continuousOn
        (fun z _ => (hd z).differentiableAt.differentiableWithinAt) fun z hz => ?_)
        ⟨abs_nonneg s, h⟩ ⟨abs_nonneg t, le_rfl⟩ h
      rw [interior_Icc] at hz
      rw [(hd z).deriv]
      have := E.anti z t (by rw [abs_of_pos hz.1]; exact hz.2.le)
      have h1 := E.kpos
      have h2 := hz.1
      exact mul_nonneg (by positivity) (by linarith)
    · refine (antitoneOn_of_deriv_nonpos (convex_Ici |t|) hcont.continuousOn
        (fun z _ => (hd z).differentiableAt.differentiableWithinAt) fun z hz => ?_)
        (Set.self_mem_Ici) h h
      rw [interior_Ici] at hz
      have hz : |t| < z := hz
      have hz0 : 0 < z := (abs_nonneg t).trans_lt hz
      rw [(hd z).deriv]
      have := E.anti t z (by rw [abs_of_pos hz0]; exact hz.le)
      have h1 := E.kpos
      exact mul_nonpos_of_nonneg_of_nonpos (by positivity) (by linarith)
  simp only [hg, E.abs_obj, sq_abs] at key
  linarith

theorem obj_mono (s t : ℝ) (h : |s| ≤ |t|) : r.objective s ≤ r.objective t := by
  have := E.majorise s t
  have h2 : s ^ 2 ≤ t ^ 2 := sq_le_sq.2 h
  have h3 := mul_pos E.kpos (E.wpos t)
  nlinarith

theorem obj_zero_le (t : ℝ) : r.objective 0 ≤ r.objective t := E.obj_mono 0 t (by simp)

end Estimator

/-! ## The iteration on vectors -/
variable {n N : Nat} (r : Reweight) (y : Fin N → ℝ) (J : Fin N → Fin n → ℝ)

/-- residual of measurement `i` -/
def res (i : Fin N) (x : Fin n → ℝ) : ℝ := y i - dotProduct (J i) x
/-- the robust cost -/
def cost (x : Fin n → ℝ) : ℝ := ∑ i, r.objective (res y J i x)
/-- half the derivative of the cost along `v`, up to sign and `κ` -/
def score (x v : Fin n → ℝ) : ℝ := ∑ i, r.reweight (res y J i x) * res y J i x * dotProduct (J i) v
/-- the weighted normal equations for the step `μ` at `x` -/
def NormalEq (x μ : Fin n → ℝ) : Prop :=
  ∀ v, ∑ i, r.reweight (res y J i x) * dotProduct (J i) μ * dotProduct (J i) v = score r y J x v
/-- the Jacobians span: no direction is invisible -/
def Spans : Prop := ∀ v : Fin n → ℝ, (∀ i, dotProduct (J i) v = 0) → v = 0

theorem res_add (i : Fin N) (x μ : Fin n → ℝ) : res y J i (x + μ) = res y J i x - dotProduct (J i) μ := by
  simp only [res, dotProduct_add]; ring

variable {r y J} {κ : ℝ}

theorem cost_step_any (E : Estimator r κ) (x v : Fin n → ℝ) :
    cost r y J (x + v) ≤ cost r y J x - 2 * κ * score r y J x v +
      κ * ∑ i, r.reweight (res y J i x) * dotProduct (J i) v ^ 2 := by
  have : ∀ i ∈ univ, r.objective (res y J i (x + v)) ≤ r.objective (res y J i x) -
      2 * κ * (r.reweight (res y J i x) * res y J i x * dotProduct (J i) v) +
      κ * (r.reweight (res y J i x) * dotProduct (J i) v ^ 2) := by
    intro i _
    have := E.majorise (res y J i (x + v)) (res y J i x)
    rw [res_add] at this ⊢
    nlinarith
  refine (sum_le_sum this).trans (le_of_eq ?_)
  rw [sum_add_distrib, sum_sub_distrib, ← mul_sum, ← mul_sum]
  rfl

theorem cost_step (E : Estimator r κ) {x μ : Fin n → ℝ} (h : NormalEq r y J x μ) :
    cost r y J (x + μ) ≤ cost r y J x - κ * ∑ i, r.reweight (res y J i x) * dotProduct (J i) μ ^ 2 := by
  have h1 := cost_step_any (y := y) (J := J) E x μ
  rw [← h μ] at h1
  have e : ∑ i, r.reweight (res y J i x) * dotProduct (J i) μ * dotProduct (J i) μ =
      ∑ i, r.reweight (res y J i x) * dotProduct (J i) μ ^ 2 := sum_congr rfl fun i _ => by ring
  rw [e] at h1
  linarith

/-- the step does at least as well as any other step in the bound of `cost_step_any` -/
theorem cost_step_best (E : Estimator r κ) {x μ : Fin n → ℝ} (h : NormalEq r y J x μ) (v : Fin n → ℝ) :
    cost r y J (x + μ) ≤ cost r y J x - 2 * κ * score r y J x v +
      κ * ∑ i, r.reweight (res y J i x) * dotProduct (J i) v ^ 2 := by
  have h1 := cost_step E h
  have h2 : 0 ≤ ∑ i, r.reweight (res y J i x) * (dotProduct (J i) μ - dotProduct (J i) v) ^ 2 :=
    sum_nonneg fun i _ => mul_nonneg (E.wpos _).le (sq_nonneg _)
  have e : ∑ i, r.reweight (res y J i x) * (dotProduct (J i) μ - dotProduct (J i) v) ^ 2 =
      ∑ i, r.reweight (res y J i x) * dotProduct (J i) μ ^ 2 -
      2 * ∑ i, r.reweight (res y J i x) * dotProduct (J i) μ * dotProduct (J i) v +
      ∑ i, r.reweight (res y J i x) * dotProduct (J i) v ^ 2 := by
    rw [mul_sum, ← sum_sub_distrib, ← sum_add_distrib]
    exact sum_congr rfl fun i _ => by ring
  rw [h v] at e
  have := mul_nonneg E.kpos.le (e ▸ h2)
  nlinarith

theorem step_zero_iff (E : Estimator r κ) (hs : Spans J) {x μ : Fin n → ℝ} (h : NormalEq r y J x μ) :
    μ = 0 ↔ ∀ v, score r y J x v = 0 := by
  constructor
  · rintro rfl v
    rw [← h v]; simp
  · intro h0
    refine hs μ fun i => ?_
    have h1 := h μ
    rw [h0 μ] at h1
    have := (sum_eq_zero_iff_of_nonneg (fun i _ => by
      rw [mul_assoc]; exact mul_nonneg (E.wpos _).le (mul_self_nonneg _))).1 h1 i (mem_univ i)
    rw [mul_assoc] at this
    exact mul_self_eq_zero.1 ((mul_eq_zero.1 this).resolve_left (E.wpos _).ne')

theorem decrease_pos (E : Estimator r κ) (hs : Spans J) {x μ : Fin n → ℝ} (h : μ ≠ 0) :
    0 < ∑ i, r.reweight (res y J i x) * dotProduct (J i) μ ^ 2 := by
  have h0 : ∀ i ∈ univ, 0 ≤ r.reweight (res y J i x) * dotProduct (J i) μ ^ 2 :=
    fun i _ => mul_nonneg (E.wpos _).le (sq_nonneg _)
  refine lt_of_le_of_ne (sum_nonneg h0) fun e => h (hs μ fun i => ?_)
  have := (sum_eq_zero_iff_of_nonneg h0).1 e.symm i (mem_univ i)
  exact pow_eq_zero_iff two_ne_zero |>.1 ((mul_eq_zero.1 this).resolve_left (E.wpos _).ne')

/-- the objective is unbounded in every direction -/
def Coercive (r : Reweight) : Prop := ∀ C, ∃ R, ∀ t, r.objective t ≤ C → |t| ≤ R

theorem res_obj_le (E : Estimator r κ) (i : Fin N) (x : Fin n → ℝ) :
    r.objective (res y J i x) ≤ cost r y J x - (N - 1) * r.objective 0 := by
  have h := sum_le_sum (s := univ.erase i) fun j (_ : j ∈ univ.erase i) => E.obj_zero_le (res y J j x)
  rw [sum_const, card_erase_of_mem (mem_univ i), card_univ, Fintype.card_fin, nsmul_eq_mul] at h
  have hN : 1 ≤ N := Nat.one_le_iff_ne_zero.2 fun h => by subst h; exact i.elim0
  push_cast [Nat.cast_sub hN] at h
  have e : r.objective (res y J i x) + ∑ j ∈ univ.erase i, r.objective (res y J j x) = cost r y J x :=
    add_sum_erase univ (fun i => r.objective (res y J i x)) (mem_univ i)
  linarith

theorem cost_lower (E : Estimator r κ) (x : Fin n → ℝ) : N * r.objective 0 ≤ cost r y J x := by
  have h := sum_le_sum (s := univ) fun j (_ : j ∈ univ) => E.obj_zero_le (res y J j x)
  rw [sum_const, card_univ, Fintype.card_fin, nsmul_eq_mul] at h
  exact h

/-- the size of a vector is controlled by what the measurements see of it -/
theorem spans_bound (hs : Spans J) : ∃ K, 0 < K ∧ ∀ (v : Fin n → ℝ) (b : ℝ), 0 ≤ b → (∀ i, |dotProduct (J i) v| ≤ b) → ‖v‖ ≤ K * b := by
  let A : (Fin n → ℝ) →ₗ[ℝ] (Fin N → ℝ) := (Matrix.of J).mulVecLin
  have hA : LinearMap.ker A = ⊥ := by
    refine LinearMap.ker_eq_bot'.2 fun v hv => hs v fun i => ?_
    exact congrFun hv i
  obtain ⟨K, hK, h⟩ := A.exists_antilipschitzWith hA
  refine ⟨K, hK, fun v b hb hv => ?_⟩
  have h1 := h.le_mul_dist v 0
  rw [dist_zero_right, map_zero, dist_zero_right] at h1
  refine h1.trans (mul_le_mul_of_nonneg_left ?_ K.2)
  exact (pi_norm_le_iff_of_nonneg hb).2 fun i => hv i

/-- a run of the iteration -/
structure Run (r : Reweight) (y : Fin N → ℝ) (J : Fin N → Fin n → ℝ) (x μ : Nat → Fin n → ℝ) : Prop where
  eq : ∀ k, NormalEq r y J (x k) (μ k)
  next : ∀ k, x (k + 1) = x k + μ k

variable {x μ : Nat → Fin n → ℝ}

theorem Run.antitone (E : Estimator r κ) (H : Run r y J x μ) : Antitone fun k => cost r y J (x k) := by
  refine antitone_nat_of_succ_le fun k => ?_
  rw [H.next k]
  have h := cost_step E (H.eq k)
  have h2 : 0 ≤ ∑ i, r.reweight (res y J i (x k)) * dotProduct (J i) (μ k) ^ 2 :=
    sum_nonneg fun i _ => mul_nonneg (E.wpos _).le (sq_nonneg _)
  have := mul_nonneg E.kpos.le h2
  linarith

theorem Run.res_bdd (E : Estimator r κ) (hc : Coercive r) (H : Run r y J x μ) :
    ∃ R, 0 ≤ R ∧ ∀ k i, |res y J i (x k)| ≤ R := by
  obtain ⟨R, hR⟩ := hc (cost r y J (x 0) - (N - 1) * r.objective 0)
  refine ⟨max R 0, le_max_right _ _, fun k i => (hR _ ?_).trans (le_max_left _ _)⟩
  exact (res_obj_le E i (x k)).trans (sub_le_sub_right (H.antitone E (Nat.zero_le k)) _)

theorem Run.bdd (hs : Spans J) (E : Estimator r κ) (hc : Coercive r) (H : Run r y J x μ) :
    ∃ B, ∀ k, ‖x k‖ ≤ B := by
  obtain ⟨R, hR0, hR⟩ := H.res_bdd E hc
  obtain ⟨K, hK, h⟩ := spans_bound hs
  have hY : ∀ i, |y i| ≤ ∑ i, |y i| := fun i => single_le_sum (f := fun i => |y i|) (fun i _ => abs_nonneg _) (mem_univ i)
  have hY0 : 0 ≤ ∑ i, |y i| := sum_nonneg fun i _ => abs_nonneg _
  refine ⟨K * (∑ i, |y i| + R), fun k => h _ _ (by positivity) fun i => ?_⟩
  have e : dotProduct (J i) (x k) = y i - res y J i (x k) := by simp [res]
  rw [e]
  exact (abs_sub _ _).trans (add_le_add (hY i) (hR k i))

theorem Run.steps_to_zero (hs : Spans J) (E : Estimator r κ) (hc : Coercive r) (H : Run r y J x μ) :
    Tendsto μ atTop (𝓝 0) := by
  obtain ⟨R, hR0, hR⟩ := H.res_bdd E hc
  obtain ⟨K, hK, hsp⟩ := spans_bound hs
  have hlim := tendsto_atTop_ciInf (H.antitone E) ⟨N * r.objective 0, by rintro _ ⟨k, rfl⟩; exact cost_lower E _⟩
  have hd : Tendsto (fun k => cost r y J (x k) - cost r y J (x (k + 1))) atTop (𝓝 0) := by
    have := hlim.sub (hlim.comp (tendsto_add_atTop_nat 1))
    rwa [sub_self] at this
  have hwR := E.wpos R
  have hc0 : 0 < κ * r.reweight R := mul_pos E.kpos hwR
  have hb : ∀ k, ‖μ k‖ ≤ K * √((cost r y J (x k) - cost r y J (x (k + 1))) / (κ * r.reweight R)) := by
    intro k
    refine hsp _ _ (Real.sqrt_nonneg _) fun i => ?_
    refine Real.abs_le_sqrt ?_
    rw [le_div_iff₀ hc0]
    have h1 := cost_step E (H.eq k)
    rw [← H.next k] at h1
    have h2 : r.reweight R * dotProduct (J i) (μ k) ^ 2 ≤ ∑ i, r.reweight (res y J i (x k)) * dotProduct (J i) (μ k) ^ 2 := by
      refine le_trans ?_ (single_le_sum (f := fun i => r.reweight (res y J i (x k)) * dotProduct (J i) (μ k) ^ 2)
        (fun i _ => mul_nonneg (E.wpos _).le (sq_nonneg _)) (mem_univ i))
      exact mul_le_mul_of_nonneg_right (E.anti _ _ ((hR k i).trans (le_abs_self R))) (sq_nonneg _)
    have := mul_le_mul_of_nonneg_left h2 E.kpos.le
    nlinarith
  refine squeeze_zero_norm hb ?_
  have h3 := ((hd.div_const (κ * r.reweight R)).sqrt).const_mul K
  simpa using h3

theorem Run.score_to_zero (hs : Spans J) (E : Estimator r κ) (hc : Coercive r) (H : Run r y J x μ) (v : Fin n → ℝ) :
    Tendsto (fun k => score r y J (x k) v) atTop (𝓝 0) := by
  have hμ := H.steps_to_zero hs E hc
  have hdot : ∀ i, Tendsto (fun k => dotProduct (J i) (μ k)) atTop (𝓝 0) := by
    intro i
    have : Continuous fun z : Fin n → ℝ => dotProduct (J i) z := by unfold dotProduct; fun_prop
    have h := (this.tendsto 0).comp hμ
    simpa [Function.comp_def] using h
  have hterm : ∀ i ∈ univ, Tendsto (fun k => r.reweight (res y J i (x k)) * dotProduct (J i) (μ k) * dotProduct (J i) v) atTop (𝓝 0) := by
    intro i _
    have h0 : Tendsto (fun k => r.reweight 0 * |dotProduct (J i) (μ k)| * |dotProduct (J i) v|) atTop (𝓝 0) := by
      have := ((hdot i).abs.const_mul (r.reweight 0)).mul_const |dotProduct (J i) v|
      simpa using this
    refine squeeze_zero_norm (fun k => ?_) h0
    rw [Real.norm_eq_abs, abs_mul, abs_mul, abs_of_pos (E.wpos _)]
    have := E.anti 0 (res y J i (x k)) (by simp)
    gcongr
  have h := tendsto_finsetSum univ hterm
  rw [sum_const_zero] at h
  exact h.congr fun k => (H.eq k v)

theorem score_continuous (hw : Continuous r.reweight) (v : Fin n → ℝ) : Continuous fun x => score r y J x v := by
  have : ∀ i, Continuous fun x : Fin n → ℝ => res y J i x := fun i => by unfold res dotProduct; fun_prop
  unfold score
  exact continuous_finsetSum _ fun i _ => ((hw.comp (this i)).mul (this i)).mul continuous_const

/-- every limit point of the iterates is a stationary point -/
theorem Run.limit_stationary (hs : Spans J) (E : Estimator r κ) (hc : Coercive r) (hw : Continuous r.reweight)
    (H : Run r y J x μ) {φ : Nat → Nat} (hφ : Tendsto φ atTop atTop) {z : Fin n → ℝ}
    (hz : Tendsto (x ∘ φ) atTop (𝓝 z)) (v : Fin n → ℝ) : score r y J z v = 0 := by
  have h1 := ((score_continuous (y := y) (J := J) hw v).tendsto z).comp hz
  have h2 := (H.score_to_zero hs E hc v).comp hφ
  exact tendsto_nhds_unique h1 h2

/-- the objective is strictly convex -/
def StrictScore (r : Reweight) : Prop := StrictMono fun t => t * r.reweight t

/-- a strictly convex function lies above its tangents -/
theorem tangent_lt (E : Estimator r κ) (hm : StrictScore r) {s t : ℝ} (h : s ≠ t) :
    r.objective t + 2 * κ * (t * r.reweight t) * (s - t) < r.objective s := by
  have hcont : Continuous r.objective := continuous_iff_continuousAt.2 fun z => (E.deriv z).continuousAt
  have hk := E.kpos
  rcases lt_or_gt_of_ne h with h | h
  · obtain ⟨c, hc, e⟩ := exists_hasDerivAt_eq_slope r.objective _ h hcont.continuousOn fun z _ => E.deriv z
    have h1 := hm hc.2
    rw [eq_div_iff (by linarith)] at e
    have h2 : 2 * κ * (c * r.reweight c) * (t - s) < 2 * κ * (t * r.reweight t) * (t - s) :=
      mul_lt_mul_of_pos_right (mul_lt_mul_of_pos_left h1 (by linarith)) (by linarith)
    linarith
  · obtain ⟨c, hc, e⟩ := exists_hasDerivAt_eq_slope r.objective _ h hcont.continuousOn fun z _ => E.deriv z
    have h1 := hm hc.1
    rw [eq_div_iff (by linarith)] at e
    have h2 : 2 * κ * (t * r.reweight t) * (s - t) < 2 * κ * (c * r.reweight c) * (s - t) :=
      mul_lt_mul_of_pos_right (mul_lt_mul_of_pos_left h1 (by linarith)) (by linarith)
    linarith

/-- a stationary point is the only minimiser -/
theorem stationary_min (hs : Spans J) (E : Estimator r κ) (hm : StrictScore r) {z : Fin n → ℝ}
    (hz : ∀ v, score r y J z v = 0) (x : Fin n → ℝ) (hx : x ≠ z) : cost r y J z < cost r y J x := by
  have hle : ∀ i ∈ univ, r.objective (res y J i z) - 2 * κ * (r.reweight (res y J i z) * res y J i z * dotProduct (J i) (x - z)) ≤
      r.objective (res y J i x) := by
    intro i _
    have e : dotProduct (J i) (x - z) = res y J i z - res y J i x := by simp only [res, dotProduct_sub]; ring
    by_cases h : res y J i x = res y J i z
    · rw [e, h]; simp
    · have := tangent_lt E hm h
      rw [e]; linarith
  have hlt : ∃ i ∈ univ, r.objective (res y J i z) - 2 * κ * (r.reweight (res y J i z) * res y J i z * dotProduct (J i) (x - z)) <
      r.objective (res y J i x) := by
    by_contra hcon
    push Not at hcon
    refine hx (sub_eq_zero.1 (hs _ fun i => ?_))
    have e : dotProduct (J i) (x - z) = res y J i z - res y J i x := by simp only [res, dotProduct_sub]; ring
    by_contra hne
    have h : res y J i x ≠ res y J i z := fun h => hne (by rw [e, h, sub_self])
    have := tangent_lt E hm h
    have h2 := hcon i (mem_univ i)
    rw [e] at h2; linarith
  have := sum_lt_sum hle hlt
  rw [sum_sub_distrib, ← mul_sum] at this
  have h0 : ∑ i, r.reweight (res y J i z) * res y J i z * dotProduct (J i) (x - z) = 0 := hz (x - z)
  rw [h0, mul_zero, sub_zero] at this
  exact this

/-- with a strictly convex objective the iterates converge to the only minimiser, from any start -/
theorem Run.converges (hs : Spans J) (E : Estimator r κ) (hc : Coercive r) (hw : Continuous r.reweight)
    (hm : StrictScore r) (H : Run r y J x μ) :
    ∃ z, Tendsto x atTop (𝓝 z) ∧ (∀ v, score r y J z v = 0) ∧ ∀ x, x ≠ z → cost r y J z < cost r y J x := by
  obtain ⟨B, hB⟩ := H.bdd hs E hc
  have hmem : ∀ k, x k ∈ Metric.closedBall (0 : Fin n → ℝ) B := fun k => by
    rw [mem_closedBall_zero_iff]; exact hB k
  obtain ⟨z, -, φ, hφ, hz⟩ := (isCompact_closedBall (0 : Fin n → ℝ) B).tendsto_subseq hmem
  have hst := H.limit_stationary hs E hc hw hφ.tendsto_atTop hz
  have hmin := stationary_min hs E hm hst
  refine ⟨z, ?_, hst, hmin⟩
  refine tendsto_of_subseq_tendsto fun ns hns => ?_
  obtain ⟨z', -, φ', hφ', hz'⟩ := (isCompact_closedBall (0 : Fin n → ℝ) B).tendsto_subseq fun k => hmem (ns k)
  refine ⟨φ', ?_⟩
  have hst' := H.limit_stationary hs E hc hw (hns.comp hφ'.tendsto_atTop) (z := z') hz'
  have : z' = z := by
    by_contra hne
    have h1 := hmin z' hne
    have h2 := stationary_min hs E hm hst' z (Ne.symm hne)
    exact lt_asymm h1 h2
  rw [← this]; exact hz'

/-! ## Rate -/

/-- `objective` is strongly convex on `[-R, R]` with constant `2κm` -/
def Strong (r : Reweight) (m R : ℝ) : Prop :=
  ∀ s t, |s| ≤ R → |t| ≤ R → s ≤ t → m * (t - s) ≤ t * r.reweight t - s * r.reweight s

theorem tangent_strong (E : Estimator r κ) {m R : ℝ} (hm : Strong r m R) {s t : ℝ} (hs : |s| ≤ R) (ht : |t| ≤ R) :
    r.objective t + 2 * κ * (t * r.reweight t) * (s - t) + κ * m * (s - t) ^ 2 ≤ r.objective s := by
  have hk := E.kpos
  set g : ℝ → ℝ := fun z => r.objective z - 2 * κ * (t * r.reweight t) * (z - t) - κ * m * (z - t) ^ 2 with hg
  have hd : ∀ z, HasDerivAt g (2 * κ * (z * r.reweight z - t * r.reweight t - m * (z - t))) z := by
    intro z
    have h1 : HasDerivAt (fun z => z - t) 1 z := (hasDerivAt_id z).sub_const t
    refine (((E.deriv z).sub (h1.const_mul (2 * κ * (t * r.reweight t)))).sub ((h1.pow 2).const_mul (κ * m))).congr_deriv ?_
    push_cast; ring
  have hcont : Continuous g := continuous_iff_continuousAt.2 fun z => (hd z).continuousAt
  have key : g t ≤ g s := by
    rcases le_total s t with h | h
    · refine (antitoneOn_of_deriv_nonpos (convex_Icc s t) hcont.continuousOn
        (fun z _ => (hd z).differentiableAt.differentiableWithinAt) fun z hz => ?_)
        ⟨le_rfl, h⟩ ⟨h, le_rfl⟩ h
      rw [interior_Icc] at hz
      have hzR : |z| ≤ R := abs_le.2 ⟨(abs_le.1 hs).1.trans hz.1.le, hz.2.le.trans (abs_le.1 ht).2⟩
      rw [(hd z).deriv]
      have := hm z t hzR ht hz.2.le
      exact mul_nonpos_of_nonneg_of_nonpos (by positivity) (by linarith)
    · refine (monotoneOn_of_deriv_nonneg (convex_Icc t s) hcont.continuousOn
        (fun z _ => (hd z).differentiableAt.differentiableWithinAt) fun z hz => ?_)
        ⟨le_rfl, h⟩ ⟨h, le_rfl⟩ h
      rw [interior_Icc] at hz
      have hzR : |z| ≤ R := abs_le.2 ⟨(abs_le.1 ht).1.trans hz.1.le, hz.2.le.trans (abs_le.1 hs).2⟩
      rw [(hd z).deriv]
      have := hm t z ht hzR hz.1.le
      exact mul_nonneg (by positivity) (by linarith)
  simp only [hg, sub_self, mul_zero, sub_zero] at key
  have e : (0:ℝ) ^ 2 = 0 := by norm_num
  rw [e, mul_zero, sub_zero] at key
  linarith

/-- one step closes a fixed fraction of the gap to any point whose residuals are bounded alike -/
theorem gap_step (E : Estimator r κ) {m R : ℝ} (hm0 : 0 ≤ m) (hm : Strong r m R) {x μ z : Fin n → ℝ}
    (h : NormalEq r y J x μ) (hx : ∀ i, |res y J i x| ≤ R) (hz : ∀ i, |res y J i z| ≤ R) :
    cost r y J (x + μ) - cost r y J z ≤ (1 - m / r.reweight 0) * (cost r y J x - cost r y J z) := by
  set τ := m / r.reweight 0 with hτ
  have hw0 := E.wpos 0
  have hτ0 : 0 ≤ τ := div_nonneg hm0 hw0.le
  have hk := E.kpos
  set S := ∑ i, dotProduct (J i) (z - x) ^ 2 with hS
  have h1 := cost_step_best E h (τ • (z - x))
  have e1 : score r y J x (τ • (z - x)) = τ * score r y J x (z - x) := by
    unfold score; rw [mul_sum]
    exact sum_congr rfl fun i _ => by rw [dotProduct_smul, smul_eq_mul]; ring
  have h2 : ∑ i, r.reweight (res y J i x) * dotProduct (J i) (τ • (z - x)) ^ 2 ≤ τ ^ 2 * r.reweight 0 * S := by
    rw [hS, mul_sum]
    refine sum_le_sum fun i _ => ?_
    rw [dotProduct_smul, smul_eq_mul]
    have := E.anti 0 (res y J i x) (by simp)
    have h3 : 0 ≤ τ ^ 2 * dotProduct (J i) (z - x) ^ 2 := by positivity
    nlinarith
  have h3 : cost r y J x - 2 * κ * score r y J x (z - x) + κ * m * S ≤ cost r y J z := by
    have hle : ∀ i ∈ univ, r.objective (res y J i x) - 2 * κ * (r.reweight (res y J i x) * res y J i x * dotProduct (J i) (z - x)) +
        κ * m * dotProduct (J i) (z - x) ^ 2 ≤ r.objective (res y J i z) := by
      intro i _
      have e : dotProduct (J i) (z - x) = res y J i x - res y J i z := by simp only [res, dotProduct_sub]; ring
      have := tangent_strong E hm (hz i) (hx i)
      rw [e]; nlinarith
    have := sum_le_sum hle
    rw [sum_add_distrib, sum_sub_distrib, ← mul_sum, ← mul_sum] at this
    exact this
  have hτw : τ * r.reweight 0 = m := div_mul_cancel₀ _ hw0.ne'
  have h4 : κ * ∑ i, r.reweight (res y J i x) * dotProduct (J i) (τ • (z - x)) ^ 2 ≤ τ * (κ * m * S) := by
    refine (mul_le_mul_of_nonneg_left h2 hk.le).trans (le_of_eq ?_)
    rw [← hτw]; ring
  rw [e1] at h1
  have h5 := mul_le_mul_of_nonneg_left h3 hτ0
  nlinarith

end TooN.IRLS
