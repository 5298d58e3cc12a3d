import Verif.Props.FloatWLS
import Verif.Props.FloatMixed
/-!
# C71 with the `double` intermediate `Jw` of wls.h:103/161

`ρ` is the arithmetic of the element type and `δ` that of `double`.  Either every `Precision` value is a `double` (`Fits ρ δ`: `float`,
`double`) and mixed expressions are evaluated in `double`, or mixed expressions are evaluated in `Precision` (`long double`).  The
accumulation then has unit roundoff `u2 ρ δ = ρ.u + δ.u + ρ.u δ.u`; `compute()` works in `Precision` throughout.
-/
set_option linter.unusedSectionVars false
namespace TooN.WLS
open Finset
variable {ρ δ κ : Rounding}

/-- `κ` is the arithmetic C++ uses for expressions with a `Precision` and a `double` operand -/
def Common (ρ δ κ : Rounding) : Prop := Fits ρ δ ∧ κ = δ ∨ Fits δ ρ ∧ κ = ρ

theorem jwOk_mixed (h : Common ρ δ κ) (hu : u2 ρ δ < 1) : JwOk ρ (u2 ρ δ) (JwOps.mixed ρ δ κ) := by
  rcases h with ⟨h, rfl⟩ | ⟨-, rfl⟩
  · exact jwOk_wide h hu
  · exact jwOk_narrow hu

/-- **C71** accumulation with `double Jw`, for every `Precision` -/
theorem c71_accumulate_mixed (hc : Common ρ δ κ) (hu : u2 ρ δ < 1) (n N : ℕ) (hN : ((N + 2 : ℕ) : ℝ) * u2 ρ δ < 1)
    (calls : ℕ → Call (Fl ρ)) (C0 : Mat (Fl ρ)) (v0 : Vec (Fl ρ)) :
    let s := sessionU (JwOps.mixed ρ δ κ) n N calls C0 v0
    (∀ i j, i ≤ j → j < n → |(s.C i j).val - ∑ k ∈ range N, (calls k).info.mat i j| ≤
        gam (u2 ρ δ) (N + 2) * ∑ k ∈ range N, |(calls k).info.mat i j|) ∧
    (∀ i, i < n → |(s.v i).val - ∑ k ∈ range N, (calls k).info.rhs i| ≤
        gam (u2 ρ δ) (N + 2) * ∑ k ∈ range N, |(calls k).info.rhs i|) :=
  wu_accumulate hu (u2_ge_left ρ δ) (jwOk_mixed hc hu) n N hN calls C0 v0

/-- **C71** backward stability with `double Jw` -/
theorem c71_stable_mixed (hc : Common ρ δ κ) (hu : u2 ρ δ < 1) (n N : ℕ) (calls : ℕ → Call (Fl ρ)) (C0 : Mat (Fl ρ))
    (v0 y₀ x₀ : Vec (Fl ρ)) (μ : ℝ) (hz : ∀ k, k < N → (calls k).info.Nonneg n)
    (h : SolvableU (u2 ρ δ) ρ n N (fun i j => ∑ k ∈ range N, (calls k).info.mat i j) μ) :
    let M := fun i j => ∑ k ∈ range N, (calls k).info.mat i j
    ∃ x, (compute n y₀ x₀ (sessionU (JwOps.mixed ρ δ κ) n N calls C0 v0)).mu = some x ∧ ∃ (E : ℕ → ℕ → ℝ) (e : ℕ → ℝ),
      (∀ i j, i < n → j < n → |E i j| ≤ kappaU (u2 ρ δ) ρ.u n N * (Real.sqrt (M i i) * Real.sqrt (M j j))) ∧
      (∀ i, i < n → |e i| ≤ gam (u2 ρ δ) (N + 2) * (Real.sqrt (M i i) * Real.sqrt (∑ k ∈ range N, (calls k).info.energy))) ∧
      ∀ i, i < n → ∑ j ∈ range n, (M i j + E i j) * (x j).val = ∑ k ∈ range N, (calls k).info.rhs i + e i :=
  wu_stable hu (u2_ge_left ρ δ) (jwOk_mixed hc hu) n N calls C0 v0 y₀ x₀ μ hz h

/-- **C71** forward error with `double Jw` -/
theorem c71_forward_mixed (hc : Common ρ δ κ) (hu : u2 ρ δ < 1) (n N : ℕ) (calls : ℕ → Call (Fl ρ)) (C0 : Mat (Fl ρ))
    (v0 y₀ x₀ : Vec (Fl ρ)) (μ : ℝ) (hz : ∀ k, k < N → (calls k).info.Nonneg n)
    (h : SolvableU (u2 ρ δ) ρ n N (fun i j => ∑ k ∈ range N, (calls k).info.mat i j) μ) (z : ℕ → ℝ)
    (hsol : ∀ i, i < n → ∑ j ∈ range n, (∑ k ∈ range N, (calls k).info.mat i j) * z j = ∑ k ∈ range N, (calls k).info.rhs i) :
    let M := fun i j => ∑ k ∈ range N, (calls k).info.mat i j
    ∃ x, (compute n y₀ x₀ (sessionU (JwOps.mixed ρ δ κ) n N calls C0 v0)).mu = some x ∧
      μ * Real.sqrt (∑ i ∈ range n, M i i * ((x i).val - z i) ^ 2) ≤
        gam (u2 ρ δ) (N + 2) * Real.sqrt n * Real.sqrt (∑ k ∈ range N, (calls k).info.energy) +
        n * kappaU (u2 ρ δ) ρ.u n N * Real.sqrt (∑ i ∈ range n, M i i * (x i).val ^ 2) :=
  wu_forward hu (u2_ge_left ρ δ) (jwOk_mixed hc hu) n N calls C0 v0 y₀ x₀ μ hz h z hsol

/-- **C71** with `Precision = double` nothing is mixed: the session is the generic one -/
theorem c71_double_same (n N : ℕ) (calls : ℕ → Call (Fl ρ)) (C0 : Mat (Fl ρ)) (v0 : Vec (Fl ρ)) :
    sessionU (JwOps.mixed ρ ρ ρ) n N calls C0 v0 = session n N calls C0 v0 := by
  have e : JwOps.mixed ρ ρ ρ = JwOps.std (Fl ρ) := by
    unfold JwOps.mixed JwOps.std
    congr 1
    · funext w a; exact Fl.ext ((w * a).repr)
    · funext v m j; exact Fl.ext (ρ.idem _)
    · funext c j a; exact Fl.ext (ρ.idem _)
  unfold sessionU session
  rw [e]
  congr 1

/-- the hypotheses hold for two measurements with `Precision = float` -/
example : Common Rounding.float Rounding.double Rounding.double ∧ u2 Rounding.float Rounding.double < 1 ∧
    SolvableU (u2 Rounding.float Rounding.double) Rounding.float 2 2 (fun i j => if i = j then 1 else 0) (1 / 2) := by
  have hu : u2 Rounding.float Rounding.double = 1/2^24 + 1/2^53 + 1/2^24 * (1/2^53) := by
    unfold u2; rw [Rounding.float_u, Rounding.double_u]
  have hv := Rounding.float_u
  refine ⟨Or.inl ⟨fits_float_double, rfl⟩, by rw [hu]; norm_num, ?_, ?_, ?_, ?_, ?_, ?_, ?_⟩
  · intro i _; simp
  · intro x
    simp [sum_range_succ]
    nlinarith [sq_nonneg (x 0), sq_nonneg (x 1)]
  · rw [hu]; norm_num
  · rw [gam, hu]; norm_num
  · rw [hv]; norm_num
  · rw [gam, hv]; norm_num
  · rw [gam, gam, hu, hv]; norm_num

end TooN.WLS
