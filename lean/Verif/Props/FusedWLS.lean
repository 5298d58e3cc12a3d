import Verif.Proof.FusedWLS
import Verif.Props.FusedChol
import Verif.Props.FloatWLS
/-!
# C82: weighted least squares with contracted multiply-add

The bounds of C71 hold for every contraction policy `ϰ` (`Model/Fused.lean`).  The functions are those of `Model/WLS.lean` run on
`Fu ρ ϰ`.
-/
set_option linter.unusedSectionVars false
namespace TooN.Fused
open TooN.WLS
open Finset
variable {ρ : Rounding} {ϰ : Contract ρ}

section gen
/-! ### the analysis for any evaluation of the expressions with `Jw` -/
variable {u : ℝ} (h1 : u < 1) (hru : ρ.u ≤ u) {D : Type} {o : JwOps (Fu ρ ϰ) D} (ho : JwOk u o)
include h1 hru ho

theorem wu_accumulate (n N : ℕ) (hN : ((N + 2 : ℕ) : ℝ) * u < 1) (calls : ℕ → Call (Fu ρ ϰ)) (C0 : Mat (Fu ρ ϰ)) (v0 : Vec (Fu ρ ϰ)) :
    (∀ i j, i ≤ j → j < n →
      |((sessionU o n N calls C0 v0).C i j).val - ∑ k ∈ range N, (info (calls k)).mat i j| ≤
        gam u (N + 2) * ∑ k ∈ range N, |(info (calls k)).mat i j|) ∧
    (∀ i, i < n → |((sessionU o n N calls C0 v0).v i).val - ∑ k ∈ range N, (info (calls k)).rhs i| ≤
        gam u (N + 2) * ∑ k ∈ range N, |(info (calls k)).rhs i|) := by
  refine ⟨fun i j hij hj => ?_, fun i hi => ?_⟩
  · obtain ⟨F, hF, e⟩ := session_mat h1 hru ho n N calls C0 v0 i j hij hj
    rw [e]
    exact fac_sum_err (le_trans ρ.u_nonneg hru) h1 hN _ _ _ (fun k _ => hF k)
  · obtain ⟨F, hF, e⟩ := session_rhs h1 hru ho n N calls C0 v0 i hi
    rw [e]
    exact fac_sum_err (le_trans ρ.u_nonneg hru) h1 hN _ _ _ (fun k _ => hF k)

theorem wu_stable (n N : ℕ) (calls : ℕ → Call (Fu ρ ϰ)) (C0 : Mat (Fu ρ ϰ)) (v0 y₀ x₀ : Vec (Fu ρ ϰ)) (μ : ℝ)
    (hz : ∀ k, k < N → (info (calls k)).Nonneg n)
    (h : SolvableU u ρ n N (fun i j => ∑ k ∈ range N, (info (calls k)).mat i j) μ) :
    let M := fun i j => ∑ k ∈ range N, (info (calls k)).mat i j
    ∃ x, (compute n y₀ x₀ (sessionU o n N calls C0 v0)).mu = some x ∧ ∃ (E : ℕ → ℕ → ℝ) (e : ℕ → ℝ),
      (∀ i j, i < n → j < n → |E i j| ≤ kappaU u ρ.u n N * (Real.sqrt (M i i) * Real.sqrt (M j j))) ∧
      (∀ i, i < n → |e i| ≤ gam u (N + 2) * (Real.sqrt (M i i) * Real.sqrt (∑ k ∈ range N, (info (calls k)).energy))) ∧
      ∀ i, i < n → ∑ j ∈ range n, (M i j + E i j) * (x j).val = ∑ k ∈ range N, (info (calls k)).rhs i + e i := by
  intro M
  have u0 := ρ.u_nonneg
  have u1 := ρ.u_lt_one
  obtain ⟨accM, accV⟩ := wu_accumulate h1 hru ho n N h.acc calls C0 v0
  set s := sessionU o n N calls C0 v0 with hs
  set g := gam u (N + 2) with hg
  have g0 : 0 ≤ g := gam_nonneg (le_trans ρ.u_nonneg hru) h1 h.acc
  have g1 := h.acc1
  -- the mirrored matrix
  have hA : ∀ i j, i < n → j < n → lowerSym (mirror n s.C) i j = if i ≤ j then s.C i j else s.C j i := by
    intro i j hi hj
    unfold lowerSym
    rcases lt_trichotomy i j with hh | hh | hh
    · rw [if_neg (by omega), mirror_apply, if_pos (by omega), if_pos (by omega)]
    · subst hh; rw [if_pos le_rfl, mirror_apply, if_neg (by omega), if_pos le_rfl]
    · rw [if_pos (by omega), mirror_apply, if_pos (by omega), if_neg (by omega)]
  have hMs : ∀ i j, M i j = M j i := fun i j => sum_congr rfl fun k _ => mat_symm _ i j
  have hΔ : ∀ i j, i < n → j < n → |(lowerSym (mirror n s.C) i j).val - M i j| ≤ g * (Real.sqrt (M i i) * Real.sqrt (M j j)) := by
    intro i j hi hj
    rw [hA i j hi hj]
    split_ifs with hij
    · exact le_trans (accM i j hij hj) (mul_le_mul_of_nonneg_left (abs_info_le n N _ hz i j hi hj) g0)
    · rw [hMs i j, mul_comm (Real.sqrt (M i i))]
      exact le_trans (accM j i (by omega) hi) (mul_le_mul_of_nonneg_left (abs_info_le n N _ hz j i hj hi) g0)
  have hdiag : ∀ i, i < n → (mirror n s.C i i) = lowerSym (mirror n s.C) i i := by
    intro i _; unfold lowerSym; rw [if_pos le_rfl]
  have hM0 : ∀ i, i < n → 0 ≤ M i i := fun i hi => (h.pos i hi).le
  have hdd : ∀ i, i < n → |(mirror n s.C i i).val - M i i| ≤ g * M i i := by
    intro i hi
    have := hΔ i i hi hi
    rwa [← hdiag i hi, Real.mul_self_sqrt (hM0 i hi)] at this
  have hup : ∀ i, i < n → (mirror n s.C i i).val ≤ (1 + g) * M i i := by
    intro i hi; have := (abs_le.1 (hdd i hi)).2; linarith
  have hpos : ∀ i, i < n → 0 < (mirror n s.C i i).val := by
    intro i hi
    have := (abs_le.1 (hdd i hi)).1
    nlinarith [h.pos i hi]
  -- the stored matrix is numerically positive definite
  have hpd : ∀ x : Vec ℝ, ((μ - n * g) / (1 + g)) * ∑ i ∈ range n, (mirror n s.C i i).val * x i ^ 2 ≤
      ∑ r ∈ range n, ∑ c ∈ range n, x r * x c * (lowerSym (mirror n s.C) r c).val := by
    intro x
    have q1 := h.pd x
    have q2 := quad_bound n g g0 (fun i => Real.sqrt (M i i)) x x
      (fun i j => (lowerSym (mirror n s.C) i j).val - M i j) hΔ (fun i => Real.sqrt_nonneg _)
    have q3 : ∑ i ∈ range n, (Real.sqrt (M i i) * x i) ^ 2 = ∑ i ∈ range n, M i i * x i ^ 2 :=
      sum_congr rfl fun i hi => by rw [mul_pow, Real.sq_sqrt (hM0 i (mem_range.1 hi))]
    have hS : 0 ≤ ∑ i ∈ range n, M i i * x i ^ 2 :=
      sum_nonneg fun i hi => mul_nonneg (hM0 i (mem_range.1 hi)) (sq_nonneg _)
    rw [q3, Real.mul_self_sqrt hS] at q2
    have q4 : ∑ i ∈ range n, ∑ j ∈ range n, x i * x j * ((lowerSym (mirror n s.C) i j).val - M i j) =
        ∑ i ∈ range n, ∑ j ∈ range n, x i * x j * (lowerSym (mirror n s.C) i j).val -
        ∑ i ∈ range n, ∑ j ∈ range n, x i * x j * M i j := by
      rw [← sum_sub_distrib]
      refine sum_congr rfl fun i _ => ?_
      rw [← sum_sub_distrib]
      exact sum_congr rfl fun j _ => by ring
    rw [q4] at q2
    have q5 := (abs_le.1 q2).1
    have q6 : ∑ i ∈ range n, (mirror n s.C i i).val * x i ^ 2 ≤ (1 + g) * ∑ i ∈ range n, M i i * x i ^ 2 := by
      rw [mul_sum]
      refine sum_le_sum fun i hi => ?_
      rw [← mul_assoc]
      exact mul_le_mul_of_nonneg_right (hup i (mem_range.1 hi)) (sq_nonneg _)
    have hμ : 0 ≤ μ - n * g := by
      have := h.big
      have a1 : 0 ≤ gam ρ.u (n + 1) := gam_nonneg u0 u1 (by
        have := h.chol
        have hn0 : (0:ℝ) ≤ n := Nat.cast_nonneg n
        push_cast at *; nlinarith)
      have a2 : 0 ≤ gam ρ.u (n + 1) / (1 - gam ρ.u (n + 1)) := div_nonneg a1 (by linarith [h.chol1])
      have a3 : 0 ≤ (1 + g) * (n * (gam ρ.u (n + 1) / (1 - gam ρ.u (n + 1)))) :=
        mul_nonneg (by linarith) (mul_nonneg (Nat.cast_nonneg n) a2)
      linarith
    have q7 := mul_le_mul_of_nonneg_left q6 (div_nonneg hμ (by linarith : 0 ≤ 1 + g))
    have q8 : (μ - n * g) / (1 + g) * ((1 + g) * ∑ i ∈ range n, M i i * x i ^ 2) = (μ - n * g) * ∑ i ∈ range n, M i i * x i ^ 2 := by
      have : 1 + g ≠ 0 := by linarith
      field_simp
    rw [q8] at q7
    have : M = fun i j => ∑ k ∈ range N, (info (calls k)).mat i j := rfl
    linarith
  have hbig : n * (gam ρ.u (n + 1) / (1 - gam ρ.u (n + 1))) < (μ - n * g) / (1 + g) := by
    rw [lt_div_iff₀ (by linarith)]
    have := h.big
    linarith
  obtain ⟨x, hx, E', hE', hsol⟩ := c82_chol_solve n (mirror n s.C) h.chol h.chol1 _ hbig hpos hpd s.v y₀ x₀
  have hG0 : 0 ≤ gam ρ.u (3 * n) / (1 - gam ρ.u (n + 1)) := by
    refine div_nonneg (gam_nonneg u0 u1 ?_) (by linarith [h.chol1])
    have := h.chol
    push_cast at *; linarith
  refine ⟨x, hx, fun i j => ((lowerSym (mirror n s.C) i j).val - M i j) + E' i j,
    fun i => (s.v i).val - ∑ k ∈ range N, (info (calls k)).rhs i, fun i j hi hj => ?_, fun i hi => ?_, fun i hi => ?_⟩
  · refine le_trans (abs_add_le _ _) ?_
    have b1 := hΔ i j hi hj
    have b2 := hE' i j hi hj
    have b3 : Real.sqrt ((mirror n s.C i i).val * (mirror n s.C j j).val) ≤ (1 + g) * (Real.sqrt (M i i) * Real.sqrt (M j j)) := by
      rw [← Real.sqrt_mul (hM0 i hi)]
      have : (mirror n s.C i i).val * (mirror n s.C j j).val ≤ (1 + g) ^ 2 * (M i i * M j j) := by
        refine le_trans (mul_le_mul (hup i hi) (hup j hj) (hpos j hj).le (by have := hM0 i hi; positivity)) (le_of_eq (by ring))
      refine le_trans (Real.sqrt_le_sqrt this) ?_
      rw [Real.sqrt_mul (sq_nonneg _), Real.sqrt_sq (by linarith)]
    have b4 := le_trans b2 (mul_le_mul_of_nonneg_left b3 hG0)
    unfold kappaU
    rw [← hg]
    nlinarith
  · exact le_trans (accV i hi) (mul_le_mul_of_nonneg_left (abs_rhs_le n N _ hz i hi) g0)
  · have := hsol i hi
    rw [add_sub_cancel]
    rw [← this]
    exact sum_congr rfl fun j _ => by ring

theorem wu_forward (n N : ℕ) (calls : ℕ → Call (Fu ρ ϰ)) (C0 : Mat (Fu ρ ϰ)) (v0 y₀ x₀ : Vec (Fu ρ ϰ)) (μ : ℝ)
    (hz : ∀ k, k < N → (info (calls k)).Nonneg n)
    (h : SolvableU u ρ n N (fun i j => ∑ k ∈ range N, (info (calls k)).mat i j) μ) (z : ℕ → ℝ)
    (hsol : ∀ i, i < n → ∑ j ∈ range n, (∑ k ∈ range N, (info (calls k)).mat i j) * z j = ∑ k ∈ range N, (info (calls k)).rhs i) :
    let M := fun i j => ∑ k ∈ range N, (info (calls k)).mat i j
    ∃ x, (compute n y₀ x₀ (sessionU o n N calls C0 v0)).mu = some x ∧
      μ * Real.sqrt (∑ i ∈ range n, M i i * ((x i).val - z i) ^ 2) ≤
        gam u (N + 2) * Real.sqrt n * Real.sqrt (∑ k ∈ range N, (info (calls k)).energy) +
        n * kappaU u ρ.u n N * Real.sqrt (∑ i ∈ range n, M i i * (x i).val ^ 2) := by
  intro M
  obtain ⟨x, hx, E, e, hE, he, hs⟩ := wu_stable h1 hru ho n N calls C0 v0 y₀ x₀ μ hz h
  refine ⟨x, hx, ?_⟩
  have u0 := ρ.u_nonneg
  have u1 := ρ.u_lt_one
  have hM0 : ∀ i, i < n → 0 ≤ M i i := fun i hi => (h.pos i hi).le
  have g0 : 0 ≤ gam u (N + 2) := gam_nonneg (le_trans ρ.u_nonneg hru) h1 h.acc
  have hk0 : 0 ≤ kappaU u ρ.u n N := by
    have hG0 : 0 ≤ gam ρ.u (3 * n) / (1 - gam ρ.u (n + 1)) := by
      refine div_nonneg (gam_nonneg u0 u1 ?_) (by linarith [h.chol1])
      have := h.chol
      push_cast at *; linarith
    unfold kappaU
    have := mul_nonneg (by linarith : 0 ≤ 1 + gam u (N + 2)) hG0
    linarith
  set W := Real.sqrt (∑ k ∈ range N, (info (calls k)).energy)
  have hW : 0 ≤ W := Real.sqrt_nonneg _
  set δ : ℕ → ℝ := fun i => (x i).val - z i
  have hsq : ∀ y : ℕ → ℝ, ∑ i ∈ range n, (Real.sqrt (M i i) * y i) ^ 2 = ∑ i ∈ range n, M i i * y i ^ 2 := fun y =>
    sum_congr rfl fun i hi => by rw [mul_pow, Real.sq_sqrt (hM0 i (mem_range.1 hi))]
  set D := Real.sqrt (∑ i ∈ range n, M i i * δ i ^ 2) with hD
  have hS : 0 ≤ ∑ i ∈ range n, M i i * δ i ^ 2 := sum_nonneg fun i hi => mul_nonneg (hM0 i (mem_range.1 hi)) (sq_nonneg _)
  have hD0 : 0 ≤ D := Real.sqrt_nonneg _
  have hDD : D * D = ∑ i ∈ range n, M i i * δ i ^ 2 := Real.mul_self_sqrt hS
  -- the residual equation
  have hr : ∀ i, i < n → ∑ j ∈ range n, M i j * δ j = e i - ∑ j ∈ range n, E i j * (x j).val := by
    intro i hi
    have a := hs i hi
    have b := hsol i hi
    have c : ∑ j ∈ range n, M i j * δ j = ∑ j ∈ range n, M i j * (x j).val - ∑ j ∈ range n, M i j * z j := by
      rw [← sum_sub_distrib]; exact sum_congr rfl fun j _ => by simp only [δ]; ring
    have d : ∑ j ∈ range n, (M i j + E i j) * (x j).val = ∑ j ∈ range n, M i j * (x j).val + ∑ j ∈ range n, E i j * (x j).val := by
      rw [← sum_add_distrib]; exact sum_congr rfl fun j _ => by ring
    have a' : ∑ j ∈ range n, (M i j + E i j) * (x j).val = ∑ k ∈ range N, (info (calls k)).rhs i + e i := a
    have b' : ∑ j ∈ range n, M i j * z j = ∑ k ∈ range N, (info (calls k)).rhs i := b
    rw [c, b']
    rw [d] at a'
    linarith
  have hq := h.pd δ
  have e1 : ∑ r ∈ range n, ∑ c ∈ range n, δ r * δ c * M r c = ∑ i ∈ range n, δ i * e i - ∑ i ∈ range n, ∑ j ∈ range n, δ i * (x j).val * E i j := by
    rw [← sum_sub_distrib]
    refine sum_congr rfl fun i hi => ?_
    have := hr i (mem_range.1 hi)
    have k1 : ∑ c ∈ range n, δ i * δ c * M i c = δ i * ∑ j ∈ range n, M i j * δ j := by
      rw [mul_sum]; exact sum_congr rfl fun j _ => by ring
    rw [k1, this, mul_sub, mul_sum]
    congr 1
    exact sum_congr rfl fun j _ => by ring
  have e2 : |∑ i ∈ range n, δ i * e i| ≤ gam u (N + 2) * Real.sqrt n * W * D := by
    have k1 : |∑ i ∈ range n, δ i * e i| ≤ ∑ i ∈ range n, (gam u (N + 2) * W) * |Real.sqrt (M i i) * δ i| := by
      refine le_trans (abs_sum_le_sum_abs _ _) (sum_le_sum fun i hi => ?_)
      rw [abs_mul, abs_mul, abs_of_nonneg (Real.sqrt_nonneg _)]
      have := mul_le_mul_of_nonneg_left (he i (mem_range.1 hi)) (abs_nonneg (δ i))
      refine le_trans this (le_of_eq ?_)
      simp only [W, M]; ring
    have k2 := Real.sum_mul_le_sqrt_mul_sqrt (range n) (fun _ => gam u (N + 2) * W) (fun i => |Real.sqrt (M i i) * δ i|)
    simp only [sq_abs] at k2
    rw [hsq δ, sum_const, card_range, nsmul_eq_mul, Real.sqrt_mul (Nat.cast_nonneg n),
      Real.sqrt_sq (mul_nonneg g0 hW)] at k2
    refine le_trans k1 (le_trans k2 (le_of_eq ?_))
    ring
  have e3 := quad_bound n (kappaU u ρ.u n N) hk0 (fun i => Real.sqrt (M i i)) δ (fun j => (x j).val) E hE (fun i => Real.sqrt_nonneg _)
  rw [hsq δ, hsq (fun j => (x j).val)] at e3
  have hM' : (fun i j => ∑ k ∈ range N, (info (calls k)).mat i j) = M := rfl
  have e4 : μ * (D * D) ≤ (gam u (N + 2) * Real.sqrt n * W + n * kappaU u ρ.u n N * Real.sqrt (∑ i ∈ range n, M i i * (x i).val ^ 2)) * D := by
    rw [hDD]
    have a := (abs_le.1 e2).2
    have b := (abs_le.1 e3).1
    have c : μ * ∑ i ∈ range n, M i i * δ i ^ 2 ≤ ∑ r ∈ range n, ∑ c ∈ range n, δ r * δ c * M r c := hq
    rw [e1] at c
    have d : kappaU u ρ.u n N * n * (D * Real.sqrt (∑ i ∈ range n, M i i * (x i).val ^ 2)) =
      n * kappaU u ρ.u n N * Real.sqrt (∑ i ∈ range n, M i i * (x i).val ^ 2) * D := by ring
    linarith
  rcases hD0.lt_or_eq with hlt | heq
  · have e5 : μ * D * D ≤ (gam u (N + 2) * Real.sqrt n * W + n * kappaU u ρ.u n N * Real.sqrt (∑ i ∈ range n, M i i * (x i).val ^ 2)) * D := by
      rw [mul_assoc]; exact e4
    exact le_of_mul_le_mul_right e5 hlt
  · rw [← heq, mul_zero]
    have := mul_nonneg (Nat.cast_nonneg n : (0:ℝ) ≤ n) hk0
    positivity

end gen

/-- **C82** accumulation: after `N` calls each stored element of the normal equations is the exact one up to `γ_{N+2}` times the sum of
the absolute values of its terms -/
theorem c82_wls_accumulate (n N : ℕ) (hN : ((N + 2 : ℕ) : ℝ) * ρ.u < 1) (calls : ℕ → Call (Fu ρ ϰ)) (C0 : Mat (Fu ρ ϰ)) (v0 : Vec (Fu ρ ϰ)) :
    (∀ i j, i ≤ j → j < n →
      |((session n N calls C0 v0).C i j).val - ∑ k ∈ range N, (info (calls k)).mat i j| ≤
        gam ρ.u (N + 2) * ∑ k ∈ range N, |(info (calls k)).mat i j|) ∧
    (∀ i, i < n → |((session n N calls C0 v0).v i).val - ∑ k ∈ range N, (info (calls k)).rhs i| ≤
        gam ρ.u (N + 2) * ∑ k ∈ range N, |(info (calls k)).rhs i|) :=
  wu_accumulate ρ.u_lt_one le_rfl jwOk_std n N hN calls C0 v0

/-- **C82** backward stability: `compute()` succeeds and `get_mu()` is the exact solution of normal equations whose matrix is perturbed by
at most `κ √(Mᵢᵢ Mⱼⱼ)` and whose right-hand side by at most `γ √Mᵢᵢ √(Σ w m²)` -/
theorem c82_wls_stable (n N : ℕ) (calls : ℕ → Call (Fu ρ ϰ)) (C0 : Mat (Fu ρ ϰ)) (v0 y₀ x₀ : Vec (Fu ρ ϰ)) (μ : ℝ)
    (hz : ∀ k, k < N → (info (calls k)).Nonneg n)
    (h : Solvable ρ n N (fun i j => ∑ k ∈ range N, (info (calls k)).mat i j) μ) :
    let M := fun i j => ∑ k ∈ range N, (info (calls k)).mat i j
    ∃ x, (compute n y₀ x₀ (session n N calls C0 v0)).mu = some x ∧ ∃ (E : ℕ → ℕ → ℝ) (e : ℕ → ℝ),
      (∀ i j, i < n → j < n → |E i j| ≤ kappa ρ.u n N * (Real.sqrt (M i i) * Real.sqrt (M j j))) ∧
      (∀ i, i < n → |e i| ≤ gam ρ.u (N + 2) * (Real.sqrt (M i i) * Real.sqrt (∑ k ∈ range N, (info (calls k)).energy))) ∧
      ∀ i, i < n → ∑ j ∈ range n, (M i j + E i j) * (x j).val = ∑ k ∈ range N, (info (calls k)).rhs i + e i :=
  wu_stable ρ.u_lt_one le_rfl jwOk_std n N calls C0 v0 y₀ x₀ μ hz h

/-- **C82** forward error: the distance (in the norm of the diagonal of `M`) of `get_mu()` from the exact minimiser `z` is at most
`(√n γ √(Σ w m²) + n κ ‖mu‖) / μ` -/
theorem c82_wls_forward (n N : ℕ) (calls : ℕ → Call (Fu ρ ϰ)) (C0 : Mat (Fu ρ ϰ)) (v0 y₀ x₀ : Vec (Fu ρ ϰ)) (μ : ℝ)
    (hz : ∀ k, k < N → (info (calls k)).Nonneg n)
    (h : Solvable ρ n N (fun i j => ∑ k ∈ range N, (info (calls k)).mat i j) μ) (z : ℕ → ℝ)
    (hsol : ∀ i, i < n → ∑ j ∈ range n, (∑ k ∈ range N, (info (calls k)).mat i j) * z j = ∑ k ∈ range N, (info (calls k)).rhs i) :
    let M := fun i j => ∑ k ∈ range N, (info (calls k)).mat i j
    ∃ x, (compute n y₀ x₀ (session n N calls C0 v0)).mu = some x ∧
      μ * Real.sqrt (∑ i ∈ range n, M i i * ((x i).val - z i) ^ 2) ≤
        gam ρ.u (N + 2) * Real.sqrt n * Real.sqrt (∑ k ∈ range N, (info (calls k)).energy) +
        n * kappa ρ.u n N * Real.sqrt (∑ i ∈ range n, M i i * (x i).val ^ 2) :=
  wu_forward ρ.u_lt_one le_rfl jwOk_std n N calls C0 v0 y₀ x₀ μ hz h z hsol

/-- two measurements, of the first and of the second parameter, in double precision meet the hypotheses -/
noncomputable def exCalls {ϰ : Contract Rounding.double} (k : ℕ) : Call (Fu Rounding.double ϰ) := .mJ 1 (fun i => if i = k then 1 else 0) 1

example (ϰ : Contract Rounding.double) : (∀ k, k < 2 → (info (exCalls (ϰ := ϰ) k)).Nonneg 2) ∧
    Solvable Rounding.double 2 2 (fun i j => ∑ k ∈ range 2, (info (exCalls (ϰ := ϰ) k)).mat i j) (1 / 2) := by
  have hu : Rounding.double.u = 1 / 2 ^ 53 := Rounding.double_u
  refine ⟨fun k _ => by simp [exCalls, info, Info.Nonneg], ?_, ?_, ?_, ?_, ?_, ?_, ?_⟩
  · intro i hi
    have : i = 0 ∨ i = 1 := by omega
    rcases this with rfl | rfl <;> simp [exCalls, info, Info.mat, sum_range_succ, uvec]
  · intro x
    simp [exCalls, info, Info.mat, sum_range_succ, uvec]
    nlinarith [sq_nonneg (x 0), sq_nonneg (x 1)]
  · rw [hu]; norm_num
  · rw [gam, hu]; norm_num
  · rw [hu]; norm_num
  · rw [gam, hu]; norm_num
  · rw [gam, gam, hu]; norm_num

end TooN.Fused
