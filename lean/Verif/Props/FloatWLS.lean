import Verif.Proof.FloatWLS
import Verif.Props.FloatChol
/-!
# C71: weighted least squares in floating point
-/
set_option linter.unusedSectionVars false
namespace TooN.WLS
open Finset
variable {ρ : Rounding}

theorem mat_symm (z : Info) (i j : ℕ) : z.mat i j = z.mat j i := by
  cases z with
  | prior p =>
    simp only [Info.mat]
    by_cases h : i = j
    · subst h; rfl
    · rw [if_neg h, if_neg (fun k => h k.symm)]
  | meas m J w => simp only [Info.mat]; ring

/-- a symmetric bilinear form with entries bounded by `κ dᵢ dⱼ` -/
theorem quad_bound (n : ℕ) (κ : ℝ) (hκ : 0 ≤ κ) (d x y : ℕ → ℝ) (E : ℕ → ℕ → ℝ)
    (hE : ∀ i j, i < n → j < n → |E i j| ≤ κ * (d i * d j)) (hd : ∀ i, 0 ≤ d i) :
    |∑ i ∈ range n, ∑ j ∈ range n, x i * y j * E i j| ≤
      κ * n * (Real.sqrt (∑ i ∈ range n, (d i * x i) ^ 2) * Real.sqrt (∑ i ∈ range n, (d i * y i) ^ 2)) := by
  have h1 : |∑ i ∈ range n, ∑ j ∈ range n, x i * y j * E i j| ≤
      κ * ((∑ i ∈ range n, d i * |x i|) * ∑ j ∈ range n, d j * |y j|) := by
    rw [sum_mul_sum, mul_sum]
    refine le_trans (abs_sum_le_sum_abs _ _) (sum_le_sum fun i hi => ?_)
    rw [mul_sum]
    refine le_trans (abs_sum_le_sum_abs _ _) (sum_le_sum fun j hj => ?_)
    rw [abs_mul, abs_mul]
    have := mul_le_mul_of_nonneg_left (hE i j (mem_range.1 hi) (mem_range.1 hj)) (mul_nonneg (abs_nonneg (x i)) (abs_nonneg (y j)))
    refine le_trans this (le_of_eq (by ring))
  have h2 : ∀ z : ℕ → ℝ, ∑ i ∈ range n, d i * |z i| ≤ Real.sqrt n * Real.sqrt (∑ i ∈ range n, (d i * z i) ^ 2) := by
    intro z
    have := Real.sum_mul_le_sqrt_mul_sqrt (range n) (fun _ => 1) (fun i => d i * |z i|)
    simp only [one_mul, one_pow, sum_const, card_range, nsmul_eq_mul, mul_one] at this
    refine le_trans this (le_of_eq ?_)
    congr 2
    refine sum_congr rfl fun i _ => ?_
    rw [mul_pow, mul_pow, sq_abs]
  refine le_trans h1 ?_
  have p1 : 0 ≤ ∑ i ∈ range n, d i * |y i| := sum_nonneg fun i _ => mul_nonneg (hd i) (abs_nonneg _)
  have := mul_le_mul (h2 x) (h2 y) p1 (by positivity)
  refine le_trans (mul_le_mul_of_nonneg_left this hκ) (le_of_eq ?_)
  have hs : Real.sqrt n * Real.sqrt n = n := Real.mul_self_sqrt (Nat.cast_nonneg n)
  calc _ = κ * (Real.sqrt n * Real.sqrt n) * (Real.sqrt (∑ i ∈ range n, (d i * x i) ^ 2) * Real.sqrt (∑ i ∈ range n, (d i * y i) ^ 2)) := by ring
    _ = _ := by rw [hs]

/-- the condition under which least squares can be solved in the given arithmetic: `M` scaled to unit diagonal has smallest
eigenvalue at least `μ`, and `μ` exceeds the rounding level; `u` is the unit roundoff of the accumulation, `ρ.u` that of the
factorisation -/
structure SolvableU (u : ℝ) (ρ : Rounding) (n N : ℕ) (M : ℕ → ℕ → ℝ) (μ : ℝ) : Prop where
  pos : ∀ i, i < n → 0 < M i i
  pd : ∀ x : ℕ → ℝ, μ * ∑ i ∈ range n, M i i * x i ^ 2 ≤ ∑ r ∈ range n, ∑ c ∈ range n, x r * x c * M r c
  acc : ((N + 2 : ℕ) : ℝ) * u < 1
  acc1 : gam u (N + 2) < 1
  chol : ((3 * n + 1 : ℕ) : ℝ) * ρ.u < 1
  chol1 : gam ρ.u (n + 1) < 1
  big : n * gam u (N + 2) + (1 + gam u (N + 2)) * (n * (gam ρ.u (n + 1) / (1 - gam ρ.u (n + 1)))) < μ

/-- relative backward error of least squares: accumulation, then factorisation and substitution -/
noncomputable def kappaU (ua u : ℝ) (n N : ℕ) : ℝ :=
  gam ua (N + 2) + (1 + gam ua (N + 2)) * (gam u (3 * n) / (1 - gam u (n + 1)))

/-- the condition when everything is computed in one arithmetic -/
abbrev Solvable (ρ : Rounding) (n N : ℕ) (M : ℕ → ℕ → ℝ) (μ : ℝ) : Prop := SolvableU ρ.u ρ n N M μ

/-- the backward error when everything is computed in one arithmetic -/
noncomputable abbrev kappa (u : ℝ) (n N : ℕ) : ℝ := kappaU u u n N

section gen
/-! ### the analysis for any evaluation of the expressions with `Jw` -/
variable {u : ℝ} (h1 : u < 1) (hru : ρ.u ≤ u) {D : Type} {o : JwOps (Fl ρ) D} (ho : JwOk ρ u o)
include h1 hru ho

theorem wu_accumulate (n N : ℕ) (hN : ((N + 2 : ℕ) : ℝ) * u < 1) (calls : ℕ → Call (Fl ρ)) (C0 : Mat (Fl ρ)) (v0 : Vec (Fl ρ)) :
    (∀ i j, i ≤ j → j < n →
      |((sessionU o n N calls C0 v0).C i j).val - ∑ k ∈ range N, (calls k).info.mat i j| ≤
        gam u (N + 2) * ∑ k ∈ range N, |(calls k).info.mat i j|) ∧
    (∀ i, i < n → |((sessionU o n N calls C0 v0).v i).val - ∑ k ∈ range N, (calls k).info.rhs i| ≤
        gam u (N + 2) * ∑ k ∈ range N, |(calls k).info.rhs i|) := by
  refine ⟨fun i j hij hj => ?_, fun i hi => ?_⟩
  · obtain ⟨F, hF, e⟩ := session_mat h1 hru ho n N calls C0 v0 i j hij hj
    rw [e]
    exact fac_sum_err (le_trans ρ.u_nonneg hru) h1 hN _ _ _ (fun k _ => hF k)
  · obtain ⟨F, hF, e⟩ := session_rhs h1 hru ho n N calls C0 v0 i hi
    rw [e]
    exact fac_sum_err (le_trans ρ.u_nonneg hru) h1 hN _ _ _ (fun k _ => hF k)

theorem wu_stable (n N : ℕ) (calls : ℕ → Call (Fl ρ)) (C0 : Mat (Fl ρ)) (v0 y₀ x₀ : Vec (Fl ρ)) (μ : ℝ)
    (hz : ∀ k, k < N → (calls k).info.Nonneg n)
    (h : SolvableU u ρ n N (fun i j => ∑ k ∈ range N, (calls k).info.mat i j) μ) :
    let M := fun i j => ∑ k ∈ range N, (calls k).info.mat i j
    ∃ x, (compute n y₀ x₀ (sessionU o n N calls C0 v0)).mu = some x ∧ ∃ (E : ℕ → ℕ → ℝ) (e : ℕ → ℝ),
      (∀ i j, i < n → j < n → |E i j| ≤ kappaU u ρ.u n N * (Real.sqrt (M i i) * Real.sqrt (M j j))) ∧
      (∀ i, i < n → |e i| ≤ gam u (N + 2) * (Real.sqrt (M i i) * Real.sqrt (∑ k ∈ range N, (calls k).info.energy))) ∧
      ∀ i, i < n → ∑ j ∈ range n, (M i j + E i j) * (x j).val = ∑ k ∈ range N, (calls k).info.rhs i + e i := by
  intro M
  have u0 := ρ.u_nonneg
  have u1 := ρ.u_lt_one
  obtain ⟨accM, accV⟩ := wu_accumulate h1 hru ho n N h.acc calls C0 v0
  set s := sessionU o n N calls C0 v0 with hs
  set g := gam u (N + 2) with hg
  have g0 : 0 ≤ g := gam_nonneg (le_trans ρ.u_nonneg hru) h1 h.acc
  have g1 := h.acc1
  -- the mirrored matrix
  have hA : ∀ i j, i < n → j < n → lowerSym (mirror n s.C) i j = if i ≤ j then s.C i j else s.C j i := by
    intro i j hi hj
    unfold lowerSym
    rcases lt_trichotomy i j with hh | hh | hh
    · rw [if_neg (by omega), mirror_apply, if_pos (by omega), if_pos (by omega)]
    · subst hh; rw [if_pos le_rfl, mirror_apply, if_neg (by omega), if_pos le_rfl]
    · rw [if_pos (by omega), mirror_apply, if_pos (by omega), if_neg (by omega)]
  have hMs : ∀ i j, M i j = M j i := fun i j => sum_congr rfl fun k _ => mat_symm _ i j
  have hΔ : ∀ i j, i < n → j < n → |(lowerSym (mirror n s.C) i j).val - M i j| ≤ g * (Real.sqrt (M i i) * Real.sqrt (M j j)) := by
    intro i j hi hj
    rw [hA i j hi hj]
    split_ifs with hij
    · exact le_trans (accM i j hij hj) (mul_le_mul_of_nonneg_left (abs_info_le n N _ hz i j hi hj) g0)
    · rw [hMs i j, mul_comm (Real.sqrt (M i i))]
      exact le_trans (accM j i (by omega) hi) (mul_le_mul_of_nonneg_left (abs_info_le n N _ hz j i hj hi) g0)
  have hdiag : ∀ i, i < n → (mirror n s.C i i) = lowerSym (mirror n s.C) i i := by
    intro i _; unfold lowerSym; rw [if_pos le_rfl]
  have hM0 : ∀ i, i < n → 0 ≤ M i i := fun i hi => (h.pos i hi).le
  have hdd : ∀ i, i < n → |(mirror n s.C i i).val - M i i| ≤ g * M i i := by
    intro i hi
    have := hΔ i i hi hi
    rwa [← hdiag i hi, Real.mul_self_sqrt (hM0 i hi)] at this
  have hup : ∀ i, i < n → (mirror n s.C i i).val ≤ (1 + g) * M i i := by
    intro i hi; have := (abs_le.1 (hdd i hi)).2; linarith
  have hpos : ∀ i, i < n → 0 < (mirror n s.C i i).val := by
    intro i hi
    have := (abs_le.1 (hdd i hi)).1
    nlinarith [h.pos i hi]
  -- the stored matrix is numerically positive definite
  have hpd : ∀ x : Vec ℝ, ((μ - n * g) / (1 + g)) * ∑ i ∈ range n, (mirror n s.C i i).val * x i ^ 2 ≤
      ∑ r ∈ range n, ∑ c ∈ range n, x r * x c * (lowerSym (mirror n s.C) r c).val := by
    intro x
    have q1 := h.pd x
    have q2 := quad_bound n g g0 (fun i => Real.sqrt (M i i)) x x
      (fun i j => (lowerSym (mirror n s.C) i j).val - M i j) hΔ (fun i => Real.sqrt_nonneg _)
    have q3 : ∑ i ∈ range n, (Real.sqrt (M i i) * x i) ^ 2 = ∑ i ∈ range n, M i i * x i ^ 2 :=
      sum_congr rfl fun i hi => by rw [mul_pow, Real.sq_sqrt (hM0 i (mem_range.1 hi))]
    have hS : 0 ≤ ∑ i ∈ range n, M i i * x i ^ 2 :=
      sum_nonneg fun i hi => mul_nonneg (hM0 i (mem_range.1 hi)) (sq_nonneg _)
    rw [q3, Real.mul_self_sqrt hS] at q2
    have q4 : ∑ i ∈ range n, ∑ j ∈ range n, x i * x j * ((lowerSym (mirror n s.C) i j).val - M i j) =
        ∑ i ∈ range n, ∑ j ∈ range n, x i * x j * (lowerSym (mirror n s.C) i j).val -
        ∑ i ∈ range n, ∑ j ∈ range n, x i * x j * M i j := by
      rw [← sum_sub_distrib]
      refine sum_congr rfl fun i _ => ?_
      rw [← sum_sub_distrib]
      exact sum_congr rfl fun j _ => by ring
    rw [q4] at q2
    have q5 := (abs_le.1 q2).1
    have q6 : ∑ i ∈ range n, (mirror n s.C i i).val * x i ^ 2 ≤ (1 + g) * ∑ i ∈ range n, M i i * x i ^ 2 := by
      rw [mul_sum]
      refine sum_le_sum fun i hi => ?_
      rw [← mul_assoc]
      exact mul_le_mul_of_nonneg_right (hup i (mem_range.1 hi)) (sq_nonneg _)
    have hμ : 0 ≤ μ - n * g := by
      have := h.big
      have a1 : 0 ≤ gam ρ.u (n + 1) := gam_nonneg u0 u1 (by
        have := h.chol
        have hn0 : (0:ℝ) ≤ n := Nat.cast_nonneg n
        push_cast at *; nlinarith)
      have a2 : 0 ≤ gam ρ.u (n + 1) / (1 - gam ρ.u (n + 1)) := div_nonneg a1 (by linarith [h.chol1])
      have a3 : 0 ≤ (1 + g) * (n * (gam ρ.u (n + 1) / (1 - gam ρ.u (n + 1)))) :=
        mul_nonneg (by linarith) (mul_nonneg (Nat.cast_nonneg n) a2)
      linarith
    have q7 := mul_le_mul_of_nonneg_left q6 (div_nonneg hμ (by linarith : 0 ≤ 1 + g))
    have q8 : (μ - n * g) / (1 + g) * ((1 + g) * ∑ i ∈ range n, M i i * x i ^ 2) = (μ - n * g) * ∑ i ∈ range n, M i i * x i ^ 2 := by
      have : 1 + g ≠ 0 := by linarith
      field_simp
    rw [q8] at q7
    have : M = fun i j => ∑ k ∈ range N, (calls k).info.mat i j := rfl
    linarith
  have hbig : n * (gam ρ.u (n + 1) / (1 - gam ρ.u (n + 1))) < (μ - n * g) / (1 + g) := by
    rw [lt_div_iff₀ (by linarith)]
    have := h.big
    linarith
  obtain ⟨x, hx, E', hE', hsol⟩ := Chol.c62_solve n (mirror n s.C) h.chol h.chol1 _ hbig hpos hpd s.v y₀ x₀
  have hG0 : 0 ≤ gam ρ.u (3 * n) / (1 - gam ρ.u (n + 1)) := by
    refine div_nonneg (gam_nonneg u0 u1 ?_) (by linarith [h.chol1])
    have := h.chol
    push_cast at *; linarith
  refine ⟨x, hx, fun i j => ((lowerSym (mirror n s.C) i j).val - M i j) + E' i j,
    fun i => (s.v i).val - ∑ k ∈ range N, (calls k).info.rhs i, fun i j hi hj => ?_, fun i hi => ?_, fun i hi => ?_⟩
  · refine le_trans (abs_add_le _ _) ?_
    have b1 := hΔ i j hi hj
    have b2 := hE' i j hi hj
    have b3 : Real.sqrt ((mirror n s.C i i).val * (mirror n s.C j j).val) ≤ (1 + g) * (Real.sqrt (M i i) * Real.sqrt (M j j)) := by
      rw [← Real.sqrt_mul (hM0 i hi)]
      have : (mirror n s.C i i).val * (mirror n s.C j j).val ≤ (1 + g) ^ 2 * (M i i * M j j) := by
        refine le_trans (mul_le_mul (hup i hi) (hup j hj) (hpos j hj).le (by have := hM0 i hi; positivity)) (le_of_eq (by ring))
      refine le_trans (Real.sqrt_le_sqrt this) ?_
      rw [Real.sqrt_mul (sq_nonneg _), Real.sqrt_sq (by linarith)]
    have b4 := le_trans b2 (mul_le_mul_of_nonneg_left b3 hG0)
    unfold kappaU
    rw [← hg]
    nlinarith
  · exact le_trans (accV i hi) (mul_le_mul_of_nonneg_left (abs_rhs_le n N _ hz i hi) g0)
  · have := hsol i hi
    rw [add_sub_cancel]
    rw [← this]
    exact sum_congr rfl fun j _ => by ring

theorem wu_forward (n N : ℕ) (calls : ℕ → Call (Fl ρ)) (C0 : Mat (Fl ρ)) (v0 y₀ x₀ : Vec (Fl ρ)) (μ : ℝ)
    (hz : ∀ k, k < N → (calls k).info.Nonneg n)
    (h : SolvableU u ρ n N (fun i j => ∑ k ∈ range N, (calls k).info.mat i j) μ) (z : ℕ → ℝ)
    (hsol : ∀ i, i < n → ∑ j ∈ range n, (∑ k ∈ range N, (calls k).info.mat i j) * z j = ∑ k ∈ range N, (calls k).info.rhs i) :
    let M := fun i j => ∑ k ∈ range N, (calls k).info.mat i j
    ∃ x, (compute n y₀ x₀ (sessionU o n N calls C0 v0)).mu = some x ∧
      μ * Real.sqrt (∑ i ∈ range n, M i i * ((x i).val - z i) ^ 2) ≤
        gam u (N + 2) * Real.sqrt n * Real.sqrt (∑ k ∈ range N, (calls k).info.energy) +
        n * kappaU u ρ.u n N * Real.sqrt (∑ i ∈ range n, M i i * (x i).val ^ 2) := by
  intro M
  obtain ⟨x, hx, E, e, hE, he, hs⟩ := wu_stable h1 hru ho n N calls C0 v0 y₀ x₀ μ hz h
  refine ⟨x, hx, ?_⟩
  have u0 := ρ.u_nonneg
  have u1 := ρ.u_lt_one
  have hM0 : ∀ i, i < n → 0 ≤ M i i := fun i hi => (h.pos i hi).le
  have g0 : 0 ≤ gam u (N + 2) := gam_nonneg (le_trans ρ.u_nonneg hru) h1 h.acc
  have hk0 : 0 ≤ kappaU u ρ.u n N := by
    have hG0 : 0 ≤ gam ρ.u (3 * n) / (1 - gam ρ.u (n + 1)) := by
      refine div_nonneg (gam_nonneg u0 u1 ?_) (by linarith [h.chol1])
      have := h.chol
      push_cast at *; linarith
    unfold kappaU
    have := mul_nonneg (by linarith : 0 ≤ 1 + gam u (N + 2)) hG0
    linarith
  set W := Real.sqrt (∑ k ∈ range N, (calls k).info.energy)
  have hW : 0 ≤ W := Real.sqrt_nonneg _
  set δ : ℕ → ℝ := fun i => (x i).val - z i
  have hsq : ∀ y : ℕ → ℝ, ∑ i ∈ range n, (Real.sqrt (M i i) * y i) ^ 2 = ∑ i ∈ range n, M i i * y i ^ 2 := fun y =>
    sum_congr rfl fun i hi => by rw [mul_pow, Real.sq_sqrt (hM0 i (mem_range.1 hi))]
  set D := Real.sqrt (∑ i ∈ range n, M i i * δ i ^ 2) with hD
  have hS : 0 ≤ ∑ i ∈ range n, M i i * δ i ^ 2 := sum_nonneg fun i hi => mul_nonneg (hM0 i (mem_range.1 hi)) (sq_nonneg _)
  have hD0 : 0 ≤ D := Real.sqrt_nonneg _
  have hDD : D * D = ∑ i ∈ range n, M i i * δ i ^ 2 := Real.mul_self_sqrt hS
  -- the residual equation
  have hr : ∀ i, i < n → ∑ j ∈ range n, M i j * δ j = e i - ∑ j ∈ range n, E i j * (x j).val := by
    intro i hi
    have a := hs i hi
    have b := hsol i hi
    have c : ∑ j ∈ range n, M i j * δ j = ∑ j ∈ range n, M i j * (x j).val - ∑ j ∈ range n, M i j * z j := by
      rw [← sum_sub_distrib]; exact sum_congr rfl fun j _ => by simp only [δ]; ring
    have d : ∑ j ∈ range n, (M i j + E i j) * (x j).val = ∑ j ∈ range n, M i j * (x j).val + ∑ j ∈ range n, E i j * (x j).val := by
      rw [← sum_add_distrib]; exact sum_congr rfl fun j _ => by ring
    have a' : ∑ j ∈ range n, (M i j + E i j) * (x j).val = ∑ k ∈ range N, (calls k).info.rhs i + e i := a
    have b' : ∑ j ∈ range n, M i j * z j = ∑ k ∈ range N, (calls k).info.rhs i := b
    rw [c, b']
    rw [d] at a'
    linarith
  have hq := h.pd δ
  have e1 : ∑ r ∈ range n, ∑ c ∈ range n, δ r * δ c * M r c = ∑ i ∈ range n, δ i * e i - ∑ i ∈ range n, ∑ j ∈ range n, δ i * (x j).val * E i j := by
    rw [← sum_sub_distrib]
    refine sum_congr rfl fun i hi => ?_
    have := hr i (mem_range.1 hi)
    have k1 : ∑ c ∈ range n, δ i * δ c * M i c = δ i * ∑ j ∈ range n, M i j * δ j := by
      rw [mul_sum]; exact sum_congr rfl fun j _ => by ring
    rw [k1, this, mul_sub, mul_sum]
    congr 1
    exact sum_congr rfl fun j _ => by ring
  have e2 : |∑ i ∈ range n, δ i * e i| ≤ gam u (N + 2) * Real.sqrt n * W * D := by
    have k1 : |∑ i ∈ range n, δ i * e i| ≤ ∑ i ∈ range n, (gam u (N + 2) * W) * |Real.sqrt (M i i) * δ i| := by
      refine le_trans (abs_sum_le_sum_abs _ _) (sum_le_sum fun i hi => ?_)
      rw [abs_mul, abs_mul, abs_of_nonneg (Real.sqrt_nonneg _)]
      have := mul_le_mul_of_nonneg_left (he i (mem_range.1 hi)) (abs_nonneg (δ i))
      refine le_trans this (le_of_eq ?_)
      simp only [W, M]; ring
    have k2 := Real.sum_mul_le_sqrt_mul_sqrt (range n) (fun _ => gam u (N + 2) * W) (fun i => |Real.sqrt (M i i) * δ i|)
    simp only [sq_abs] at k2
    rw [hsq δ, sum_const, card_range, nsmul_eq_mul, Real.sqrt_mul (Nat.cast_nonneg n),
      Real.sqrt_sq (mul_nonneg g0 hW)] at k2
    refine le_trans k1 (le_trans k2 (le_of_eq ?_))
    ring
  have e3 := quad_bound n (kappaU u ρ.u n N) hk0 (fun i => Real.sqrt (M i i)) δ (fun j => (x j).val) E hE (fun i => Real.sqrt_nonneg _)
  rw [hsq δ, hsq (fun j => (x j).val)] at e3
  have hM' : (fun i j => ∑ k ∈ range N, (calls k).info.mat i j) = M := rfl
  have e4 : μ * (D * D) ≤ (gam u (N + 2) * Real.sqrt n * W + n * kappaU u ρ.u n N * Real.sqrt (∑ i ∈ range n, M i i * (x i).val ^ 2)) * D := by
    rw [hDD]
    have a := (abs_le.1 e2).2
    have b := (abs_le.1 e3).1
    have c : μ * ∑ i ∈ range n, M i i * δ i ^ 2 ≤ ∑ r ∈ range n, ∑ c ∈ range n, δ r * δ c * M r c := hq
    rw [e1] at c
    have d : kappaU u ρ.u n N * n * (D * Real.sqrt (∑ i ∈ range n, M i i * (x i).val ^ 2)) =
      n * kappaU u ρ.u n N * Real.sqrt (∑ i ∈ range n, M i i * (x i).val ^ 2) * D := by ring
    linarith
  rcases hD0.lt_or_eq with hlt | heq
  · have e5 : μ * D * D ≤ (gam u (N + 2) * Real.sqrt n * W + n * kappaU u ρ.u n N * Real.sqrt (∑ i ∈ range n, M i i * (x i).val ^ 2)) * D := by
      rw [mul_assoc]; exact e4
    exact le_of_mul_le_mul_right e5 hlt
  · rw [← heq, mul_zero]
    have := mul_nonneg (Nat.cast_nonneg n : (0:ℝ) ≤ n) hk0
    positivity

end gen

/-- **C71** accumulation: after `N` calls each stored element of the normal equations is the exact one up to `γ_{N+2}` times the sum of
the absolute values of its terms -/
theorem c71_accumulate (n N : ℕ) (hN : ((N + 2 : ℕ) : ℝ) * ρ.u < 1) (calls : ℕ → Call (Fl ρ)) (C0 : Mat (Fl ρ)) (v0 : Vec (Fl ρ)) :
    (∀ i j, i ≤ j → j < n →
      |((session n N calls C0 v0).C i j).val - ∑ k ∈ range N, (calls k).info.mat i j| ≤
        gam ρ.u (N + 2) * ∑ k ∈ range N, |(calls k).info.mat i j|) ∧
    (∀ i, i < n → |((session n N calls C0 v0).v i).val - ∑ k ∈ range N, (calls k).info.rhs i| ≤
        gam ρ.u (N + 2) * ∑ k ∈ range N, |(calls k).info.rhs i|) :=
  wu_accumulate ρ.u_lt_one le_rfl (jwOk_std ρ) n N hN calls C0 v0

/-- **C71** backward stability: `compute()` succeeds and `get_mu()` is the exact solution of normal equations whose matrix is perturbed by
at most `κ √(Mᵢᵢ Mⱼⱼ)` and whose right-hand side by at most `γ √Mᵢᵢ √(Σ w m²)` -/
theorem c71_stable (n N : ℕ) (calls : ℕ → Call (Fl ρ)) (C0 : Mat (Fl ρ)) (v0 y₀ x₀ : Vec (Fl ρ)) (μ : ℝ)
    (hz : ∀ k, k < N → (calls k).info.Nonneg n)
    (h : Solvable ρ n N (fun i j => ∑ k ∈ range N, (calls k).info.mat i j) μ) :
    let M := fun i j => ∑ k ∈ range N, (calls k).info.mat i j
    ∃ x, (compute n y₀ x₀ (session n N calls C0 v0)).mu = some x ∧ ∃ (E : ℕ → ℕ → ℝ) (e : ℕ → ℝ),
      (∀ i j, i < n → j < n → |E i j| ≤ kappa ρ.u n N * (Real.sqrt (M i i) * Real.sqrt (M j j))) ∧
      (∀ i, i < n → |e i| ≤ gam ρ.u (N + 2) * (Real.sqrt (M i i) * Real.sqrt (∑ k ∈ range N, (calls k).info.energy))) ∧
      ∀ i, i < n → ∑ j ∈ range n, (M i j + E i j) * (x j).val = ∑ k ∈ range N, (calls k).info.rhs i + e i :=
  wu_stable ρ.u_lt_one le_rfl (jwOk_std ρ) n N calls C0 v0 y₀ x₀ μ hz h

/-- **C71** forward error: the distance (in the norm of the diagonal of `M`) of `get_mu()` from the exact minimiser `z` is at most
`(√n γ √(Σ w m²) + n κ ‖mu‖) / μ` -/
theorem c71_forward (n N : ℕ) (calls : ℕ → Call (Fl ρ)) (C0 : Mat (Fl ρ)) (v0 y₀ x₀ : Vec (Fl ρ)) (μ : ℝ)
    (hz : ∀ k, k < N → (calls k).info.Nonneg n)
    (h : Solvable ρ n N (fun i j => ∑ k ∈ range N, (calls k).info.mat i j) μ) (z : ℕ → ℝ)
    (hsol : ∀ i, i < n → ∑ j ∈ range n, (∑ k ∈ range N, (calls k).info.mat i j) * z j = ∑ k ∈ range N, (calls k).info.rhs i) :
    let M := fun i j => ∑ k ∈ range N, (calls k).info.mat i j
    ∃ x, (compute n y₀ x₀ (session n N calls C0 v0)).mu = some x ∧
      μ * Real.sqrt (∑ i ∈ range n, M i i * ((x i).val - z i) ^ 2) ≤
        gam ρ.u (N + 2) * Real.sqrt n * Real.sqrt (∑ k ∈ range N, (calls k).info.energy) +
        n * kappa ρ.u n N * Real.sqrt (∑ i ∈ range n, M i i * (x i).val ^ 2) :=
  wu_forward ρ.u_lt_one le_rfl (jwOk_std ρ) n N calls C0 v0 y₀ x₀ μ hz h z hsol

/-- two measurements, of the first and of the second parameter, in double precision meet the hypotheses -/
noncomputable def exCalls (k : ℕ) : Call (Fl Rounding.double) := .mJ 1 (fun i => if i = k then 1 else 0) 1

example : (∀ k, k < 2 → (exCalls k).info.Nonneg 2) ∧
    Solvable Rounding.double 2 2 (fun i j => ∑ k ∈ range 2, (exCalls k).info.mat i j) (1 / 2) := by
  have hu : Rounding.double.u = 1 / 2 ^ 53 := Rounding.double_u
  refine ⟨fun k _ => by simp [exCalls, Call.info, Info.Nonneg], ?_, ?_, ?_, ?_, ?_, ?_, ?_⟩
  · intro i hi
    have : i = 0 ∨ i = 1 := by omega
    rcases this with rfl | rfl <;> simp [exCalls, Call.info, Info.mat, sum_range_succ, rvec]
  · intro x
    simp [exCalls, Call.info, Info.mat, sum_range_succ, rvec]
    nlinarith [sq_nonneg (x 0), sq_nonneg (x 1)]
  · rw [hu]; norm_num
  · rw [gam, hu]; norm_num
  · rw [hu]; norm_num
  · rw [gam, hu]; norm_num
  · rw [gam, gam, hu]; norm_num

end TooN.WLS
