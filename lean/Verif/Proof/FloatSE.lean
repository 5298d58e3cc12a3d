import Verif.Model.FloatSE
import Verif.Props.FloatExp
/-!
# The translations of `SE3::exp` and `SE2::exp` in floating point: error analysis
-/
set_option linter.unusedSectionVars false
namespace TooN.FlRot
open Finset
variable {ρ : Rounding}

/-- main branch: `B`, used with one power of the angle -/
theorem coefB1 {u θ η c g h : ℝ} (h0 : 0 ≤ u) (hu : u ≤ 1 / 10000) (hθ : 0 < θ) (hg : |g - 1| ≤ 4 * (1.003 * u))
    (hh : |h - 1| ≤ 13 * (1.003 * u)) (hs : |c - Real.cos (θ * g)| ≤ η) :
    |θ * ((1 - c) / θ ^ 2 * h) - (1 - Real.cos θ) / θ| ≤ 1.002 * (η * (1 / θ)) + 17.2 * u := by
  have hη : 0 ≤ η := le_trans (abs_nonneg _) hs
  have e1 : θ * ((1 - c) / θ ^ 2 * h) = (1 - c) / θ * h := by field_simp
  have h1 : |(1 - c) / θ - (1 - Real.cos θ) / θ| ≤ η * (1 / θ) + 4 * (1.003 * u) := by
    have a := Real.abs_cos_sub_cos_le (θ * g) θ
    have b : |θ * g - θ| ≤ θ * (4 * (1.003 * u)) := by
      have : θ * g - θ = θ * (g - 1) := by ring
      rw [this, abs_mul, abs_of_pos hθ]; exact mul_le_mul_of_nonneg_left hg hθ.le
    have d := abs_add_le (c - Real.cos (θ * g)) (Real.cos (θ * g) - Real.cos θ)
    rw [sub_add_sub_cancel] at d
    have e : (1 - c) / θ - (1 - Real.cos θ) / θ = -(c - Real.cos θ) / θ := by ring
    rw [e, abs_div, abs_neg, abs_of_pos hθ, div_le_iff₀ hθ]
    have : (η * (1 / θ) + 4 * (1.003 * u)) * θ = η + θ * (4 * (1.003 * u)) := by field_simp
    rw [this]; linarith
  have h2 : |(1 - Real.cos θ) / θ| ≤ 1 := by
    have k1 : 0 ≤ 1 - Real.cos θ := by linarith [Real.cos_le_one θ]
    have k2 : 1 - θ ^ 2 / 2 ≤ Real.cos θ := Real.one_sub_sq_div_two_le_cos
    have k3 := Real.neg_one_le_cos θ
    rw [abs_of_nonneg (by positivity), div_le_one hθ]
    nlinarith [sq_nonneg (θ - 2)]
  rw [e1]
  refine le_trans (prod_err h1 hh h2) ?_
  have p1 : 0 ≤ η * (1 / θ) := by positivity
  norm_num at p1 ⊢
  nlinarith [mul_nonneg p1 h0, mul_nonneg h0 h0]

/-- main branch: `A` itself -/
theorem coefA0 {u θ η s g h : ℝ} (h0 : 0 ≤ u) (hu : u ≤ 1 / 10000) (hθ : 0 < θ) (hg : |g - 1| ≤ 4 * (1.003 * u))
    (hh : |h - 1| ≤ 6 * (1.003 * u)) (hs : |s - Real.sin (θ * g)| ≤ η) :
    |s / θ * h - Real.sin θ / θ| ≤ 1.001 * (η * (1 / θ)) + 10.1 * u := by
  have hη : 0 ≤ η := le_trans (abs_nonneg _) hs
  have h1 : |s / θ - Real.sin θ / θ| ≤ η * (1 / θ) + 4 * (1.003 * u) := by
    have a := Real.abs_sin_sub_sin_le (θ * g) θ
    have b : |θ * g - θ| ≤ θ * (4 * (1.003 * u)) := by
      have : θ * g - θ = θ * (g - 1) := by ring
      rw [this, abs_mul, abs_of_pos hθ]; exact mul_le_mul_of_nonneg_left hg hθ.le
    have d := abs_add_le (s - Real.sin (θ * g)) (Real.sin (θ * g) - Real.sin θ)
    rw [sub_add_sub_cancel] at d
    rw [← sub_div, abs_div, abs_of_pos hθ, div_le_iff₀ hθ]
    have : (η * (1 / θ) + 4 * (1.003 * u)) * θ = η + θ * (4 * (1.003 * u)) := by field_simp
    rw [this]; linarith
  have h2 : |Real.sin θ / θ| ≤ 1 := by
    have := Real.abs_sin_le_abs (x := θ)
    rw [abs_div, div_le_one (abs_pos.2 hθ.ne')]
    exact this
  refine le_trans (prod_err h1 hh h2) ?_
  have p1 : 0 ≤ η * (1 / θ) := by positivity
  norm_num at p1 ⊢
  nlinarith [mul_nonneg p1 h0, mul_nonneg h0 h0]

/-- main branch: `C`, used with two powers of the angle -/
theorem coefC2 {u θ η A k : ℝ} (h0 : 0 ≤ u) (hu : u ≤ 1 / 10000) (hθ : 0 < θ) (hη : 0 ≤ η)
    (hA : |A - Real.sin θ / θ| ≤ 1.001 * (η * (1 / θ)) + 10.1 * u) (hk : |k - 1| ≤ 13 * (1.003 * u)) :
    |θ ^ 2 * ((1 - A) / θ ^ 2 * k) - (1 - Real.sin θ / θ)| ≤ 1.003 * (η * (1 / θ)) + 36.4 * u := by
  have e1 : θ ^ 2 * ((1 - A) / θ ^ 2 * k) = (1 - A) * k := by field_simp
  have h1 : |(1 - A) - (1 - Real.sin θ / θ)| ≤ 1.001 * (η * (1 / θ)) + 10.1 * u := by
    rw [show (1 - A) - (1 - Real.sin θ / θ) = -(A - Real.sin θ / θ) by ring, abs_neg]; exact hA
  have h2 : |1 - Real.sin θ / θ| ≤ 2 := by
    have := Real.abs_sin_le_abs (x := θ)
    have k1 : |Real.sin θ / θ| ≤ 1 := by
      rw [abs_div, div_le_one (abs_pos.2 hθ.ne')]; exact this
    have := abs_le.1 k1
    rw [abs_le]; constructor <;> linarith [this.1, this.2]
  rw [e1]
  refine le_trans (prod_err h1 hk h2) ?_
  have p1 : 0 ≤ η * (1 / θ) := by positivity
  norm_num at p1 ⊢
  nlinarith [mul_nonneg p1 h0, mul_nonneg h0 h0]

/-- second Taylor branch: `B` -/
theorem tayB1 {u θ F P' R' : ℝ} (h0 : 0 ≤ u) (hu : u ≤ 1 / 10000) (hθ : 0 < θ) (ht : θ ^ 2 ≤ 1.001e-6)
    (hF : |F - 1| ≤ 1 * (1.003 * u)) (hP' : |P' - 1| ≤ 7 * (1.003 * u)) (hR' : |R' - 1| ≤ 1 * (1.003 * u)) :
    |θ * ((1 / 2 * F - θ ^ 2 / 24 * P') * R') - (1 - Real.cos θ) / θ| ≤ u + 1e-17 := by
  have hθ1 : θ ≤ 1.0006e-3 := le_of_sq (by norm_num) (le_trans ht (by norm_num))
  obtain ⟨tc, -⟩ := Lie.taylor6 (x := θ) (by rw [abs_of_nonneg hθ.le]; norm_num at hθ1 ⊢; linarith)
  have h5 : θ ^ 5 ≤ 1.1e-15 := by
    have h4 := mul_le_mul ht ht (by positivity) (by norm_num)
    have := mul_le_mul h4 hθ1 hθ.le (by norm_num)
    calc θ ^ 5 = θ ^ 2 * θ ^ 2 * θ := by ring
      _ ≤ _ := this
      _ ≤ _ := by norm_num
  norm_num at ht hθ1 hF hP' hR'
  have a1 : |(1 / 2 * F - θ ^ 2 / 24 * P') - (1 / 2 - θ ^ 2 / 24)| ≤ u := by
    have e : (1 / 2 * F - θ ^ 2 / 24 * P') - (1 / 2 - θ ^ 2 / 24) = 1 / 2 * (F - 1) + -(θ ^ 2 / 24 * (P' - 1)) := by ring
    rw [e]
    refine le_trans (abs_add_le _ _) ?_
    rw [abs_neg, abs_mul, abs_mul, abs_of_nonneg (by positivity : (0:ℝ) ≤ θ ^ 2 / 24), abs_of_pos (by norm_num : (0:ℝ) < 1 / 2)]
    have := mul_le_mul (show θ ^ 2 / 24 ≤ 1 / 100 by linarith) hP' (abs_nonneg _) (by norm_num)
    linarith
  have a2 : |1 / 2 - θ ^ 2 / 24| ≤ 1 := by rw [abs_le]; constructor <;> nlinarith [sq_nonneg θ]
  have a3 := prod_err a1 hR' a2
  have a4 : |θ * ((1 / 2 * F - θ ^ 2 / 24 * P') * R') - θ * (1 / 2 - θ ^ 2 / 24)| ≤ u := by
    rw [← mul_sub, abs_mul, abs_of_nonneg hθ.le]
    refine le_trans (mul_le_mul hθ1 a3 (abs_nonneg _) (by norm_num)) ?_
    norm_num; nlinarith
  have a5 : |θ * (1 / 2 - θ ^ 2 / 24) - (1 - Real.cos θ) / θ| ≤ 1e-17 := by
    have e : θ * (1 / 2 - θ ^ 2 / 24) - (1 - Real.cos θ) / θ = (Real.cos θ - (1 - θ ^ 2 / 2 + θ ^ 4 / 24)) / θ := by field_simp; ring
    rw [e, abs_div, abs_of_pos hθ, div_le_iff₀ hθ]
    refine le_trans tc ?_
    have : θ ^ 6 * (7 / 4320) = (θ ^ 5 * (7 / 4320)) * θ := by ring
    rw [this]
    refine mul_le_mul_of_nonneg_right ?_ hθ.le
    norm_num at h5 ⊢; linarith
  have := abs_add_le (θ * ((1 / 2 * F - θ ^ 2 / 24 * P') * R') - θ * (1 / 2 - θ ^ 2 / 24))
    (θ * (1 / 2 - θ ^ 2 / 24) - (1 - Real.cos θ) / θ)
  rw [sub_add_sub_cancel] at this; linarith

/-- second Taylor branch: `C` -/
theorem tayC2 {u θ Q S : ℝ} (h0 : 0 ≤ u) (hu : u ≤ 1 / 10000) (hθ : 0 < θ) (ht : θ ^ 2 ≤ 1.001e-6)
    (hQ : |Q - 1| ≤ 5 * (1.003 * u)) (hS : |S - 1| ≤ 3 * (1.003 * u)) :
    |θ ^ 2 * (1 / 6 * (1 - θ ^ 2 / 20 * Q) * S) - (1 - Real.sin θ / θ)| ≤ u + 1e-17 := by
  have hθ1 : θ ≤ 1.0006e-3 := le_of_sq (by norm_num) (le_trans ht (by norm_num))
  obtain ⟨-, ts⟩ := Lie.taylor6 (x := θ) (by rw [abs_of_nonneg hθ.le]; norm_num at hθ1 ⊢; linarith)
  have h5 : θ ^ 5 ≤ 1.1e-15 := by
    have h4 := mul_le_mul ht ht (by positivity) (by norm_num)
    have := mul_le_mul h4 hθ1 hθ.le (by norm_num)
    calc θ ^ 5 = θ ^ 2 * θ ^ 2 * θ := by ring
      _ ≤ _ := this
      _ ≤ _ := by norm_num
  norm_num at ht hθ1 hQ hS
  have p2 := sq_nonneg θ
  have a1 : |1 / 6 * (1 - θ ^ 2 / 20 * Q) - 1 / 6 * (1 - θ ^ 2 / 20)| ≤ u := by
    have e : 1 / 6 * (1 - θ ^ 2 / 20 * Q) - 1 / 6 * (1 - θ ^ 2 / 20) = -(θ ^ 2 / 120 * (Q - 1)) := by ring
    rw [e, abs_neg, abs_mul, abs_of_nonneg (by positivity)]
    refine le_trans (mul_le_mul (b := 1 / 10) (by linarith) hQ (abs_nonneg _) (by norm_num)) (by linarith)
  have a2 : |1 / 6 * (1 - θ ^ 2 / 20)| ≤ 1 := by rw [abs_le]; constructor <;> linarith
  have a3 := prod_err a1 hS a2
  have a4 : |θ ^ 2 * (1 / 6 * (1 - θ ^ 2 / 20 * Q) * S) - θ ^ 2 * (1 / 6 * (1 - θ ^ 2 / 20))| ≤ u := by
    rw [← mul_sub, abs_mul, abs_of_nonneg p2]
    refine le_trans (mul_le_mul ht a3 (abs_nonneg _) (by norm_num)) ?_
    norm_num; nlinarith
  have a5 : |θ ^ 2 * (1 / 6 * (1 - θ ^ 2 / 20)) - (1 - Real.sin θ / θ)| ≤ 1e-17 := by
    have e : θ ^ 2 * (1 / 6 * (1 - θ ^ 2 / 20)) - (1 - Real.sin θ / θ) = (Real.sin θ - (θ - θ ^ 3 / 6 + θ ^ 5 / 120)) / θ := by
      field_simp; ring
    rw [e, abs_div, abs_of_pos hθ, div_le_iff₀ hθ]
    refine le_trans ts ?_
    have : θ ^ 6 * (7 / 4320) = (θ ^ 5 * (7 / 4320)) * θ := by ring
    rw [this]
    refine mul_le_mul_of_nonneg_right ?_ hθ.le
    norm_num at h5 ⊢; linarith
  have := abs_add_le (θ ^ 2 * (1 / 6 * (1 - θ ^ 2 / 20 * Q) * S) - θ ^ 2 * (1 / 6 * (1 - θ ^ 2 / 20)))
    (θ ^ 2 * (1 / 6 * (1 - θ ^ 2 / 20)) - (1 - Real.sin θ / θ))
  rw [sub_add_sub_cancel] at this; linarith

/-- first Taylor branch: `B` -/
theorem tayB0 {u θ F : ℝ} (h0 : 0 ≤ u) (hu : u ≤ 1 / 10000) (hθ : 0 < θ) (ht : θ ^ 2 ≤ 1.001e-8) (hF : |F - 1| ≤ 1 * (1.003 * u)) :
    |θ * (1 / 2 * F) - (1 - Real.cos θ) / θ| ≤ u + 1e-12 := by
  have hθ1 : θ ≤ 1.0006e-4 := le_of_sq (by norm_num) (le_trans ht (by norm_num))
  obtain ⟨tc, -⟩ := Lie.taylor6 (x := θ) (by rw [abs_of_nonneg hθ.le]; norm_num at hθ1 ⊢; linarith)
  norm_num at hF
  have h3 : θ ^ 3 ≤ 1.1e-12 := by
    have := mul_le_mul ht hθ1 hθ.le (by norm_num)
    calc θ ^ 3 = θ ^ 2 * θ := by ring
      _ ≤ _ := this
      _ ≤ _ := by norm_num
  have h5 : θ ^ 5 ≤ 1e-12 := by
    have := mul_le_mul h3 ht (by positivity) (by norm_num)
    calc θ ^ 5 = θ ^ 3 * θ ^ 2 := by ring
      _ ≤ _ := this
      _ ≤ _ := by norm_num
  have e : θ * (1 / 2 * F) - (1 - Real.cos θ) / θ =
      θ / 2 * (F - 1) + (θ ^ 3 / 24 + (Real.cos θ - (1 - θ ^ 2 / 2 + θ ^ 4 / 24)) / θ) := by field_simp; ring
  rw [e]
  have a1 : |θ / 2 * (F - 1)| ≤ u := by
    rw [abs_mul, abs_of_pos (by positivity)]
    norm_num at hθ1
    refine le_trans (mul_le_mul (b := 1 / 10) (by linarith) hF (abs_nonneg _) (by norm_num)) (by linarith)
  have a2 : |(Real.cos θ - (1 - θ ^ 2 / 2 + θ ^ 4 / 24)) / θ| ≤ θ ^ 5 * (7 / 4320) := by
    rw [abs_div, abs_of_pos hθ, div_le_iff₀ hθ]
    refine le_trans tc (le_of_eq (by ring))
  have a3 : |θ ^ 3 / 24| = θ ^ 3 / 24 := abs_of_pos (by positivity)
  refine (abs_add_le _ _).trans ((add_le_add a1 (abs_add_le _ _)).trans ?_)
  rw [a3]
  norm_num at h3 h5 ⊢
  linarith

/-- first Taylor branch: the missing term -/
theorem tayC0 {θ : ℝ} (hθ : 0 < θ) (ht : θ ^ 2 ≤ 1.001e-8) : |1 - Real.sin θ / θ| ≤ 1.67e-9 := by
  have hθ1 : θ ≤ 1.0006e-4 := le_of_sq (by norm_num) (le_trans ht (by norm_num))
  obtain ⟨-, ts⟩ := Lie.taylor6 (x := θ) (by rw [abs_of_nonneg hθ.le]; norm_num at hθ1 ⊢; linarith)
  have h4 : θ ^ 4 ≤ 1.1e-16 := by
    have := mul_le_mul ht ht (by positivity) (by norm_num)
    calc θ ^ 4 = θ ^ 2 * θ ^ 2 := by ring
      _ ≤ _ := this
      _ ≤ _ := by norm_num
  have h5 : θ ^ 5 ≤ 1e-18 := by
    have := mul_le_mul h4 hθ1 hθ.le (by norm_num)
    calc θ ^ 5 = θ ^ 4 * θ := by ring
      _ ≤ _ := this
      _ ≤ _ := by norm_num
  have p4 : 0 ≤ θ ^ 4 := by positivity
  have p2 : 0 ≤ θ ^ 2 := by positivity
  have e : 1 - Real.sin θ / θ = θ ^ 2 / 6 - θ ^ 4 / 120 - (Real.sin θ - (θ - θ ^ 3 / 6 + θ ^ 5 / 120)) / θ := by
    field_simp; ring
  have a2 : |(Real.sin θ - (θ - θ ^ 3 / 6 + θ ^ 5 / 120)) / θ| ≤ θ ^ 5 * (7 / 4320) := by
    rw [abs_div, abs_of_pos hθ, div_le_iff₀ hθ]
    refine le_trans ts (le_of_eq (by ring))
  have a3 := abs_le.1 a2
  rw [e, abs_le]
  norm_num at h4 h5 ht ⊢
  constructor <;> linarith [a3.1, a3.2]

/-! ## Cross products -/

theorem cauchy2 {a b c d θ τ : ℝ} (hθ : 0 ≤ θ) (hτ : 0 ≤ τ) (h1 : a ^ 2 + c ^ 2 ≤ θ ^ 2) (h2 : b ^ 2 + d ^ 2 ≤ τ ^ 2) :
    |a * b| + |c * d| ≤ θ * τ := by
  rw [abs_mul, abs_mul]
  refine le_of_sq (mul_nonneg hθ hτ) ?_
  rw [← sq_abs a, ← sq_abs c] at h1
  rw [← sq_abs b, ← sq_abs d] at h2
  have h3 := mul_le_mul h1 h2 (by positivity) (by positivity)
  nlinarith [sq_nonneg (|a| * |d| - |c| * |b|)]

/-- one element of a cross product whose second factor has absolute errors up to `e` -/
theorem cross1 (hu : ρ.u ≤ 1 / 10000) {θ ξ e : ℝ} (hθ : 0 ≤ θ) (hξ : 0 ≤ ξ) (a b c d : Fl ρ) (b0 d0 : ℝ)
    (hac : a.val ^ 2 + c.val ^ 2 ≤ θ ^ 2) (hbd : b0 ^ 2 + d0 ^ 2 ≤ ξ ^ 2) (hb : |b.val - b0| ≤ e) (hd : |d.val - d0| ≤ e) :
    |(a * b - c * d).val - (a.val * b0 - c.val * d0)| ≤ 2.01 * ρ.u * (θ * ξ) + 1.42 * (θ * e) := by
  have h0 := ρ.u_nonneg
  have h1 := ρ.u_lt_one
  have he : 0 ≤ e := (abs_nonneg _).trans hb
  obtain ⟨f1, hf1, e1⟩ := Fl.mul_fac a b
  obtain ⟨f2, hf2, e2⟩ := Fl.mul_fac c d
  obtain ⟨f3, hf3, e3⟩ := Fl.sub_fac (a * b) (c * d)
  have n1 := fac_near h0 hu (hf1.mul h0 h1 hf3) (by norm_num)
  have n2 := fac_near h0 hu (hf2.mul h0 h1 hf3) (by norm_num)
  norm_num at n1 n2
  have k1 := cauchy2 hθ hξ hac hbd
  have k2 : |a.val * (b.val - b0)| + |c.val * (d.val - d0)| ≤ 1.415 * (θ * e) := by
    have := cauchy2 (b := b.val - b0) (d := d.val - d0) (τ := 1.415 * e) hθ (by positivity) hac (by
      have q1 := pow_le_pow_left₀ (abs_nonneg _) hb 2
      have q2 := pow_le_pow_left₀ (abs_nonneg _) hd 2
      rw [sq_abs] at q1 q2
      nlinarith [sq_nonneg e])
    linarith
  have ev : (a * b - c * d).val - (a.val * b0 - c.val * d0) =
      (a.val * b0) * (f1 * f3 - 1) - (c.val * d0) * (f2 * f3 - 1) +
      (a.val * (b.val - b0) * (f1 * f3) - c.val * (d.val - d0) * (f2 * f3)) := by rw [e3, e2, e1]; ring
  have m1 : |f1 * f3| ≤ 1.0003 := by
    have := abs_le.1 n1; rw [abs_le]; norm_num; constructor <;> linarith [this.1, this.2]
  have m2 : |f2 * f3| ≤ 1.0003 := by
    have := abs_le.1 n2; rw [abs_le]; norm_num; constructor <;> linarith [this.1, this.2]
  rw [ev]
  refine (abs_add_le _ _).trans ((add_le_add (abs_sub _ _) (abs_sub _ _)).trans ?_)
  rw [abs_mul (a.val * b0), abs_mul (c.val * d0), abs_mul (a.val * (b.val - b0)), abs_mul (c.val * (d.val - d0))]
  have r1 := mul_le_mul_of_nonneg_left n1 (abs_nonneg (a.val * b0))
  have r2 := mul_le_mul_of_nonneg_left n2 (abs_nonneg (c.val * d0))
  have r3 := mul_le_mul_of_nonneg_left m1 (abs_nonneg (a.val * (b.val - b0)))
  have r4 := mul_le_mul_of_nonneg_left m2 (abs_nonneg (c.val * (d.val - d0)))
  have r5 := mul_le_mul_of_nonneg_left k1 h0
  have p1 := mul_nonneg (mul_nonneg hθ hξ) h0
  have p2 := mul_nonneg hθ he
  generalize |a.val * b0| = P1 at *
  generalize |c.val * d0| = P2 at *
  generalize |a.val * (b.val - b0)| = P3 at *
  generalize |c.val * (d.val - d0)| = P4 at *
  norm_num at r1 r2 r3 r4 k2 ⊢
  linarith

/-- one element of the translation -/
theorem trans1 {u θ τ β γ t x x' y y' B B' C C' p q r : ℝ} (h0 : 0 ≤ u) (hu : u ≤ 1 / 10000) (hτ : 0 ≤ τ)
    (hB : |B - B'| * θ ≤ β) (hC : |C - C'| * θ ^ 2 ≤ γ) (hB' : |B'| * θ ≤ 1) (hC' : |C'| * θ ^ 2 ≤ 2) (hθ : 0 ≤ θ)
    (ht : |t| ≤ τ) (hx : |x| ≤ θ * τ) (hy : |y| ≤ θ ^ 2 * τ) (hx' : |x' - x| ≤ 2.01 * u * (θ * τ)) (hy' : |y' - y| ≤ 4.9 * u * (θ ^ 2 * τ))
    (hp : |p - 1| ≤ 2 * (1.003 * u)) (hq : |q - 1| ≤ 3 * (1.003 * u)) (hr : |r - 1| ≤ 2 * (1.003 * u)) :
    |t * p + B * x' * q + C * y' * r - (t + B' * x + C' * y)| ≤ (1.001 * (β + γ) + 21.2 * u) * τ := by
  have hβ : 0 ≤ β := (by positivity : 0 ≤ |B - B'| * θ).trans hB
  have hγ : 0 ≤ γ := (by positivity : 0 ≤ |C - C'| * θ ^ 2).trans hC
  have hθτ := mul_nonneg hθ hτ
  have hθ2 : 0 ≤ θ ^ 2 * τ := by positivity
  have x1 : |x'| ≤ 1.0003 * (θ * τ) := by
    have := abs_add_le (x' - x) x
    rw [sub_add_cancel] at this
    have := mul_le_mul_of_nonneg_right hu hθτ
    norm_num at hx' ⊢; linarith
  have y1 : |y'| ≤ 1.0005 * (θ ^ 2 * τ) := by
    have := abs_add_le (y' - y) y
    rw [sub_add_cancel] at this
    have := mul_le_mul_of_nonneg_right hu hθ2
    norm_num at hy' ⊢; linarith
  have b1 : |B * x' - B' * x| ≤ (1.0003 * β + 2.01 * u) * τ := by
    rw [show B * x' - B' * x = (B - B') * x' + B' * (x' - x) by ring]
    refine (abs_add_le _ _).trans ?_
    rw [abs_mul, abs_mul]
    have s1 := mul_le_mul_of_nonneg_left x1 (abs_nonneg (B - B'))
    have s2 := mul_le_mul_of_nonneg_left hx' (abs_nonneg B')
    have s3 := mul_le_mul_of_nonneg_right hB hτ
    have s4 := mul_le_mul_of_nonneg_right hB' (mul_nonneg h0 hτ)
    norm_num at s1 s2 s3 s4 ⊢; linarith
  have c1 : |C * y' - C' * y| ≤ (1.0005 * γ + 9.8 * u) * τ := by
    rw [show C * y' - C' * y = (C - C') * y' + C' * (y' - y) by ring]
    refine (abs_add_le _ _).trans ?_
    rw [abs_mul, abs_mul]
    have s1 := mul_le_mul_of_nonneg_left y1 (abs_nonneg (C - C'))
    have s2 := mul_le_mul_of_nonneg_left hy' (abs_nonneg C')
    have s3 := mul_le_mul_of_nonneg_right hC hτ
    have s4 := mul_le_mul_of_nonneg_right hC' (mul_nonneg h0 hτ)
    norm_num at s1 s2 s3 s4 ⊢; linarith
  have b2 : |B' * x| ≤ τ := by
    rw [abs_mul]
    have s1 := mul_le_mul_of_nonneg_left hx (abs_nonneg B')
    have s2 := mul_le_mul_of_nonneg_right hB' hτ
    linarith
  have c2 : |C' * y| ≤ 2 * τ := by
    rw [abs_mul]
    have s1 := mul_le_mul_of_nonneg_left hy (abs_nonneg C')
    have s2 := mul_le_mul_of_nonneg_right hC' hτ
    linarith
  have d1 := prod_err b1 hq b2
  have d2 := prod_err c1 hr c2
  have d3 : |t * p - t| ≤ τ * (2 * (1.003 * u)) := by
    rw [show t * p - t = t * (p - 1) by ring, abs_mul]
    exact mul_le_mul ht hp (abs_nonneg _) hτ
  rw [show t * p + B * x' * q + C * y' * r - (t + B' * x + C' * y) =
    (t * p - t) + (B * x' * q - B' * x) + (C * y' * r - C' * y) by ring]
  refine (abs_add_le _ _).trans ((add_le_add ((abs_add_le _ _).trans (add_le_add d3 d1)) d2).trans ?_)
  have q1 := mul_nonneg hβ hτ
  have q2 := mul_nonneg hγ hτ
  have q3 := mul_nonneg h0 hτ
  have q4 := mul_le_mul_of_nonneg_left hu q1
  have q5 := mul_le_mul_of_nonneg_left hu q2
  have q6 := mul_le_mul_of_nonneg_left hu q3
  norm_num at q4 q5 q6 ⊢
  nlinarith
end TooN.FlRot
