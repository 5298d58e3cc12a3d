import Verif.Model.FloatExp
import Verif.Proof.Float
import Verif.Proof.SO3
import Mathlib.Analysis.SpecialFunctions.Trigonometric.Bounds
/-!
# The rotation of a rotation vector in floating point: coefficients
-/
set_option linter.unusedSectionVars false
namespace TooN.FlRot
open Finset

/-- a bound on `|x - 1|` for a product of `n ≤ 20` rounding factors -/
theorem fac_near {u : ℝ} (h0 : 0 ≤ u) (hu : u ≤ 1 / 10000) {n : ℕ} {x : ℝ} (h : Fac u n x) (hn : n ≤ 20) :
    |x - 1| ≤ n * (1.003 * u) := by
  have hk' : (n:ℝ) ≤ 20 := by exact_mod_cast hn
  have hk0 : (0:ℝ) ≤ n := Nat.cast_nonneg n
  have h1 : (n:ℝ) * u ≤ 20 / 10000 := by nlinarith
  refine le_trans (h.gam h0 (by linarith) (by linarith)) ?_
  rw [gam, div_le_iff₀ (by linarith)]
  have : 0 ≤ (n:ℝ) * u := mul_nonneg hk0 h0
  norm_num
  nlinarith

theorem prod_err {x x0 q e d m : ℝ} (hx : |x - x0| ≤ e) (hq : |q - 1| ≤ d) (hm : |x0| ≤ m) :
    |x * q - x0| ≤ e * (1 + d) + m * d := by
  have e1 : x * q - x0 = (x - x0) * q + x0 * (q - 1) := by ring
  have hqa : |q| ≤ 1 + d := by
    have := abs_add_le 1 (q - 1); rw [add_sub_cancel, abs_one] at this; linarith
  rw [e1]
  refine le_trans (abs_add_le _ _) ?_
  rw [abs_mul, abs_mul]
  have a1 : |x - x0| * |q| ≤ e * (1 + d) := mul_le_mul hx hqa (abs_nonneg _) (le_trans (abs_nonneg _) hx)
  have a2 : |x0| * |q - 1| ≤ m * d := mul_le_mul hm hq (abs_nonneg _) (le_trans (abs_nonneg _) hm)
  linarith

/-- main branch, first coefficient -/
theorem coefA {u θ η s g h : ℝ} (h0 : 0 ≤ u) (hu : u ≤ 1 / 10000) (hθ : 0 < θ) (hg : |g - 1| ≤ 4 * (1.003 * u))
    (hh : |h - 1| ≤ 6 * (1.003 * u)) (hs : |s - Real.sin (θ * g)| ≤ η) :
    |θ * (s / θ * h) - Real.sin θ| ≤ 1.001 * η + (4.02 * θ + 6.02) * u := by
  have e1 : θ * (s / θ * h) = s * h := by field_simp
  have h1 : |s - Real.sin θ| ≤ η + θ * (4 * (1.003 * u)) := by
    have a := Real.abs_sin_sub_sin_le (θ * g) θ
    have b : |θ * g - θ| ≤ θ * (4 * (1.003 * u)) := by
      have : θ * g - θ = θ * (g - 1) := by ring
      rw [this, abs_mul, abs_of_pos hθ]; exact mul_le_mul_of_nonneg_left hg hθ.le
    have c := abs_add_le (s - Real.sin (θ * g)) (Real.sin (θ * g) - Real.sin θ)
    rw [sub_add_sub_cancel] at c; linarith
  rw [e1]
  have := prod_err h1 hh (Real.abs_sin_le_one θ)
  have hη : 0 ≤ η := le_trans (abs_nonneg _) hs
  refine le_trans this ?_
  norm_num
  nlinarith [mul_nonneg hη h0, mul_nonneg hθ.le h0, mul_nonneg (mul_nonneg hθ.le h0) h0]

/-- main branch, second coefficient -/
theorem coefB {u θ η c g h : ℝ} (h0 : 0 ≤ u) (hu : u ≤ 1 / 10000) (hθ : 0 < θ) (hg : |g - 1| ≤ 4 * (1.003 * u))
    (hh : |h - 1| ≤ 13 * (1.003 * u)) (hs : |c - Real.cos (θ * g)| ≤ η) :
    |θ ^ 2 * ((1 - c) / θ ^ 2 * h) - (1 - Real.cos θ)| ≤ 1.002 * η + (4.02 * θ + 26.1) * u := by
  have e1 : θ ^ 2 * ((1 - c) / θ ^ 2 * h) = (1 - c) * h := by field_simp
  have h1 : |(1 - c) - (1 - Real.cos θ)| ≤ η + θ * (4 * (1.003 * u)) := by
    have a := Real.abs_cos_sub_cos_le (θ * g) θ
    have b : |θ * g - θ| ≤ θ * (4 * (1.003 * u)) := by
      have : θ * g - θ = θ * (g - 1) := by ring
      rw [this, abs_mul, abs_of_pos hθ]; exact mul_le_mul_of_nonneg_left hg hθ.le
    have d := abs_add_le (c - Real.cos (θ * g)) (Real.cos (θ * g) - Real.cos θ)
    rw [sub_add_sub_cancel] at d
    have e : (1 - c) - (1 - Real.cos θ) = -(c - Real.cos θ) := by ring
    rw [e, abs_neg]; linarith
  have h2 : |1 - Real.cos θ| ≤ 2 := by
    rw [abs_le]; constructor <;> linarith [Real.cos_le_one θ, Real.neg_one_le_cos θ]
  rw [e1]
  have := prod_err h1 hh h2
  have hη : 0 ≤ η := le_trans (abs_nonneg _) hs
  refine le_trans this ?_
  norm_num
  nlinarith [mul_nonneg hη h0, mul_nonneg hθ.le h0, mul_nonneg (mul_nonneg hθ.le h0) h0]

theorem le_of_sq {x b : ℝ} (hb : 0 ≤ b) (h : x ^ 2 ≤ b ^ 2) : x ≤ b := by
  by_contra hc; push Not at hc; nlinarith

/-- first Taylor branch -/
theorem tay1 {u θ P R F : ℝ} (h0 : 0 ≤ u) (hu : u ≤ 1 / 10000) (hθ : 0 ≤ θ) (ht : θ ^ 2 ≤ 1.001e-8)
    (hP : |P - 1| ≤ 5 * (1.003 * u)) (hR : |R - 1| ≤ 1 * (1.003 * u)) (hF : |F - 1| ≤ 1 * (1.003 * u)) :
    |θ * ((1 - θ ^ 2 / 6 * P) * R) - Real.sin θ| ≤ u + 1e-17 ∧
    |θ ^ 2 * (1 / 2 * F) - (1 - Real.cos θ)| ≤ u + 1e-17 := by
  have hθ1 : θ ≤ 1.0006e-4 := le_of_sq (by norm_num) (le_trans ht (by norm_num))
  obtain ⟨tc, ts⟩ := Lie.taylor6 (x := θ) (by rw [abs_of_nonneg hθ]; norm_num at hθ1 ⊢; linarith)
  have h4 : θ ^ 4 ≤ 1.003e-16 := by
    have := mul_le_mul ht ht (by positivity) (by norm_num)
    calc θ ^ 4 = θ ^ 2 * θ ^ 2 := by ring
      _ ≤ _ := this
      _ ≤ _ := by norm_num
  have h5 : θ ^ 5 ≤ 1.004e-20 := by
    have := mul_le_mul h4 hθ1 hθ (by norm_num)
    calc θ ^ 5 = θ ^ 4 * θ := by ring
      _ ≤ _ := this
      _ ≤ _ := by norm_num
  have h6 : θ ^ 6 ≤ 1.1e-24 := by
    have := mul_le_mul h5 hθ1 hθ (by norm_num)
    calc θ ^ 6 = θ ^ 5 * θ := by ring
      _ ≤ _ := this
      _ ≤ _ := by norm_num
  have p4 : 0 ≤ θ ^ 4 := by positivity
  have p5 : 0 ≤ θ ^ 5 := by positivity
  constructor
  · have a1 : |(1 - θ ^ 2 / 6 * P) - (1 - θ ^ 2 / 6)| ≤ 1e-8 * (6 * u) := by
      have e : (1 - θ ^ 2 / 6 * P) - (1 - θ ^ 2 / 6) = -(θ ^ 2 / 6 * (P - 1)) := by ring
      rw [e, abs_neg, abs_mul, abs_of_nonneg (by positivity)]
      refine mul_le_mul ?_ (le_trans hP ?_) (abs_nonneg _) (by norm_num)
      · norm_num at ht ⊢; linarith
      · norm_num; linarith
    have a2 : |1 - θ ^ 2 / 6| ≤ 1 := by
      rw [abs_le]; norm_num at ht; constructor <;> nlinarith [sq_nonneg θ]
    have a3 := prod_err a1 hR a2
    have a4 : |θ * ((1 - θ ^ 2 / 6 * P) * R) - θ * (1 - θ ^ 2 / 6)| ≤ u := by
      rw [← mul_sub, abs_mul, abs_of_nonneg hθ]
      refine le_trans (mul_le_mul hθ1 a3 (abs_nonneg _) (by norm_num)) ?_
      norm_num; nlinarith
    have a5 : |θ * (1 - θ ^ 2 / 6) - Real.sin θ| ≤ 1e-17 := by
      rw [abs_le] at ts ⊢
      norm_num at h5 h6 ⊢
      constructor <;> nlinarith [ts.1, ts.2]
    have := abs_add_le (θ * ((1 - θ ^ 2 / 6 * P) * R) - θ * (1 - θ ^ 2 / 6)) (θ * (1 - θ ^ 2 / 6) - Real.sin θ)
    rw [sub_add_sub_cancel] at this; linarith
  · have a4 : |θ ^ 2 * (1 / 2 * F) - θ ^ 2 * (1 / 2)| ≤ u := by
      have e : θ ^ 2 * (1 / 2 * F) - θ ^ 2 * (1 / 2) = θ ^ 2 / 2 * (F - 1) := by ring
      rw [e, abs_mul, abs_of_nonneg (by positivity)]
      refine le_trans (mul_le_mul (b := 1 / 2) ?_ hF (abs_nonneg _) (by norm_num)) ?_
      · norm_num at ht; linarith
      · norm_num; nlinarith
    have a5 : |θ ^ 2 * (1 / 2) - (1 - Real.cos θ)| ≤ 1e-17 := by
      rw [abs_le] at tc ⊢
      norm_num at h4 h6 ⊢
      constructor <;> nlinarith [tc.1, tc.2]
    have := abs_add_le (θ ^ 2 * (1 / 2 * F) - θ ^ 2 * (1 / 2)) (θ ^ 2 * (1 / 2) - (1 - Real.cos θ))
    rw [sub_add_sub_cancel] at this; linarith

/-- second Taylor branch -/
theorem tay2 {u θ P Q R F P' R' : ℝ} (h0 : 0 ≤ u) (hu : u ≤ 1 / 10000) (hθ : 0 ≤ θ) (ht : θ ^ 2 ≤ 1.001e-6)
    (hP : |P - 1| ≤ 7 * (1.003 * u)) (hQ : |Q - 1| ≤ 5 * (1.003 * u)) (hR : |R - 1| ≤ 1 * (1.003 * u))
    (hF : |F - 1| ≤ 1 * (1.003 * u)) (hP' : |P' - 1| ≤ 7 * (1.003 * u)) (hR' : |R' - 1| ≤ 1 * (1.003 * u)) :
    |θ * ((1 - θ ^ 2 / 6 * P * (1 - θ ^ 2 / 20 * Q)) * R) - Real.sin θ| ≤ u + 1e-17 ∧
    |θ ^ 2 * ((1 / 2 * F - θ ^ 2 / 24 * P') * R') - (1 - Real.cos θ)| ≤ u + 1e-17 := by
  have hθ1 : θ ≤ 1.0006e-3 := le_of_sq (by norm_num) (le_trans ht (by norm_num))
  obtain ⟨tc, ts⟩ := Lie.taylor6 (x := θ) (by rw [abs_of_nonneg hθ]; norm_num at hθ1 ⊢; linarith)
  have h4 : θ ^ 4 ≤ 1.003e-12 := by
    have := mul_le_mul ht ht (by positivity) (by norm_num)
    calc θ ^ 4 = θ ^ 2 * θ ^ 2 := by ring
      _ ≤ _ := this
      _ ≤ _ := by norm_num
  have h6 : θ ^ 6 ≤ 1.1e-18 := by
    have := mul_le_mul h4 ht (by positivity) (by norm_num)
    calc θ ^ 6 = θ ^ 4 * θ ^ 2 := by ring
      _ ≤ _ := this
      _ ≤ _ := by norm_num
  have p2 : 0 ≤ θ ^ 2 := by positivity
  have p6 : 0 ≤ θ ^ 6 := by positivity
  norm_num at ht hθ1 hP hQ hR hF hP' hR'
  constructor
  · have b1 : |(1 - θ ^ 2 / 20 * Q) - (1 - θ ^ 2 / 20)| ≤ u := by
      have e : (1 - θ ^ 2 / 20 * Q) - (1 - θ ^ 2 / 20) = -(θ ^ 2 / 20 * (Q - 1)) := by ring
      rw [e, abs_neg, abs_mul, abs_of_nonneg (by positivity)]
      refine le_trans (mul_le_mul (b := 1 / 10) (by linarith) hQ (abs_nonneg _) (by norm_num)) (by linarith)
    have b2 : |1 - θ ^ 2 / 20| ≤ 1 := by rw [abs_le]; constructor <;> linarith
    have b3 := prod_err b1 hP b2
    have a1 : |(1 - θ ^ 2 / 6 * P * (1 - θ ^ 2 / 20 * Q)) - (1 - θ ^ 2 / 6 * (1 - θ ^ 2 / 20))| ≤ u := by
      have e : (1 - θ ^ 2 / 6 * P * (1 - θ ^ 2 / 20 * Q)) - (1 - θ ^ 2 / 6 * (1 - θ ^ 2 / 20)) =
        -(θ ^ 2 / 6 * ((1 - θ ^ 2 / 20 * Q) * P - (1 - θ ^ 2 / 20))) := by ring
      rw [e, abs_neg, abs_mul, abs_of_nonneg (by positivity)]
      refine le_trans (mul_le_mul (b := 1 / 100) (by linarith) b3 (abs_nonneg _) (by norm_num)) (by nlinarith)
    have a2 : |1 - θ ^ 2 / 6 * (1 - θ ^ 2 / 20)| ≤ 1 := by
      have : 0 ≤ θ ^ 2 / 6 * (1 - θ ^ 2 / 20) := mul_nonneg (by linarith) (by linarith)
      have : θ ^ 2 / 6 * (1 - θ ^ 2 / 20) ≤ 1 * 1 := mul_le_mul (by linarith) (by linarith) (by linarith) (by norm_num)
      rw [abs_le]; constructor <;> linarith
    have a3 := prod_err a1 hR a2
    have a4 : |θ * ((1 - θ ^ 2 / 6 * P * (1 - θ ^ 2 / 20 * Q)) * R) - θ * (1 - θ ^ 2 / 6 * (1 - θ ^ 2 / 20))| ≤ u := by
      rw [← mul_sub, abs_mul, abs_of_nonneg hθ]
      refine le_trans (mul_le_mul hθ1 a3 (abs_nonneg _) (by norm_num)) ?_
      norm_num; nlinarith
    have a5 : |θ * (1 - θ ^ 2 / 6 * (1 - θ ^ 2 / 20)) - Real.sin θ| ≤ 1e-17 := by
      have e : θ * (1 - θ ^ 2 / 6 * (1 - θ ^ 2 / 20)) = θ - θ ^ 3 / 6 + θ ^ 5 / 120 := by ring
      rw [e, abs_sub_comm]
      refine le_trans ts ?_
      norm_num at h6 ⊢; linarith
    have := abs_add_le (θ * ((1 - θ ^ 2 / 6 * P * (1 - θ ^ 2 / 20 * Q)) * R) - θ * (1 - θ ^ 2 / 6 * (1 - θ ^ 2 / 20)))
      (θ * (1 - θ ^ 2 / 6 * (1 - θ ^ 2 / 20)) - Real.sin θ)
    rw [sub_add_sub_cancel] at this; linarith
  · have a1 : |(1 / 2 * F - θ ^ 2 / 24 * P') - (1 / 2 - θ ^ 2 / 24)| ≤ u := by
      have e : (1 / 2 * F - θ ^ 2 / 24 * P') - (1 / 2 - θ ^ 2 / 24) = 1 / 2 * (F - 1) + -(θ ^ 2 / 24 * (P' - 1)) := by ring
      rw [e]
      refine le_trans (abs_add_le _ _) ?_
      rw [abs_neg, abs_mul, abs_mul, abs_of_nonneg (by positivity : (0:ℝ) ≤ θ ^ 2 / 24), abs_of_pos (by norm_num : (0:ℝ) < 1 / 2)]
      have := mul_le_mul (show θ ^ 2 / 24 ≤ 1 / 100 by linarith) hP' (abs_nonneg _) (by norm_num)
      linarith
    have a2 : |1 / 2 - θ ^ 2 / 24| ≤ 1 := by rw [abs_le]; constructor <;> linarith
    have a3 := prod_err a1 hR' a2
    have a4 : |θ ^ 2 * ((1 / 2 * F - θ ^ 2 / 24 * P') * R') - θ ^ 2 * (1 / 2 - θ ^ 2 / 24)| ≤ u := by
      rw [← mul_sub, abs_mul, abs_of_nonneg p2]
      refine le_trans (mul_le_mul ht a3 (abs_nonneg _) (by norm_num)) ?_
      norm_num; nlinarith
    have a5 : |θ ^ 2 * (1 / 2 - θ ^ 2 / 24) - (1 - Real.cos θ)| ≤ 1e-17 := by
      have e : θ ^ 2 * (1 / 2 - θ ^ 2 / 24) - (1 - Real.cos θ) = Real.cos θ - (1 - θ ^ 2 / 2 + θ ^ 4 / 24) := by ring
      rw [e]
      refine le_trans tc ?_
      norm_num at h6 ⊢; linarith
    have := abs_add_le (θ ^ 2 * ((1 / 2 * F - θ ^ 2 / 24 * P') * R') - θ ^ 2 * (1 / 2 - θ ^ 2 / 24))
      (θ ^ 2 * (1 / 2 - θ ^ 2 / 24) - (1 - Real.cos θ))
    rw [sub_add_sub_cancel] at this; linarith

variable {ρ : Rounding}

theorem of_fac (x : ℝ) : ∃ f, Fac ρ.u 1 f ∧ (Fl.of ρ x).val = x * f := rnd_fac ρ x

/-- the squared angle in the Taylor branches -/
theorem small_sq {w : Vec (Fl ρ)} (hu : ρ.u ≤ 1 / 10000) {c : ℝ} (hc : 0 < c) (h : Ops.dot 3 w w < lit c) :
    Real.sqrt (∑ i ∈ range 3, (w i).val ^ 2) ^ 2 ≤ 1.001 * c := by
  have h0 := ρ.u_nonneg
  obtain ⟨g, hg, eg⟩ := normSq_fac 3 w
  obtain ⟨f, hf, ef⟩ := of_fac (ρ := ρ) c
  have h' : (Ops.dot 3 w w).val < (Fl.of ρ c).val := h
  rw [eg, ef] at h'
  have ng := fac_near h0 hu hg (by norm_num)
  have nf := fac_near h0 hu hf (by norm_num)
  have hs : 0 ≤ ∑ i ∈ range 3, (w i).val ^ 2 := sum_nonneg fun i _ => sq_nonneg _
  rw [Real.sq_sqrt hs]
  rw [abs_le] at ng nf
  norm_num at ng nf ⊢
  have b1 : 1 - 0.00031 ≤ g := by norm_num; linarith
  have b2 : f ≤ 1.00011 := by norm_num; linarith
  have := mul_le_mul_of_nonneg_left b1 hs
  have := mul_le_mul_of_nonneg_left b2 hc.le
  norm_num at *
  nlinarith

/-- errors of the coefficients, multiplied by the power of the angle they are used with -/
theorem coeff_err (hu : ρ.u ≤ 1 / 10000) (L : Libm ρ) (η : ℝ) (hs : ∀ x, |(L.sin x).val - Real.sin x.val| ≤ η)
    (hc : ∀ x, |(L.cos x).val - Real.cos x.val| ≤ η) (w : Vec (Fl ρ)) :
    let θ := Real.sqrt (∑ i ∈ range 3, (w i).val ^ 2)
    |θ * (coeffFl L w).1.val - Real.sin θ| ≤ 1.001 * η + (4.02 * θ + 6.02) * ρ.u + 1e-17 ∧
    |θ ^ 2 * (coeffFl L w).2.val - (1 - Real.cos θ)| ≤ 1.002 * η + (4.02 * θ + 26.1) * ρ.u + 1e-17 := by
  intro θ
  have h0 := ρ.u_nonneg
  have h1 := ρ.u_lt_one
  have hη : 0 ≤ η := le_trans (abs_nonneg _) (hs 0)
  have hθ : 0 ≤ θ := Real.sqrt_nonneg _
  have hθu := mul_nonneg hθ h0
  obtain ⟨g3, hg3, eg3⟩ := normSq_fac 3 w
  have hsq : ∑ i ∈ range 3, (w i).val ^ 2 = θ ^ 2 := (Real.sq_sqrt (sum_nonneg fun i _ => sq_nonneg _)).symm
  rw [hsq] at eg3
  unfold coeffFl
  dsimp only
  by_cases c1 : Ops.dot 3 w w < lit 1e-8
  · rw [if_pos c1]
    have ht := small_sq hu (by norm_num) c1
    obtain ⟨f1, hf1, e1⟩ := of_fac (ρ := ρ) (1 / 6)
    obtain ⟨f2, hf2, e2⟩ := Fl.mul_fac (Fl.of ρ (1 / 6)) (Ops.dot 3 w w)
    obtain ⟨f3, hf3, e3⟩ := Fl.sub_fac 1 (Fl.of ρ (1 / 6) * Ops.dot 3 w w)
    obtain ⟨f4, hf4, e4⟩ := of_fac (ρ := ρ) 0.5
    have hP := (hf1.mul h0 h1 hg3).mul h0 h1 hf2
    have eA : (1 - Fl.of ρ (1 / 6) * Ops.dot 3 w w).val = (1 - θ ^ 2 / 6 * (f1 * g3 * f2)) * f3 := by
      rw [e3, e2, e1, eg3, Fl.val_one]; ring
    have eB : (Fl.of ρ 0.5).val = 1 / 2 * f4 := by rw [e4]; norm_num
    have := tay1 (θ := θ) h0 hu hθ (le_trans ht (by norm_num)) (by simpa using fac_near h0 hu hP (by norm_num))
      (by simpa using fac_near h0 hu hf3 (by norm_num)) (by simpa using fac_near h0 hu hf4 (by norm_num))
    rw [← eA, ← eB] at this
    constructor
    · refine le_trans this.1 ?_; norm_num; linarith
    · refine le_trans this.2 ?_; norm_num; linarith
  · rw [if_neg c1]
    by_cases c2 : Ops.dot 3 w w < lit 1e-6
    · rw [if_pos c2]
      have ht := small_sq hu (by norm_num) c2
      obtain ⟨f1, hf1, e1⟩ := of_fac (ρ := ρ) (1 / 6)
      obtain ⟨f2, hf2, e2⟩ := of_fac (ρ := ρ) (1 / 20)
      obtain ⟨f3, hf3, e3⟩ := Fl.mul_fac (Fl.of ρ (1 / 20)) (Ops.dot 3 w w)
      obtain ⟨f4, hf4, e4⟩ := Fl.sub_fac 1 (Fl.of ρ (1 / 20) * Ops.dot 3 w w)
      obtain ⟨f5, hf5, e5⟩ := Fl.mul_fac (Ops.dot 3 w w) (Fl.of ρ (1 / 6))
      obtain ⟨f6, hf6, e6⟩ := Fl.mul_fac (Ops.dot 3 w w * Fl.of ρ (1 / 6)) (1 - Fl.of ρ (1 / 20) * Ops.dot 3 w w)
      obtain ⟨f7, hf7, e7⟩ := Fl.sub_fac 1 (Ops.dot 3 w w * Fl.of ρ (1 / 6) * (1 - Fl.of ρ (1 / 20) * Ops.dot 3 w w))
      obtain ⟨f8, hf8, e8⟩ := of_fac (ρ := ρ) 0.5
      obtain ⟨f9, hf9, e9⟩ := of_fac (ρ := ρ) 0.25
      obtain ⟨fa, hfa, ea⟩ := Fl.mul_fac (Fl.of ρ 0.25) (Fl.of ρ (1 / 6))
      obtain ⟨fb, hfb, eb⟩ := Fl.mul_fac (Fl.of ρ 0.25 * Fl.of ρ (1 / 6)) (Ops.dot 3 w w)
      obtain ⟨fc, hfc, ec⟩ := Fl.sub_fac (Fl.of ρ 0.5) (Fl.of ρ 0.25 * Fl.of ρ (1 / 6) * Ops.dot 3 w w)
      have hP := (((hg3.mul h0 h1 hf1).mul h0 h1 hf5).mul h0 h1 hf6).mul h0 h1 hf4
      have hQ := (hf2.mul h0 h1 hg3).mul h0 h1 hf3
      have hP' := (((hf9.mul h0 h1 hf1).mul h0 h1 hfa).mul h0 h1 hg3).mul h0 h1 hfb
      have eA : (1 - Ops.dot 3 w w * Fl.of ρ (1 / 6) * (1 - Fl.of ρ (1 / 20) * Ops.dot 3 w w)).val =
          (1 - θ ^ 2 / 6 * (g3 * f1 * f5 * f6 * f4) * (1 - θ ^ 2 / 20 * (f2 * g3 * f3))) * f7 := by
        rw [e7, e6, e5, e4, e3, e2, e1, eg3, Fl.val_one]; ring
      have eB : (Fl.of ρ 0.5 - Fl.of ρ 0.25 * Fl.of ρ (1 / 6) * Ops.dot 3 w w).val =
          (1 / 2 * f8 - θ ^ 2 / 24 * (f9 * f1 * fa * g3 * fb)) * fc := by
        rw [ec, eb, ea, e8, e9, e1, eg3, show (0.5:ℝ) = 1 / 2 by norm_num, show (0.25:ℝ) = 1 / 4 by norm_num]; ring
      have := tay2 (θ := θ) h0 hu hθ (le_trans ht (by norm_num)) (by simpa using fac_near h0 hu hP (by norm_num))
        (by simpa using fac_near h0 hu hQ (by norm_num))
        (by simpa using fac_near h0 hu hf7 (by norm_num)) (by simpa using fac_near h0 hu hf8 (by norm_num))
        (by simpa using fac_near h0 hu hP' (by norm_num)) (by simpa using fac_near h0 hu hfc (by norm_num))
      rw [← eA, ← eB] at this
      constructor
      · refine le_trans this.1 ?_; norm_num; linarith
      · refine le_trans this.2 ?_; norm_num; linarith
    · rw [if_neg c2]
      have hpos : 0 < θ := by
        rcases hθ.lt_or_eq with h | h
        · exact h
        · exfalso
          apply c2
          show (Ops.dot 3 w w).val < (Fl.of ρ 1e-6).val
          obtain ⟨f, hf, e⟩ := of_fac (ρ := ρ) 1e-6
          rw [eg3, e, ← h]
          have := hf.pos h0 h1
          norm_num; exact this
      obtain ⟨g4, hg4, eg4⟩ := norm_fac 3 w
      have eg4 : (Fl.sqrt (Ops.dot 3 w w)).val = θ * g4 := eg4
      have hg4p := hg4.pos h0 h1
      generalize Fl.sqrt (Ops.dot 3 w w) = th at eg4 ⊢
      obtain ⟨f1, hf1, e1⟩ := Fl.div_fac 1 th
      obtain ⟨f2, hf2, e2⟩ := Fl.mul_fac (L.sin th) (1 / th)
      obtain ⟨f3, hf3, e3⟩ := Fl.mul_fac (1 / th) (1 / th)
      obtain ⟨f4, hf4, e4⟩ := Fl.sub_fac 1 (L.cos th)
      obtain ⟨f5, hf5, e5⟩ := Fl.mul_fac (1 - L.cos th) (1 / th * (1 / th))
      have hA := (hf1.mul h0 h1 hf2).mul h0 h1 (hg4.inv h0 h1)
      have hi := hf1.mul h0 h1 (hg4.inv h0 h1)
      have hB := (((hi.mul h0 h1 hi).mul h0 h1 hf3).mul h0 h1 hf4).mul h0 h1 hf5
      have eA : (L.sin th * (1 / th)).val = (L.sin th).val / θ * (f1 * f2 * g4⁻¹) := by
        rw [e2, e1, eg4, Fl.val_one]; field_simp
      have eB : ((1 - L.cos th) * (1 / th * (1 / th))).val =
          (1 - (L.cos th).val) / θ ^ 2 * (f1 * g4⁻¹ * (f1 * g4⁻¹) * f3 * f4 * f5) := by
        rw [e5, e4, e3, e1, eg4, Fl.val_one]; field_simp
      have ng := fac_near h0 hu hg4 (by norm_num)
      have hs := hs th
      have hc := hc th
      rw [eg4] at hs hc
      constructor
      · have := coefA h0 hu hpos (by simpa using ng) (by simpa using fac_near h0 hu hA (by norm_num)) hs
        rw [← eA] at this
        refine le_trans this ?_; norm_num
      · have := coefB h0 hu hpos (by simpa using ng) (by simpa using fac_near h0 hu hB (by norm_num)) hc
        rw [← eB] at this
        refine le_trans this ?_; norm_num

end TooN.FlRot
