import Verif.Proof.FloatExp
import Verif.Props.FloatRot
import Verif.Props.FloatCoerce2
import Verif.Props.SO3
/-!
# C70: rotations built from rotation vectors in floating point
-/
set_option linter.unusedSectionVars false
namespace TooN.FlRot
open Finset Lie
variable {ρ : Rounding}

/-- Rodrigues' formula, zero vector included (Lean's `x / 0 = 0`) -/
theorem exp_skew_all (w : V 3) (θ : ℝ) (hθ : θ * θ = w 0 * w 0 + w 1 * w 1 + w 2 * w 2) :
    NormedSpace.exp (skew w) = 1 + (Real.sin θ / θ) • skew w + ((1 - Real.cos θ) / (θ * θ)) • (skew w * skew w) := by
  by_cases h : θ = 0
  · have q0 := mul_self_nonneg (w 0)
    have q1 := mul_self_nonneg (w 1)
    have q2 := mul_self_nonneg (w 2)
    rw [h] at hθ
    have z0 : w 0 = 0 := mul_self_eq_zero.1 (by linarith)
    have z1 : w 1 = 0 := mul_self_eq_zero.1 (by linarith)
    have z2 : w 2 = 0 := mul_self_eq_zero.1 (by linarith)
    have e : skew w = 0 := by ext i j; fin_cases i <;> fin_cases j <;> simp [skew, z0, z1, z2]
    rw [e, NormedSpace.exp_zero]; simp
  · exact exp_skew w θ hθ h

/-- an off-diagonal entry -/
theorem off_err {u θ A A' B B' x y p q α β : ℝ} (h0 : 0 ≤ u) (hu : u ≤ 1 / 10000)
    (hA : |A - A'| * θ ≤ α) (hB : |B - B'| * θ ^ 2 ≤ β) (hA' : |A'| * θ ≤ 1) (hB' : |B'| * θ ^ 2 ≤ 2)
    (hx : |x| ≤ θ) (hy : |y| ≤ θ ^ 2 / 2) (hp : |p - 1| ≤ 3 * (1.003 * u)) (hq : |q - 1| ≤ 2 * (1.003 * u)) :
    |(B * y * p + A * x * q) - (B' * y + A' * x)| ≤ 1.001 * (α + β / 2) + 5.1 * u := by
  have a1 : |A * x - A' * x| ≤ α := by
    rw [← sub_mul, abs_mul]; exact le_trans (mul_le_mul_of_nonneg_left hx (abs_nonneg _)) hA
  have a2 : |A' * x| ≤ 1 := by
    rw [abs_mul]; exact le_trans (mul_le_mul_of_nonneg_left hx (abs_nonneg _)) hA'
  have b1 : |B * y - B' * y| ≤ β / 2 := by
    rw [← sub_mul, abs_mul]; refine le_trans (mul_le_mul_of_nonneg_left hy (abs_nonneg _)) ?_; linarith
  have b2 : |B' * y| ≤ 1 := by
    rw [abs_mul]; refine le_trans (mul_le_mul_of_nonneg_left hy (abs_nonneg _)) ?_; linarith
  have a3 := prod_err a1 hq a2
  have b3 := prod_err b1 hp b2
  have e : (B * y * p + A * x * q) - (B' * y + A' * x) = (B * y * p - B' * y) + (A * x * q - A' * x) := by ring
  rw [e]
  refine le_trans (abs_add_le _ _) ?_
  have hα := le_trans (abs_nonneg _) a1
  have hβ := le_trans (abs_nonneg _) b1
  norm_num at a3 b3 ⊢
  nlinarith

/-- a diagonal entry -/
theorem diag_err {u θ B B' y z p q r β : ℝ} (h0 : 0 ≤ u) (hu : u ≤ 1 / 10000)
    (hB : |B - B'| * θ ^ 2 ≤ β) (hB0 : 0 ≤ B') (hB' : B' * θ ^ 2 ≤ 2)
    (hy : 0 ≤ y) (hz : 0 ≤ z) (hyz : y + z ≤ θ ^ 2)
    (hp : |p - 1| ≤ 3 * (1.003 * u)) (hq : |q - 1| ≤ 3 * (1.003 * u)) (hr : |r - 1| ≤ 1 * (1.003 * u)) :
    |(1 - (B * y * p + B * z * q)) * r - (1 - (B' * y + B' * z))| ≤ 1.001 * β + 7.1 * u := by
  have a1 : |B * y - B' * y| ≤ |B - B'| * y := by rw [← sub_mul, abs_mul, abs_of_nonneg hy]
  have a2 : |B * z - B' * z| ≤ |B - B'| * z := by rw [← sub_mul, abs_mul, abs_of_nonneg hz]
  have b1 : |B' * y| ≤ B' * y := by rw [abs_of_nonneg (mul_nonneg hB0 hy)]
  have b2 : |B' * z| ≤ B' * z := by rw [abs_of_nonneg (mul_nonneg hB0 hz)]
  have a3 := prod_err a1 hp b1
  have b3 := prod_err a2 hq b2
  have s1 : |B - B'| * y + |B - B'| * z ≤ β := by
    rw [← mul_add]; exact le_trans (mul_le_mul_of_nonneg_left hyz (abs_nonneg _)) hB
  have s2 : B' * y + B' * z ≤ 2 := by
    rw [← mul_add]; exact le_trans (mul_le_mul_of_nonneg_left hyz hB0) hB'
  have p1 := mul_nonneg hB0 hy
  have p2 := mul_nonneg hB0 hz
  have p3 := mul_nonneg (abs_nonneg (B - B')) hy
  have p4 := mul_nonneg (abs_nonneg (B - B')) hz
  have c1 : |(1 - (B * y * p + B * z * q)) - (1 - (B' * y + B' * z))| ≤ β * (1 + 3 * (1.003 * u)) + 2 * (3 * (1.003 * u)) := by
    have e : (1 - (B * y * p + B * z * q)) - (1 - (B' * y + B' * z)) = -((B * y * p - B' * y) + (B * z * q - B' * z)) := by ring
    rw [e, abs_neg]
    refine le_trans (abs_add_le _ _) ?_
    have k1 : (|B - B'| * y + |B - B'| * z) * (1 + 3 * (1.003 * u)) ≤ β * (1 + 3 * (1.003 * u)) :=
      mul_le_mul_of_nonneg_right s1 (by norm_num; linarith)
    have k2 : (B' * y + B' * z) * (3 * (1.003 * u)) ≤ 2 * (3 * (1.003 * u)) :=
      mul_le_mul_of_nonneg_right s2 (by norm_num; linarith)
    linarith
  have c2 : |1 - (B' * y + B' * z)| ≤ 1 := by rw [abs_le]; constructor <;> linarith
  have c3 := prod_err c1 hr c2
  refine le_trans c3 ?_
  have hβ : 0 ≤ β := by linarith
  norm_num
  nlinarith [mul_nonneg hβ h0, mul_nonneg h0 h0, mul_nonneg (mul_nonneg hβ h0) h0]

/-- the entries of `rodrigues_so3_exp`, with their rounding factors -/
theorem rodFl_diag (B a b : Fl ρ) :
    ∃ p q r, Fac ρ.u 3 p ∧ Fac ρ.u 3 q ∧ Fac ρ.u 1 r ∧
      (1 - B * (a * a + b * b)).val = (1 - (B.val * (a.val * a.val) * p + B.val * (b.val * b.val) * q)) * r := by
  have h0 := ρ.u_nonneg
  have h1 := ρ.u_lt_one
  obtain ⟨f1, hf1, e1⟩ := Fl.mul_fac a a
  obtain ⟨f2, hf2, e2⟩ := Fl.mul_fac b b
  obtain ⟨f3, hf3, e3⟩ := Fl.add_fac (a * a) (b * b)
  obtain ⟨f4, hf4, e4⟩ := Fl.mul_fac B (a * a + b * b)
  obtain ⟨f5, hf5, e5⟩ := Fl.sub_fac 1 (B * (a * a + b * b))
  refine ⟨f1 * f3 * f4, f2 * f3 * f4, f5, (hf1.mul h0 h1 hf3).mul h0 h1 hf4, (hf2.mul h0 h1 hf3).mul h0 h1 hf4, hf5, ?_⟩
  rw [e5, e4, e3, e2, e1, Fl.val_one]; ring

theorem rodFl_off (A B a b c : Fl ρ) :
    (∃ p q, Fac ρ.u 3 p ∧ Fac ρ.u 2 q ∧
      (B * (a * b) + A * c).val = B.val * (a.val * b.val) * p + A.val * c.val * q) ∧
    (∃ p q, Fac ρ.u 3 p ∧ Fac ρ.u 2 q ∧
      (B * (a * b) - A * c).val = B.val * (a.val * b.val) * p + A.val * (-c.val) * q) := by
  have h0 := ρ.u_nonneg
  have h1 := ρ.u_lt_one
  obtain ⟨f1, hf1, e1⟩ := Fl.mul_fac a b
  obtain ⟨f2, hf2, e2⟩ := Fl.mul_fac B (a * b)
  obtain ⟨f3, hf3, e3⟩ := Fl.mul_fac A c
  obtain ⟨f4, hf4, e4⟩ := Fl.add_fac (B * (a * b)) (A * c)
  obtain ⟨f5, hf5, e5⟩ := Fl.sub_fac (B * (a * b)) (A * c)
  refine ⟨⟨f1 * f2 * f4, f3 * f4, (hf1.mul h0 h1 hf2).mul h0 h1 hf4, hf3.mul h0 h1 hf4, ?_⟩,
    ⟨f1 * f2 * f5, f3 * f5, (hf1.mul h0 h1 hf2).mul h0 h1 hf5, hf3.mul h0 h1 hf5, ?_⟩⟩
  · rw [e4, e3, e2, e1]; ring
  · rw [e5, e3, e2, e1]; ring

theorem prod_le_half {x y θ : ℝ} (h : x * x + y * y ≤ θ ^ 2) : |x * y| ≤ θ ^ 2 / 2 := by
  rw [abs_le]; constructor <;> nlinarith [sq_nonneg (x + y), sq_nonneg (x - y)]

theorem eucl_range (w : Vec (Fl ρ)) : eucl (asV 3 (rvec w)) = Real.sqrt (∑ i ∈ range 3, (w i).val ^ 2) := by
  rw [eucl, ← Fin.sum_univ_eq_sum_range (fun i => (w i).val ^ 2) 3]; rfl

/-- the entries of `rodrigues_so3_exp`, given bounds on the errors of the coefficients -/
theorem rod_err (hu : ρ.u ≤ 1 / 10000) {η : ℝ} (hη : 0 ≤ η) (A B : Fl ρ) (w : Vec (Fl ρ)) (R : Mat (Fl ρ))
    (ha : |Real.sqrt (∑ i ∈ range 3, (w i).val ^ 2) * A.val - Real.sin (Real.sqrt (∑ i ∈ range 3, (w i).val ^ 2))| ≤
      1.001 * η + (4.02 * Real.sqrt (∑ i ∈ range 3, (w i).val ^ 2) + 6.02) * ρ.u + 1e-17)
    (hb : |Real.sqrt (∑ i ∈ range 3, (w i).val ^ 2) ^ 2 * B.val - (1 - Real.cos (Real.sqrt (∑ i ∈ range 3, (w i).val ^ 2)))| ≤
      1.002 * η + (4.02 * Real.sqrt (∑ i ∈ range 3, (w i).val ^ 2) + 26.1) * ρ.u + 1e-17) (i j : Fin 3) :
    |(rodriguesFl w A B R i j).val - (NormedSpace.exp (skew (asV 3 (rvec w))) : M 3) i j| ≤
      2 * η + (7 * eucl (asV 3 (rvec w)) + 34) * ρ.u + 3e-17 := by
  have h0 := ρ.u_nonneg
  rw [eucl_range]
  have hsum : Real.sqrt (∑ i ∈ range 3, (w i).val ^ 2) * Real.sqrt (∑ i ∈ range 3, (w i).val ^ 2) =
      (w 0).val * (w 0).val + (w 1).val * (w 1).val + (w 2).val * (w 2).val := by
    rw [Real.mul_self_sqrt (sum_nonneg fun i _ => sq_nonneg _)]; simp [sum_range_succ]; ring
  have hθ := Real.sqrt_nonneg (∑ i ∈ range 3, (w i).val ^ 2)
  rw [exp_skew_all (asV 3 (rvec w)) _ (by rw [hsum]; rfl), ← rodrigues_eq]
  generalize Real.sqrt (∑ i ∈ range 3, (w i).val ^ 2) = θ at *
  have eA : θ * (Real.sin θ / θ) = Real.sin θ := by
    by_cases h : θ = 0
    · simp [h]
    · field_simp
  have eB : θ ^ 2 * ((1 - Real.cos θ) / (θ * θ)) = 1 - Real.cos θ := by
    by_cases h : θ = 0
    · simp [h]
    · field_simp
  have hB0 : 0 ≤ (1 - Real.cos θ) / (θ * θ) := div_nonneg (by linarith [Real.cos_le_one θ]) (mul_self_nonneg θ)
  have hA' : |Real.sin θ / θ| * θ ≤ 1 := by
    rw [mul_comm, ← abs_of_nonneg hθ, ← abs_mul, abs_of_nonneg hθ, eA]; exact Real.abs_sin_le_one θ
  have hB' : (1 - Real.cos θ) / (θ * θ) * θ ^ 2 ≤ 2 := by
    rw [mul_comm, eB]; linarith [Real.neg_one_le_cos θ]
  have hA : |A.val - Real.sin θ / θ| * θ ≤ 1.001 * η + (4.02 * θ + 6.02) * ρ.u + 1e-17 := by
    refine le_trans (le_of_eq ?_) ha
    rw [← eA, ← mul_sub, abs_mul, abs_of_nonneg hθ, mul_comm, eA]
  have hB : |B.val - (1 - Real.cos θ) / (θ * θ)| * θ ^ 2 ≤ 1.002 * η + (4.02 * θ + 26.1) * ρ.u + 1e-17 := by
    refine le_trans (le_of_eq ?_) hb
    rw [← eB, ← mul_sub, abs_mul, abs_of_nonneg (sq_nonneg θ), mul_comm, eB]
  generalize Real.sin θ / θ = A' at *
  generalize (1 - Real.cos θ) / (θ * θ) = B' at *
  have hθu := mul_nonneg hθ h0
  have q0 := mul_self_nonneg (w 0).val
  have q1 := mul_self_nonneg (w 1).val
  have q2 := mul_self_nonneg (w 2).val
  have b0 : |(w 0).val| ≤ θ := abs_le_of_sq_le_sq (by nlinarith) hθ
  have b1 : |(w 1).val| ≤ θ := abs_le_of_sq_le_sq (by nlinarith) hθ
  have b2 : |(w 2).val| ≤ θ := abs_le_of_sq_le_sq (by nlinarith) hθ
  have kd : ∀ (a b : Fl ρ), a.val * a.val + b.val * b.val ≤ θ ^ 2 →
      |(1 - B * (a * a + b * b)).val - (1 - B' * (a.val * a.val + b.val * b.val))| ≤
        2 * η + (7 * θ + 34) * ρ.u + 3e-17 := by
    intro a b hab
    obtain ⟨p, q, r, hp, hq, hr, e⟩ := rodFl_diag B a b
    have := diag_err h0 hu hB hB0 hB' (mul_self_nonneg a.val) (mul_self_nonneg b.val) hab
      (by simpa using fac_near h0 hu hp (by norm_num)) (by simpa using fac_near h0 hu hq (by norm_num))
      (by simpa using fac_near h0 hu hr (by norm_num))
    rw [e, mul_add]
    refine le_trans this ?_
    norm_num; nlinarith
  have kf : ∀ (x y c : ℝ) (v p q : ℝ), Fac ρ.u 3 p → Fac ρ.u 2 q → x * x + y * y ≤ θ ^ 2 → |c| ≤ θ →
      v = B.val * (x * y) * p + A.val * c * q → |v - (B' * (x * y) + A' * c)| ≤ 2 * η + (7 * θ + 34) * ρ.u + 3e-17 := by
    intro x y c v p q hp hq hxy hcθ e
    have := off_err h0 hu hA hB hA' (by rw [abs_of_nonneg hB0]; exact hB') hcθ (prod_le_half hxy)
      (by simpa using fac_near h0 hu hp (by norm_num)) (by simpa using fac_near h0 hu hq (by norm_num))
    rw [e]
    refine le_trans this ?_
    norm_num; nlinarith
  have ko : ∀ (a b c : Fl ρ), a.val * a.val + b.val * b.val ≤ θ ^ 2 → |c.val| ≤ θ →
      |(B * (a * b) + A * c).val - (B' * (a.val * b.val) + A' * c.val)| ≤ 2 * η + (7 * θ + 34) * ρ.u + 3e-17 ∧
      |(B * (a * b) - A * c).val - (B' * (a.val * b.val) - A' * c.val)| ≤ 2 * η + (7 * θ + 34) * ρ.u + 3e-17 := by
    intro a b c hab hcθ
    obtain ⟨⟨p, q, hp, hq, e⟩, ⟨p', q', hp', hq', e'⟩⟩ := rodFl_off A B a b c
    refine ⟨kf _ _ _ _ p q hp hq hab hcθ e, ?_⟩
    have := kf _ _ (-c.val) _ p' q' hp' hq' hab (by rwa [abs_neg]) e'
    rwa [mul_neg, ← sub_eq_add_neg] at this
  have s2 : θ ^ 2 = (w 0).val * (w 0).val + (w 1).val * (w 1).val + (w 2).val * (w 2).val := by rw [← hsum]; ring
  have k01 := ko (w 0) (w 1) (w 2) (by linarith) b2
  have k02 := ko (w 0) (w 2) (w 1) (by linarith) b1
  have k12 := ko (w 1) (w 2) (w 0) (by linarith) b0
  fin_cases i <;> fin_cases j <;>
    simp only [rodriguesFl, rodrigues, Mat.set, Fin.mk_zero, Fin.mk_one, Fin.reduceFinMk]
  · exact kd (w 1) (w 2) (by linarith)
  · exact k01.2
  · exact k02.1
  · exact k01.1
  · exact kd (w 0) (w 2) (by linarith)
  · exact k12.2
  · exact k02.2
  · exact k12.1
  · exact kd (w 0) (w 1) (by linarith)

/-- **C70** every entry of `SO3::exp(w)` is within `2η + (7‖w‖ + 34) u + 3·10⁻¹⁷` of the corresponding entry of the matrix exponential
of the cross-product matrix of `w`, where `η` bounds the errors of the C library's `sin` and `cos` -/
theorem c70_exp (hu : ρ.u ≤ 1 / 10000) (L : Libm ρ) (η : ℝ) (hs : ∀ x, |(L.sin x).val - Real.sin x.val| ≤ η)
    (hc : ∀ x, |(L.cos x).val - Real.cos x.val| ≤ η) (w : Vec (Fl ρ)) (R : Mat (Fl ρ)) (i j : Fin 3) :
    |(so3ExpFl L w R i j).val - (NormedSpace.exp (skew (asV 3 (rvec w))) : M 3) i j| ≤
      2 * η + (7 * eucl (asV 3 (rvec w)) + 34) * ρ.u + 3e-17 := by
  obtain ⟨ha, hb⟩ := coeff_err hu L η hs hc w
  exact rod_err hu (le_trans (abs_nonneg _) (hs 0)) _ _ w R ha hb i j
end TooN.FlRot
