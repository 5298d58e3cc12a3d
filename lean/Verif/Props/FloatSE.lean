import Verif.Proof.FloatSE
import Verif.Props.FloatExp2
import Verif.Props.SE3
/-!
# C89: rigid transformations built from twists in floating point
-/
set_option linter.unusedSectionVars false
namespace TooN.FlRot
open Finset Lie
variable {ρ : Rounding}

/-- lower bound for the angle outside the Taylor branches -/
theorem large_sq {w : Vec (Fl ρ)} (hu : ρ.u ≤ 1 / 10000) {c : ℝ} (hc : 0 < c) (h : ¬ Ops.dot 3 w w < lit c) :
    0.999 * c ≤ Real.sqrt (∑ i ∈ range 3, (w i).val ^ 2) ^ 2 := by
  have h0 := ρ.u_nonneg
  obtain ⟨g, hg, eg⟩ := normSq_fac 3 w
  obtain ⟨f, hf, ef⟩ := of_fac (ρ := ρ) c
  have h' : (Fl.of ρ c).val ≤ (Ops.dot 3 w w).val := not_lt.1 h
  rw [eg, ef] at h'
  have ng := fac_near h0 hu hg (by norm_num)
  have nf := fac_near h0 hu hf (by norm_num)
  have hs : 0 ≤ ∑ i ∈ range 3, (w i).val ^ 2 := sum_nonneg fun i _ => sq_nonneg _
  rw [Real.sq_sqrt hs]
  rw [abs_le] at ng nf
  norm_num at ng nf ⊢
  have b1 : g ≤ 1.00031 := by norm_num; linarith
  have b2 : 1 - 0.00011 ≤ f := by norm_num; linarith
  have := mul_le_mul_of_nonneg_left b1 hs
  have := mul_le_mul_of_nonneg_left b2 hc.le
  norm_num at *
  nlinarith

/-- the coefficients of `SE3::exp`: `A` and `B` as used in the rotation, `B` and `C` as used in the translation -/
theorem se3_coeff (hu : ρ.u ≤ 1 / 10000) (L : Libm ρ) (η : ℝ) (hs : ∀ x, |(L.sin x).val - Real.sin x.val| ≤ η)
    (hc : ∀ x, |(L.cos x).val - Real.cos x.val| ≤ η) (w : Vec (Fl ρ)) :
    let θ := Real.sqrt (∑ i ∈ range 3, (w i).val ^ 2)
    |θ * (se3CoeffFl L w).1.val - Real.sin θ| ≤ 1.001 * η + (4.02 * θ + 6.02) * ρ.u + 1e-17 ∧
    |θ ^ 2 * (se3CoeffFl L w).2.1.val - (1 - Real.cos θ)| ≤ 1.002 * η + (4.02 * θ + 26.1) * ρ.u + 1e-17 ∧
    (((se3CoeffFl L w).2.2 = none ∧ (se3CoeffFl L w).2.1 = lit 0.5 ∧ θ ^ 2 ≤ 1.001e-8) ∨
      ∃ C k, (se3CoeffFl L w).2.2 = some C ∧ 0 < θ ∧ 0 ≤ k ∧ k ≤ 1001 ∧ k ≤ 1 / θ ∧
        |θ * (se3CoeffFl L w).2.1.val - (1 - Real.cos θ) / θ| ≤ 1.003 * (η * k) + 17.2 * ρ.u + 1e-17 ∧
        |θ ^ 2 * C.val - (1 - Real.sin θ / θ)| ≤ 1.003 * (η * k) + 36.4 * ρ.u + 1e-17) := by
  intro θ
  have h0 := ρ.u_nonneg
  have h1 := ρ.u_lt_one
  have hη : 0 ≤ η := le_trans (abs_nonneg _) (hs 0)
  have hθ : 0 ≤ θ := Real.sqrt_nonneg _
  have hθu := mul_nonneg hθ h0
  have hce := coeff_err hu L η hs hc w
  obtain ⟨g3, hg3, eg3⟩ := normSq_fac 3 w
  have hsq : ∑ i ∈ range 3, (w i).val ^ 2 = θ ^ 2 := (Real.sq_sqrt (sum_nonneg fun i _ => sq_nonneg _)).symm
  rw [hsq] at eg3
  unfold coeffFl at hce
  unfold se3CoeffFl
  dsimp only at hce ⊢
  by_cases c1 : Ops.dot 3 w w < lit 1e-8
  · rw [if_pos c1] at hce ⊢
    exact ⟨hce.1, hce.2, Or.inl ⟨rfl, rfl, le_trans (small_sq hu (by norm_num) c1) (by norm_num)⟩⟩
  · rw [if_neg c1] at hce ⊢
    have hlow := large_sq hu (by norm_num) c1
    have hpos : 0 < θ := by
      rcases hθ.lt_or_eq with h | h
      · exact h
      · exfalso
        change 0.999 * 1e-8 ≤ θ ^ 2 at hlow
        rw [← h] at hlow; norm_num at hlow
    by_cases c2 : Ops.dot 3 w w < lit 1e-6
    · rw [if_pos c2] at hce ⊢
      have ht := small_sq hu (by norm_num) c2
      obtain ⟨f1, hf1, e1⟩ := of_fac (ρ := ρ) (1 / 6)
      obtain ⟨f2, hf2, e2⟩ := of_fac (ρ := ρ) (1 / 20)
      obtain ⟨f3, hf3, e3⟩ := Fl.mul_fac (Fl.of ρ (1 / 20)) (Ops.dot 3 w w)
      obtain ⟨f4, hf4, e4⟩ := Fl.sub_fac 1 (Fl.of ρ (1 / 20) * Ops.dot 3 w w)
      obtain ⟨f5, hf5, e5⟩ := Fl.mul_fac (Fl.of ρ (1 / 6)) (1 - Fl.of ρ (1 / 20) * Ops.dot 3 w w)
      obtain ⟨f6, hf6, e6⟩ := Fl.mul_fac (Ops.dot 3 w w) (Fl.of ρ (1 / 6) * (1 - Fl.of ρ (1 / 20) * Ops.dot 3 w w))
      obtain ⟨f7, hf7, e7⟩ := Fl.sub_fac 1 (Ops.dot 3 w w * (Fl.of ρ (1 / 6) * (1 - Fl.of ρ (1 / 20) * Ops.dot 3 w w)))
      obtain ⟨f8, hf8, e8⟩ := of_fac (ρ := ρ) 0.5
      obtain ⟨f9, hf9, e9⟩ := of_fac (ρ := ρ) 0.25
      obtain ⟨fa, hfa, ea⟩ := Fl.mul_fac (Fl.of ρ 0.25) (Fl.of ρ (1 / 6))
      obtain ⟨fb, hfb, eb⟩ := Fl.mul_fac (Fl.of ρ 0.25 * Fl.of ρ (1 / 6)) (Ops.dot 3 w w)
      obtain ⟨fc, hfc, ec⟩ := Fl.sub_fac (Fl.of ρ 0.5) (Fl.of ρ 0.25 * Fl.of ρ (1 / 6) * Ops.dot 3 w w)
      have hP := (((hg3.mul h0 h1 hf1).mul h0 h1 hf4).mul h0 h1 hf5).mul h0 h1 hf6
      have hQ := (hf2.mul h0 h1 hg3).mul h0 h1 hf3
      have hS := (hf1.mul h0 h1 hf4).mul h0 h1 hf5
      have hP' := (((hf9.mul h0 h1 hf1).mul h0 h1 hfa).mul h0 h1 hg3).mul h0 h1 hfb
      have eA : (1 - Ops.dot 3 w w * (Fl.of ρ (1 / 6) * (1 - Fl.of ρ (1 / 20) * Ops.dot 3 w w))).val =
          (1 - θ ^ 2 / 6 * (g3 * f1 * f4 * f5 * f6) * (1 - θ ^ 2 / 20 * (f2 * g3 * f3))) * f7 := by
        rw [e7, e6, e5, e4, e3, e2, e1, eg3, Fl.val_one]; ring
      have eC : (Fl.of ρ (1 / 6) * (1 - Fl.of ρ (1 / 20) * Ops.dot 3 w w)).val =
          1 / 6 * (1 - θ ^ 2 / 20 * (f2 * g3 * f3)) * (f1 * f4 * f5) := by
        rw [e5, e4, e3, e2, e1, eg3, Fl.val_one]; ring
      have eB : (Fl.of ρ 0.5 - Fl.of ρ 0.25 * Fl.of ρ (1 / 6) * Ops.dot 3 w w).val =
          (1 / 2 * f8 - θ ^ 2 / 24 * (f9 * f1 * fa * g3 * fb)) * fc := by
        rw [ec, eb, ea, e8, e9, e1, eg3, show (0.5:ℝ) = 1 / 2 by norm_num, show (0.25:ℝ) = 1 / 4 by norm_num]; ring
      have hta := tay2 (θ := θ) h0 hu hθ (le_trans ht (by norm_num)) (by simpa using fac_near h0 hu hP (by norm_num))
        (by simpa using fac_near h0 hu hQ (by norm_num))
        (by simpa using fac_near h0 hu hf7 (by norm_num)) (by simpa using fac_near h0 hu hf8 (by norm_num))
        (by simpa using fac_near h0 hu hP' (by norm_num)) (by simpa using fac_near h0 hu hfc (by norm_num))
      have htb := tayB1 (θ := θ) h0 hu hpos (le_trans ht (by norm_num)) (by simpa using fac_near h0 hu hf8 (by norm_num))
        (by simpa using fac_near h0 hu hP' (by norm_num)) (by simpa using fac_near h0 hu hfc (by norm_num))
      have htc := tayC2 (θ := θ) h0 hu hpos (le_trans ht (by norm_num)) (by simpa using fac_near h0 hu hQ (by norm_num))
        (by simpa using fac_near h0 hu hS (by norm_num))
      rw [← eA] at hta
      rw [← eB] at htb
      rw [← eC] at htc
      refine ⟨?_, hce.2, Or.inr ⟨_, 0, rfl, hpos, le_rfl, by norm_num, by positivity, ?_, ?_⟩⟩
      · refine le_trans hta.1 ?_; norm_num; linarith
      · refine le_trans htb ?_; norm_num; linarith
      · refine le_trans htc ?_; norm_num; linarith
    · rw [if_neg c2] at hce ⊢
      refine ⟨hce.1, hce.2, Or.inr ⟨_, 1 / θ, rfl, hpos, by positivity, ?_, le_rfl, ?_, ?_⟩⟩
      · have hl := large_sq hu (by norm_num) c2
        rw [div_le_iff₀ hpos]
        by_contra hcon
        push Not at hcon
        change 0.999 * 1e-6 ≤ θ ^ 2 at hl
        have : θ < 1 / 1001 := by rw [lt_div_iff₀ (by norm_num)]; linarith
        have := pow_lt_pow_left₀ this hθ two_ne_zero
        norm_num at this hl; linarith
      all_goals
        obtain ⟨g4, hg4, eg4⟩ := norm_fac 3 w
        have eg4 : (Fl.sqrt (Ops.dot 3 w w)).val = θ * g4 := eg4
        have hg4p := hg4.pos h0 h1
        generalize Fl.sqrt (Ops.dot 3 w w) = th at eg4 ⊢
        obtain ⟨f1, hf1, e1⟩ := Fl.div_fac 1 th
        obtain ⟨f2, hf2, e2⟩ := Fl.mul_fac (L.sin th) (1 / th)
        obtain ⟨f3, hf3, e3⟩ := Fl.mul_fac (1 / th) (1 / th)
        have hi := hf1.mul h0 h1 (hg4.inv h0 h1)
        have ng := fac_near h0 hu hg4 (by norm_num)
        have hs := hs th
        have hc := hc th
        rw [eg4] at hs hc
      · obtain ⟨f4, hf4, e4⟩ := Fl.sub_fac 1 (L.cos th)
        obtain ⟨f5, hf5, e5⟩ := Fl.mul_fac (1 - L.cos th) (1 / th * (1 / th))
        have hB := (((hi.mul h0 h1 hi).mul h0 h1 hf3).mul h0 h1 hf4).mul h0 h1 hf5
        have eB : ((1 - L.cos th) * (1 / th * (1 / th))).val =
            (1 - (L.cos th).val) / θ ^ 2 * (f1 * g4⁻¹ * (f1 * g4⁻¹) * f3 * f4 * f5) := by
          rw [e5, e4, e3, e1, eg4, Fl.val_one]; field_simp
        have := coefB1 h0 hu hpos (by simpa using ng) (by simpa using fac_near h0 hu hB (by norm_num)) hc
        rw [← eB] at this
        refine le_trans this ?_
        have : 0 ≤ η * (1 / θ) := by positivity
        norm_num at this ⊢; linarith
      · have hA := (hf1.mul h0 h1 hf2).mul h0 h1 (hg4.inv h0 h1)
        have eA : (L.sin th * (1 / th)).val = (L.sin th).val / θ * (f1 * f2 * g4⁻¹) := by
          rw [e2, e1, eg4, Fl.val_one]; field_simp
        have ha := coefA0 h0 hu hpos (by simpa using ng) (by simpa using fac_near h0 hu hA (by norm_num)) hs
        rw [← eA] at ha
        generalize L.sin th * (1 / th) = A at ha ⊢
        obtain ⟨f4, hf4, e4⟩ := Fl.sub_fac 1 A
        obtain ⟨f5, hf5, e5⟩ := Fl.mul_fac (1 - A) (1 / th * (1 / th))
        have hB := (((hi.mul h0 h1 hi).mul h0 h1 hf3).mul h0 h1 hf4).mul h0 h1 hf5
        have eC : ((1 - A) * (1 / th * (1 / th))).val =
            (1 - A.val) / θ ^ 2 * (f1 * g4⁻¹ * (f1 * g4⁻¹) * f3 * f4 * f5) := by
          rw [e5, e4, e3, e1, eg4, Fl.val_one]; field_simp
        have := coefC2 h0 hu hpos hη ha (by simpa using fac_near h0 hu hB (by norm_num))
        rw [← eC] at this
        refine le_trans this ?_
        norm_num

/-- the exact exponential, with Lean's `x / 0 = 0` -/
theorem se3_exact (mu : V 6) (θ : ℝ) (hθ : θ = Real.sqrt (hi mu ⬝ᵥ hi mu)) (i j : Fin 3) :
    (NormedSpace.exp (∑ i, mu i • se3Gen i) : M 4) i.castSucc j.castSucc = (NormedSpace.exp (skew (hi mu)) : M 3) i j ∧
    (NormedSpace.exp (∑ i, mu i • se3Gen i) : M 4) i.castSucc (Fin.last 3) = lo mu i +
      (1 - Real.cos θ) / (θ * θ) * crossV (hi mu) (lo mu) i +
      (1 - Real.sin θ / θ) / (θ * θ) * crossV (hi mu) (crossV (hi mu) (lo mu)) i := by
  rw [se3_gen_sum]
  by_cases h0 : hi mu = 0
  · have e : skew (hi mu) = 0 := by rw [h0]; ext i j; fin_cases i <;> fin_cases j <;> simp [skew]
    have ec : ∀ v, crossV (hi mu) v = 0 := by
      intro v; rw [h0]; ext i; fin_cases i <;> simp [crossV]
    rw [e, exp_blk_trans, NormedSpace.exp_zero, ec, ec]
    refine ⟨by simp [hom, aug], ?_⟩
    simp only [hom, aug, Fin.lastCases_last, Fin.lastCases_castSucc]
    simp
  · have hp : 0 < Real.sqrt (hi mu ⬝ᵥ hi mu) := Real.sqrt_pos.2 (dot_self_pos h0)
    have hq := Real.mul_self_sqrt (dot_self_nonneg (hi mu))
    rw [exp_blk_rigid (skew (hi mu)) (Real.sqrt (hi mu ⬝ᵥ hi mu)) hp.ne' (by rw [skew_cube_dot, hq]) (lo mu),
      exp_skew (hi mu) _ (sqrt_dot _) hp.ne', ← hθ]
    refine ⟨by simp [hom, aug], ?_⟩
    simp only [hom, aug, Fin.lastCases_last, Fin.lastCases_castSucc]
    fin_cases i <;> simp [Matrix.mulVec, dotProduct, Fin.sum_univ_three, skew, crossV, Matrix.mul_apply, Matrix.add_apply, Matrix.smul_apply] <;> ring

/-- the rotation vector and the translation part, as real vectors -/
theorem hi_rvec (mu : Vec (Fl ρ)) : hi (asV 6 (rvec mu)) = asV 3 (rvec fun i => mu (3 + i)) := by
  ext i; fin_cases i <;> rfl
theorem lo_rvec (mu : Vec (Fl ρ)) : lo (asV 6 (rvec mu)) = asV 3 (rvec mu) := by
  ext i; fin_cases i <;> rfl

/-- **C89** the rotation part of `SE3::exp(mu)`: every entry is within `2η + (7‖w‖ + 34) u + 3·10⁻¹⁷` of that of the matrix exponential -/
theorem c89_rotation (hu : ρ.u ≤ 1 / 10000) (L : Libm ρ) (η : ℝ) (hs : ∀ x, |(L.sin x).val - Real.sin x.val| ≤ η)
    (hc : ∀ x, |(L.cos x).val - Real.cos x.val| ≤ η) (mu : Vec (Fl ρ)) (R : Mat (Fl ρ)) (s s' : Vec (Fl ρ)) (i j : Fin 3) :
    |((se3ExpFl L mu R s s').1 i j).val -
      (NormedSpace.exp (∑ i, asV 6 (rvec mu) i • se3Gen i) : M 4) i.castSucc j.castSucc| ≤
      2 * η + (7 * eucl (asV 3 (rvec fun i => mu (3 + i))) + 34) * ρ.u + 3e-17 := by
  obtain ⟨ha, hb, -⟩ := se3_coeff hu L η hs hc (fun i => mu (3 + i))
  rw [(se3_exact _ _ rfl i j).1, hi_rvec]
  exact rod_err hu (le_trans (abs_nonneg _) (hs 0)) _ _ _ R ha hb i j

theorem sum3 (w : Vec (Fl ρ)) : ∑ i ∈ range 3, (w i).val ^ 2 = (w 0).val ^ 2 + (w 1).val ^ 2 + (w 2).val ^ 2 := by
  simp [sum_range_succ]

/-- both cross products -/
theorem cross_both (hu : ρ.u ≤ 1 / 10000) (w t s s' : Vec (Fl ρ)) (θ τ : ℝ) (hθ : 0 ≤ θ) (hτ : 0 ≤ τ)
    (hw : (w 0).val ^ 2 + (w 1).val ^ 2 + (w 2).val ^ 2 = θ ^ 2) (ht : (t 0).val ^ 2 + (t 1).val ^ 2 + (t 2).val ^ 2 = τ ^ 2) (i : Fin 3) :
    |crossV (asV 3 (rvec w)) (asV 3 (rvec t)) i| ≤ θ * τ ∧
    |crossV (asV 3 (rvec w)) (crossV (asV 3 (rvec w)) (asV 3 (rvec t))) i| ≤ θ ^ 2 * τ ∧
    |(Ops.cross w t s i).val - crossV (asV 3 (rvec w)) (asV 3 (rvec t)) i| ≤ 2.01 * ρ.u * (θ * τ) ∧
    |(Ops.cross w (Ops.cross w t s) s' i).val - crossV (asV 3 (rvec w)) (crossV (asV 3 (rvec w)) (asV 3 (rvec t))) i| ≤
      4.9 * ρ.u * (θ ^ 2 * τ) := by
  have h0 := ρ.u_nonneg
  have hθτ := mul_nonneg hθ hτ
  set X := crossV (asV 3 (rvec w)) (asV 3 (rvec t)) with hX
  have X0 : X 0 = (w 1).val * (t 2).val - (w 2).val * (t 1).val := rfl
  have X1 : X 1 = (w 2).val * (t 0).val - (w 0).val * (t 2).val := rfl
  have X2 : X 2 = (w 0).val * (t 1).val - (w 1).val * (t 0).val := rfl
  have hXs : X 0 ^ 2 + X 1 ^ 2 + X 2 ^ 2 ≤ (θ * τ) ^ 2 := by
    rw [mul_pow, ← hw, ← ht, X0, X1, X2]
    nlinarith [sq_nonneg ((w 0).val * (t 0).val + (w 1).val * (t 1).val + (w 2).val * (t 2).val)]
  have key : ∀ (a c : ℝ) (b d : ℝ) (ξ : ℝ), 0 ≤ ξ → a ^ 2 + c ^ 2 ≤ θ ^ 2 → b ^ 2 + d ^ 2 ≤ ξ ^ 2 → |a * b - c * d| ≤ θ * ξ := by
    intro a c b d ξ hξ h1 h2
    exact (abs_sub _ _).trans (cauchy2 hθ hξ h1 h2)
  have q0 := sq_nonneg (w 0).val
  have q1 := sq_nonneg (w 1).val
  have q2 := sq_nonneg (w 2).val
  have r0 := sq_nonneg (t 0).val
  have r1 := sq_nonneg (t 1).val
  have r2 := sq_nonneg (t 2).val
  have s0 := sq_nonneg (X 0)
  have s1 := sq_nonneg (X 1)
  have s2 := sq_nonneg (X 2)
  have z : ∀ x : Fl ρ, |x.val - x.val| ≤ 0 := fun x => by simp
  have k0 := cross1 hu hθ hτ (w 1) (t 2) (w 2) (t 1) (t 2).val (t 1).val (by linarith) (by linarith) (z _) (z _)
  have k1 := cross1 hu hθ hτ (w 2) (t 0) (w 0) (t 2) (t 0).val (t 2).val (by linarith) (by linarith) (z _) (z _)
  have k2 := cross1 hu hθ hτ (w 0) (t 1) (w 1) (t 0) (t 1).val (t 0).val (by linarith) (by linarith) (z _) (z _)
  rw [mul_zero, mul_zero, add_zero] at k0 k1 k2
  have c0 : Ops.cross w t s 0 = w 1 * t 2 - w 2 * t 1 := rfl
  have c1 : Ops.cross w t s 1 = w 2 * t 0 - w 0 * t 2 := rfl
  have c2 : Ops.cross w t s 2 = w 0 * t 1 - w 1 * t 0 := rfl
  rw [← c0, ← X0] at k0
  rw [← c1, ← X1] at k1
  rw [← c2, ← X2] at k2
  have m0 := cross1 hu hθ hθτ (w 1) (Ops.cross w t s 2) (w 2) (Ops.cross w t s 1) (X 2) (X 1) (by linarith) (by linarith) k2 k1
  have m1 := cross1 hu hθ hθτ (w 2) (Ops.cross w t s 0) (w 0) (Ops.cross w t s 2) (X 0) (X 2) (by linarith) (by linarith) k0 k2
  have m2 := cross1 hu hθ hθτ (w 0) (Ops.cross w t s 1) (w 1) (Ops.cross w t s 0) (X 1) (X 0) (by linarith) (by linarith) k1 k0
  have hfin : 2.01 * ρ.u * (θ * (θ * τ)) + 1.42 * (θ * (2.01 * ρ.u * (θ * τ))) ≤ 4.9 * ρ.u * (θ ^ 2 * τ) := by
    have : 0 ≤ ρ.u * (θ ^ 2 * τ) := by positivity
    nlinarith
  have a0 := key (w 1).val (w 2).val (t 2).val (t 1).val τ hτ (by linarith) (by linarith)
  have a1 := key (w 2).val (w 0).val (t 0).val (t 2).val τ hτ (by linarith) (by linarith)
  have a2 := key (w 0).val (w 1).val (t 1).val (t 0).val τ hτ (by linarith) (by linarith)
  have b0 := key (w 1).val (w 2).val (X 2) (X 1) (θ * τ) hθτ (by linarith) (by linarith)
  have b1 := key (w 2).val (w 0).val (X 0) (X 2) (θ * τ) hθτ (by linarith) (by linarith)
  have b2 := key (w 0).val (w 1).val (X 1) (X 0) (θ * τ) hθτ (by linarith) (by linarith)
  have e : θ * (θ * τ) = θ ^ 2 * τ := by ring
  rw [e] at b0 b1 b2
  fin_cases i
  · exact ⟨a0, b0, k0, m0.trans hfin⟩
  · exact ⟨a1, b1, k1, m1.trans hfin⟩
  · exact ⟨a2, b2, k2, m2.trans hfin⟩

/-- one element of the translation, for both branches -/
theorem se3_trans (hu : ρ.u ≤ 1 / 10000) (L : Libm ρ) (η : ℝ) (hs : ∀ x, |(L.sin x).val - Real.sin x.val| ≤ η)
    (hc : ∀ x, |(L.cos x).val - Real.cos x.val| ≤ η) (mu : Vec (Fl ρ)) (R : Mat (Fl ρ)) (s s' : Vec (Fl ρ)) (i : Fin 3) (θ τ : ℝ)
    (hθ : θ = eucl (asV 3 (rvec fun i => mu (3 + i)))) (hτ : τ = eucl (asV 3 (rvec mu))) :
    (θ ^ 2 ≤ 1.001e-8 ∧ |((se3ExpFl L mu R s s').2 i).val -
      (NormedSpace.exp (∑ i, asV 6 (rvec mu) i • se3Gen i) : M 4) i.castSucc (Fin.last 3)| ≤ (23 * ρ.u + 1.7e-9) * τ) ∨
    |((se3ExpFl L mu R s s').2 i).val -
      (NormedSpace.exp (∑ i, asV 6 (rvec mu) i • se3Gen i) : M 4) i.castSucc (Fin.last 3)| ≤
      (2.01 * (η * min 1001 (1 / θ)) + 75 * ρ.u + 3e-17) * τ := by
  have h0 := ρ.u_nonneg
  have h1 := ρ.u_lt_one
  have hη : 0 ≤ η := le_trans (abs_nonneg _) (hs 0)
  have hce := se3_coeff hu L η hs hc (fun i => mu (3 + i))
  dsimp only at hce
  rw [eucl_range] at hθ hτ
  rw [← hθ] at hce
  have hθ0 : 0 ≤ θ := hθ ▸ Real.sqrt_nonneg _
  have hτ0 : 0 ≤ τ := hτ ▸ Real.sqrt_nonneg _
  have hθ2 : θ ^ 2 = ∑ i ∈ range 3, (mu (3 + i)).val ^ 2 := by rw [hθ]; exact Real.sq_sqrt (sum_nonneg fun i _ => sq_nonneg _)
  have hτ2 : τ ^ 2 = ∑ i ∈ range 3, (mu i).val ^ 2 := by rw [hτ]; exact Real.sq_sqrt (sum_nonneg fun i _ => sq_nonneg _)
  have hti : |(mu i).val| ≤ τ := by
    rw [sum3] at hτ2
    apply abs_le_of_sq_le_sq _ hτ0
    have q0 := sq_nonneg (mu 0).val
    have q1 := sq_nonneg (mu 1).val
    have q2 := sq_nonneg (mu 2).val
    fin_cases i
    · change (mu 0).val ^ 2 ≤ _; linarith
    · change (mu 1).val ^ 2 ≤ _; linarith
    · change (mu 2).val ^ 2 ≤ _; linarith
  obtain ⟨x1, y1, x2, y2⟩ := cross_both hu (fun i => mu (3 + i)) mu s s' θ τ hθ0 hτ0 (by rw [hθ2, sum3]) (by rw [hτ2, sum3]) i
  have ex := (se3_exact (asV 6 (rvec mu)) θ (by
    rw [hθ, hi_rvec]; congr 1
    rw [dotProduct, ← Fin.sum_univ_eq_sum_range (fun i => (mu (3 + i)).val ^ 2) 3]
    exact sum_congr rfl fun i _ => sq _) i i).2
  rw [hi_rvec, lo_rvec] at ex
  rw [ex]
  generalize crossV (asV 3 (rvec fun i => mu (3 + i))) (crossV (asV 3 (rvec fun i => mu (3 + i))) (asV 3 (rvec mu))) i = Y at *
  generalize crossV (asV 3 (rvec fun i => mu (3 + i))) (asV 3 (rvec mu)) i = X at *
  have hmu : asV 3 (rvec mu) i = (mu i).val := rfl
  rw [hmu]
  have hC' : 0 < θ → |(1 - Real.sin θ / θ) / (θ * θ)| * θ ^ 2 ≤ 2 := by
    intro hp
    have := Real.abs_sin_le_abs (x := θ)
    have k1 : |Real.sin θ / θ| ≤ 1 := by rw [abs_div, div_le_one (abs_pos.2 hp.ne')]; exact this
    have k2 := abs_le.1 k1
    rw [abs_div, abs_of_pos (mul_pos hp hp), ← sq, div_mul_cancel₀ _ (by positivity), abs_le]
    constructor <;> linarith [k2.1, k2.2]
  have hB' : 0 < θ → |(1 - Real.cos θ) / (θ * θ)| * θ ≤ 1 := by
    intro hp
    have k1 : 0 ≤ 1 - Real.cos θ := by linarith [Real.cos_le_one θ]
    have k2 : 1 - θ ^ 2 / 2 ≤ Real.cos θ := Real.one_sub_sq_div_two_le_cos
    have k3 := Real.neg_one_le_cos θ
    rw [abs_of_nonneg (by positivity), div_mul_eq_mul_div, div_le_one (by positivity)]
    nlinarith [sq_nonneg (θ - 2)]
  rcases hce with ⟨-, -, ⟨cn, cB, hsm⟩ | ⟨C, k, cs, hpos, hk0, hk1, hk2, bB, bC⟩⟩
  · left
    refine ⟨hsm, ?_⟩
    have ev : (se3ExpFl L mu R s s').2 i = mu i + lit 0.5 * Ops.cross (fun i => mu (3 + i)) mu s i := by
      unfold se3ExpFl
      dsimp only
      rw [cn]
    rw [ev]
    generalize Ops.cross (fun i => mu (3 + i)) mu s i = x at *
    obtain ⟨f1, hf1, e1⟩ := of_fac (ρ := ρ) 0.5
    obtain ⟨f2, hf2, e2⟩ := Fl.mul_fac (lit 0.5) x
    obtain ⟨f3, hf3, e3⟩ := Fl.add_fac (mu i) (lit 0.5 * x)
    rcases hθ0.lt_or_eq with hpos | hz
    · have := trans1 (u := ρ.u) (θ := θ) (τ := τ) (β := ρ.u + 1e-12) (γ := 1.67e-9) (t := (mu i).val) (x := X) (x' := x.val) (y := Y) (y' := Y)
        (B := 1 / 2 * f1) (B' := (1 - Real.cos θ) / (θ * θ)) (C := 0) (C' := (1 - Real.sin θ / θ) / (θ * θ)) (p := f3) (q := f2 * f3) (r := 1)
        h0 hu hτ0 ?_ ?_ (hB' hpos) (hC' hpos) hθ0 hti x1 y1 x2 ?_ ?_ ?_ ?_
      · have e : (mu i + lit 0.5 * x).val = (mu i).val * f3 + 1 / 2 * f1 * x.val * (f2 * f3) + 0 * Y * 1 := by
          rw [e3, e2, e1]; norm_num; ring
        rw [e]
        refine this.trans (mul_le_mul_of_nonneg_right ?_ hτ0)
        norm_num; linarith
      · have := tayB0 h0 hu hpos hsm (by simpa using fac_near h0 hu hf1 (by norm_num))
        rw [← abs_of_pos hpos, ← abs_mul, abs_of_pos hpos]
        rw [show (1 / 2 * f1 - (1 - Real.cos θ) / (θ * θ)) * θ = θ * (1 / 2 * f1) - (1 - Real.cos θ) / θ by field_simp]
        exact this
      · have := tayC0 hpos hsm
        rw [zero_sub, abs_neg, abs_div, abs_of_pos (mul_pos hpos hpos), ← sq, div_mul_cancel₀ _ (by positivity)]
        exact this
      · rw [sub_self, abs_zero]; positivity
      · refine (fac_near h0 hu hf3 (by norm_num)).trans ?_
        norm_num; linarith
      · refine (fac_near h0 hu (hf2.mul h0 h1 hf3) (by norm_num)).trans ?_
        norm_num; linarith
      · simp; linarith
    · rw [← hz, zero_mul, mul_zero] at x2
      rw [← hz, zero_mul] at x1
      rw [← hz] at y1
      have X0 : X = 0 := abs_nonpos_iff.1 x1
      have Y0 : Y = 0 := abs_nonpos_iff.1 (y1.trans (le_of_eq (by ring)))
      have x0 : x.val = 0 := by
        have := abs_nonpos_iff.1 x2; rw [X0] at this; linarith
      have n3 := fac_near h0 hu hf3 (by norm_num)
      rw [e3, e2, x0, X0, Y0]
      simp only [mul_zero, zero_mul, add_zero]
      rw [show (mu i).val * f3 - (mu i).val = (mu i).val * (f3 - 1) by ring, abs_mul]
      have := mul_le_mul hti n3 (abs_nonneg _) hτ0
      refine this.trans ?_
      rw [mul_comm]
      refine mul_le_mul_of_nonneg_right ?_ hτ0
      norm_num; linarith
  · right
    have ev : (se3ExpFl L mu R s s').2 i = mu i + (se3CoeffFl L (fun i => mu (3 + i))).2.1 * Ops.cross (fun i => mu (3 + i)) mu s i +
        C * Ops.cross (fun i => mu (3 + i)) (Ops.cross (fun i => mu (3 + i)) mu s) s' i := by
      unfold se3ExpFl
      dsimp only
      rw [cs]
    rw [ev]
    generalize (se3CoeffFl L (fun i => mu (3 + i))).2.1 = B at *
    generalize Ops.cross (fun i => mu (3 + i)) (Ops.cross (fun i => mu (3 + i)) mu s) s' i = y at *
    generalize Ops.cross (fun i => mu (3 + i)) mu s i = x at *
    obtain ⟨f2, hf2, e2⟩ := Fl.mul_fac B x
    obtain ⟨f3, hf3, e3⟩ := Fl.add_fac (mu i) (B * x)
    obtain ⟨f4, hf4, e4⟩ := Fl.mul_fac C y
    obtain ⟨f5, hf5, e5⟩ := Fl.add_fac (mu i + B * x) (C * y)
    have := trans1 (u := ρ.u) (θ := θ) (τ := τ) (β := 1.003 * (η * k) + 17.2 * ρ.u + 1e-17) (γ := 1.003 * (η * k) + 36.4 * ρ.u + 1e-17)
      (t := (mu i).val) (x := X) (x' := x.val) (y := Y) (y' := y.val)
      (B := B.val) (B' := (1 - Real.cos θ) / (θ * θ)) (C := C.val) (C' := (1 - Real.sin θ / θ) / (θ * θ)) (p := f3 * f5) (q := f2 * f3 * f5)
      (r := f4 * f5) h0 hu hτ0 ?_ ?_ (hB' hpos) (hC' hpos) hθ0 hti x1 y1 x2 y2 ?_ ?_ ?_
    · have e : (mu i + B * x + C * y).val = (mu i).val * (f3 * f5) + B.val * x.val * (f2 * f3 * f5) + C.val * y.val * (f4 * f5) := by
        rw [e5, e4, e3, e2]; ring
      rw [e]
      refine this.trans (mul_le_mul_of_nonneg_right ?_ hτ0)
      have hk : η * k ≤ η * min 1001 (1 / θ) := mul_le_mul_of_nonneg_left (le_min hk1 hk2) hη
      have hk' : 0 ≤ η * k := mul_nonneg hη hk0
      norm_num at hk ⊢; linarith
    · rw [← abs_of_pos hpos, ← abs_mul, abs_of_pos hpos]
      rw [show (B.val - (1 - Real.cos θ) / (θ * θ)) * θ = θ * B.val - (1 - Real.cos θ) / θ by field_simp]
      exact bB
    · rw [← abs_of_pos (show 0 < θ ^ 2 by positivity), ← abs_mul]
      rw [show (C.val - (1 - Real.sin θ / θ) / (θ * θ)) * θ ^ 2 = θ ^ 2 * C.val - (1 - Real.sin θ / θ) by field_simp]
      exact bC
    · simpa using fac_near h0 hu (hf3.mul h0 h1 hf5) (by norm_num)
    · simpa using fac_near h0 hu ((hf2.mul h0 h1 hf3).mul h0 h1 hf5) (by norm_num)
    · simpa using fac_near h0 hu (hf4.mul h0 h1 hf5) (by norm_num)

/-- **C89** the translation part of `SE3::exp(mu)`: every entry is within `(2.01 η·min(1001, 1/‖w‖) + 75 u + 1.7·10⁻⁹) ‖t‖` of that of the
matrix exponential, where `η` bounds the errors of the C library's `sin` and `cos` -/
theorem c89_translation (hu : ρ.u ≤ 1 / 10000) (L : Libm ρ) (η : ℝ) (hs : ∀ x, |(L.sin x).val - Real.sin x.val| ≤ η)
    (hc : ∀ x, |(L.cos x).val - Real.cos x.val| ≤ η) (mu : Vec (Fl ρ)) (R : Mat (Fl ρ)) (s s' : Vec (Fl ρ)) (i : Fin 3) :
    |((se3ExpFl L mu R s s').2 i).val -
      (NormedSpace.exp (∑ i, asV 6 (rvec mu) i • se3Gen i) : M 4) i.castSucc (Fin.last 3)| ≤
      (2.01 * (η * min 1001 (1 / eucl (asV 3 (rvec fun i => mu (3 + i))))) + 75 * ρ.u + 1.7e-9) * eucl (asV 3 (rvec mu)) := by
  have h0 := ρ.u_nonneg
  have hη : 0 ≤ η := le_trans (abs_nonneg _) (hs 0)
  have hm : 0 ≤ η * min 1001 (1 / eucl (asV 3 (rvec fun i => mu (3 + i)))) :=
    mul_nonneg hη (le_min (by norm_num) (one_div_nonneg.2 (eucl_nonneg _)))
  rcases se3_trans hu L η hs hc mu R s s' i _ _ rfl rfl with ⟨-, h⟩ | h
  · exact h.trans (mul_le_mul_of_nonneg_right (by norm_num at hm ⊢; linarith) (eucl_nonneg _))
  · exact h.trans (mul_le_mul_of_nonneg_right (by norm_num at hm ⊢) (eucl_nonneg _))

/-- **C89** … and for rotations by more than `1.0006·10⁻⁴` radians the constant is at rounding level -/
theorem c89_translation_away (hu : ρ.u ≤ 1 / 10000) (L : Libm ρ) (η : ℝ) (hs : ∀ x, |(L.sin x).val - Real.sin x.val| ≤ η)
    (hc : ∀ x, |(L.cos x).val - Real.cos x.val| ≤ η) (mu : Vec (Fl ρ)) (R : Mat (Fl ρ)) (s s' : Vec (Fl ρ)) (i : Fin 3)
    (hθ : 1.0006e-4 ≤ eucl (asV 3 (rvec fun i => mu (3 + i)))) :
    |((se3ExpFl L mu R s s').2 i).val -
      (NormedSpace.exp (∑ i, asV 6 (rvec mu) i • se3Gen i) : M 4) i.castSucc (Fin.last 3)| ≤
      (2.01 * (η * min 1001 (1 / eucl (asV 3 (rvec fun i => mu (3 + i))))) + 75 * ρ.u + 3e-17) * eucl (asV 3 (rvec mu)) := by
  rcases se3_trans hu L η hs hc mu R s s' i _ _ rfl rfl with ⟨h, -⟩ | h
  · have := pow_le_pow_left₀ (by norm_num) hθ 2
    norm_num at this h; linarith
  · exact h

theorem rod_zero (w : Vec (Fl ρ)) (hw : ∀ i, i < 3 → w i = 0) (A B : Fl ρ) (R : Mat (Fl ρ)) (i j : ℕ) (hi : i < 3) (hj : j < 3) :
    rodriguesFl w A B R i j = if i = j then 1 else 0 := by
  have z0 := hw 0 (by omega)
  have z1 := hw 1 (by omega)
  have z2 := hw 2 (by omega)
  unfold rodriguesFl
  simp only [z0, z1, z2, fl_mul_zero, fl_add_zero, fl_sub_zero]
  have hi : i = 0 ∨ i = 1 ∨ i = 2 := by omega
  have hj : j = 0 ∨ j = 1 ∨ j = 2 := by omega
  rcases hi with rfl | rfl | rfl <;> rcases hj with rfl | rfl | rfl <;> simp [Mat.set]

/-- **C89** a twist without rotation: the translation and the identity, exactly -/
theorem c89_pure_translation (L : Libm ρ) (mu : Vec (Fl ρ)) (R : Mat (Fl ρ)) (s s' : Vec (Fl ρ)) (hw : ∀ i, i < 3 → mu (3 + i) = 0)
    (i j : ℕ) (hi : i < 3) (hj : j < 3) :
    (se3ExpFl L mu R s s').1 i j = (if i = j then 1 else 0) ∧ (se3ExpFl L mu R s s').2 i = mu i := by
  have z0 : mu 3 = 0 := hw 0 (by omega)
  have z1 : mu 4 = 0 := hw 1 (by omega)
  have z2 : mu 5 = 0 := hw 2 (by omega)
  have hx : ∀ (t s : Vec (Fl ρ)) (i : ℕ), i < 3 → Ops.cross (fun i => mu (3 + i)) t s i = 0 := by
    intro t s i hi
    have : i = 0 ∨ i = 1 ∨ i = 2 := by omega
    rcases this with rfl | rfl | rfl <;> simp [Ops.cross, Vec.set, z0, z1, z2, fl_zero_mul, fl_sub_zero]
  refine ⟨rod_zero (fun i => mu (3 + i)) hw _ _ R i j hi hj, ?_⟩
  · unfold se3ExpFl
    dsimp only
    cases (se3CoeffFl L fun i => mu (3 + i)).2.2 with
    | none => dsimp only; rw [hx _ _ i hi, fl_mul_zero, fl_add_zero]
    | some C => dsimp only; rw [hx _ _ i hi, hx _ _ i hi, fl_mul_zero, fl_mul_zero, fl_add_zero, fl_add_zero]

/-- **C89** in exact arithmetic this model is the one of `Model/SE.lean` -/
theorem c89_exact (mu : Vec (Fl Rounding.exact)) (R : Mat (Fl Rounding.exact)) (s s' : Vec (Fl Rounding.exact)) (i j : Fin 3) :
    ((se3ExpFl (Libm.rounded Rounding.exact) mu R s s').1 i j).val = (se3Exp (asV 6 (rvec mu))).R i j ∧
    ((se3ExpFl (Libm.rounded Rounding.exact) mu R s s').2 i).val = (se3Exp (asV 6 (rvec mu))).t i := by
  have hd : (Ops.dot 3 (fun i => mu (3 + i)) (fun i => mu (3 + i))).val = hi (asV 6 (rvec mu)) ⬝ᵥ hi (asV 6 (rvec mu)) := by
    rw [hi_rvec]; exact dot_exact 3 _ _
  have xa : ∀ a b : Fl Rounding.exact, (a + b).val = a.val + b.val := fun _ _ => rfl
  have xs : ∀ a b : Fl Rounding.exact, (a - b).val = a.val - b.val := fun _ _ => rfl
  have xm : ∀ a b : Fl Rounding.exact, (a * b).val = a.val * b.val := fun _ _ => rfl
  have xd : ∀ a b : Fl Rounding.exact, (a / b).val = a.val / b.val := fun _ _ => rfl
  have xq : ∀ a : Fl Rounding.exact, (Fl.sqrt a).val = Real.sqrt a.val := fun _ => rfl
  have xo : ∀ a : ℝ, (Fl.of Rounding.exact a).val = a := fun _ => rfl
  have xi : ∀ a : Fl Rounding.exact, ((Libm.rounded Rounding.exact).sin a).val = Real.sin a.val := fun _ => rfl
  have xc : ∀ a : Fl Rounding.exact, ((Libm.rounded Rounding.exact).cos a).val = Real.cos a.val := fun _ => rfl
  have hrod : ∀ (w : Vec (Fl Rounding.exact)) (A B : Fl Rounding.exact), (rodriguesFl w A B R i j).val =
      rodrigues (asV 3 (rvec w)) A.val B.val i j := by
    intro w A B
    fin_cases i <;> fin_cases j <;> simp [rodriguesFl, rodrigues, Mat.set, xs, xa, xm, asV, rvec]
  have hcr : ∀ (w t s : Vec (Fl Rounding.exact)), asV 3 (rvec (Ops.cross w t s)) = crossV (asV 3 (rvec w)) (asV 3 (rvec t)) := by
    intro w t s
    ext i
    fin_cases i <;> simp [Ops.cross, crossV, Vec.set, asV, rvec, xs, xm]
  have lt_iff : ∀ c : ℝ, Ops.dot 3 (fun i => mu (3 + i)) (fun i => mu (3 + i)) < lit c ↔
      hi (asV 6 (rvec mu)) ⬝ᵥ hi (asV 6 (rvec mu)) < c := by
    intro c; rw [← hd]; rfl
  have hx : (Ops.cross (fun i => mu (3 + i)) mu s i).val = crossV (hi (asV 6 (rvec mu))) (lo (asV 6 (rvec mu))) i := by
    rw [hi_rvec, lo_rvec, ← hcr]; rfl
  have hy : (Ops.cross (fun i => mu (3 + i)) (Ops.cross (fun i => mu (3 + i)) mu s) s' i).val =
      crossV (hi (asV 6 (rvec mu))) (crossV (hi (asV 6 (rvec mu))) (lo (asV 6 (rvec mu)))) i := by
    rw [hi_rvec, lo_rvec, ← hcr, ← hcr]; rfl
  have hm : (mu i).val = lo (asV 6 (rvec mu)) i := by rw [lo_rvec]; rfl
  unfold se3ExpFl se3Exp se3CoeffFl
  dsimp only
  by_cases c1 : hi (asV 6 (rvec mu)) ⬝ᵥ hi (asV 6 (rvec mu)) < 1e-8
  · rw [if_pos c1, if_pos ((lt_iff _).2 c1)]
    dsimp only
    rw [hrod, ← hi_rvec]
    simp only [xs, xm, xa, xd, xq, xo, xi, xc, hd, hx, hm, Fl.val_one, Pi.add_apply, Pi.smul_apply, smul_eq_mul]
    norm_num
  · rw [if_neg c1, if_neg (fun h => c1 ((lt_iff _).1 h))]
    by_cases c2 : hi (asV 6 (rvec mu)) ⬝ᵥ hi (asV 6 (rvec mu)) < 1e-6
    · rw [if_pos c2, if_pos ((lt_iff _).2 c2)]
      dsimp only
      rw [hrod, ← hi_rvec]
      simp only [xs, xm, xa, xd, xq, xo, xi, xc, hd, hx, hy, hm, Fl.val_one, Pi.add_apply, Pi.smul_apply, smul_eq_mul]
      norm_num
    · rw [if_neg c2, if_neg (fun h => c2 ((lt_iff _).1 h))]
      dsimp only
      rw [hrod, ← hi_rvec]
      simp only [xs, xm, xa, xd, xq, xo, xi, xc, hd, hx, hy, hm, Fl.val_one, Pi.add_apply, Pi.smul_apply, smul_eq_mul]
      norm_num

end TooN.FlRot
