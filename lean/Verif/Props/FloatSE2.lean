import Verif.Props.FloatSE
import Verif.Props.SE2
import Verif.Proof.Bridge
import Verif.Props.SymEigenF
/-!
# C89: rigid transformations built from twists in floating point, continued
-/
set_option linter.unusedSectionVars false
namespace TooN.FlRot
open Finset Lie
variable {ρ : Rounding}

/-- second Taylor branch: `A` itself -/
theorem tayA0 {u θ P Q R : ℝ} (h0 : 0 ≤ u) (hu : u ≤ 1 / 10000) (hθ : 0 < θ) (ht : θ ^ 2 ≤ 1.001e-6)
    (hP : |P - 1| ≤ 7 * (1.003 * u)) (hQ : |Q - 1| ≤ 5 * (1.003 * u)) (hR : |R - 1| ≤ 1 * (1.003 * u)) :
    |(1 - θ ^ 2 / 6 * P * (1 - θ ^ 2 / 20 * Q)) * R - Real.sin θ / θ| ≤ 2.1 * u + 1e-17 := by
  have hθ1 : θ ≤ 1.0006e-3 := le_of_sq (by norm_num) (le_trans ht (by norm_num))
  obtain ⟨-, ts⟩ := Lie.taylor6 (x := θ) (by rw [abs_of_nonneg hθ.le]; norm_num at hθ1 ⊢; linarith)
  have h5 : θ ^ 5 ≤ 1.1e-15 := by
    have h4 := mul_le_mul ht ht (by positivity) (by norm_num)
    have := mul_le_mul h4 hθ1 hθ.le (by norm_num)
    calc θ ^ 5 = θ ^ 2 * θ ^ 2 * θ := by ring
      _ ≤ _ := this
      _ ≤ _ := by norm_num
  have p2 : 0 ≤ θ ^ 2 := by positivity
  norm_num at ht hθ1 hP hQ hR
  have b1 : |(1 - θ ^ 2 / 20 * Q) - (1 - θ ^ 2 / 20)| ≤ u := by
    have e : (1 - θ ^ 2 / 20 * Q) - (1 - θ ^ 2 / 20) = -(θ ^ 2 / 20 * (Q - 1)) := by ring
    rw [e, abs_neg, abs_mul, abs_of_nonneg (by positivity)]
    refine le_trans (mul_le_mul (b := 1 / 10) (by linarith) hQ (abs_nonneg _) (by norm_num)) (by linarith)
  have b2 : |1 - θ ^ 2 / 20| ≤ 1 := by rw [abs_le]; constructor <;> linarith
  have b3 := prod_err b1 hP b2
  have a1 : |(1 - θ ^ 2 / 6 * P * (1 - θ ^ 2 / 20 * Q)) - (1 - θ ^ 2 / 6 * (1 - θ ^ 2 / 20))| ≤ u := by
    have e : (1 - θ ^ 2 / 6 * P * (1 - θ ^ 2 / 20 * Q)) - (1 - θ ^ 2 / 6 * (1 - θ ^ 2 / 20)) =
      -(θ ^ 2 / 6 * ((1 - θ ^ 2 / 20 * Q) * P - (1 - θ ^ 2 / 20))) := by ring
    rw [e, abs_neg, abs_mul, abs_of_nonneg (by positivity)]
    refine le_trans (mul_le_mul (b := 1 / 100) (by linarith) b3 (abs_nonneg _) (by norm_num)) (by nlinarith)
  have a2 : |1 - θ ^ 2 / 6 * (1 - θ ^ 2 / 20)| ≤ 1 := by
    have : 0 ≤ θ ^ 2 / 6 * (1 - θ ^ 2 / 20) := mul_nonneg (by linarith) (by linarith)
    have : θ ^ 2 / 6 * (1 - θ ^ 2 / 20) ≤ 1 * 1 := mul_le_mul (by linarith) (by linarith) (by linarith) (by norm_num)
    rw [abs_le]; constructor <;> linarith
  have a3 := prod_err a1 hR a2
  have a5 : |(1 - θ ^ 2 / 6 * (1 - θ ^ 2 / 20)) - Real.sin θ / θ| ≤ 1e-17 := by
    have e : (1 - θ ^ 2 / 6 * (1 - θ ^ 2 / 20)) - Real.sin θ / θ = -(Real.sin θ - (θ - θ ^ 3 / 6 + θ ^ 5 / 120)) / θ := by
      field_simp; ring
    rw [e, abs_div, abs_neg, abs_of_pos hθ, div_le_iff₀ hθ]
    refine le_trans ts ?_
    have : θ ^ 6 * (7 / 4320) = (θ ^ 5 * (7 / 4320)) * θ := by ring
    rw [this]
    refine mul_le_mul_of_nonneg_right ?_ hθ.le
    norm_num at h5 ⊢; linarith
  have := abs_add_le ((1 - θ ^ 2 / 6 * P * (1 - θ ^ 2 / 20 * Q)) * R - (1 - θ ^ 2 / 6 * (1 - θ ^ 2 / 20)))
    ((1 - θ ^ 2 / 6 * (1 - θ ^ 2 / 20)) - Real.sin θ / θ)
  rw [sub_add_sub_cancel] at this
  refine this.trans ((add_le_add a3 a5).trans ?_)
  norm_num; nlinarith

/-- one element of the translation of `SE2::exp` -/
theorem trans2 {u θ τ α β t x A A' B B' p q : ℝ} (h0 : 0 ≤ u) (hu : u ≤ 1 / 10000) (hτ : 0 ≤ τ)
    (hA : |A - A'| ≤ α) (hB : |B - B'| * θ ≤ β) (hA' : |A'| ≤ 1) (hB' : |B'| * θ ≤ 1)
    (ht : |t| ≤ τ) (hx : |x| ≤ θ * τ) (hp : |p - 1| ≤ 2 * (1.003 * u)) (hq : |q - 1| ≤ 3 * (1.003 * u)) :
    |A * t * p + B * x * q - (A' * t + B' * x)| ≤ (1.001 * (α + β) + 5.1 * u) * τ := by
  have hα : 0 ≤ α := (abs_nonneg _).trans hA
  have b1 : |A * t - A' * t| ≤ α * τ := by
    rw [← sub_mul, abs_mul]; exact mul_le_mul hA ht (abs_nonneg _) hα
  have b2 : |A' * t| ≤ τ := by
    rw [abs_mul]
    have := mul_le_mul hA' ht (abs_nonneg _) (by norm_num)
    linarith
  have c1 : |B * x - B' * x| ≤ β * τ := by
    rw [← sub_mul, abs_mul]
    have s1 := mul_le_mul_of_nonneg_left hx (abs_nonneg (B - B'))
    have s2 := mul_le_mul_of_nonneg_right hB hτ
    linarith
  have c2 : |B' * x| ≤ τ := by
    rw [abs_mul]
    have s1 := mul_le_mul_of_nonneg_left hx (abs_nonneg B')
    have s2 := mul_le_mul_of_nonneg_right hB' hτ
    linarith
  have d1 := prod_err b1 hp b2
  have d2 := prod_err c1 hq c2
  rw [show A * t * p + B * x * q - (A' * t + B' * x) = (A * t * p - A' * t) + (B * x * q - B' * x) by ring]
  refine (abs_add_le _ _).trans ((add_le_add d1 d2).trans ?_)
  have q1 := mul_nonneg hα hτ
  have q2 : 0 ≤ β * τ := (abs_nonneg _).trans c1
  have q3 := mul_nonneg h0 hτ
  have q4 := mul_le_mul_of_nonneg_left hu q1
  have q5 := mul_le_mul_of_nonneg_left hu q2
  norm_num at q4 q5 ⊢
  nlinarith
/-- the branch conditions -/
theorem branch_sq (hu : ρ.u ≤ 1 / 10000) {x : Fl ρ} {y g c : ℝ} (hg : Fac ρ.u 1 g) (hx : x.val = y * g) (hy : 0 ≤ y) (hc : 0 < c) :
    (x < lit c → y ≤ 1.001 * c) ∧ (¬ x < lit c → 0.999 * c ≤ y) := by
  have h0 := ρ.u_nonneg
  obtain ⟨f, hf, ef⟩ := of_fac (ρ := ρ) c
  have ng := abs_le.1 (fac_near h0 hu hg (by norm_num))
  have nf := abs_le.1 (fac_near h0 hu hf (by norm_num))
  norm_num at ng nf
  have b1 : g ≤ 1.00011 := by norm_num; linarith
  have b2 : 1 - 0.00011 ≤ g := by norm_num; linarith
  have b3 : f ≤ 1.00011 := by norm_num; linarith
  have b4 : 1 - 0.00011 ≤ f := by norm_num; linarith
  have k1 := mul_le_mul_of_nonneg_left b1 hy
  have k2 := mul_le_mul_of_nonneg_left b2 hy
  have k3 := mul_le_mul_of_nonneg_left b3 hc.le
  have k4 := mul_le_mul_of_nonneg_left b4 hc.le
  constructor
  · intro h
    have h' : x.val < (Fl.of ρ c).val := h
    rw [hx, ef] at h'
    norm_num at k1 k2 k3 k4 ⊢; linarith
  · intro h
    have h' : (Fl.of ρ c).val ≤ x.val := not_lt.1 h
    rw [hx, ef] at h'
    norm_num at k1 k2 k3 k4 ⊢; linarith

/-- the coefficients of `SE2::exp` outside the first branch -/
noncomputable def se2AB (L : Libm ρ) (th : Fl ρ) : Fl ρ × Fl ρ :=
  if th * th < lit 1e-6 then
    (1 - th * th * Fl.of ρ (1 / 6) * (1 - Fl.of ρ (1 / 20) * (th * th)), lit 0.5 - lit 0.25 * Fl.of ρ (1 / 6) * (th * th))
  else (L.sin th * (1 / th), (1 - L.cos th) * (1 / th * (1 / th)))

theorem se2_coeff (hu : ρ.u ≤ 1 / 10000) (L : Libm ρ) (η : ℝ) (hs : ∀ x, |(L.sin x).val - Real.sin x.val| ≤ η)
    (hc : ∀ x, |(L.cos x).val - Real.cos x.val| ≤ η) (th : Fl ρ) (a : ℝ) (ha : a = |th.val|) (h8 : ¬ th * th < lit 1e-8) :
    ∃ k, 0 < a ∧ 0 ≤ k ∧ k ≤ 1001 ∧ k ≤ 1 / a ∧
      |(se2AB L th).1.val - Real.sin a / a| ≤ 1.003 * (η * k) + 10.1 * ρ.u + 1e-17 ∧
      |a * (se2AB L th).2.val - (1 - Real.cos a) / a| ≤ 1.003 * (η * k) + 17.2 * ρ.u + 1e-17 := by
  have h0 := ρ.u_nonneg
  have h1 := ρ.u_lt_one
  have hη : 0 ≤ η := le_trans (abs_nonneg _) (hs 0)
  have ha0 : 0 ≤ a := ha ▸ abs_nonneg _
  have ha2 : th.val * th.val = a ^ 2 := by rw [ha, sq_abs, sq]
  obtain ⟨g3, hg3, eg3⟩ := Fl.mul_fac th th
  rw [ha2] at eg3
  have hlow := (branch_sq hu hg3 eg3 (sq_nonneg a) (by norm_num)).2 h8
  have hpos : 0 < a := by
    rcases ha0.lt_or_eq with h | h
    · exact h
    · exfalso
      rw [← h] at hlow; norm_num at hlow
  unfold se2AB
  by_cases c2 : th * th < lit 1e-6
  · rw [if_pos c2]
    dsimp only
    have ht := (branch_sq hu hg3 eg3 (sq_nonneg a) (by norm_num)).1 c2
    generalize th * th = q at *
    obtain ⟨f1, hf1, e1⟩ := of_fac (ρ := ρ) (1 / 6)
    obtain ⟨f2, hf2, e2⟩ := of_fac (ρ := ρ) (1 / 20)
    obtain ⟨f3, hf3, e3⟩ := Fl.mul_fac (Fl.of ρ (1 / 20)) q
    obtain ⟨f4, hf4, e4⟩ := Fl.sub_fac 1 (Fl.of ρ (1 / 20) * q)
    obtain ⟨f5, hf5, e5⟩ := Fl.mul_fac q (Fl.of ρ (1 / 6))
    obtain ⟨f6, hf6, e6⟩ := Fl.mul_fac (q * Fl.of ρ (1 / 6)) (1 - Fl.of ρ (1 / 20) * q)
    obtain ⟨f7, hf7, e7⟩ := Fl.sub_fac 1 (q * Fl.of ρ (1 / 6) * (1 - Fl.of ρ (1 / 20) * q))
    obtain ⟨f8, hf8, e8⟩ := of_fac (ρ := ρ) 0.5
    obtain ⟨f9, hf9, e9⟩ := of_fac (ρ := ρ) 0.25
    obtain ⟨fa, hfa, ea⟩ := Fl.mul_fac (Fl.of ρ 0.25) (Fl.of ρ (1 / 6))
    obtain ⟨fb, hfb, eb⟩ := Fl.mul_fac (Fl.of ρ 0.25 * Fl.of ρ (1 / 6)) q
    obtain ⟨fc, hfc, ec⟩ := Fl.sub_fac (Fl.of ρ 0.5) (Fl.of ρ 0.25 * Fl.of ρ (1 / 6) * q)
    have hP := ((((hg3.mul h0 h1 hf1).mul h0 h1 hf5).mul h0 h1 hf6).mul h0 h1 hf4).mono h0 h1 (show _ ≤ 7 by norm_num)
    have hQ := ((hf2.mul h0 h1 hg3).mul h0 h1 hf3).mono h0 h1 (show _ ≤ 5 by norm_num)
    have hP' := ((((hf9.mul h0 h1 hf1).mul h0 h1 hfa).mul h0 h1 hg3).mul h0 h1 hfb).mono h0 h1 (show _ ≤ 7 by norm_num)
    have eA : (1 - q * Fl.of ρ (1 / 6) * (1 - Fl.of ρ (1 / 20) * q)).val =
        (1 - a ^ 2 / 6 * (g3 * f1 * f5 * f6 * f4) * (1 - a ^ 2 / 20 * (f2 * g3 * f3))) * f7 := by
      rw [e7, e6, e5, e4, e3, e2, e1, eg3, Fl.val_one]; ring
    have eB : (Fl.of ρ 0.5 - Fl.of ρ 0.25 * Fl.of ρ (1 / 6) * q).val =
        (1 / 2 * f8 - a ^ 2 / 24 * (f9 * f1 * fa * g3 * fb)) * fc := by
      rw [ec, eb, ea, e8, e9, e1, eg3, show (0.5:ℝ) = 1 / 2 by norm_num, show (0.25:ℝ) = 1 / 4 by norm_num]; ring
    have hta := tayA0 (θ := a) h0 hu hpos (le_trans ht (by norm_num)) (by simpa using fac_near h0 hu hP (by norm_num))
      (by simpa using fac_near h0 hu hQ (by norm_num)) (by simpa using fac_near h0 hu hf7 (by norm_num))
    have htb := tayB1 (θ := a) h0 hu hpos (le_trans ht (by norm_num)) (by simpa using fac_near h0 hu hf8 (by norm_num))
      (by simpa using fac_near h0 hu hP' (by norm_num)) (by simpa using fac_near h0 hu hfc (by norm_num))
    rw [← eA] at hta
    rw [← eB] at htb
    refine ⟨0, hpos, le_rfl, by norm_num, by positivity, ?_, ?_⟩
    · refine le_trans hta ?_; norm_num; linarith
    · refine le_trans htb ?_; norm_num; linarith
  · rw [if_neg c2]
    dsimp only
    refine ⟨1 / a, hpos, by positivity, ?_, le_rfl, ?_, ?_⟩
    · have hl := (branch_sq hu hg3 eg3 (sq_nonneg a) (by norm_num)).2 c2
      rw [div_le_iff₀ hpos]
      by_contra hcon
      push Not at hcon
      have : a < 1 / 1001 := by rw [lt_div_iff₀ (by norm_num)]; linarith
      have := pow_lt_pow_left₀ this ha0 two_ne_zero
      norm_num at this hl; linarith
    all_goals
      have hp1 : 0 ≤ η * (1 / a) := by positivity
      obtain ⟨σ, hσ, hth⟩ : ∃ σ : ℝ, (σ = 1 ∨ σ = -1) ∧ th.val = σ * a := by
        rcases le_total 0 th.val with h | h
        · exact ⟨1, Or.inl rfl, by rw [ha, abs_of_nonneg h]; ring⟩
        · exact ⟨-1, Or.inr rfl, by rw [ha, abs_of_nonpos h]; ring⟩
      obtain ⟨f1, hf1, e1⟩ := Fl.div_fac 1 th
      obtain ⟨f2, hf2, e2⟩ := Fl.mul_fac (L.sin th) (1 / th)
      obtain ⟨f3, hf3, e3⟩ := Fl.mul_fac (1 / th) (1 / th)
      have hs := hs th
      have hc := hc th
      have z : |(1:ℝ) - 1| ≤ 4 * (1.003 * ρ.u) := by rw [sub_self, abs_zero]; linarith
    · have hA := (hf1.mul h0 h1 hf2).mono h0 h1 (show _ ≤ 6 by norm_num)
      have eA : (L.sin th * (1 / th)).val = (σ * (L.sin th).val) / a * (f1 * f2) := by
        rw [e2, e1, hth, Fl.val_one]
        rcases hσ with rfl | rfl <;> field_simp
      have := coefA0 (s := σ * (L.sin th).val) (η := η) h0 hu hpos z (by simpa using fac_near h0 hu hA (by norm_num)) (by
        rw [mul_one]
        rw [hth] at hs
        rcases hσ with rfl | rfl
        · rwa [one_mul] at hs ⊢
        · rw [neg_one_mul, Real.sin_neg] at hs
          rw [neg_one_mul, ← abs_neg]; convert hs using 2; ring)
      rw [← eA] at this
      refine le_trans this ?_
      generalize η * (1 / a) = X at hp1
      norm_num; linarith
    · obtain ⟨f4, hf4, e4⟩ := Fl.sub_fac 1 (L.cos th)
      obtain ⟨f5, hf5, e5⟩ := Fl.mul_fac (1 - L.cos th) (1 / th * (1 / th))
      have hB := ((((hf1.mul h0 h1 hf1).mul h0 h1 hf3).mul h0 h1 hf4).mul h0 h1 hf5).mono h0 h1 (show _ ≤ 13 by norm_num)
      have eB : ((1 - L.cos th) * (1 / th * (1 / th))).val =
          (1 - (L.cos th).val) / a ^ 2 * (f1 * f1 * f3 * f4 * f5) := by
        rw [e5, e4, e3, e1, hth, Fl.val_one]
        rcases hσ with rfl | rfl <;> field_simp
      have := coefB1 h0 hu hpos z (by simpa using fac_near h0 hu hB (by norm_num)) (c := (L.cos th).val) (η := η) (by
        rw [mul_one]
        rw [hth] at hc
        rcases hσ with rfl | rfl
        · rwa [one_mul] at hc
        · rwa [neg_one_mul, Real.cos_neg] at hc)
      rw [← eB] at this
      refine le_trans this ?_
      generalize η * (1 / a) = X at hp1
      norm_num; linarith

/-- the exact exponential, with Lean's `x / 0 = 0` -/
theorem se2_exact (v : V 3) (i j : Fin 2) :
    (NormedSpace.exp (∑ i, v i • se2Gen i) : M 3) i.castSucc j.castSucc = so2Exp (v 2) i j ∧
    (v 2 ≠ 0 → (NormedSpace.exp (∑ i, v i • se2Gen i) : M 3) i.castSucc (Fin.last 2) =
      Real.sin |v 2| / |v 2| * v i.castSucc + (1 - Real.cos |v 2|) / (|v 2| * |v 2|) * (![-v 2 * v 1, v 2 * v 0] : V 2) i) ∧
    (v 2 = 0 → (NormedSpace.exp (∑ i, v i • se2Gen i) : M 3) i.castSucc (Fin.last 2) = v i.castSucc) := by
  have hsin : v 2 ≠ 0 → Real.sin |v 2| / |v 2| = Real.sin (v 2) / v 2 := by
    intro h
    rcases le_total 0 (v 2) with h' | h'
    · rw [abs_of_nonneg h']
    · rw [abs_of_nonpos h', Real.sin_neg, neg_div_neg_eq]
  by_cases h : v 2 = 0
  · have e := c39_se2_exp_is_matrix_exponential v (Or.inr h)
    rw [← e, se2Exp_eq]
    refine ⟨by simp [SE.mat, aug], fun h' => absurd h h', fun _ => ?_⟩
    simp only [SE.mat, aug, Fin.lastCases_last, Fin.lastCases_castSucc, se2Coeff, h]
    have h8 : (0 : ℝ) < 1e-8 := by norm_num
    fin_cases i <;> simp [h8]
  · rw [se2_exp_eq v h]
    refine ⟨by simp [SE.mat, aug], fun _ => ?_, fun h' => absurd h' h⟩
    rw [hsin h, Real.cos_abs, abs_mul_abs_self]
    simp only [SE.mat, aug, Fin.lastCases_last, Fin.lastCases_castSucc]
    fin_cases i <;> simp

theorem eucl2 (mu : Vec (Fl ρ)) : eucl (asV 2 (rvec mu)) ^ 2 = (mu 0).val ^ 2 + (mu 1).val ^ 2 := by
  rw [eucl, Real.sq_sqrt (sum_nonneg fun i _ => sq_nonneg _), Fin.sum_univ_two]; rfl

/-- **C89** `SE2::exp(mu)`: the rotation part is within `η` of the rotation by `mu[2]` (entry by entry) -/
theorem c89_se2_rotation (L : Libm ρ) (η : ℝ) (hs : ∀ x, |(L.sin x).val - Real.sin x.val| ≤ η)
    (hc : ∀ x, |(L.cos x).val - Real.cos x.val| ≤ η) (mu : Vec (Fl ρ)) (R : Mat (Fl ρ)) (i j : Fin 2) :
    |((se2ExpFl L mu R).1 i j).val - (NormedSpace.exp (∑ i, asV 3 (rvec mu) i • se2Gen i) : M 3) i.castSucc j.castSucc| ≤ η := by
  rw [(se2_exact _ i j).1]
  exact (c70_exp2 L η hs hc (mu 2) R).1 i j

/-- **C89** the translation part of `SE2::exp(mu)`: every entry is within `(2.01 η·min(1001, 1/|θ|) + 33 u + 1.7·10⁻⁹) ‖t‖` of that of the
matrix exponential, and `1.7·10⁻⁹` can be replaced by `3·10⁻¹⁷` if `|θ| ≥ 1.0006·10⁻⁴` -/
theorem c89_se2_translation (hu : ρ.u ≤ 1 / 10000) (L : Libm ρ) (η : ℝ) (hs : ∀ x, |(L.sin x).val - Real.sin x.val| ≤ η)
    (hc : ∀ x, |(L.cos x).val - Real.cos x.val| ≤ η) (mu : Vec (Fl ρ)) (R : Mat (Fl ρ)) (i : Fin 2) :
    |((se2ExpFl L mu R).2 i).val - (NormedSpace.exp (∑ i, asV 3 (rvec mu) i • se2Gen i) : M 3) i.castSucc (Fin.last 2)| ≤
      (2.01 * (η * min 1001 (1 / |(mu 2).val|)) + 33 * ρ.u + if |(mu 2).val| < 1.0006e-4 then 1.7e-9 else 3e-17) *
        eucl (asV 2 (rvec mu)) := by
  have h0 := ρ.u_nonneg
  have h1 := ρ.u_lt_one
  have hη : 0 ≤ η := le_trans (abs_nonneg _) (hs 0)
  have hτ0 := eucl_nonneg (asV 2 (rvec mu))
  have hτ2 := eucl2 mu
  set τ := eucl (asV 2 (rvec mu)) with hτ
  have q0 := sq_nonneg (mu 0).val
  have q1 := sq_nonneg (mu 1).val
  have t0 : |(mu 0).val| ≤ τ := abs_le_of_sq_le_sq (by linarith) hτ0
  have t1 : |(mu 1).val| ≤ τ := abs_le_of_sq_le_sq (by linarith) hτ0
  obtain ⟨-, ex1, ex0⟩ := se2_exact (asV 3 (rvec mu)) i i
  have hv2 : asV 3 (rvec mu) 2 = (mu 2).val := rfl
  rw [hv2] at ex1 ex0
  -- the elements of `cross`
  obtain ⟨fx, hfx, hx⟩ : ∃ fx, Fac ρ.u 1 fx ∧ ((if (i : ℕ) = 0 then -(mu 2) * mu 1 else mu 2 * mu 0 : Fl ρ)).val =
      (![-(mu 2).val * (mu 1).val, (mu 2).val * (mu 0).val] : V 2) i * fx := by
    fin_cases i
    · obtain ⟨f, hf, e⟩ := Fl.mul_fac (-(mu 2)) (mu 1)
      exact ⟨f, hf, by simpa using e⟩
    · obtain ⟨f, hf, e⟩ := Fl.mul_fac (mu 2) (mu 0)
      exact ⟨f, hf, by simpa using e⟩
  have hX : |(![-(mu 2).val * (mu 1).val, (mu 2).val * (mu 0).val] : V 2) i| ≤ |(mu 2).val| * τ := by
    fin_cases i
    · show |-(mu 2).val * (mu 1).val| ≤ _
      rw [abs_mul, abs_neg]; exact mul_le_mul_of_nonneg_left t1 (abs_nonneg _)
    · show |(mu 2).val * (mu 0).val| ≤ _
      rw [abs_mul]; exact mul_le_mul_of_nonneg_left t0 (abs_nonneg _)
  have hti : |(mu i).val| ≤ τ := by fin_cases i; exacts [t0, t1]
  change (mu 2).val ≠ 0 → _ = _ * (mu i).val + _ * (![-(mu 2).val * (mu 1).val, (mu 2).val * (mu 0).val] : V 2) i at ex1
  change (mu 2).val = 0 → _ = (mu i).val at ex0
  generalize (![-(mu 2).val * (mu 1).val, (mu 2).val * (mu 0).val] : V 2) i = X at *
  set a := |(mu 2).val| with ha
  have ha0 : 0 ≤ a := abs_nonneg _
  have hmin : 0 ≤ η * min 1001 (1 / a) := mul_nonneg hη (le_min (by norm_num) (one_div_nonneg.2 ha0))
  have hA' : 0 < a → |Real.sin a / a| ≤ 1 := by
    intro hp
    have := Real.abs_sin_le_abs (x := a)
    rw [abs_div, div_le_one (abs_pos.2 hp.ne')]; exact this
  have hB' : 0 < a → |(1 - Real.cos a) / (a * a)| * a ≤ 1 := by
    intro hp
    have k1 : 0 ≤ 1 - Real.cos a := by linarith [Real.cos_le_one a]
    have k2 : 1 - a ^ 2 / 2 ≤ Real.cos a := Real.one_sub_sq_div_two_le_cos
    have k3 := Real.neg_one_le_cos a
    rw [abs_of_nonneg (by positivity), div_mul_eq_mul_div, div_le_one (by positivity)]
    nlinarith [sq_nonneg (a - 2)]
  by_cases h8 : mu 2 * mu 2 < lit 1e-8
  · have ev : (se2ExpFl L mu R).2 i = mu i + lit 0.5 * (if (i : ℕ) = 0 then -(mu 2) * mu 1 else mu 2 * mu 0) := by
      unfold se2ExpFl; dsimp only; rw [if_pos h8]
    obtain ⟨g, hg, eg⟩ := Fl.mul_fac (mu 2) (mu 2)
    have ha2 : (mu 2).val * (mu 2).val = a ^ 2 := by rw [ha, sq_abs, sq]
    rw [ha2] at eg
    have hsm := (branch_sq hu hg eg (sq_nonneg a) (by norm_num)).1 h8
    have hlt : (if a < 1.0006e-4 then (1.7e-9 : ℝ) else 3e-17) = 1.7e-9 := by
      rw [if_pos]
      by_contra hcon
      have := pow_le_pow_left₀ (by norm_num) (not_lt.1 hcon) 2
      norm_num at this hsm; linarith
    rw [hlt, ev]
    generalize (if (i : ℕ) = 0 then -(mu 2) * mu 1 else mu 2 * mu 0 : Fl ρ) = x at *
    obtain ⟨f1, hf1, e1⟩ := of_fac (ρ := ρ) 0.5
    obtain ⟨f2, hf2, e2⟩ := Fl.mul_fac (lit 0.5) x
    obtain ⟨f3, hf3, e3⟩ := Fl.add_fac (mu i) (lit 0.5 * x)
    rcases ha0.lt_or_eq with hpos | hz
    · rw [ex1 (abs_pos.1 hpos)]
      have := trans2 (u := ρ.u) (θ := a) (τ := τ) (α := 1.67e-9) (β := ρ.u + 1e-12) (t := (mu i).val) (x := X)
        (A := 1) (A' := Real.sin a / a) (B := 1 / 2 * f1) (B' := (1 - Real.cos a) / (a * a)) (p := f3) (q := fx * f2 * f3)
        h0 hu hτ0 (tayC0 hpos (hsm.trans (by norm_num))) ?_ (hA' hpos) (hB' hpos) hti hX ?_ ?_
      · have e : (mu i + lit 0.5 * x).val = 1 * (mu i).val * f3 + 1 / 2 * f1 * X * (fx * f2 * f3) := by
          rw [e3, e2, e1, hx]; norm_num; ring
        rw [e]
        refine this.trans (mul_le_mul_of_nonneg_right ?_ hτ0)
        norm_num at hmin ⊢; linarith
      · have := tayB0 h0 hu hpos (hsm.trans (by norm_num)) (by simpa using fac_near h0 hu hf1 (by norm_num))
        have e : |1 / 2 * f1 - (1 - Real.cos a) / (a * a)| * a = |a * (1 / 2 * f1) - (1 - Real.cos a) / a| := by
          conv_lhs => rw [← abs_of_pos hpos, ← abs_mul, abs_of_pos hpos]
          congr 1; field_simp
        rw [e]; exact this
      · refine (fac_near h0 hu hf3 (by norm_num)).trans ?_
        norm_num; linarith
      · simpa using fac_near h0 hu ((hfx.mul h0 h1 hf2).mul h0 h1 hf3) (by norm_num)
    · rw [ex0 (abs_eq_zero.1 hz.symm)]
      rw [← hz, zero_mul] at hX
      have X0 : X = 0 := abs_nonpos_iff.1 hX
      have n3 := fac_near h0 hu hf3 (by norm_num)
      rw [e3, e2, hx, X0]
      simp only [mul_zero, zero_mul, add_zero]
      rw [show (mu i).val * f3 - (mu i).val = (mu i).val * (f3 - 1) by ring, abs_mul]
      have := mul_le_mul hti n3 (abs_nonneg _) hτ0
      refine this.trans ?_
      rw [mul_comm]
      refine mul_le_mul_of_nonneg_right ?_ hτ0
      generalize η * min 1001 (1 / a) = M at hmin ⊢
      norm_num; linarith
  · have ev : (se2ExpFl L mu R).2 i = (se2AB L (mu 2)).1 * mu i +
        (se2AB L (mu 2)).2 * (if (i : ℕ) = 0 then -(mu 2) * mu 1 else mu 2 * mu 0) := by
      unfold se2ExpFl se2AB; dsimp only; rw [if_neg h8]; rfl
    obtain ⟨k, hpos, hk0, hk1, hk2, bA, bB⟩ := se2_coeff hu L η hs hc (mu 2) a ha h8
    rw [ev, ex1 (abs_pos.1 hpos)]
    generalize (if (i : ℕ) = 0 then -(mu 2) * mu 1 else mu 2 * mu 0 : Fl ρ) = x at *
    generalize (se2AB L (mu 2)).1 = A at *
    generalize (se2AB L (mu 2)).2 = B at *
    obtain ⟨f1, hf1, e1⟩ := Fl.mul_fac A (mu i)
    obtain ⟨f2, hf2, e2⟩ := Fl.mul_fac B x
    obtain ⟨f3, hf3, e3⟩ := Fl.add_fac (A * mu i) (B * x)
    have := trans2 (u := ρ.u) (θ := a) (τ := τ) (α := 1.003 * (η * k) + 10.1 * ρ.u + 1e-17) (β := 1.003 * (η * k) + 17.2 * ρ.u + 1e-17)
      (t := (mu i).val) (x := X) (A := A.val) (A' := Real.sin a / a) (B := B.val) (B' := (1 - Real.cos a) / (a * a))
      (p := f1 * f3) (q := fx * f2 * f3) h0 hu hτ0 bA ?_ (hA' hpos) (hB' hpos) hti hX ?_ ?_
    · have e : (A * mu i + B * x).val = A.val * (mu i).val * (f1 * f3) + B.val * X * (fx * f2 * f3) := by
        rw [e3, e2, e1, hx]; ring
      rw [e]
      refine this.trans (mul_le_mul_of_nonneg_right ?_ hτ0)
      have hk : η * k ≤ η * min 1001 (1 / a) := mul_le_mul_of_nonneg_left (le_min hk1 hk2) hη
      have hk' : 0 ≤ η * k := mul_nonneg hη hk0
      have hcst : (3e-17 : ℝ) ≤ if a < 1.0006e-4 then (1.7e-9 : ℝ) else 3e-17 := by split_ifs <;> norm_num
      generalize (if a < 1.0006e-4 then (1.7e-9 : ℝ) else 3e-17) = cst at *
      generalize η * min 1001 (1 / a) = M at *
      norm_num at hcst ⊢; linarith
    · have e : |B.val - (1 - Real.cos a) / (a * a)| * a = |a * B.val - (1 - Real.cos a) / a| := by
        conv_lhs => rw [← abs_of_pos hpos, ← abs_mul, abs_of_pos hpos]
        congr 1; field_simp
      rw [e]; exact bB
    · simpa using fac_near h0 hu (hf1.mul h0 h1 hf3) (by norm_num)
    · simpa using fac_near h0 hu ((hfx.mul h0 h1 hf2).mul h0 h1 hf3) (by norm_num)

/-- **C89** in exact arithmetic this model is the one of `Model/SE.lean` -/
theorem c89_se2_exact (mu : Vec (Fl Rounding.exact)) (R : Mat (Fl Rounding.exact)) (i j : Fin 2) :
    ((se2ExpFl (Libm.rounded Rounding.exact) mu R).1 i j).val = (se2Exp (asV 3 (rvec mu))).R i j ∧
    ((se2ExpFl (Libm.rounded Rounding.exact) mu R).2 i).val = (se2Exp (asV 3 (rvec mu))).t i := by
  have xa : ∀ a b : Fl Rounding.exact, (a + b).val = a.val + b.val := fun _ _ => rfl
  have xs : ∀ a b : Fl Rounding.exact, (a - b).val = a.val - b.val := fun _ _ => rfl
  have xm : ∀ a b : Fl Rounding.exact, (a * b).val = a.val * b.val := fun _ _ => rfl
  have xd : ∀ a b : Fl Rounding.exact, (a / b).val = a.val / b.val := fun _ _ => rfl
  have xo : ∀ a : ℝ, (Fl.of Rounding.exact a).val = a := fun _ => rfl
  have xi : ∀ a : Fl Rounding.exact, ((Libm.rounded Rounding.exact).sin a).val = Real.sin a.val := fun _ => rfl
  have xc : ∀ a : Fl Rounding.exact, ((Libm.rounded Rounding.exact).cos a).val = Real.cos a.val := fun _ => rfl
  have lt_iff : ∀ c : ℝ, mu 2 * mu 2 < lit c ↔ (mu 2).val * (mu 2).val < c := fun c => Iff.rfl
  have hv : ∀ k : Fin 3, asV 3 (rvec mu) k = (mu k).val := fun _ => rfl
  have h0 : asV 3 (rvec mu) 0 = (mu 0).val := rfl
  have h1 : asV 3 (rvec mu) 1 = (mu 1).val := rfl
  have h2 : asV 3 (rvec mu) 2 = (mu 2).val := rfl
  refine ⟨?_, ?_⟩
  · rw [se2Exp_eq]
    fin_cases i <;> fin_cases j <;> simp [se2ExpFl, so2ExpFl, so2Exp, Mat.set, xi, xc, rvec]
  · rw [se2Exp_eq]
    unfold se2ExpFl se2Coeff
    dsimp only
    rw [h0, h1, h2]
    by_cases c1 : (mu 2).val * (mu 2).val < 1e-8
    · rw [if_pos c1, if_pos ((lt_iff _).2 c1)]
      fin_cases i <;> simp [xs, xm, xa, xd, xo, lit, Fl.val_one, Fl.val_neg] <;> norm_num
    · rw [if_neg c1, if_neg (fun h => c1 ((lt_iff _).1 h))]
      by_cases c2 : (mu 2).val * (mu 2).val < 1e-6
      · rw [if_pos c2, if_pos ((lt_iff _).2 c2)]
        fin_cases i <;> simp [xs, xm, xa, xd, xo, lit, Fl.val_one, Fl.val_neg] <;> norm_num
      · rw [if_neg c2, if_neg (fun h => c2 ((lt_iff _).1 h))]
        fin_cases i <;> simp [so2ExpFl, Mat.set, xs, xm, xa, xd, xo, xi, xc, lit, Fl.val_one, Fl.val_neg] <;> ring

set_option maxHeartbeats 1000000 in
/-- **C89** the constant `1.7·10⁻⁹` is not slack of the proof.  In double precision, whatever the C library, the twist that moves one unit
along `y` while turning `3·2⁻¹⁵` radians about `x` is mapped to a translation of exactly `1` along `y`; the correct one is shorter by more
than `1.3·10⁻⁹`, ten million units in the last place (`se3.h:401-405` drops a term of second order in the angle, where the rotation keeps it) -/
theorem c89_small_angle_wrong (L : Libm Rounding.double) (R : Mat (Fl Rounding.double)) (s s' : Vec (Fl Rounding.double)) :
    ∃ mu : Vec (Fl Rounding.double), (mu 0).val = 0 ∧ (mu 1).val = 1 ∧ (mu 2).val = 0 ∧ (mu 3).val = 3 / 2 ^ 15 ∧ (mu 4).val = 0 ∧
      (mu 5).val = 0 ∧ ((se3ExpFl L mu R s s').2 1).val = 1 ∧
      1.3e-9 < 1 - (NormedSpace.exp (∑ i, asV 6 (rvec mu) i • se3Gen i) : M 4) 1 (Fin.last 3) := by
  have hr : ∀ x, Rounding.double.rnd x = rndNearest 53 x := fun _ => rfl
  have ha : rndNearest 53 (3 / 2 ^ 15) = 3 / 2 ^ 15 := SymEigenF.rnd_dyadic 3 15 (by norm_num) (by norm_num)
  have haa : rndNearest 53 (3 / 2 ^ 15 * (3 / 2 ^ 15)) = 3 / 2 ^ 15 * (3 / 2 ^ 15) :=
    SymEigenF.rnd_dyadic 9 30 (by norm_num) (by norm_num)
  set W : Fl Rounding.double := ⟨3 / 2 ^ 15, ha⟩ with hW
  set mu : Vec (Fl Rounding.double) := fun i => if i = 1 then 1 else if i = 3 then W else 0 with hmu
  have m0 : mu 0 = 0 := rfl
  have m1 : mu 1 = 1 := rfl
  have m2 : mu 2 = 0 := rfl
  have m3 : mu 3 = W := rfl
  have m4 : mu 4 = 0 := rfl
  have m5 : mu 5 = 0 := rfl
  have e0 : hi (asV 6 (rvec mu)) = ![3 / 2 ^ 15, 0, 0] := by
    rw [hi_rvec]; ext i; fin_cases i <;> rfl
  have e1 : lo (asV 6 (rvec mu)) = ![0, 1, 0] := by
    rw [lo_rvec]; ext i; fin_cases i <;> rfl
  refine ⟨mu, rfl, rfl, rfl, rfl, rfl, rfl, ?_, ?_⟩
  · have hd : (Ops.dot 3 (fun i => mu (3 + i)) (fun i => mu (3 + i))).val = 3 / 2 ^ 15 * (3 / 2 ^ 15) := by
      have : Ops.dot 3 (fun i => mu (3 + i)) (fun i => mu (3 + i)) = W * W := by
        show ((0 + W * W) + 0 * 0) + 0 * 0 = W * W
        simp only [fl_mul_zero, fl_add_zero]
        apply Fl.ext
        rw [Fl.val_add, Fl.val_zero, zero_add]
        exact (W * W).2
      rw [this, Fl.val_mul, hr]; exact haa
    have hlt : Ops.dot 3 (fun i => mu (3 + i)) (fun i => mu (3 + i)) < lit 1e-8 := by
      rw [Fl.lt_def, hd]
      have := Rounding.double.err (1e-8)
      rw [Rounding.double_u, abs_le] at this
      have h := this.1
      show _ < Rounding.double.rnd (1e-8)
      norm_num at h ⊢
      linarith
    unfold se3ExpFl se3CoeffFl
    dsimp only
    rw [if_pos hlt]
    dsimp only
    have : Ops.cross (fun i => mu (3 + i)) mu s 1 = 0 := by
      simp [Ops.cross, Vec.set, m0, m2, m5, fl_mul_zero, fl_sub_zero]
    rw [this, fl_mul_zero, fl_add_zero, m1]; rfl
  · rw [show (1 : Fin 4) = (1 : Fin 3).castSucc from rfl, (se3_exact _ (3 / 2 ^ 15) (by
      rw [e0]; simp only [dotProduct, Fin.sum_univ_three, Matrix.cons_val_zero, Matrix.cons_val_one, Matrix.cons_val]
      rw [mul_zero, add_zero, add_zero, Real.sqrt_mul_self (by norm_num)]) 1 1).2, e0, e1]
    have hs := (Lie.taylor6 (x := (3 / 2 ^ 15 : ℝ)) (by norm_num [abs_of_nonneg])).2
    rw [abs_le] at hs
    generalize Real.sin (3 / 2 ^ 15) = y at *
    simp [crossV]
    norm_num at hs ⊢
    linarith [hs.2]

/-- the hypotheses of `c89_translation`, `c89_translation_away` and `c89_se2_translation` are met in double precision by the correctly
rounded library, with `η = u`, and a turn of half a radian -/
example : Rounding.double.u ≤ 1 / 10000 ∧
    (∀ x, |((Libm.rounded Rounding.double).sin x).val - Real.sin x.val| ≤ Rounding.double.u) ∧
    (∀ x, |((Libm.rounded Rounding.double).cos x).val - Real.cos x.val| ≤ Rounding.double.u) ∧
    1.0006e-4 ≤ eucl (asV 3 (rvec (fun i => (if i = 0 then ⟨1 / 2, SymEigenF.rnd_dyadic 1 1 (by norm_num) (by norm_num)⟩ else 0 : Fl Rounding.double)))) := by
  refine ⟨by rw [Rounding.double_u]; norm_num, fun x => (Libm.rounded_err x).1, fun x => (Libm.rounded_err x).2, ?_⟩
  rw [eucl_range]
  simp [sum_range_succ]
  norm_num

end TooN.FlRot
