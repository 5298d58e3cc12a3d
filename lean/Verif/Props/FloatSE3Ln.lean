import Verif.Model.FloatSE3Ln
import Verif.Proof.SE3LnV
import Verif.Props.FloatLn2
import Verif.Props.FloatPose2
/-!
# C93: `SE3::ln` in rounded arithmetic
-/
set_option linter.unusedSectionVars false
namespace TooN.FlRot
open Finset Lie Matrix
variable {ρ : Rounding}

theorem sin_ge_06 {x : ℝ} (h0 : 0 ≤ x) (h1 : x ≤ 1.65) : 0.6 * x ≤ Real.sin x := by
  have hp1 := Real.pi_gt_d4
  have hp2 := Real.pi_lt_d4
  by_cases h : x ≤ Real.pi / 2
  · have := Real.mul_le_sin h0 h
    have h2 : (0.6:ℝ) ≤ 2 / Real.pi := by rw [le_div_iff₀ Real.pi_pos]; norm_num at hp2 ⊢; linarith
    exact le_trans (mul_le_mul_of_nonneg_right h2 h0) this
  · push Not at h
    have e : Real.sin x = Real.cos (x - Real.pi / 2) := (Real.cos_sub_pi_div_two x).symm
    have := Real.one_sub_sq_div_two_le_cos (x := x - Real.pi / 2)
    have b : (x - Real.pi / 2) ^ 2 ≤ 0.08 ^ 2 := by
      apply sq_le_sq'
      · norm_num; linarith
      · norm_num at h1 hp1 ⊢; linarith
    rw [e]; norm_num at b h1 ⊢; linarith

theorem shR_bounds {θ : ℝ} (h0 : 0 ≤ θ) (h1 : θ ≤ 3.3) : 0.3 ≤ shR θ ∧ shR θ ≤ 1 / 2 := by
  unfold shR
  split_ifs with h
  · norm_num
  · have hp : 0 < θ := lt_of_le_of_ne h0 (Ne.symm h)
    have a := sin_ge_06 (x := θ / 2) (by linarith) (by norm_num at h1 ⊢; linarith)
    have b := Real.sin_le (x := θ / 2) (by linarith)
    rw [le_div_iff₀ hp, div_le_iff₀ hp]
    constructor <;> linarith

theorem shR_small {θ : ℝ} (h0 : 0 ≤ θ) (h1 : θ ≤ 1) : 1 / 2 - shR θ ≤ θ ^ 2 / 48 := by
  unfold shR
  split_ifs with h
  · rw [h]; norm_num
  · have hp : 0 < θ := lt_of_le_of_ne h0 (Ne.symm h)
    obtain ⟨-, ts⟩ := taylor6 (x := θ / 2) (by rw [abs_of_nonneg (by linarith)]; linarith)
    have ts' := (abs_le.1 ts).1
    have h5 : θ ^ 6 ≤ θ ^ 5 := by
      have : 0 ≤ θ ^ 5 := by positivity
      calc θ ^ 6 = θ * θ ^ 5 := by ring
        _ ≤ 1 * θ ^ 5 := mul_le_mul_of_nonneg_right h1 this
        _ = θ ^ 5 := one_mul _
    have h55 : 0 ≤ θ ^ 5 := by positivity
    have e : (θ / 2) - (θ / 2) ^ 3 / 6 ≤ Real.sin (θ / 2) := by nlinarith
    have : 1 / 2 - θ ^ 2 / 48 ≤ Real.sin (θ / 2) / θ := by
      rw [le_div_iff₀ hp]
      calc (1 / 2 - θ ^ 2 / 48) * θ = (θ / 2) - (θ / 2) ^ 3 / 6 := by ring
        _ ≤ _ := e
    linarith

theorem kappa_small {θ : ℝ} (h0 : 0 ≤ θ) (h1 : θ ≤ 1.01e-3) : |θ ^ 2 / 24 - (1 - 2 * shR θ)| ≤ 6e-16 := by
  unfold shR
  split_ifs with h
  · rw [h]; norm_num
  · have hp : 0 < θ := lt_of_le_of_ne h0 (Ne.symm h)
    obtain ⟨-, ts⟩ := taylor6 (x := θ / 2) (by rw [abs_of_nonneg (by linarith)]; norm_num at h1 ⊢; linarith)
    have e : θ ^ 2 / 24 - (1 - 2 * (Real.sin (θ / 2) / θ)) =
        (2 * (Real.sin (θ / 2) - (θ / 2 - (θ / 2) ^ 3 / 6 + (θ / 2) ^ 5 / 120)) + θ * (θ ^ 4 / 1920)) / θ := by
      field_simp; ring
    have h4 : θ ^ 4 ≤ (1.01e-3) ^ 4 := pow_le_pow_left₀ h0 h1 4
    have h5 : θ ^ 5 ≤ (1.01e-3) ^ 5 := pow_le_pow_left₀ h0 h1 5
    have h50 : 0 ≤ θ ^ 5 := by positivity
    have h40 : 0 ≤ θ ^ 4 := by positivity
    rw [e, abs_div, abs_of_pos hp, div_le_iff₀ hp]
    have e2 : (θ / 2) ^ 6 * (7 / 4320) = θ * (θ ^ 5 * (7 / 276480)) := by ring
    rw [e2] at ts
    have m5 : θ * (θ ^ 5 * (7 / 276480)) ≤ θ * 1e-19 := by
      apply mul_le_mul_of_nonneg_left _ h0
      norm_num at h5 ⊢; linarith
    have m4 : θ * (θ ^ 4 / 1920) ≤ θ * 5.5e-16 := by
      apply mul_le_mul_of_nonneg_left _ h0
      norm_num at h4 ⊢; linarith
    have m40 : 0 ≤ θ * (θ ^ 4 / 1920) := by positivity
    generalize Real.sin (θ / 2) - (θ / 2 - (θ / 2) ^ 3 / 6 + (θ / 2) ^ 5 / 120) = X at *
    have := abs_le.1 ts
    rw [abs_le]
    constructor <;> norm_num at m4 m5 ⊢ <;> linarith [this.1, this.2]

/-- the part of the error due to `shtot = 0.5` for angles up to `10⁻⁵` -/
noncomputable def shTail (θ : ℝ) : ℝ := if θ ≤ 1.1e-5 then θ ^ 2 / 48 else 0

theorem shTail_bounds {θ : ℝ} (h0 : 0 ≤ θ) : 0 ≤ shTail θ ∧ shTail θ ≤ 3e-12 := by
  unfold shTail
  split_ifs with h
  · have : θ ^ 2 ≤ (1.1e-5) ^ 2 := pow_le_pow_left₀ h0 h 2
    refine ⟨by positivity, ?_⟩
    norm_num at this ⊢; linarith
  · norm_num

/-- `shtot` -/
theorem sh_err (hu : ρ.u ≤ 1 / 100000) (L : Libm ρ) {η : ℝ} (hη : 0 ≤ η) (hη1 : η ≤ 1 / 10000)
    (hs : ∀ x, |(L.sin x).val - Real.sin x.val| ≤ η * |Real.sin x.val|) {θ g : ℝ} (h0 : 0 ≤ θ) (h1 : θ ≤ 3.3) {th : Fl ρ}
    (hg : Fac ρ.u 4 g) (hth : th.val = θ * g) :
    |(lnShFl L th).val - shR θ| ≤ 0.502 * η + 5.9 * ρ.u + shTail θ := by
  have u0 := ρ.u_nonneg
  have u1 := ρ.u_lt_one
  have hu' : ρ.u ≤ 1 / 10000 := by linarith
  have T0 := (shTail_bounds h0).1
  have gp := hg.pos u0 u1
  obtain ⟨f5, hf5, e5⟩ := of_fac (ρ := ρ) 0.00001
  have g1 := abs_le.1 (fac_near u0 hu' hg (by norm_num))
  have f51 := abs_le.1 (fac_near u0 hu' hf5 (by norm_num))
  norm_num at g1 f51
  unfold lnShFl
  split_ifs with hc
  · have hc' : (lit (ρ := ρ) 0.00001).val < th.val := hc
    rw [e5, hth] at hc'
    have hp : 0 < θ := by
      rcases h0.lt_or_eq with h | h
      · exact h
      · rw [← h, zero_mul] at hc'; norm_num at hc'; linarith
    obtain ⟨f2, hf2, e2⟩ := of_fac (ρ := ρ) 2
    obtain ⟨d, hd, ed⟩ := Fl.div_fac th (lit 2)
    obtain ⟨d', hd', ed'⟩ := Fl.div_fac (L.sin (th / lit 2)) th
    have hk := ((hg.div u0 u1 hf2).mul u0 u1 hd)
    have hx : (th / lit 2).val = θ / 2 * (g / f2 * d) := by rw [ed, hth, e2]; have := (hf2.pos u0 u1).ne'; field_simp
    have hsx := hs (th / lit 2)
    rw [hx] at hsx
    have hk1 := fac_near u0 hu' hk (by norm_num)
    have hF := hd'.div u0 u1 hg
    have hF1 := fac_near u0 hu' hF (by norm_num)
    have hsin : |Real.sin (θ / 2 * (g / f2 * d)) - Real.sin (θ / 2)| ≤ θ / 2 * (6.1 * ρ.u) := by
      refine (Real.abs_sin_sub_sin_le _ _).trans ?_
      rw [show θ / 2 * (g / f2 * d) - θ / 2 = θ / 2 * (g / f2 * d - 1) by ring, abs_mul, abs_of_nonneg (by linarith : 0 ≤ θ / 2)]
      refine mul_le_mul_of_nonneg_left (hk1.trans ?_) (by linarith)
      norm_num; linarith
    have hb := shR_bounds h0 h1
    have es : shR θ = Real.sin (θ / 2) / θ := by unfold shR; rw [if_neg hp.ne']
    have es' : Real.sin (θ / 2) = θ * shR θ := by rw [es]; field_simp
    rw [ed', hth]
    have e1 : (L.sin (th / lit 2)).val / (θ * g) * d' = ((L.sin (th / lit 2)).val / θ) * (d' / g) := by field_simp
    rw [e1]
    rw [es'] at hsin
    generalize Real.sin (θ / 2 * (g / f2 * d)) = S at *
    generalize (L.sin (th / lit 2)).val = S' at *
    generalize d' / g = F at *
    generalize shR θ = s at *
    have hS := abs_le.1 hsin
    have a1 : |S| ≤ θ * 0.5001 := by
      rw [abs_le]
      have q1 : θ * s ≤ θ * (1 / 2) := mul_le_mul_of_nonneg_left hb.2 h0
      have q0 : 0 ≤ θ * s := mul_nonneg h0 (by linarith [hb.1])
      have q2 : θ / 2 * (6.1 * ρ.u) ≤ θ * 0.0001 := by
        have : θ * ρ.u ≤ θ * (1 / 100000) := mul_le_mul_of_nonneg_left hu h0
        norm_num at this ⊢; linarith
      norm_num at q2 hS ⊢
      constructor <;> linarith [hS.1, hS.2]
    have a2 : |S' - θ * s| ≤ θ * (0.5001 * η + 3.05 * ρ.u) := by
      have : S' - θ * s = (S' - S) + (S - θ * s) := by ring
      rw [this]
      refine (abs_add_le _ _).trans ?_
      have := mul_le_mul_of_nonneg_left a1 hη
      norm_num at this hsx hsin ⊢
      linarith
    have a3 : |S' / θ - s| ≤ 0.5001 * η + 3.05 * ρ.u := by
      rw [show S' / θ - s = (S' - θ * s) / θ by field_simp, abs_div, abs_of_pos hp, div_le_iff₀ hp]; linarith
    generalize S' / θ = z at *
    have hu2 : ρ.u * η ≤ 1 / 100000 * η := mul_le_mul_of_nonneg_right hu hη
    have hu3 : ρ.u * ρ.u ≤ 1 / 100000 * ρ.u := mul_le_mul_of_nonneg_right hu u0
    have hz : |z| ≤ 0.5002 := by
      have := abs_le.1 a3
      rw [abs_le]; norm_num at this ⊢; constructor <;> linarith [this.1, this.2, hb.1, hb.2]
    have a4 : |z * F - s| ≤ |z| * |F - 1| + |z - s| := by
      rw [show z * F - s = z * (F - 1) + (z - s) by ring, ← abs_mul]; exact abs_add_le _ _
    have a5 : |z| * |F - 1| ≤ 0.5002 * (5 * (1.003 * ρ.u)) :=
      mul_le_mul hz (hF1.trans (by norm_num)) (abs_nonneg _) (by norm_num)
    refine a4.trans ?_
    norm_num at a5 a3 ⊢
    linarith
  · have hc' : th.val ≤ (lit (ρ := ρ) 0.00001).val := not_lt.1 hc
    rw [e5, hth] at hc'
    have hθ : θ ≤ 1.1e-5 := by
      have m : θ * 0.999 ≤ θ * g := mul_le_mul_of_nonneg_left (by linarith [g1.1]) h0
      norm_num at m hc' ⊢; linarith [f51.2]
    obtain ⟨f, hf, ef⟩ := of_fac (ρ := ρ) 0.5
    have hf1 := abs_le.1 (fac_near u0 hu' hf (by norm_num))
    have hb := shR_bounds h0 h1
    have ht := shR_small h0 (by norm_num at hθ ⊢; linarith)
    have et : shTail θ = θ ^ 2 / 48 := by unfold shTail; rw [if_pos hθ]
    rw [et, ef, abs_le]
    norm_num at hf1 hb ht ⊢
    constructor <;> linarith [hf1.1, hf1.2, hb.1, hb.2, sq_nonneg θ]

end TooN.FlRot
