import Verif.Props.FloatSE3Ln
/-!
# C93, continued: the translation step
-/
set_option linter.unusedSectionVars false
namespace TooN.FlRot
open Finset Lie Matrix
variable {ρ : Rounding}

/-- a rounded dot product of two 3-vectors -/
theorem dot_near (hu : ρ.u ≤ 1 / 10000) (a b : Vec (Fl ρ)) :
    |(Ops.dot 3 a b).val - asV 3 (rvec a) ⬝ᵥ asV 3 (rvec b)| ≤ 3.01 * ρ.u * (eucl (asV 3 (rvec a)) * eucl (asV 3 (rvec b))) := by
  have u0 := ρ.u_nonneg
  have h := c61_dot (ρ := ρ) 3 (by push_cast; linarith) a b
  have e : ∑ i ∈ range 3, (a i).val * (b i).val = asV 3 (rvec a) ⬝ᵥ asV 3 (rvec b) := by
    rw [Finset.sum_range]; rfl
  have e' : ∑ i ∈ range 3, |(a i).val * (b i).val| ≤ eucl (asV 3 (rvec a)) * eucl (asV 3 (rvec b)) := by
    have := abs_dot_le (fun i => |asV 3 (rvec a) i|) (fun i => |asV 3 (rvec b) i|)
    rw [eucl_abs, eucl_abs] at this
    refine le_trans (le_of_eq ?_) ((le_abs_self _).trans this)
    rw [Finset.sum_range]
    exact Finset.sum_congr rfl fun i _ => abs_mul _ _
  rw [e] at h
  refine h.trans ?_
  have hg := gam_le u0 hu 3 (by norm_num)
  refine mul_le_mul (hg.trans (by norm_num)) e' (sum_nonneg fun i _ => abs_nonneg _) (by positivity)

/-- the error allowed for `2*shtot` -/
noncomputable def shD (u η θ : ℝ) : ℝ := 1.01 * η + 14 * u + 2.1 * shTail θ

/-- `2*shtot` -/
theorem sh2_err (hu : ρ.u ≤ 1 / 100000) {η : ℝ} (hη : 0 ≤ η) (hη1 : η ≤ 1 / 10000) {θ : ℝ} (h0 : 0 ≤ θ) (h1 : θ ≤ 3.3) {sh : Fl ρ}
    (hs : |sh.val - shR θ| ≤ 0.502 * η + 5.9 * ρ.u + shTail θ) :
    |(lit 2 * sh).val - 2 * shR θ| ≤ shD ρ.u η θ := by
  have u0 := ρ.u_nonneg
  have u1 := ρ.u_lt_one
  have hu' : ρ.u ≤ 1 / 10000 := by linarith
  obtain ⟨T0, T1⟩ := shTail_bounds h0
  obtain ⟨f, hf, ef⟩ := of_fac (ρ := ρ) 2
  obtain ⟨d, hd, ed⟩ := Fl.mul_fac (lit 2) sh
  have hF := fac_near u0 hu' (hf.mul u0 u1 hd) (by norm_num)
  rw [ed, ef]
  have hb := shR_bounds h0 h1
  unfold shD
  generalize shR θ = s at *
  generalize shTail θ = τ at *
  have e : 2 * f * sh.val * d - 2 * s = 2 * (sh.val * (f * d - 1) + (sh.val - s)) := by ring
  have hz : |sh.val| ≤ 0.501 := by
    have := abs_le.1 hs
    rw [abs_le]; norm_num at this T1 ⊢; constructor <;> linarith [this.1, this.2, hb.1, hb.2]
  have a5 : |sh.val * (f * d - 1)| ≤ 0.501 * (2 * (1.003 * ρ.u)) := by
    rw [abs_mul]
    exact mul_le_mul hz (hF.trans (by norm_num)) (abs_nonneg _) (by norm_num)
  rw [e, abs_mul, abs_two]
  have h3 := abs_add_le (sh.val * (f * d - 1)) (sh.val - s)
  have h4 := h3.trans (add_le_add a5 hs)
  have h5 := mul_le_mul_of_nonneg_left h4 (zero_le_two (α := ℝ))
  refine h5.trans ?_
  ring_nf
  linarith

theorem shD_le {u η θ : ℝ} (u0 : 0 ≤ u) (hu : u ≤ 1 / 100000) (hη : 0 ≤ η) (hη1 : η ≤ 1 / 10000) (h0 : 0 ≤ θ) :
    0 ≤ shD u η θ ∧ shD u η θ ≤ 2.5e-4 := by
  obtain ⟨T0, T1⟩ := shTail_bounds h0
  unfold shD
  generalize shTail θ = τ at *
  constructor
  · positivity
  · norm_num at T1 ⊢; linarith

/-- arithmetic of the factor's error -/
theorem fac_arith {P P' c c' F Q u D : ℝ} (u0 : 0 ≤ u) (hu : u ≤ 1 / 100000) (Q0 : 0 ≤ Q) (hP : |P| ≤ Q) (hP' : |P' - P| ≤ 3.01 * u * Q)
    (c0 : 0 ≤ c) (c1 : c ≤ 0.4) (D0 : 0 ≤ D) (D1 : D ≤ 2.5e-4) (hc : |c' - c| ≤ D) (hF : |F - 1| ≤ 6.1 * u) :
    |P' * c' * F - P * c| ≤ Q * (1.0001 * D + 3.7 * u) := by
  have e : P' * c' * F - P * c = P' * c' * (F - 1) + (P' - P) * c' + P * (c' - c) := by ring
  have qu : u * Q ≤ 1 / 100000 * Q := mul_le_mul_of_nonneg_right hu Q0
  have uq : 0 ≤ u * Q := mul_nonneg u0 Q0
  have b1 : |P'| ≤ 1.0001 * Q := by
    have h1 := abs_le.1 hP; have h2 := abs_le.1 hP'
    rw [abs_le]; norm_num at h2 ⊢; constructor <;> linarith [h1.1, h1.2, h2.1, h2.2]
  have b2 : |c'| ≤ 0.4003 := by
    have h2 := abs_le.1 hc
    rw [abs_le]; norm_num at D1 c1 ⊢; constructor <;> linarith [h2.1, h2.2]
  have m1 : |P' * c' * (F - 1)| ≤ 1.0001 * Q * 0.4003 * (6.1 * u) := by
    rw [abs_mul, abs_mul]
    exact mul_le_mul (mul_le_mul b1 b2 (abs_nonneg _) (by positivity)) hF (abs_nonneg _) (by positivity)
  have m2 : |(P' - P) * c'| ≤ 3.01 * u * Q * 0.4003 := by
    rw [abs_mul]; exact mul_le_mul hP' b2 (abs_nonneg _) (by positivity)
  have m3 : |P * (c' - c)| ≤ Q * D := by
    rw [abs_mul]; exact mul_le_mul hP hc (abs_nonneg _) Q0
  have QD : 0 ≤ Q * D := mul_nonneg Q0 D0
  rw [e]
  have := abs_add_le (P' * c' * (F - 1) + (P' - P) * c') (P * (c' - c))
  have := abs_add_le (P' * c' * (F - 1)) ((P' - P) * c')
  linarith

theorem fac_arith2 {P P' F Q u : ℝ} (u0 : 0 ≤ u) (hu : u ≤ 1 / 100000) (Q0 : 0 ≤ Q) (hP : |P| ≤ Q) (hP' : |P' - P| ≤ 3.01 * u * Q)
    (hF : |F - 1| ≤ 2.1 * u) : |P' / 24 * F - P / 24| ≤ Q * (0.3 * u) := by
  have e : P' / 24 * F - P / 24 = (P' * (F - 1) + (P' - P)) / 24 := by ring
  have qu : u * Q ≤ 1 / 100000 * Q := mul_le_mul_of_nonneg_right hu Q0
  have uq : 0 ≤ u * Q := mul_nonneg u0 Q0
  have b1 : |P'| ≤ 1.0001 * Q := by
    have h1 := abs_le.1 hP; have h2 := abs_le.1 hP'
    rw [abs_le]; norm_num at h2 ⊢; constructor <;> linarith [h1.1, h1.2, h2.1, h2.2]
  have m1 : |P' * (F - 1)| ≤ 1.0001 * Q * (2.1 * u) := by
    rw [abs_mul]
    exact mul_le_mul b1 hF (abs_nonneg _) (by positivity)
  rw [e, abs_div, abs_of_pos (by norm_num : (0:ℝ) < 24), div_le_iff₀ (by norm_num)]
  have := abs_add_le (P' * (F - 1)) (P' - P)
  linarith

/-- the factor of `rot`: its error times `θ` -/
theorem lnFac_err (hu : ρ.u ≤ 1 / 100000) {η : ℝ} (hη : 0 ≤ η) (hη1 : η ≤ 1 / 10000) (t w : Vec (Fl ρ)) {sh th : Fl ρ} {g : ℝ}
    (h1 : eucl (asV 3 (rvec w)) ≤ 3.3) (hs : |(lit 2 * sh).val - 2 * shR (eucl (asV 3 (rvec w)))| ≤ shD ρ.u η (eucl (asV 3 (rvec w))))
    (hg : Fac ρ.u 4 g) (hth : th.val = eucl (asV 3 (rvec w)) * g) :
    eucl (asV 3 (rvec w)) * |(lnFacFl th sh t w).val - (1 - 2 * shR (eucl (asV 3 (rvec w)))) / (asV 3 (rvec w) ⬝ᵥ asV 3 (rvec w)) *
        (asV 3 (rvec t) ⬝ᵥ asV 3 (rvec w))| ≤
      eucl (asV 3 (rvec t)) * (1.0001 * shD ρ.u η (eucl (asV 3 (rvec w))) + 4 * ρ.u + 6e-16) := by
  have u0 := ρ.u_nonneg
  have u1 := ρ.u_lt_one
  have hu' : ρ.u ≤ 1 / 10000 := by linarith
  have h0 := eucl_nonneg (asV 3 (rvec w))
  have t0 := eucl_nonneg (asV 3 (rvec t))
  have hP := abs_dot_le (asV 3 (rvec t)) (asV 3 (rvec w))
  have hP' := dot_near hu' t w
  have hw2 := eucl_sq (asV 3 (rvec w))
  obtain ⟨D0, D1⟩ := shD_le u0 hu hη hη1 h0
  obtain ⟨q, hq, eq⟩ := normSq_fac (ρ := ρ) 3 w
  have eq' : (Ops.dot 3 w w).val = eucl (asV 3 (rvec w)) ^ 2 * q := by
    rw [eq, Finset.sum_range]; congr 1
    rw [hw2]; exact Finset.sum_congr rfl fun i _ => by rw [pow_two]; rfl
  rw [← hw2]
  obtain ⟨fl, hfl, el⟩ := of_fac (ρ := ρ) 0.001
  have hfl1 := abs_le.1 (fac_near u0 hu' hfl (by norm_num))
  have g1 := abs_le.1 (fac_near u0 hu' hg (by norm_num))
  have hb := shR_bounds h0 h1
  norm_num at hfl1 g1
  generalize eucl (asV 3 (rvec w)) = θ at *
  generalize eucl (asV 3 (rvec t)) = T at *
  generalize asV 3 (rvec t) ⬝ᵥ asV 3 (rvec w) = P at *
  have Q0 : 0 ≤ T * θ := mul_nonneg t0 h0
  unfold lnFacFl
  split_ifs with hc
  · have hc' : (lit (ρ := ρ) 0.001).val < th.val := hc
    rw [el, hth] at hc'
    have hp : 0 < θ := by
      rcases h0.lt_or_eq with h | h
      · exact h
      · rw [← h, zero_mul] at hc'; norm_num at hc'; linarith
    obtain ⟨d1, hd1, ed1⟩ := Fl.sub_fac (1 : Fl ρ) (lit 2 * sh)
    obtain ⟨d2, hd2, ed2⟩ := Fl.mul_fac (Ops.dot 3 t w) (1 - lit 2 * sh)
    obtain ⟨d3, hd3, ed3⟩ := Fl.div_fac (Ops.dot 3 t w * (1 - lit 2 * sh)) (Ops.dot 3 w w)
    have hF := fac_near u0 hu' (((hd1.mul u0 u1 hd2).mul u0 u1 hd3).div u0 u1 hq) (by norm_num)
    have qp := (hq.pos u0 u1).ne'
    rw [ed3, ed2, ed1, eq', Fl.val_one]
    have e1 : (Ops.dot 3 t w).val * ((1 - (lit 2 * sh).val) * d1) * d2 / (θ ^ 2 * q) * d3 =
        (Ops.dot 3 t w).val * (1 - (lit 2 * sh).val) * (d1 * d2 * d3 / q) / θ ^ 2 := by field_simp
    rw [e1]
    generalize d1 * d2 * d3 / q = F at *
    generalize (Ops.dot 3 t w).val = P' at *
    generalize (lit 2 * sh).val = s2 at *
    generalize shR θ = s at *
    have := fac_arith (c := 1 - 2 * s) (c' := 1 - s2) (F := F) u0 hu Q0 hP hP' (by linarith [hb.2]) (by norm_num at hb ⊢; linarith [hb.1]) D0 D1
      (by rw [show 1 - s2 - (1 - 2 * s) = -(s2 - 2 * s) by ring, abs_neg]; exact hs) (hF.trans (by norm_num; linarith))
    have e2 : P' * (1 - s2) * F / θ ^ 2 - (1 - 2 * s) / θ ^ 2 * P = (P' * (1 - s2) * F - P * (1 - 2 * s)) / θ ^ 2 := by ring
    rw [e2, abs_div, abs_of_pos (by positivity : (0:ℝ) < θ ^ 2), ← mul_div_assoc, div_le_iff₀ (by positivity)]
    have m := mul_le_mul_of_nonneg_left this h0
    refine m.trans ?_
    have e3 : θ * (T * θ * (1.0001 * shD ρ.u η θ + 3.7 * ρ.u)) = T * (1.0001 * shD ρ.u η θ + 3.7 * ρ.u) * θ ^ 2 := by ring
    rw [e3]
    refine mul_le_mul_of_nonneg_right (mul_le_mul_of_nonneg_left ?_ t0) (by positivity)
    norm_num; linarith
  · have hc' : th.val ≤ (lit (ρ := ρ) 0.001).val := not_lt.1 hc
    rw [el, hth] at hc'
    have hθ : θ ≤ 1.01e-3 := by
      have m : θ * 0.999 ≤ θ * g := mul_le_mul_of_nonneg_left (by linarith [g1.1]) h0
      norm_num at m hc' ⊢; linarith [hfl1.2]
    obtain ⟨f24, hf24, e24⟩ := of_fac (ρ := ρ) 24
    obtain ⟨d, hd, ed⟩ := Fl.div_fac (Ops.dot 3 t w) (lit 24)
    have hF := fac_near u0 hu' (hd.div u0 u1 hf24) (by norm_num)
    have fp := (hf24.pos u0 u1).ne'
    rw [ed, e24]
    have e1 : (Ops.dot 3 t w).val / (24 * f24) * d = (Ops.dot 3 t w).val / 24 * (d / f24) := by field_simp
    rw [e1]
    generalize d / f24 = F at *
    generalize (Ops.dot 3 t w).val = P' at *
    have a := fac_arith2 (F := F) u0 hu Q0 hP hP' (hF.trans (by norm_num; linarith))
    have kt := kappa_small h0 hθ
    generalize shR θ = s at *
    have b : θ * |P / 24 - (1 - 2 * s) / θ ^ 2 * P| ≤ T * 6e-16 := by
      rcases h0.lt_or_eq with hp | hp
      · have e2 : P / 24 - (1 - 2 * s) / θ ^ 2 * P = P * (θ ^ 2 / 24 - (1 - 2 * s)) / θ ^ 2 := by field_simp
        rw [e2, abs_div, abs_of_pos (by positivity : (0:ℝ) < θ ^ 2), ← mul_div_assoc, div_le_iff₀ (by positivity), abs_mul]
        have := mul_le_mul hP kt (abs_nonneg _) Q0
        calc θ * (|P| * |θ ^ 2 / 24 - (1 - 2 * s)|) ≤ θ * (T * θ * 6e-16) := mul_le_mul_of_nonneg_left this h0
          _ = T * 6e-16 * θ ^ 2 := by ring
      · rw [← hp, zero_mul]; positivity
    have c := mul_le_mul_of_nonneg_left a h0
    have d' : θ * (T * θ * (0.3 * ρ.u)) ≤ T * ρ.u := by
      have t2 : θ * θ ≤ 1 := mul_le_one₀ (by norm_num at hθ ⊢; linarith) h0 (by norm_num at hθ ⊢; linarith)
      have tu : 0 ≤ T * ρ.u := mul_nonneg t0 u0
      have := mul_le_mul_of_nonneg_left t2 tu
      calc θ * (T * θ * (0.3 * ρ.u)) = 0.3 * (T * ρ.u * (θ * θ)) := by ring
        _ ≤ 0.3 * (T * ρ.u * 1) := mul_le_mul_of_nonneg_left this (by norm_num)
        _ ≤ T * ρ.u := by norm_num; linarith
    have tri : |P' / 24 * F - (1 - 2 * s) / θ ^ 2 * P| ≤ |P' / 24 * F - P / 24| + |P / 24 - (1 - 2 * s) / θ ^ 2 * P| := by
      have := abs_add_le (P' / 24 * F - P / 24) (P / 24 - (1 - 2 * s) / θ ^ 2 * P)
      rwa [sub_add_sub_cancel] at this
    have := mul_le_mul_of_nonneg_left tri h0
    have tu : 0 ≤ T * ρ.u := mul_nonneg t0 u0
    have tD : 0 ≤ T * shD ρ.u η θ := mul_nonneg t0 D0
    rw [mul_add] at this
    rw [mul_add, mul_add]
    linarith

end TooN.FlRot
