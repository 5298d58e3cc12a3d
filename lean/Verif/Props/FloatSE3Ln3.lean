import Verif.Props.FloatSE3Ln2
/-!
# C93, continued: `SE3::ln`
-/
set_option linter.unusedSectionVars false
namespace TooN.FlRot
open Finset Lie Matrix
variable {ρ : Rounding}

/-- the rotation by half the angle backwards -/
theorem half_rot (hu : ρ.u ≤ 1 / 100000) (L : Libm ρ) {η : ℝ} (hs : ∀ x, |(L.sin x).val - Real.sin x.val| ≤ η)
    (hc : ∀ x, |(L.cos x).val - Real.cos x.val| ≤ η) (w : Vec (Fl ρ)) (H : Mat (Fl ρ)) (h1 : eucl (asV 3 (rvec w)) ≤ 3.3) :
    frob (asM 3 3 (rmat (so3ExpFl L (fun i => w i * lit (-0.5)) H)) - NormedSpace.exp (skew ((-1 / 2 : ℝ) • asV 3 (rvec w)))) ≤
      6 * η + 143 * ρ.u + 1e-16 := by
  have u0 := ρ.u_nonneg
  have u1 := ρ.u_lt_one
  have hu' : ρ.u ≤ 1 / 10000 := by linarith
  have h0 := eucl_nonneg (asV 3 (rvec w))
  have key : eucl (asV 3 (rvec fun i => w i * lit (-0.5)) - (-1 / 2 : ℝ) • asV 3 (rvec w)) ≤ 1.01 * ρ.u * eucl (asV 3 (rvec w)) := by
    rw [← eucl_smul _ (by positivity)]
    refine eucl_mono fun i => ?_
    obtain ⟨f, hf, ef⟩ := of_fac (ρ := ρ) (-0.5)
    obtain ⟨d, hd, ed⟩ := Fl.mul_fac (w i) (lit (-0.5))
    have hF := fac_near u0 hu' (hf.mul u0 u1 hd) (by norm_num)
    change |(w i * lit (-0.5)).val - (-1 / 2) * (w i).val| ≤ |1.01 * ρ.u * (w i).val|
    rw [ed, ef, show (w i).val * (-0.5 * f) * d - -1 / 2 * (w i).val = (w i).val * (-1 / 2 * (f * d - 1)) by norm_num; ring,
      abs_mul, abs_mul (1.01 * ρ.u), mul_comm, abs_of_nonneg (by positivity : 0 ≤ 1.01 * ρ.u)]
    refine mul_le_mul_of_nonneg_right ?_ (abs_nonneg _)
    rw [abs_mul]
    have : |(-1 / 2 : ℝ)| = 1 / 2 := by norm_num
    rw [this]
    norm_num at hF ⊢; linarith
  have a := c70_exp_frob hu' L η hs hc (fun i => w i * lit (-0.5)) H
  have b := skew_lip (asV 3 (rvec fun i => w i * lit (-0.5))) ((-1 / 2 : ℝ) • asV 3 (rvec w))
  have s2 : Real.sqrt 2 ≤ 1.415 := by rw [Real.sqrt_le_left (by norm_num)]; norm_num
  have b' := mul_le_mul s2 key (eucl_nonneg _) (by norm_num)
  have n1 := eucl_le_of _ _ key
  rw [eucl_smul', show |(-1 / 2 : ℝ)| = 1 / 2 by norm_num] at n1
  generalize eucl (asV 3 (rvec fun i => w i * lit (-0.5))) = hN at *
  generalize eucl (asV 3 (rvec w)) = θ at *
  have uθ : ρ.u * θ ≤ ρ.u * 3.3 := mul_le_mul_of_nonneg_left h1 u0
  have n2 : hN ≤ 1.651 := by norm_num at n1 uθ h1 ⊢; linarith
  have uN : hN * ρ.u ≤ 1.651 * ρ.u := mul_le_mul_of_nonneg_right n2 u0
  generalize asM 3 3 (rmat (so3ExpFl L (fun i => w i * lit (-0.5)) H)) = A at *
  generalize NormedSpace.exp (skew (asV 3 (rvec fun i => w i * lit (-0.5)))) = B at *
  generalize NormedSpace.exp (skew ((-1 / 2 : ℝ) • asV 3 (rvec w))) = C at *
  have := frob_add (A - B) (B - C)
  rw [sub_add_sub_cancel] at this
  norm_num at a b b' uN uθ ⊢
  linarith

/-- `rottrans -= rot * f`, then `rottrans /= d`: the rounding of the last three operations -/
theorem last_ops (hu : ρ.u ≤ 1 / 100000) (r w : Vec (Fl ρ)) (f d : Fl ρ) {T : ℝ} (hd : 0.59 ≤ d.val) (hr : eucl (asV 3 (rvec r)) ≤ 1.01 * T)
    (hf : eucl (asV 3 (rvec w)) * |f.val| ≤ 0.41 * T) :
    eucl (d.val • asV 3 (rvec fun i => (r i - w i * f) / d) - (asV 3 (rvec r) - f.val • asV 3 (rvec w))) ≤ 3.5 * ρ.u * T := by
  have u0 := ρ.u_nonneg
  have u1 := ρ.u_lt_one
  have hu' : ρ.u ≤ 1 / 10000 := by linarith
  have dp : 0 < d.val := lt_of_lt_of_le (by norm_num) hd
  have key : eucl (d.val • asV 3 (rvec fun i => (r i - w i * f) / d) - (asV 3 (rvec r) - f.val • asV 3 (rvec w))) ≤
      eucl ((2.01 * ρ.u) • (fun i => |asV 3 (rvec r) i|) + (3.02 * ρ.u) • (fun i => |(f.val • asV 3 (rvec w)) i|)) := by
    refine eucl_mono fun i => ?_
    obtain ⟨a, ha, ea⟩ := Fl.mul_fac (w i) f
    obtain ⟨b, hb, eb⟩ := Fl.sub_fac (r i) (w i * f)
    obtain ⟨c, hc, ec⟩ := Fl.div_fac (r i - w i * f) d
    have h2 := fac_near u0 hu' (hb.mul u0 u1 hc) (by norm_num)
    have h3 := fac_near u0 hu' ((ha.mul u0 u1 hb).mul u0 u1 hc) (by norm_num)
    change |d.val * ((r i - w i * f) / d).val - ((r i).val - f.val * (w i).val)| ≤ abs (2.01 * ρ.u * abs (r i).val + 3.02 * ρ.u * abs (f.val * (w i).val))
    have e : d.val * ((r i - w i * f) / d).val - ((r i).val - f.val * (w i).val) =
        (r i).val * (b * c - 1) - f.val * (w i).val * (a * b * c - 1) := by
      rw [ec, eb, ea]; field_simp; ring
    rw [e]
    refine (abs_sub _ _).trans (le_trans ?_ (le_abs_self _))
    rw [abs_mul, abs_mul (f.val * (w i).val)]
    have q1 := mul_le_mul_of_nonneg_left h2 (abs_nonneg (r i).val)
    have q2 := mul_le_mul_of_nonneg_left h3 (abs_nonneg (f.val * (w i).val))
    have z1 : 0 ≤ |(r i).val| * ρ.u := by positivity
    have z2 : 0 ≤ |f.val * (w i).val| * ρ.u := by positivity
    generalize |(r i).val| = X at *
    generalize |f.val * (w i).val| = Y at *
    push_cast at q1 q2
    linarith
  refine key.trans ((eucl_add _ _).trans ?_)
  rw [eucl_smul', eucl_smul', eucl_abs, eucl_abs, eucl_smul', abs_of_nonneg (by positivity), abs_of_nonneg (by positivity)]
  have m1 := mul_le_mul_of_nonneg_left hr u0
  have m2 := mul_le_mul_of_nonneg_left hf u0
  have e : 3.02 * ρ.u * (|f.val| * eucl (asV 3 (rvec w))) = 3.02 * (ρ.u * (eucl (asV 3 (rvec w)) * |f.val|)) := by ring
  rw [e]
  have T0 : 0 ≤ ρ.u * T := mul_nonneg u0 (by have := (eucl_nonneg _).trans hr; norm_num at this; linarith)
  linarith

/-- dividing by an inaccurate `2*shtot` -/
theorem div_err {n : ℕ} {n0 z : V n} {d d0 T N D : ℝ} (hd : 0.59 ≤ d) (hd0 : 0.6 ≤ d0) (hD : |d - d0| ≤ D) (hn : eucl n0 ≤ 1.41 * T)
    (hz : eucl (d • z - n0) ≤ N * T) (T0 : 0 ≤ T) :
    eucl (z - (1 / d0) • n0) ≤ (N / 0.59 + 4 * D) * T := by
  have dp : 0 < d := lt_of_lt_of_le (by norm_num) hd
  have d0p : 0 < d0 := lt_of_lt_of_le (by norm_num) hd0
  have e : z - (1 / d0) • n0 = (1 / d) • (d • z - n0) + (1 / d - 1 / d0) • n0 := by
    rw [smul_sub, smul_smul, one_div_mul_cancel dp.ne', one_smul, sub_smul]; abel
  have h1 : |1 / d| ≤ 1 / 0.59 := by
    rw [abs_of_pos (by positivity)]; exact one_div_le_one_div_of_le (by norm_num) hd
  have D0 : 0 ≤ D := (abs_nonneg _).trans hD
  have h2 : |1 / d - 1 / d0| ≤ D / (0.59 * 0.6) := by
    rw [show 1 / d - 1 / d0 = -(d - d0) / (d * d0) by field_simp; ring, abs_div, abs_neg, abs_of_pos (mul_pos dp d0p)]
    exact div_le_div₀ D0 hD (by norm_num) (mul_le_mul hd hd0 (by norm_num) dp.le)
  rw [e]
  refine (eucl_add _ _).trans ?_
  rw [eucl_smul', eucl_smul']
  have m1 := mul_le_mul h1 hz (eucl_nonneg _) (by norm_num)
  have m2 := mul_le_mul h2 hn (eucl_nonneg _) (by positivity)
  have DT : 0 ≤ D * T := mul_nonneg D0 T0
  refine (add_le_add m1 m2).trans ?_
  rw [add_mul]
  have e1 : 1 / 0.59 * (N * T) = N / 0.59 * T := by ring
  rw [e1]
  have e2 : D / (0.59 * 0.6) * (1.41 * T) = (1.41 / (0.59 * 0.6)) * (D * T) := by ring
  rw [e2]
  have : (1.41 / (0.59 * 0.6) : ℝ) ≤ 4 := by norm_num
  have := mul_le_mul_of_nonneg_right this DT
  linarith

/-- **C93** the translation step of `SE3::ln`, for every rotation vector up to `3.3` long (so for every rotation): it does not divide by
zero, and the exponential of the resulting twist has the pose's translation up to `16η + 350u + 1.6·10⁻¹⁵` of its length (plus a quarter of
the square of the angle for angles up to `1.1·10⁻⁵`, where the code takes `sin(θ/2)/θ = 1/2`) -/
theorem c93_translation (hu : ρ.u ≤ 1 / 100000) (L : Libm ρ) {η : ℝ} (hη : 0 ≤ η) (hη1 : η ≤ 1 / 10000)
    (hs : ∀ x, |(L.sin x).val - Real.sin x.val| ≤ η * |Real.sin x.val|) (hc : ∀ x, |(L.cos x).val - Real.cos x.val| ≤ η)
    (rot t : Vec (Fl ρ)) (H : Mat (Fl ρ)) (w1 : Vec (Fl ρ)) (h1 : eucl (asV 3 (rvec rot)) ≤ 3.3) :
    ∃ p, se3LnTransFl L rot t H w1 = some p ∧
      eucl ((fun i => (NormedSpace.exp (∑ k, join (asV 3 (rvec p)) (asV 3 (rvec rot)) k • se3Gen k) : M 4) i.castSucc (Fin.last 3)) -
          asV 3 (rvec t)) ≤
        (16 * η + 350 * ρ.u + 1.6e-15 + (if eucl (asV 3 (rvec rot)) ≤ 1.1e-5 then eucl (asV 3 (rvec rot)) ^ 2 / 4 else 0)) *
          eucl (asV 3 (rvec t)) ∧
      eucl (asV 3 (rvec p)) ≤ 2.4 * eucl (asV 3 (rvec t)) := by
  have u0 := ρ.u_nonneg
  have u1 := ρ.u_lt_one
  have hu' : ρ.u ≤ 1 / 10000 := by linarith
  have h0 := eucl_nonneg (asV 3 (rvec rot))
  have t0 := eucl_nonneg (asV 3 (rvec t))
  obtain ⟨g, hg, eg⟩ := norm_fac (ρ := ρ) 3 rot
  have eth : (Fl.sqrt (Ops.dot 3 rot rot)).val = eucl (asV 3 (rvec rot)) * g := by
    change (normFl 3 rot).val = _
    rw [eg, Finset.sum_range]; rfl
  obtain ⟨D0, D1⟩ := shD_le u0 hu hη hη1 h0
  have hb := shR_bounds h0 h1
  have e1 := sh2_err hu hη hη1 h0 h1 (sh_err hu L hη hη1 hs h0 h1 hg eth)
  have e2 := lnFac_err hu hη hη1 t rot h1 e1 hg eth
  have hsa : ∀ x, |(L.sin x).val - Real.sin x.val| ≤ η := fun x =>
    (hs x).trans (by have := mul_le_mul_of_nonneg_left (Real.abs_sin_le_one x.val) hη; linarith)
  have e3 := half_rot hu L hsa hc rot H h1
  have e4 := act_near (n := 3) (by norm_num) hu' (so3ExpFl L (fun i => rot i * lit (-0.5)) H) (exp_skew_rot _)
    (by norm_num; linarith) e3 t w1
  have dlo : 0.59 ≤ (lit 2 * lnShFl L (Fl.sqrt (Ops.dot 3 rot rot))).val := by
    have := (abs_le.1 e1).1
    norm_num at D1 hb ⊢; linarith [hb.1]
  have hne : ¬ lit 2 * lnShFl L (Fl.sqrt (Ops.dot 3 rot rot)) = 0 := by
    intro h; rw [h, Fl.val_zero] at dlo; norm_num at dlo
  have eT := expTr_lnTr (asV 3 (rvec t)) (asV 3 (rvec rot)) (by have := Real.pi_gt_d4; norm_num at this h1 ⊢; linarith)
  unfold se3LnTransFl
  dsimp only
  rw [if_neg hne]
  refine ⟨_, rfl, ?_⟩
  have tail : (if eucl (asV 3 (rvec rot)) ≤ 1.1e-5 then eucl (asV 3 (rvec rot)) ^ 2 / 4 else 0) = 12 * shTail (eucl (asV 3 (rvec rot))) := by
    unfold shTail; split_ifs <;> ring
  rw [tail]
  have fin := expTr_lip (asV 3 (rvec fun i => (soAct 3 (so3ExpFl L (fun i => rot i * lit (-0.5)) H) t w1 i -
    rot i * lnFacFl (Fl.sqrt (Ops.dot 3 rot rot)) (lnShFl L (Fl.sqrt (Ops.dot 3 rot rot))) t rot) /
      (lit 2 * lnShFl L (Fl.sqrt (Ops.dot 3 rot rot))))) (lnTr (asV 3 (rvec t)) (asV 3 (rvec rot))) (asV 3 (rvec rot))
  rw [eT] at fin
  suffices hh : eucl (asV 3 (rvec fun i => (soAct 3 (so3ExpFl L (fun i => rot i * lit (-0.5)) H) t w1 i -
    rot i * lnFacFl (Fl.sqrt (Ops.dot 3 rot rot)) (lnShFl L (Fl.sqrt (Ops.dot 3 rot rot))) t rot) /
      (lit 2 * lnShFl L (Fl.sqrt (Ops.dot 3 rot rot)))) - lnTr (asV 3 (rvec t)) (asV 3 (rvec rot))) ≤
      (16 * η + 350 * ρ.u + 1.6e-15 + 12 * shTail (eucl (asV 3 (rvec rot)))) * eucl (asV 3 (rvec t)) ∧
      eucl (lnTr (asV 3 (rvec t)) (asV 3 (rvec rot))) ≤ 2.36 * eucl (asV 3 (rvec t)) by
    refine ⟨fin.trans hh.1, (eucl_le_of _ _ hh.1).trans ?_⟩
    have c : 16 * η + 350 * ρ.u + 1.6e-15 + 12 * shTail (eucl (asV 3 (rvec rot))) ≤ 0.01 := by
      have := (shTail_bounds h0).2
      norm_num at this ⊢; linarith
    have := mul_le_mul_of_nonneg_right c t0
    norm_num at this hh ⊢; linarith [hh.2]
  have T0 := (shTail_bounds h0).1
  have eD : shD ρ.u η (eucl (asV 3 (rvec rot))) = 1.01 * η + 14 * ρ.u + 2.1 * shTail (eucl (asV 3 (rvec rot))) := rfl
  have hP := abs_dot_le (asV 3 (rvec t)) (asV 3 (rvec rot))
  have hww := eucl_sq (asV 3 (rvec rot))
  have rN : eucl ((NormedSpace.exp (skew ((-1 / 2 : ℝ) • asV 3 (rvec rot))) : M 3).mulVec (asV 3 (rvec t))) = eucl (asV 3 (rvec t)) :=
    eucl_orth (exp_skew_rot _).orth' _
  unfold lnTr
  generalize lit 2 * lnShFl L (Fl.sqrt (Ops.dot 3 rot rot)) = d at *
  generalize lnFacFl (Fl.sqrt (Ops.dot 3 rot rot)) (lnShFl L (Fl.sqrt (Ops.dot 3 rot rot))) t rot = f at *
  generalize soAct 3 (so3ExpFl L (fun i => rot i * lit (-0.5)) H) t w1 = r at *
  generalize (NormedSpace.exp (skew ((-1 / 2 : ℝ) • asV 3 (rvec rot))) : M 3).mulVec (asV 3 (rvec t)) = Et at *
  generalize hT : eucl (asV 3 (rvec t)) = T at *
  have hκ : eucl (asV 3 (rvec rot)) * |(1 - 2 * shR (eucl (asV 3 (rvec rot)))) / (asV 3 (rvec rot) ⬝ᵥ asV 3 (rvec rot)) *
      (asV 3 (rvec t) ⬝ᵥ asV 3 (rvec rot))| ≤ 0.4 * T := by
    rw [← hww]
    generalize eucl (asV 3 (rvec rot)) = θ at *
    rcases h0.lt_or_eq with hp | hp
    · rw [abs_mul, abs_div, abs_of_pos (by positivity : (0:ℝ) < θ ^ 2), abs_of_nonneg (by linarith [hb.2] : 0 ≤ 1 - 2 * shR θ)]
      have c4 : 1 - 2 * shR θ ≤ 0.4 := by norm_num at hb ⊢; linarith [hb.1]
      have := mul_le_mul c4 hP (abs_nonneg _) (by norm_num)
      calc θ * ((1 - 2 * shR θ) / θ ^ 2 * |asV 3 (rvec t) ⬝ᵥ asV 3 (rvec rot)|)
          = ((1 - 2 * shR θ) * |asV 3 (rvec t) ⬝ᵥ asV 3 (rvec rot)|) / θ := by field_simp
        _ ≤ (0.4 * (T * θ)) / θ := div_le_div_of_nonneg_right this h0
        _ = 0.4 * T := by field_simp
    · rw [← hp, zero_mul]; positivity
  generalize (1 - 2 * shR (eucl (asV 3 (rvec rot)))) / (asV 3 (rvec rot) ⬝ᵥ asV 3 (rvec rot)) *
      (asV 3 (rvec t) ⬝ᵥ asV 3 (rvec rot)) = κ at *
  generalize shR (eucl (asV 3 (rvec rot))) = s at *
  generalize shD ρ.u η (eucl (asV 3 (rvec rot))) = D at *
  generalize shTail (eucl (asV 3 (rvec rot))) = τ at *
  have DT : 0 ≤ D * T := mul_nonneg D0 t0
  have uT : 0 ≤ ρ.u * T := mul_nonneg u0 t0
  have ηT : 0 ≤ η * T := mul_nonneg hη t0
  have uT' : ρ.u * T ≤ 1 / 100000 * T := mul_le_mul_of_nonneg_right hu t0
  have ηT' : η * T ≤ 1 / 10000 * T := mul_le_mul_of_nonneg_right hη1 t0
  have DT' : D * T ≤ 2.5e-4 * T := mul_le_mul_of_nonneg_right D1 t0
  have hr : eucl (asV 3 (rvec r)) ≤ 1.01 * T := by
    have := eucl_le_of _ _ e4
    rw [rN] at this
    norm_num at this ⊢; linarith
  have hf : eucl (asV 3 (rvec rot)) * |f.val| ≤ 0.41 * T := by
    have : |f.val| ≤ |f.val - κ| + |κ| := by have := abs_add_le (f.val - κ) κ; rwa [sub_add_cancel] at this
    have := mul_le_mul_of_nonneg_left this h0
    norm_num at this e2 hκ DT' ⊢; linarith
  have l := last_ops hu r rot f d dlo hr hf
  have hn : eucl (Et - κ • asV 3 (rvec rot)) ≤ 1.41 * T := by
    refine (eucl_sub _ _).trans ?_
    rw [rN, eucl_smul', mul_comm |κ|]
    norm_num at hκ ⊢; linarith
  have hz : eucl (d.val • asV 3 (rvec fun i => (r i - rot i * f) / d) - (Et - κ • asV 3 (rvec rot))) ≤
      (6 * η + 156 * ρ.u + 8e-16 + 1.0001 * D) * T := by
    have ee : d.val • asV 3 (rvec fun i => (r i - rot i * f) / d) - (Et - κ • asV 3 (rvec rot)) =
        (d.val • asV 3 (rvec fun i => (r i - rot i * f) / d) - (asV 3 (rvec r) - f.val • asV 3 (rvec rot))) +
          ((asV 3 (rvec r) - Et) - (f.val - κ) • asV 3 (rvec rot)) := by
      rw [sub_smul]; abel
    rw [ee]
    have q1 := eucl_add (d.val • asV 3 (rvec fun i => (r i - rot i * f) / d) - (asV 3 (rvec r) - f.val • asV 3 (rvec rot)))
      ((asV 3 (rvec r) - Et) - (f.val - κ) • asV 3 (rvec rot))
    have q2 := eucl_sub (asV 3 (rvec r) - Et) ((f.val - κ) • asV 3 (rvec rot))
    rw [eucl_smul', mul_comm |f.val - κ|] at q2
    linarith
  constructor
  swap
  · have l6 : 0.6 ≤ 2 * s := by norm_num at hb ⊢; linarith [hb.1]
    rw [eucl_smul', abs_of_pos (one_div_pos.2 (lt_of_lt_of_le (by norm_num) l6))]
    refine (mul_le_mul (one_div_le_one_div_of_le (by norm_num) l6) hn (eucl_nonneg _) (by norm_num)).trans ?_
    norm_num; linarith
  refine (div_err dlo (by norm_num at hb ⊢; linarith [hb.1]) e1 hn hz t0).trans ?_
  refine mul_le_mul_of_nonneg_right ?_ t0
  rw [eD]
  have : (6 * η + 156 * ρ.u + 8e-16 + 1.0001 * (1.01 * η + 14 * ρ.u + 2.1 * τ)) / 0.59 =
      (6 * η + 156 * ρ.u + 8e-16 + 1.0001 * (1.01 * η + 14 * ρ.u + 2.1 * τ)) * (100 / 59) := by norm_num; ring
  rw [this]
  norm_num; linarith

end TooN.FlRot
