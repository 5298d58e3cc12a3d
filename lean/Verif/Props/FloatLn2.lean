import Verif.Props.FloatLn
import Verif.Proof.ExpLip
/-!
# C91, continued: the theorems about `SO3::ln`
-/
set_option linter.unusedSectionVars false
namespace TooN.FlRot
open Finset Lie Matrix
variable {ρ : Rounding}

/-- all three branches -/
theorem ln_cases {m : Mat (Fl ρ)} {R : M 3} {δ η : ℝ} (hm : ∀ i j : Fin 3, |(m i j).val - R i j| ≤ δ)
    (hE1 : δ + 4 * ρ.u ≤ 1 / 2500) (hR : IsRot R) (L : LibmInv ρ) (hL : L.Acc η) (hη : 0 ≤ η) (hη1 : η ≤ 1 / 100) (J : LnJunk ρ) :
    ∃ (a : Lie.V 3) (θ : ℝ) (w : Vec (Fl ρ)), eucl a = 1 ∧ 0 ≤ θ ∧ θ ≤ Real.pi ∧ cosA R = Real.cos θ ∧
      NormedSpace.exp (skew (θ • a)) = R ∧ NormedSpace.exp (skew ((θ - 2 * Real.pi) • a)) = R ∧ so3LnFl L m J = some w ∧
      ((eucl (asV 3 (rvec w) - θ • a) ≤ 20 * (δ + 4 * ρ.u) + 2.8 * η) ∨
       (Real.cos θ ≤ -0.7 ∧ eucl (asV 3 (rvec w) - θ • a) ≤ 65 * (δ + 4 * ρ.u) + 1.2 * η) ∨
       (Real.cos θ ≤ -0.7 ∧ Real.sin θ ≤ 8.4 * (δ + 4 * ρ.u) ∧
        eucl (asV 3 (rvec w) - (θ - 2 * Real.pi) • a) ≤ 90 * (δ + 4 * ρ.u) + 1.2 * η)) := by
  obtain ⟨a, θ, ha2, h0, hpi, hc, hA, hN, e1, e2⟩ := axis_angle R hR
  have ha : eucl a = 1 := by
    have := eucl_sq a
    rw [ha2] at this
    exact (pow_left_inj₀ (eucl_nonneg _) zero_le_one two_ne_zero).1 (by rw [this, one_pow])
  obtain ⟨hδ, u0, -⟩ := parts_nonneg hm hE1 hR
  have E0 : 0 ≤ δ + 4 * ρ.u := by positivity
  by_cases b1 : (m 0 0 + m 1 1 + m 2 2 - 1) * lit 0.5 > lit mSqrt1_2
  · obtain ⟨w, ew, hw⟩ := ln_small hm rfl hE1 hR L hL hη hη1 ha h0 hpi hc hA J b1
    refine ⟨a, θ, w, ha, h0, hpi, hc, e1, e2, ew, Or.inl (hw.trans ?_)⟩
    norm_num; linarith
  · by_cases b2 : (m 0 0 + m 1 1 + m 2 2 - 1) * lit 0.5 > -lit mSqrt1_2
    · obtain ⟨w, ew, hw⟩ := ln_middle hm rfl hE1 hR L hL hη hη1 ha h0 hpi hc hA J b1 b2
      exact ⟨a, θ, w, ha, h0, hpi, hc, e1, e2, ew, Or.inl hw⟩
    · obtain ⟨hcos, w, ew, hw⟩ := ln_large hm rfl hE1 hR L hL hη hη1 ha h0 hpi hc hA hN J b1 b2
      exact ⟨a, θ, w, ha, h0, hpi, hc, e1, e2, ew, Or.inr (hw.imp (fun h => ⟨hcos, h⟩) (fun h => ⟨hcos, h⟩))⟩

/-- in the third case the angle is within `12.6 E` of `π` -/
theorem near_pi {θ E : ℝ} (h0 : 0 ≤ θ) (hpi : θ ≤ Real.pi) (hcos : Real.cos θ ≤ -0.7) (hs : Real.sin θ ≤ 8.4 * E) (hE : E ≤ 1 / 2500) :
    Real.pi - 12.6 * E ≤ θ := by
  have hs0 := Real.sin_nonneg_of_nonneg_of_le_pi h0 hpi
  have hth : Real.arcsin (Real.sin θ) = Real.pi - θ := by
    rw [← Real.sin_pi_sub]
    refine Real.arcsin_sin (by linarith [Real.pi_pos]) ?_
    by_contra h; push Not at h
    have := Real.cos_nonneg_of_neg_pi_div_two_le_of_le (x := θ) (by linarith [Real.pi_pos]) (by linarith)
    norm_num at hcos; linarith
  have q := arcsin_le (x := Real.sin θ) (by rw [abs_of_nonneg hs0]; norm_num at hs ⊢; linarith)
  rw [hth, abs_of_nonneg hs0] at q
  have := le_abs_self (Real.pi - θ)
  norm_num at q hs ⊢; linarith

/-- **C91** `SO3::ln` of a stored matrix within `δ` (entrywise) of a rotation `R`: it never divides by zero, and the result is close to a
rotation vector of `R` (a vector whose exponential is `R`), at most `π` long or, when `R` is a turn by almost `π`, hardly longer -/
theorem c91_ln {m : Mat (Fl ρ)} {R : M 3} {δ η : ℝ} (hm : ∀ i j : Fin 3, |(m i j).val - R i j| ≤ δ)
    (hE1 : δ + 4 * ρ.u ≤ 1 / 2500) (hR : IsRot R) (L : LibmInv ρ) (hL : L.Acc η) (hη : 0 ≤ η) (hη1 : η ≤ 1 / 100) (J : LnJunk ρ) :
    ∃ (w : Vec (Fl ρ)) (ω : Lie.V 3), so3LnFl L m J = some w ∧ NormedSpace.exp (skew ω) = R ∧
      eucl ω ≤ Real.pi + 12.6 * (δ + 4 * ρ.u) ∧ eucl (asV 3 (rvec w) - ω) ≤ 90 * (δ + 4 * ρ.u) + 2.8 * η := by
  obtain ⟨a, θ, w, ha, h0, hpi, hc, e1, e2, ew, hw⟩ := ln_cases hm hE1 hR L hL hη hη1 J
  obtain ⟨hδ, u0, -⟩ := parts_nonneg hm hE1 hR
  have E0 : 0 ≤ δ + 4 * ρ.u := by positivity
  rcases hw with hw | ⟨hcos, hw⟩ | ⟨hcos, hs, hw⟩
  · refine ⟨w, _, ew, e1, ?_, hw.trans (by norm_num; linarith)⟩
    rw [eucl_smul', ha, mul_one, abs_of_nonneg h0]; norm_num; linarith
  · refine ⟨w, _, ew, e1, ?_, hw.trans (by norm_num; linarith)⟩
    rw [eucl_smul', ha, mul_one, abs_of_nonneg h0]; norm_num; linarith
  · refine ⟨w, _, ew, e2, ?_, hw.trans (by norm_num; linarith)⟩
    have := near_pi h0 hpi hcos hs hE1
    rw [eucl_smul', ha, mul_one, abs_of_nonpos (by linarith [Real.pi_pos])]
    linarith

/-- **C91** `exp(ln(m))` recovers the rotation that `m` stores -/
theorem c91_exp_ln {m : Mat (Fl ρ)} {R : M 3} {δ η : ℝ} (hm : ∀ i j : Fin 3, |(m i j).val - R i j| ≤ δ)
    (hE1 : δ + 4 * ρ.u ≤ 1 / 2500) (hR : IsRot R) (L : LibmInv ρ) (hL : L.Acc η) (hη : 0 ≤ η) (hη1 : η ≤ 1 / 100) (J : LnJunk ρ) :
    ∃ w : Vec (Fl ρ), so3LnFl L m J = some w ∧
      frob (NormedSpace.exp (skew (asV 3 (rvec w))) - R) ≤ 128 * (δ + 4 * ρ.u) + 4 * η := by
  obtain ⟨w, ω, ew, e, -, h⟩ := c91_ln hm hE1 hR L hL hη hη1 J
  obtain ⟨hδ, u0, -⟩ := parts_nonneg hm hE1 hR
  have E0 : 0 ≤ δ + 4 * ρ.u := by positivity
  refine ⟨w, ew, ?_⟩
  have h2 := skew_lip (asV 3 (rvec w)) ω
  rw [e] at h2
  have s2 : Real.sqrt 2 ≤ 1.415 := by rw [Real.sqrt_le_left (by norm_num)]; norm_num
  refine h2.trans ((mul_le_mul s2 h (eucl_nonneg _) (by norm_num)).trans ?_)
  norm_num; linarith

/-- **C91** for a turn by an angle up to `π − 12.6 E` the result is close to *the* rotation vector; for a cosine above `−0.7` (134°) the
error is at most `20 E + 2.8 η` -/
theorem c91_ln_principal {m : Mat (Fl ρ)} {ω : Lie.V 3} {δ η : ℝ}
    (hm : ∀ i j : Fin 3, |(m i j).val - (NormedSpace.exp (skew ω) : M 3) i j| ≤ δ)
    (hE1 : δ + 4 * ρ.u ≤ 1 / 2500) (hω : eucl ω < Real.pi - 12.6 * (δ + 4 * ρ.u)) (L : LibmInv ρ) (hL : L.Acc η) (hη : 0 ≤ η)
    (hη1 : η ≤ 1 / 100) (J : LnJunk ρ) :
    ∃ w : Vec (Fl ρ), so3LnFl L m J = some w ∧ eucl (asV 3 (rvec w) - ω) ≤ 65 * (δ + 4 * ρ.u) + 2.8 * η ∧
      (-0.7 < Real.cos (eucl ω) → eucl (asV 3 (rvec w) - ω) ≤ 20 * (δ + 4 * ρ.u) + 2.8 * η) := by
  obtain ⟨a, θ, w, ha, h0, hpi, hc, e1, e2, ew, hw⟩ := ln_cases hm hE1 (exp_skew_rot ω) L hL hη hη1 J
  obtain ⟨hδ, u0, -⟩ := parts_nonneg hm hE1 (exp_skew_rot ω)
  have E0 : 0 ≤ δ + 4 * ρ.u := by positivity
  have sq : ∀ v : Lie.V 3, Real.sqrt (v ⬝ᵥ v) = eucl v := fun v => by rw [← eucl_sq, Real.sqrt_sq (eucl_nonneg _)]
  have eθ : eucl (θ • a) = θ := by rw [eucl_smul', ha, mul_one, abs_of_nonneg h0]
  have he : ω = θ • a := exp_skew_inj ω (θ • a) (by rw [sq]; norm_num at hω ⊢; linarith) (by rw [sq, eθ]; exact hpi) e1.symm
  rw [he, eθ] at hω ⊢
  refine ⟨w, ew, ?_⟩
  rcases hw with hw | ⟨hcos, hw⟩ | ⟨hcos, hs, hw⟩
  · exact ⟨hw.trans (by norm_num; linarith), fun _ => hw⟩
  · exact ⟨hw.trans (by norm_num; linarith), fun h => absurd h (not_lt.2 hcos)⟩
  · have := near_pi h0 hpi hcos hs hE1
    linarith

/-- a C library whose `asin` and `acos` are correctly rounded -/
noncomputable def LibmInv.rounded (ρ : Rounding) : LibmInv ρ :=
  ⟨fun x => Fl.of ρ (Real.arcsin x.val), fun x => Fl.of ρ (Real.arccos x.val)⟩

theorem LibmInv.rounded_acc : (LibmInv.rounded ρ).Acc ρ.u := ⟨fun _ _ => ρ.err _, fun _ _ => ρ.err _⟩

/-- **C91** in double precision, with a library accurate to `2⁻⁵³` (`sin`, `cos`) and `2⁻⁵²` relative (`asin`, `acos`):
`SO3<double>::exp(w).ln()` returns `w` to `5·10⁻¹³` for every `w` no longer than `3.14`, and to `2·10⁻¹³` if no longer than `2.3` -/
theorem c91_round_trip (L : Libm Rounding.double) (hs : ∀ x, |(L.sin x).val - Real.sin x.val| ≤ 1 / 2 ^ 53)
    (hc : ∀ x, |(L.cos x).val - Real.cos x.val| ≤ 1 / 2 ^ 53) (L' : LibmInv Rounding.double) (hL : L'.Acc (1 / 2 ^ 52))
    (w : Vec (Fl Rounding.double)) (W : Mat (Fl Rounding.double)) (J : LnJunk Rounding.double) (hw : eucl (asV 3 (rvec w)) ≤ 3.14) :
    ∃ v : Vec (Fl Rounding.double), so3LnFl L' (so3ExpFl L w W) J = some v ∧
      eucl (asV 3 (rvec v) - asV 3 (rvec w)) ≤ 5 / 10 ^ 13 ∧
      (eucl (asV 3 (rvec w)) ≤ 2.3 → eucl (asV 3 (rvec v) - asV 3 (rvec w)) ≤ 2 / 10 ^ 13) := by
  have hu : Rounding.double.u = 1 / 2 ^ 53 := Rounding.double_u
  have hN := eucl_nonneg (asV 3 (rvec w))
  have hex := fun i j => c70_exp (by rw [hu]; norm_num) L _ hs hc w W i j
  have hp := Real.pi_gt_d4
  rw [hu] at hex
  generalize hN' : eucl (asV 3 (rvec w)) = N at *
  obtain ⟨v, ev, h1, h2⟩ := c91_ln_principal (δ := 2 * (1 / 2 ^ 53) + (7 * N + 34) * (1 / 2 ^ 53) + 3e-17) hex
    (by rw [hu]; norm_num at hw ⊢; linarith) (by rw [hu, hN']; norm_num at hw hp ⊢; linarith) L' hL (by norm_num) (by norm_num) J
  refine ⟨v, ev, h1.trans ?_, fun hw2 => (h2 ?_).trans ?_⟩
  · rw [hu]; norm_num at hw ⊢; linarith
  · rw [hN']
    have h3 : Real.cos 2.3 ≤ Real.cos N := Real.cos_le_cos_of_nonneg_of_le_pi hN (by norm_num at hp ⊢; linarith) hw2
    refine lt_of_lt_of_le ?_ h3
    have h4 : Real.cos 2.3 = 2 * Real.cos 1.15 ^ 2 - 1 := by rw [← Real.cos_two_mul]; norm_num
    have h5 := Real.one_sub_sq_div_two_le_cos (x := 1.15 / 2)
    have h6 : Real.cos 1.15 = 2 * Real.cos (1.15 / 2) ^ 2 - 1 := by rw [← Real.cos_two_mul]; norm_num
    rw [h4]
    have h7 : 0.393 ≤ Real.cos 1.15 := by
      rw [h6]
      have h8 : 0.8346 ≤ Real.cos (1.15 / 2) := le_trans (by norm_num) h5
      have h9 := pow_le_pow_left₀ (by norm_num) h8 2
      norm_num at h9 ⊢; linarith
    have h10 := pow_le_pow_left₀ (by norm_num) h7 2
    norm_num at h10 ⊢; linarith
  · rw [hu]; norm_num at hw2 ⊢; linarith

/-- **C91** in exact arithmetic this model is the one of `Model/SO.lean` -/
theorem c91_exact (m : Mat (Fl Rounding.exact)) (J : LnJunk Rounding.exact) :
    (so3LnFl (LibmInv.rounded Rounding.exact) m J).map (fun w => asV 3 (rvec w)) = so3Ln (asM 3 3 (rmat m)) := by
  have sc : ∀ (v : Vec (Fl Rounding.exact)) (t : Fl Rounding.exact), asV 3 (rvec (scaleEq v t)) = t.val • asV 3 (rvec v) := by
    intro v t
    funext i
    have e : scaleEq v t i = v i * t := by rw [scaleEq, forN_vecupd _ (fun _ x => x * t), if_pos i.2]
    change (scaleEq v t i).val = t.val * (v i).val
    rw [e, mul_comm]; rfl
  have sl : ∀ (v w : Vec (Fl Rounding.exact)) (t : Fl Rounding.exact),
      asV 3 (rvec (Ops.applyScalarVL (· * ·) 3 t v w)) = t.val • asV 3 (rvec v) := by
    intro v w t
    funext i
    have e : Ops.applyScalarVL (· * ·) 3 t v w i = t * v i := by rw [Ops.applyScalarVL, forN_vecset, if_pos i.2]
    change (Ops.applyScalarVL (· * ·) 3 t v w i).val = t.val * (v i).val
    rw [e]; rfl
  have hr : asV 3 (rvec (antiFl m J.res)) = ![(asM 3 3 (rmat m) 2 1 - asM 3 3 (rmat m) 1 2) / 2,
      (asM 3 3 (rmat m) 0 2 - asM 3 3 (rmat m) 2 0) / 2, (asM 3 3 (rmat m) 1 0 - asM 3 3 (rmat m) 0 1) / 2] := by
    funext i; fin_cases i <;> rfl
  have hcv : ((m 0 0 + m 1 1 + m 2 2 - 1) * lit 0.5).val =
      (asM 3 3 (rmat m) 0 0 + asM 3 3 (rmat m) 1 1 + asM 3 3 (rmat m) 2 2 - 1.0) * 0.5 := by
    rw [show (1.0 : ℝ) = 1 by norm_num]; rfl
  have hsv : (Fl.sqrt (Ops.dot 3 (antiFl m J.res) (antiFl m J.res))).val =
      Real.sqrt (asV 3 (rvec (antiFl m J.res)) ⬝ᵥ asV 3 (rvec (antiFl m J.res))) := by
    rw [← dot_exact]; rfl
  have hcol : asV 3 (rvec (lnColumnFl m ((m 0 0 + m 1 1 + m 2 2 - 1) * lit 0.5) J.r2)) =
      lnColumn (asM 3 3 (rmat m)) ((asM 3 3 (rmat m) 0 0 + asM 3 3 (rmat m) 1 1 + asM 3 3 (rmat m) 2 2 - 1.0) * 0.5) := by
    rw [← hcv]
    generalize (m 0 0 + m 1 1 + m 2 2 - 1) * lit 0.5 = C
    have q : ∀ i j : Fin 3, (m i i - C) * (m i i - C) > (m j j - C) * (m j j - C) ↔
        (asM 3 3 (rmat m) i i - C.val) * (asM 3 3 (rmat m) i i - C.val) >
          (asM 3 3 (rmat m) j j - C.val) * (asM 3 3 (rmat m) j j - C.val) := fun _ _ => Iff.rfl
    have q01 : (m 0 0 - C) * (m 0 0 - C) > (m 1 1 - C) * (m 1 1 - C) ↔ _ := q 0 1
    have q02 : (m 0 0 - C) * (m 0 0 - C) > (m 2 2 - C) * (m 2 2 - C) ↔ _ := q 0 2
    have q12 : (m 1 1 - C) * (m 1 1 - C) > (m 2 2 - C) * (m 2 2 - C) ↔ _ := q 1 2
    unfold lnColumnFl lnColumn
    dsimp only
    by_cases c1 : (m 0 0 - C) * (m 0 0 - C) > (m 1 1 - C) * (m 1 1 - C) ∧ (m 0 0 - C) * (m 0 0 - C) > (m 2 2 - C) * (m 2 2 - C)
    · rw [if_pos c1, if_pos (And.intro (q01.1 c1.1) (q02.1 c1.2))]
      funext i; fin_cases i <;> rfl
    · rw [if_neg c1, if_neg (mt (And.imp q01.2 q02.2) c1)]
      by_cases c2 : (m 1 1 - C) * (m 1 1 - C) > (m 2 2 - C) * (m 2 2 - C)
      · rw [if_pos c2, if_pos (q12.1 c2)]
        funext i; fin_cases i <;> rfl
      · rw [if_neg c2, if_neg (mt q12.2 c2)]
        funext i; fin_cases i <;> rfl
  unfold so3LnFl so3Ln
  dsimp only
  rw [← hr, ← hcol, ← hcv]
  generalize lnColumnFl m ((m 0 0 + m 1 1 + m 2 2 - 1) * lit 0.5) J.r2 = r2
  generalize (m 0 0 + m 1 1 + m 2 2 - 1) * lit 0.5 = C
  rw [← hsv]
  generalize Fl.sqrt (Ops.dot 3 (antiFl m J.res) (antiFl m J.res)) = s
  by_cases c1 : C.val > mSqrt1_2
  · rw [if_pos c1, if_pos (show C > lit mSqrt1_2 from c1)]
    by_cases c2 : s.val > 0
    · rw [if_pos c2, if_pos (show s > 0 from c2), Option.map_some, sc]; rfl
    · rw [if_neg c2, if_neg (show ¬ s > 0 from c2)]; rfl
  · rw [if_neg c1, if_neg (show ¬ C > lit mSqrt1_2 from c1)]
    by_cases c2 : C.val > -mSqrt1_2
    · rw [if_pos c2, if_pos (show C > -lit mSqrt1_2 from c2)]
      by_cases c3 : s.val = 0
      · rw [if_pos c3, if_pos ((Fl.eq_zero_iff _).2 c3)]; rfl
      · rw [if_neg c3, if_neg (fun h => c3 ((Fl.eq_zero_iff _).1 h)), Option.map_some, sc]; rfl
    · rw [if_neg c2, if_neg (show ¬ C > -lit mSqrt1_2 from c2)]
      have hd : (Ops.dot 3 r2 (antiFl m J.res) < 0) ↔ asV 3 (rvec r2) ⬝ᵥ asV 3 (rvec (antiFl m J.res)) < 0 := by
        rw [← dot_exact]; rfl
      by_cases c3 : Ops.dot 3 r2 (antiFl m J.res) < 0
      · rw [if_pos c3, if_pos (hd.1 c3)]
        have e : (-1 : ℝ) • asV 3 (rvec r2) = asV 3 (rvec (scaleEq r2 (-1))) := by
          rw [sc, Fl.val_neg, Fl.val_one]
        rw [e, ← unit_exact 3 _ J.un, Option.map_map, Option.map_map]
        congr 1; funext n
        simp only [Function.comp]; rw [sl]; rfl
      · rw [if_neg c3, if_neg (fun h => c3 (hd.2 h)), ← unit_exact 3 _ J.un, Option.map_map, Option.map_map]
        congr 1; funext n
        simp only [Function.comp]; rw [sl]; rfl

end TooN.FlRot
