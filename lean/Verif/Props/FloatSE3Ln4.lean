import Verif.Props.FloatSE3Ln3
/-!
# C93, continued: the logarithm of a stored pose
-/
set_option linter.unusedSectionVars false
namespace TooN.FlRot
open Finset Lie Matrix
variable {ρ : Rounding}

/-- the twist whose halves are `p` and `rot` -/
theorem join_rvec (p rot : Vec (Fl ρ)) :
    asV 6 (rvec fun i => if i < 3 then p i else rot (i - 3)) = join (asV 3 (rvec p)) (asV 3 (rvec rot)) := by
  ext i; fin_cases i <;> rfl

/-- **C93** `SE3::ln` of a stored pose whose matrix is within `δ` (entrywise) of a rotation `Q`: it never divides by zero, and the matrix
exponential of the twist is a pose `(R', t')` with `R'` within `128(δ+4u) + 4η'` (Frobenius) of `Q` and `t'` within
`(16η + 350u + 1.6·10⁻¹⁵)` of the stored translation, relative to its length (plus the tail of `c93_translation`) -/
theorem c93_ln (hu : ρ.u ≤ 1 / 100000) (L : Libm ρ) {η : ℝ} (hη : 0 ≤ η) (hη1 : η ≤ 1 / 10000)
    (hs : ∀ x, |(L.sin x).val - Real.sin x.val| ≤ η * |Real.sin x.val|) (hc : ∀ x, |(L.cos x).val - Real.cos x.val| ≤ η)
    (L' : LibmInv ρ) {η' : ℝ} (hL : L'.Acc η') (hη' : 0 ≤ η') (hη1' : η' ≤ 1 / 100)
    (T : Pose ρ) {Q : M 3} (hQ : IsRot Q) {δ : ℝ} (hm : ∀ i j : Fin 3, |(T.R i j).val - Q i j| ≤ δ) (hE : δ + 4 * ρ.u ≤ 1 / 2500)
    (J : LnJunk ρ) (H : Mat (Fl ρ)) (w1 : Vec (Fl ρ)) :
    ∃ (v : Vec (Fl ρ)) (R' : M 3) (t' : Lie.V 3), se3LnFl L L' T J H w1 = some v ∧
      NormedSpace.exp (∑ k, asV 6 (rvec v) k • se3Gen k) = hom R' t' ∧
      frob (R' - Q) ≤ 128 * (δ + 4 * ρ.u) + 4 * η' ∧
      eucl (t' - asV 3 (rvec T.t)) ≤
        (16 * η + 350 * ρ.u + 1.6e-15 + (if eucl (hi (asV 6 (rvec v))) ≤ 1.1e-5 then eucl (hi (asV 6 (rvec v))) ^ 2 / 4 else 0)) *
          eucl (asV 3 (rvec T.t)) ∧
      eucl (hi (asV 6 (rvec v))) ≤ 3.22 ∧ eucl (lo (asV 6 (rvec v))) ≤ 2.4 * eucl (asV 3 (rvec T.t)) := by
  obtain ⟨rot, ω, er, -, hω, hd⟩ := c91_ln hm hE hQ L' hL hη' hη1' J
  obtain ⟨rot', er', hex⟩ := c91_exp_ln hm hE hQ L' hL hη' hη1' J
  have : rot' = rot := Option.some.inj (er'.symm.trans er)
  subst this
  obtain ⟨hδ, u0, -⟩ := parts_nonneg hm hE hQ
  have hN : eucl (asV 3 (rvec rot')) ≤ 3.22 := by
    have := eucl_le_of _ _ hd
    have hp := Real.pi_lt_d4
    norm_num at this hω hp ⊢; linarith
  obtain ⟨p, ep, hp, hl⟩ := c93_translation hu L hη hη1 hs hc rot' T.t H w1 (hN.trans (by norm_num))
  have ej := join_rvec p rot'
  refine ⟨_, _, _, by rw [se3LnFl, er, Option.bind_some, ep, Option.map_some], se3_exact_hom _, ?_, ?_, ?_, ?_⟩
  · rw [ej, hi_join]; exact hex
  · rw [ej, hi_join]; exact hp
  · rw [ej, hi_join]; exact hN
  · rw [ej, lo_join]; exact hl

theorem libm_abs {L : Libm ρ} {η : ℝ} (hη : 0 ≤ η) (hs : ∀ x, |(L.sin x).val - Real.sin x.val| ≤ η * |Real.sin x.val|) (x : Fl ρ) :
    |(L.sin x).val - Real.sin x.val| ≤ η :=
  (hs x).trans (by have := mul_le_mul_of_nonneg_left (Real.abs_sin_le_one x.val) hη; linarith)

theorem eucl_const (v : Lie.V 3) {b : ℝ} (hb : 0 ≤ b) (h : ∀ i, |v i| ≤ b) : eucl v ≤ 1.7321 * b := by
  have h1 : eucl v ≤ eucl (b • (fun _ => 1 : Lie.V 3)) := eucl_mono fun i => by
    simp only [Pi.smul_apply, smul_eq_mul, mul_one]; rw [abs_of_nonneg hb]; exact h i
  rw [eucl_smul', abs_of_nonneg hb] at h1
  have h2 : eucl (fun _ => 1 : Lie.V 3) ≤ 1.7321 := by
    rw [eucl, Real.sqrt_le_left (by norm_num)]; simp; norm_num
  have := mul_le_mul_of_nonneg_left h2 hb
  linarith

/-- **C93** in double precision with a library accurate to `2⁻⁵³` (`sin`, `cos`) and `2⁻⁵²` (`asin`, `acos`), for a stored pose whose matrix
is within `10⁻¹⁴` of a rotation `Q`: the twist returned by `ln` exponentiates (exactly) to a pose within `2·10⁻¹²` of `Q` and `5·10⁻¹⁴`
(relative) of the stored translation; and the code's own `exp` of that twist is within `3·10⁻¹²` and `10⁻¹²` — both for a rotation by more
than `1.1·10⁻⁴`; for smaller angles the translations are within `3.1·10⁻¹¹` and `8·10⁻⁹` -/
theorem c93_round_trip (L : Libm Rounding.double) (hs : ∀ x, |(L.sin x).val - Real.sin x.val| ≤ 1 / 2 ^ 53 * |Real.sin x.val|)
    (hc : ∀ x, |(L.cos x).val - Real.cos x.val| ≤ 1 / 2 ^ 53) (L' : LibmInv Rounding.double) (hL : L'.Acc (1 / 2 ^ 52))
    (T : Pose Rounding.double) {Q : M 3} (hQ : IsRot Q) (hm : ∀ i j : Fin 3, |(T.R i j).val - Q i j| ≤ 1e-14)
    (J : LnJunk Rounding.double) (H R : Mat (Fl Rounding.double)) (w1 s s' : Vec (Fl Rounding.double)) :
    ∃ (v : Vec (Fl Rounding.double)) (R' : M 3) (t' : Lie.V 3), se3LnFl L L' T J H w1 = some v ∧
      NormedSpace.exp (∑ k, asV 6 (rvec v) k • se3Gen k) = hom R' t' ∧ frob (R' - Q) ≤ 2e-12 ∧
      frob (asM 3 3 (rmat (se3ExpFl L v R s s').1) - Q) ≤ 3e-12 ∧
      eucl (t' - asV 3 (rvec T.t)) ≤ 3.1e-11 * eucl (asV 3 (rvec T.t)) ∧
      eucl (asV 3 (rvec (se3ExpFl L v R s s').2) - asV 3 (rvec T.t)) ≤ 8e-9 * eucl (asV 3 (rvec T.t)) ∧
      (1.1e-4 < eucl (hi (asV 6 (rvec v))) →
        eucl (t' - asV 3 (rvec T.t)) ≤ 5e-14 * eucl (asV 3 (rvec T.t)) ∧
        eucl (asV 3 (rvec (se3ExpFl L v R s s').2) - asV 3 (rvec T.t)) ≤ 1.1e-12 * eucl (asV 3 (rvec T.t))) := by
  have hu : Rounding.double.u = 1 / 2 ^ 53 := Rounding.double_u
  obtain ⟨v, R', t', e1, e2, h1, h2, h3, h4⟩ := c93_ln (by rw [hu]; norm_num) L (by norm_num) (by norm_num) hs hc L' hL (by norm_num)
    (by norm_num) T hQ hm (by rw [hu]; norm_num) J H w1
  have hsa := libm_abs (by norm_num) hs
  have hv6 : hi (asV 6 (rvec v)) = asV 3 (rvec fun i => v (3 + i)) := hi_rvec v
  have hv0 : lo (asV 6 (rvec v)) = asV 3 (rvec v) := lo_rvec v
  have hv := eucl_nonneg (hi (asV 6 (rvec v)))
  have t0 := eucl_nonneg (asV 3 (rvec T.t))
  have rr := fun i j => c89_rotation (by rw [hu]; norm_num) L _ hsa hc v R s s' i j
  have tr := fun i => c89_translation (by rw [hu]; norm_num) L _ hsa hc v R s s' i
  have ta := fun i => c89_translation_away (by rw [hu]; norm_num) L _ hsa hc v R s s' i
  rw [hu] at h1 h2
  rw [← hv6, ← hv0, hu, e2] at tr ta
  rw [← hv6, hu, e2] at rr
  generalize hN : eucl (hi (asV 6 (rvec v))) = N at *
  generalize hP : eucl (lo (asV 6 (rvec v))) = P at *
  generalize hT : eucl (asV 3 (rvec T.t)) = τ at *
  have P0 : 0 ≤ P := by rw [← hP]; exact eucl_nonneg _
  have hom1 : ∀ i j : Fin 3, hom R' t' i.castSucc j.castSucc = R' i j := fun i j => by
    simp only [hom, aug, Fin.lastCases_castSucc]
  have hom2 : ∀ i : Fin 3, hom R' t' i.castSucc (Fin.last 3) = t' i := fun i => by
    simp only [hom, aug, Fin.lastCases_last, Fin.lastCases_castSucc]
  simp only [hom1] at rr
  simp only [hom2] at tr ta
  have h1' : frob (R' - Q) ≤ 2e-12 := h1.trans (by norm_num)
  have tl : (if N ≤ 1.1e-5 then N ^ 2 / 4 else 0 : ℝ) ≤ 3.03e-11 := by
    split_ifs with h
    · have := pow_le_pow_left₀ hv h 2
      norm_num at this ⊢; linarith
    · norm_num
  have h2' : eucl (t' - asV 3 (rvec T.t)) ≤ 3.1e-11 * τ := h2.trans (mul_le_mul_of_nonneg_right (by norm_num at tl ⊢; linarith) t0)
  refine ⟨v, R', t', e1, e2, h1', ?_, h2', ?_, fun hx => ?_⟩
  · have f := frob_le_of_entries (asM 3 3 (rmat (se3ExpFl L v R s s').1) - R') (1e-14) (by norm_num) (fun i j =>
      (rr i j).trans (by linarith))
    have := frob_add (asM 3 3 (rmat (se3ExpFl L v R s s').1) - R') (R' - Q)
    rw [sub_add_sub_cancel] at this
    norm_num at f h1' ⊢; linarith
  · have hmin : min 1001 (1 / N) ≤ 1001 := min_le_left _ _
    have f := eucl_const (asV 3 (rvec (se3ExpFl L v R s s').2) - t') (b := 1.71e-9 * P) (mul_nonneg (by norm_num) P0) (fun i =>
      (tr i).trans (mul_le_mul_of_nonneg_right (by linarith) P0))
    have := eucl_add (asV 3 (rvec (se3ExpFl L v R s s').2) - t') (t' - asV 3 (rvec T.t))
    rw [sub_add_sub_cancel] at this
    linarith
  · rw [hN] at hx
    have h2'' : eucl (t' - asV 3 (rvec T.t)) ≤ 5e-14 * τ := by
      refine h2.trans (mul_le_mul_of_nonneg_right ?_ t0)
      rw [if_neg (by push Not; linarith)]; norm_num
    refine ⟨h2'', ?_⟩
    have hmin : min 1001 (1 / N) ≤ 1001 := min_le_left _ _
    have f := eucl_const (asV 3 (rvec (se3ExpFl L v R s s').2) - t') (b := 2.4e-13 * P) (mul_nonneg (by norm_num) P0) (fun i =>
      (ta i (by linarith)).trans (mul_le_mul_of_nonneg_right (by linarith) P0))
    have := eucl_add (asV 3 (rvec (se3ExpFl L v R s s').2) - t') (t' - asV 3 (rvec T.t))
    rw [sub_add_sub_cancel] at this
    linarith

/-- **C93** in exact arithmetic this model is the one of `Model/SE.lean` -/
theorem c93_exact (T : Pose Rounding.exact) (J : LnJunk Rounding.exact) (H : Mat (Fl Rounding.exact)) (w1 : Vec (Fl Rounding.exact)) :
    (se3LnFl (Libm.rounded Rounding.exact) (LibmInv.rounded Rounding.exact) T J H w1).map (fun v => asV 6 (rvec v)) =
      se3Ln ⟨asM 3 3 (rmat T.R), asV 3 (rvec T.t)⟩ := by
  have key : ∀ rot : Vec (Fl Rounding.exact),
      (se3LnTransFl (Libm.rounded Rounding.exact) rot T.t H w1).map (fun p => join (asV 3 (rvec p)) (asV 3 (rvec rot))) =
      (fun rot : Lie.V 3 =>
        let theta := Real.sqrt (rot ⬝ᵥ rot)
        let shtot := if theta > 0.00001 then Real.sin (theta / 2) / theta else 0.5
        let halfrotator := so3Exp ((-0.5 : ℝ) • rot)
        let rottrans := halfrotator.mulVec (asV 3 (rvec T.t))
        let rottrans :=
          if theta > 0.001 then rottrans - ((asV 3 (rvec T.t) ⬝ᵥ rot) * (1 - 2 * shtot) / (rot ⬝ᵥ rot)) • rot
          else rottrans - ((asV 3 (rvec T.t) ⬝ᵥ rot) / 24) • rot
        if 2 * shtot = 0 then none else some (join ((1 / (2 * shtot)) • rottrans) rot)) (asV 3 (rvec rot)) := by
    intro rot
    have hq : (Ops.dot 3 rot rot).val = asV 3 (rvec rot) ⬝ᵥ asV 3 (rvec rot) := dot_exact 3 _ _
    have hp : (Ops.dot 3 T.t rot).val = asV 3 (rvec T.t) ⬝ᵥ asV 3 (rvec rot) := dot_exact 3 _ _
    have hth : (Fl.sqrt (Ops.dot 3 rot rot)).val = Real.sqrt (asV 3 (rvec rot) ⬝ᵥ asV 3 (rvec rot)) := by rw [← hq]; rfl
    have hsh : (lnShFl (Libm.rounded Rounding.exact) (Fl.sqrt (Ops.dot 3 rot rot))).val =
        if Real.sqrt (asV 3 (rvec rot) ⬝ᵥ asV 3 (rvec rot)) > 0.00001 then
          Real.sin (Real.sqrt (asV 3 (rvec rot) ⬝ᵥ asV 3 (rvec rot)) / 2) / Real.sqrt (asV 3 (rvec rot) ⬝ᵥ asV 3 (rvec rot)) else 0.5 := by
      rw [← hth]
      unfold lnShFl
      have : Fl.sqrt (Ops.dot 3 rot rot) > lit 0.00001 ↔ (Fl.sqrt (Ops.dot 3 rot rot)).val > 0.00001 := Iff.rfl
      split_ifs <;> first | rfl | tauto
    have hH : asM 3 3 (rmat (so3ExpFl (Libm.rounded Rounding.exact) (fun i => rot i * lit (-0.5)) H)) =
        so3Exp ((-0.5 : ℝ) • asV 3 (rvec rot)) := by
      have e : asV 3 (rvec fun i => rot i * lit (-0.5)) = (-0.5 : ℝ) • asV 3 (rvec rot) := by
        funext i; change (rot i).val * (-0.5) = -0.5 * (rot i).val; ring
      rw [← e]
      ext i j
      exact c70_exp_exact (fun i => rot i * lit (-0.5)) H i j
    have hr := act_exact (n := 3) (so3ExpFl (Libm.rounded Rounding.exact) (fun i => rot i * lit (-0.5)) H) T.t w1
    rw [hH] at hr
    unfold se3LnTransFl
    dsimp only
    rw [← hr, ← hsh, ← hth, ← hp, ← hq]
    generalize lnShFl (Libm.rounded Rounding.exact) (Fl.sqrt (Ops.dot 3 rot rot)) = sh
    generalize hthe : Fl.sqrt (Ops.dot 3 rot rot) = th
    have z : lit 2 * sh = 0 ↔ 2 * sh.val = 0 := ⟨fun h => congrArg Fl.val h, fun h => Fl.ext h⟩
    by_cases h : 2 * sh.val = 0
    · rw [if_pos (z.2 h), if_pos h]; rfl
    · rw [if_neg (fun q => h (z.1 q)), if_neg h, Option.map_some]
      congr 2
      funext i
      unfold lnFacFl
      have c : th > lit 0.001 ↔ th.val > 0.001 := Iff.rfl
      by_cases hc : th.val > 0.001
      · rw [if_pos hc, if_pos (c.2 hc)]
        change ((soAct 3 _ T.t w1 i).val - (rot i).val * ((Ops.dot 3 T.t rot).val * (1 - 2 * sh.val) / (Ops.dot 3 rot rot).val)) / (2 * sh.val) =
          (1 / (2 * sh.val)) * ((soAct 3 _ T.t w1 i).val - ((Ops.dot 3 T.t rot).val * (1 - 2 * sh.val) / (Ops.dot 3 rot rot).val) * (rot i).val)
        ring
      · rw [if_neg hc, if_neg (fun q => hc (c.1 q))]
        change ((soAct 3 _ T.t w1 i).val - (rot i).val * ((Ops.dot 3 T.t rot).val / 24)) / (2 * sh.val) =
          (1 / (2 * sh.val)) * ((soAct 3 _ T.t w1 i).val - ((Ops.dot 3 T.t rot).val / 24) * (rot i).val)
        ring
  unfold se3Ln se3LnFl
  rw [← c91_exact T.R J]
  cases so3LnFl (LibmInv.rounded Rounding.exact) T.R J with
  | none => rfl
  | some rot =>
    rw [Option.map_some, Option.bind_some, Option.bind_some, Option.map_map]
    refine Eq.trans ?_ (key rot)
    congr 1
    funext p
    exact join_rvec p rot

/-- the quarter turn about the third axis -/
noncomputable def quarter : M 3 := !![0, -1, 0; 1, 0, 0; 0, 0, 1]

theorem quarter_rot : IsRot quarter := by
  constructor
  · ext i j; fin_cases i <;> fin_cases j <;> simp [quarter, Matrix.mul_apply, Fin.sum_univ_three]
  · simp [quarter, det_fin_three]

/-- a stored pose that is not the identity meets the hypotheses of `c93_round_trip`, with a library that rounds correctly -/
example (T : Pose Rounding.double) (hR : T.R = fun r c => if r = 0 ∧ c = 1 then -1 else if r = 1 ∧ c = 0 then 1 else if r = 2 ∧ c = 2 then 1 else 0)
    (J : LnJunk Rounding.double) (H : Mat (Fl Rounding.double)) (w1 : Vec (Fl Rounding.double)) :
    ∃ v R' t', se3LnFl (Libm.rounded Rounding.double) (LibmInv.rounded Rounding.double) T J H w1 = some v ∧
      NormedSpace.exp (∑ k, asV 6 (rvec v) k • se3Gen k) = hom R' t' ∧ frob (R' - quarter) ≤ 2e-12 := by
  obtain ⟨v, R', t', h⟩ := c93_round_trip (Libm.rounded Rounding.double)
    (fun x => by have := Rounding.double.err (Real.sin x.val); rw [Rounding.double_u] at this; exact this)
    (fun x => by
      have := Rounding.double.err (Real.cos x.val)
      rw [Rounding.double_u] at this
      refine this.trans ?_
      have := Real.abs_cos_le_one x.val
      norm_num; linarith) (LibmInv.rounded Rounding.double)
    (by
      have a := LibmInv.rounded_acc (ρ := Rounding.double)
      have e : Rounding.double.u ≤ 1 / 2 ^ 52 := by rw [Rounding.double_u]; norm_num
      exact ⟨fun x hx => (a.asin x hx).trans (mul_le_mul_of_nonneg_right e (abs_nonneg _)),
        fun x hx => (a.acos x hx).trans (mul_le_mul_of_nonneg_right e (abs_nonneg _))⟩)
    T quarter_rot (fun i j => by
      have : (T.R i j).val = quarter i j := by
        rw [hR]; fin_cases i <;> fin_cases j <;> simp [quarter]
      rw [this, sub_self, abs_zero]; norm_num) J H H w1 w1 w1
  exact ⟨v, R', t', h.1, h.2.1, h.2.2.1⟩

end TooN.FlRot
