import Verif.Props.MatFun
import Mathlib.RingTheory.Nilpotent.Basic
/-!
# C44: matrix square root and logarithm (sqrt, log_taylor, log)
-/
set_option linter.unusedSectionVars false
namespace TooN.MatFun
open Matrix Finset
open scoped Nat

variable {n : Nat}

/-- no real eigenvalue is negative -/
def NoNeg (A : Sq n) : Prop := ∀ c : ℝ, c < 0 → (A - c • (1 : Sq n)).det ≠ 0

/-- `A` is unipotent: `A - 1` is nilpotent -/
def Unipotent (A : Sq n) : Prop := ∃ k, (A - 1) ^ k = 0

theorem inv_mul' {M : Sq n} (h : M.det ≠ 0) : M⁻¹ * M = 1 := nonsing_inv_mul _ (isUnit_iff_ne_zero.2 h)
theorem mul_inv' {M : Sq n} (h : M.det ≠ 0) : M * M⁻¹ = 1 := mul_nonsing_inv _ (isUnit_iff_ne_zero.2 h)

theorem comm_inv {M X : Sq n} (h : M.det ≠ 0) (hc : Commute X M) : Commute X M⁻¹ := by
  have a := inv_mul' h
  have b := mul_inv' h
  unfold Commute SemiconjBy at *
  calc X * M⁻¹ = (M⁻¹ * M) * X * M⁻¹ := by rw [a, one_mul]
    _ = M⁻¹ * (X * M) * M⁻¹ := by rw [hc]; simp only [mul_assoc]
    _ = M⁻¹ * X * (M * M⁻¹) := by simp only [mul_assoc]
    _ = M⁻¹ * X := by rw [b, mul_one]

/-- one iteration's `M` -/
noncomputable def stepM (M : Sq n) : Sq n := (0.5 : ℝ) • (1 + (0.5 : ℝ) • (M + M⁻¹))
/-- one iteration's `Y` -/
noncomputable def stepY (M Y : Sq n) : Sq n := (0.5 : ℝ) • (Y * (1 + M⁻¹))

theorem sqrtLoop_ret (P : Sq n → Sq n → Prop) (step : ∀ M Y, P M Y → M.det ≠ 0 → P (stepM M) (stepY M Y)) (tol : ℝ)
    (fuel : Nat) (M Y R : Sq n) (h0 : P M Y) (h : sqrtLoop tol fuel M Y = .ret R) :
    ∃ M₀ Y₀, P M₀ Y₀ ∧ M₀.det ≠ 0 ∧ R = stepY M₀ Y₀ ∧ ninf (stepM M₀ - M₀⁻¹) ≤ tol := by
  induction fuel generalizing M Y with
  | zero => simp [sqrtLoop] at h
  | succ f ih =>
    rw [sqrtLoop] at h
    by_cases hd : M.det = 0
    · rw [if_pos hd] at h; cases h
    · rw [if_neg hd] at h
      simp only at h
      by_cases ht : ninf ((0.5 : ℝ) • (1 + (0.5 : ℝ) • (M + M⁻¹)) - M⁻¹) > tol
      · rw [if_pos ht] at h
        exact ih _ _ (step M Y h0 hd) h
      · rw [if_neg ht] at h
        simp only [Run.ret.injEq] at h
        exact ⟨M, Y, h0, hd, h.symm, not_lt.1 ht⟩

/-- identities of one iteration -/
theorem stepM_sub_one {M : Sq n} (h : M.det ≠ 0) : stepM M - 1 = (1 / 4 : ℝ) • ((M - 1) * (M - 1) * M⁻¹) := by
  have b := mul_inv' h
  have e : (M - 1) * (M - 1) * M⁻¹ = M - (2 : ℝ) • (1 : Sq n) + M⁻¹ := by
    have : (M - 1) * (M - 1) * M⁻¹ = M * (M * M⁻¹) - M * M⁻¹ - M * M⁻¹ + M⁻¹ := by noncomm_ring
    rw [this, b, mul_one, two_smul]; abel
  rw [e]; unfold stepM
  ext i j
  simp only [Matrix.sub_apply, Matrix.add_apply, Matrix.smul_apply, smul_eq_mul]
  ring

theorem stepM_sub_inv {M : Sq n} (h : M.det ≠ 0) :
    stepM M - M⁻¹ = (1 / 4 : ℝ) • ((M - 1) * (M + (3 : ℝ) • 1) * M⁻¹) := by
  have b := mul_inv' h
  have e : (M - 1) * (M + (3 : ℝ) • 1) * M⁻¹ = M + (2 : ℝ) • (1 : Sq n) - (3 : ℝ) • M⁻¹ := by
    have : (M - 1) * (M + (3 : ℝ) • 1) * M⁻¹ = M * (M * M⁻¹) + (3 : ℝ) • (M * M⁻¹) - M * M⁻¹ - (3 : ℝ) • M⁻¹ := by
      simp only [sub_mul, mul_add, add_mul, one_mul, Matrix.mul_smul, mul_one, Matrix.smul_mul, mul_assoc]
      abel
    rw [this, b, mul_one]
    ext i j
    simp only [Matrix.sub_apply, Matrix.add_apply, Matrix.smul_apply, smul_eq_mul]
    ring
  rw [e]; unfold stepM
  ext i j
  simp only [Matrix.sub_apply, Matrix.add_apply, Matrix.smul_apply, smul_eq_mul]
  ring

/-- the algebraic invariant: everything commutes and `Y² = m M` -/
structure Inv (m M Y : Sq n) : Prop where
  cM : Commute m M
  cY : Commute m Y
  cMY : Commute M Y
  sq : Y * Y = m * M

theorem comm_stepM {X M : Sq n} (h : M.det ≠ 0) (hc : Commute X M) : Commute X (stepM M) :=
  (((Commute.one_right X).add_right ((hc.add_right (comm_inv h hc)).smul_right _)).smul_right _)

theorem comm_stepY {X M Y : Sq n} (h : M.det ≠ 0) (hc : Commute X M) (hy : Commute X Y) : Commute X (stepY M Y) :=
  ((hy.mul_right ((Commute.one_right X).add_right (comm_inv h hc))).smul_right _)

theorem Inv.step {m M Y : Sq n} (hi : Inv m M Y) (h : M.det ≠ 0) : Inv m (stepM M) (stepY M Y) where
  cM := comm_stepM h hi.cM
  cY := comm_stepY h hi.cM hi.cY
  cMY := by
    refine comm_stepY h ?_ ?_
    · exact (comm_stepM h (Commute.refl M)).symm
    · exact (comm_stepM h hi.cMY.symm).symm
  sq := by
    have b := mul_inv' h
    have c : (1 + M⁻¹) * Y = Y * (1 + M⁻¹) :=
      ((Commute.one_left Y).add_left (comm_inv h hi.cMY.symm).symm)
    have e : Y * (1 + M⁻¹) * (Y * (1 + M⁻¹)) = m * (M + (2 : ℝ) • 1 + M⁻¹) := by
      calc Y * (1 + M⁻¹) * (Y * (1 + M⁻¹)) = Y * ((1 + M⁻¹) * Y) * (1 + M⁻¹) := by simp only [mul_assoc]
        _ = (Y * Y) * ((1 + M⁻¹) * (1 + M⁻¹)) := by rw [c]; simp only [mul_assoc]
        _ = m * (M + M * M⁻¹ + M * M⁻¹ + (M * M⁻¹) * M⁻¹) := by rw [hi.sq]; noncomm_ring
        _ = _ := by rw [b, one_mul, two_smul, add_assoc M 1 1]
    unfold stepY stepM
    rw [Matrix.smul_mul, Matrix.mul_smul, e, Matrix.mul_smul, smul_smul]
    rw [show (1 + (0.5 : ℝ) • (M + M⁻¹)) = (0.5 : ℝ) • (M + (2 : ℝ) • 1 + M⁻¹) by
      ext i j
      simp only [Matrix.add_apply, Matrix.smul_apply, smul_eq_mul]
      ring]
    rw [Matrix.mul_smul, smul_smul]

/-- no negative eigenvalues appear -/
theorem NoNeg.step {M : Sq n} (hM : NoNeg M) (h : M.det ≠ 0) : NoNeg (stepM M) := by
  intro c hc
  have hb := mul_inv' h
  have hdisc : 0 < 16 * c ^ 2 - 16 * c := by nlinarith
  set d := Real.sqrt (16 * c ^ 2 - 16 * c) with hd
  have hdd : d * d = 16 * c ^ 2 - 16 * c := Real.mul_self_sqrt hdisc.le
  have hdpos : 0 < d := Real.sqrt_pos.2 hdisc
  have hdlt : d < 2 - 4 * c := by
    rw [hd, Real.sqrt_lt' (by linarith)]; nlinarith
  set r₁ := (-(2 - 4 * c) + d) / 2 with hr₁
  set r₂ := (-(2 - 4 * c) - d) / 2 with hr₂
  have h1 : r₁ < 0 := by rw [hr₁]; linarith
  have h2 : r₂ < 0 := by rw [hr₂]; linarith
  have hs : r₁ + r₂ = 4 * c - 2 := by rw [hr₁, hr₂]; ring
  have hp : r₁ * r₂ = 1 := by rw [hr₁, hr₂]; nlinarith
  have key : stepM M - c • (1 : Sq n) = (1 / 4 : ℝ) • ((M - r₁ • (1 : Sq n)) * (M - r₂ • (1 : Sq n)) * M⁻¹) := by
    have e : (M - r₁ • (1 : Sq n)) * (M - r₂ • (1 : Sq n)) * M⁻¹ = M - (4 * c - 2) • (1 : Sq n) + M⁻¹ := by
      have e2 : (M - r₁ • (1 : Sq n)) * (M - r₂ • (1 : Sq n)) * M⁻¹ =
          M * (M * M⁻¹) - (r₁ + r₂) • (M * M⁻¹) + (r₁ * r₂) • M⁻¹ := by
        simp only [sub_mul, mul_sub, Matrix.mul_smul, Matrix.smul_mul, one_mul, mul_one, mul_assoc]
        rw [smul_comm r₂ r₁, add_smul, mul_smul]
        abel
      rw [e2, hb, mul_one, hs, hp, one_smul]
    rw [e]; unfold stepM
    ext i j
    simp only [Matrix.sub_apply, Matrix.add_apply, Matrix.smul_apply, smul_eq_mul]
    ring
  rw [key, det_smul, det_mul, det_mul]
  refine mul_ne_zero (pow_ne_zero _ (by norm_num)) (mul_ne_zero (mul_ne_zero (hM _ h1) (hM _ h2)) ?_)
  intro h0
  have := congrArg det hb
  rw [det_mul, h0, mul_zero, det_one] at this
  exact zero_ne_one this

/-- a matrix commuting with a nilpotent one: the product is nilpotent -/
theorem nil_mul {A B : Sq n} (hc : Commute A B) {k : Nat} (h : A ^ k = 0) : (A * B) ^ k = 0 := by
  rw [hc.mul_pow, h, zero_mul]

theorem nil_add {A B : Sq n} (hc : Commute A B) (ha : ∃ k, A ^ k = 0) (hb : ∃ k, B ^ k = 0) : ∃ k, (A + B) ^ k = 0 := by
  obtain ⟨a, ha⟩ := ha; obtain ⟨b, hb⟩ := hb
  obtain ⟨k, hk⟩ := Commute.isNilpotent_add hc ⟨a, ha⟩ ⟨b, hb⟩
  exact ⟨k, hk⟩

theorem Unipotent.noNeg {A : Sq n} (h : Unipotent A) : NoNeg A := by
  obtain ⟨k, hk⟩ := h
  intro c hc hd
  -- A - c = (1-c) + (A-1)
  have hne : (1 - c) ≠ 0 := by linarith
  have hu : IsUnit (A - c • (1 : Sq n)) := by
    have e : A - c • (1 : Sq n) = (1 - c) • (1 : Sq n) + (A - 1) := by
      rw [sub_smul, one_smul]; abel
    rw [e]
    refine IsNilpotent.isUnit_add_left_of_commute ⟨k, hk⟩ ?_ ?_
    · rw [Matrix.isUnit_iff_isUnit_det, det_smul, det_one, mul_one]
      exact (isUnit_iff_ne_zero.2 (pow_ne_zero _ hne))
    · exact (Commute.one_right _).smul_right _
  rw [Matrix.isUnit_iff_isUnit_det, hd] at hu
  exact not_isUnit_zero hu

/-- what unipotency of the iterate says about the start -/
theorem uni_step {m M Y : Sq n} (hi : Inv m M Y) (h : M.det ≠ 0)
    (hu : Unipotent M → Unipotent m ∧ Unipotent Y) (h' : Unipotent (stepM M)) :
    Unipotent m ∧ Unipotent (stepY M Y) := by
  have b := mul_inv' h
  have a := inv_mul' h
  have hM : Unipotent M := by
    obtain ⟨k, hk⟩ := h'
    have e : (M - 1) ^ 2 = (4 : ℝ) • ((stepM M - 1) * M) := by
      rw [stepM_sub_one h, Matrix.smul_mul, smul_smul, mul_assoc, a, mul_one, pow_two]; norm_num
    have hc : Commute (stepM M - 1) M :=
      ((comm_stepM h (Commute.refl M)).symm).sub_left (Commute.one_left M)
    refine ⟨2 * k, ?_⟩
    rw [pow_mul, e, smul_pow, nil_mul hc hk, smul_zero]
  obtain ⟨um, uY⟩ := hu hM
  refine ⟨um, ?_⟩
  have e : stepY M Y - 1 = (Y - 1) * ((0.5 : ℝ) • (1 + M⁻¹)) + (M - 1) * ((-0.5 : ℝ) • M⁻¹) := by
    have e1 : (M - 1) * ((-0.5 : ℝ) • M⁻¹) = (-0.5 : ℝ) • (1 - M⁻¹) := by
      rw [Matrix.mul_smul, sub_mul, b, one_mul]
    rw [e1]; unfold stepY
    rw [Matrix.mul_smul, sub_mul, one_mul]
    ext i j
    simp only [Matrix.sub_apply, Matrix.add_apply, Matrix.smul_apply, smul_eq_mul]
    ring
  have cMi : Commute M M⁻¹ := comm_inv h (Commute.refl M)
  have cYi : Commute Y M⁻¹ := comm_inv h hi.cMY.symm
  unfold Unipotent
  rw [e]
  have c1 : Commute (Y - 1) ((0.5 : ℝ) • (1 + M⁻¹)) :=
    ((Commute.one_right _).add_right (cYi.sub_left (Commute.one_left _))).smul_right _
  have c2 : Commute (M - 1) ((-0.5 : ℝ) • M⁻¹) := (cMi.sub_left (Commute.one_left _)).smul_right _
  obtain ⟨ky, hy⟩ := uY
  obtain ⟨km, hm⟩ := hM
  refine nil_add ?_ ⟨ky, nil_mul c1 hy⟩ ⟨km, nil_mul c2 hm⟩
  have cYM1 : Commute (Y - 1) (M - 1) := (hi.cMY.symm.sub_left (Commute.one_left _)).sub_right (Commute.one_right _)
  have cYi1 : Commute (Y - 1) ((-0.5 : ℝ) • M⁻¹) := (cYi.sub_left (Commute.one_left _)).smul_right _
  have cIM : Commute ((0.5 : ℝ) • (1 + M⁻¹)) (M - 1) :=
    (((Commute.one_left _).add_left (cMi.symm.sub_right (Commute.one_right _)))).smul_left _
  have cII : Commute ((0.5 : ℝ) • (1 + M⁻¹)) ((-0.5 : ℝ) • M⁻¹) :=
    (((Commute.one_left _).add_left (Commute.refl _)).smul_left _).smul_right _
  exact (cYM1.mul_right cYi1).mul_left (cIM.mul_right cII)

theorem inv_start (m : Sq n) : Inv m m m := ⟨Commute.refl _, Commute.refl _, Commute.refl _, rfl⟩

/-- **C44** for every tolerance: when `sqrt(m)` returns `R`, the residual `R² - m` is `m (M-1)² M⁻¹ / 4` for the last iterate
`M`, which commutes with `m` and passed the stopping test `norm_inf((M-1)(M+3)M⁻¹)/4 ≤ tol` -/
theorem c44_sqrt_residual (tol : ℝ) (fuel : Nat) (m R : Sq n) (h : sqrt tol fuel m = .ret R) :
    ∃ M : Sq n, M.det ≠ 0 ∧ Commute m M ∧ R * R - m = (1 / 4 : ℝ) • (m * ((M - 1) * (M - 1) * M⁻¹)) ∧
      ninf ((1 / 4 : ℝ) • ((M - 1) * (M + (3 : ℝ) • 1) * M⁻¹)) ≤ tol ∧ Commute m R := by
  obtain ⟨M, Y, hi, hd, hR, ht⟩ := sqrtLoop_ret (fun M Y => Inv m M Y) (fun M Y hi hd => hi.step hd) tol fuel m m R (inv_start m) h
  refine ⟨M, hd, hi.cM, ?_, by rw [← stepM_sub_inv hd]; exact ht, by rw [hR]; exact (hi.step hd).cY⟩
  rw [hR, (hi.step hd).sq, ← Matrix.mul_smul, ← stepM_sub_one hd, mul_sub, mul_one]

theorem sqrt_exact_aux (fuel : Nat) (m R : Sq n) (hm : NoNeg m) (h : sqrt 0 fuel m = .ret R) :
    R * R = m ∧ Unipotent m ∧ Unipotent R := by
  obtain ⟨M, Y, ⟨hi, hn, hu⟩, hd, hR, ht⟩ := sqrtLoop_ret
    (fun M Y => Inv m M Y ∧ NoNeg M ∧ (Unipotent M → Unipotent m ∧ Unipotent Y))
    (fun M Y ⟨hi, hn, hu⟩ hd => ⟨hi.step hd, hn.step hd, uni_step hi hd hu⟩) 0 fuel m m R
    ⟨inv_start m, hm, fun h => ⟨h, h⟩⟩ h
  have b := mul_inv' hd
  have a := inv_mul' hd
  have h0 := (ninf_eq_zero _).1 (le_antisymm ht (ninf_nonneg _))
  rw [stepM_sub_inv hd] at h0
  have h1 : (M - 1) * (M + (3 : ℝ) • 1) = 0 := by
    have h2 := (smul_eq_zero.1 h0).resolve_left (by norm_num)
    calc (M - 1) * (M + (3 : ℝ) • 1) = (M - 1) * (M + (3 : ℝ) • 1) * M⁻¹ * M := by rw [mul_assoc _ M⁻¹ M, a, mul_one]
      _ = 0 := by rw [h2, zero_mul]
  have h3 : (M + (3 : ℝ) • (1 : Sq n)).det ≠ 0 := by
    have := hn (-3) (by norm_num)
    rwa [neg_smul, sub_neg_eq_add] at this
  have hM1 : M = 1 := by
    have : M - 1 = 0 := by
      calc M - 1 = (M - 1) * (M + (3 : ℝ) • 1) * (M + (3 : ℝ) • 1)⁻¹ := by rw [mul_assoc, mul_inv' h3, mul_one]
        _ = 0 := by rw [h1, zero_mul]
    exact sub_eq_zero.1 this
  have hs1 : stepM M = 1 := by
    have := stepM_sub_one hd
    rw [hM1, sub_self, zero_mul, zero_mul, smul_zero] at this
    rw [hM1]; exact sub_eq_zero.1 this
  obtain ⟨um, uR⟩ := uni_step hi hd hu ⟨1, by rw [hs1, sub_self, zero_pow one_ne_zero]⟩
  refine ⟨?_, um, by rw [hR]; exact uR⟩
  rw [hR, (hi.step hd).sq, hs1, mul_one]

/-- **C44** in exact arithmetic: for a matrix without negative real eigenvalues, whatever `sqrt` returns squares to its
argument -/
theorem c44_sqrt_exact (fuel : Nat) (m R : Sq n) (hm : ∀ c : ℝ, c < 0 → (m - c • (1 : Sq n)).det ≠ 0)
    (h : sqrt 0 fuel m = .ret R) : R * R = m :=
  (sqrt_exact_aux fuel m R hm h).1

/-- **C44** the condition on the eigenvalues is needed: `sqrt([-3])` returns `[-1]` -/
theorem c44_sqrt_wrong (fuel : Nat) : sqrt 0 (fuel + 1) (!![(-3 : ℝ)] : Sq 1) = .ret !![-1] ∧
    (!![(-1 : ℝ)] : Sq 1) * !![-1] ≠ !![-3] := by
  constructor
  · have hd : (!![(-3 : ℝ)] : Sq 1).det ≠ 0 := by rw [det_fin_one]; norm_num
    have hi : (!![(-3 : ℝ)] : Sq 1)⁻¹ = !![(-1 / 3 : ℝ)] := by
      apply inv_eq_right_inv
      ext i j; fin_cases i; fin_cases j; simp [Matrix.mul_apply]; norm_num
    unfold sqrt sqrtLoop
    rw [if_neg hd]
    simp only [hi]
    rw [if_neg]
    · congr 1
      ext i j; fin_cases i; fin_cases j
      rw [Matrix.smul_apply, Matrix.mul_apply]; norm_num [Matrix.add_apply]
    · rw [show ((0.5 : ℝ) • (1 + (0.5 : ℝ) • ((!![(-3 : ℝ)] : Sq 1) + !![(-1 / 3 : ℝ)])) - !![(-1 / 3 : ℝ)]) = 0 by
        ext i j; fin_cases i; fin_cases j; simp; norm_num]
      rw [(ninf_eq_zero _).2 rfl]; exact lt_irrefl _
  · intro h
    have := congrFun (congrFun h 0) 0
    norm_num [Matrix.mul_apply] at this

theorem uni_det {M : Sq n} (h : Unipotent M) : M.det ≠ 0 := by
  obtain ⟨k, hk⟩ := h
  have hu : IsUnit M := by
    have := IsNilpotent.isUnit_add_one ⟨k, hk⟩
    rwa [sub_add_cancel] at this
  rw [Matrix.isUnit_iff_isUnit_det] at hu
  exact hu.ne_zero

theorem sqrt_total_aux (tol : ℝ) (htol : 0 ≤ tol) (j : Nat) : ∀ (M Y : Sq n) (_ : (M - 1) ^ (2 ^ j) = 0) (fuel : Nat) (_ : j < fuel),
    ∃ R, sqrtLoop tol fuel M Y = .ret R := by
  induction j with
  | zero =>
    intro M Y hM fuel hf
    obtain ⟨f, rfl⟩ : ∃ f, fuel = f + 1 := ⟨fuel - 1, by omega⟩
    have hM1 : M = 1 := by rw [pow_zero, pow_one] at hM; exact sub_eq_zero.1 hM
    have hd : M.det ≠ 0 := by rw [hM1, det_one]; exact one_ne_zero
    refine ⟨stepY M Y, ?_⟩
    rw [sqrtLoop, if_neg hd]
    simp only
    rw [if_neg]
    · rfl
    · have := stepM_sub_inv hd
      rw [show M - 1 = 0 by rw [hM1, sub_self], zero_mul, zero_mul, smul_zero] at this
      unfold stepM at this
      rw [this, (ninf_eq_zero _).2 rfl]
      exact not_lt.2 htol
  | succ j ih =>
    intro M Y hM fuel hf
    obtain ⟨f, rfl⟩ : ∃ f, fuel = f + 1 := ⟨fuel - 1, by omega⟩
    have hd : M.det ≠ 0 := uni_det ⟨_, hM⟩
    rw [sqrtLoop, if_neg hd]
    simp only
    by_cases ht : ninf ((0.5 : ℝ) • (1 + (0.5 : ℝ) • (M + M⁻¹)) - M⁻¹) > tol
    · rw [if_pos ht]
      refine ih _ _ ?_ f (by omega)
      change (stepM M - 1) ^ 2 ^ j = 0
      rw [stepM_sub_one hd, smul_pow, ← pow_two]
      have cMi : Commute M M⁻¹ := comm_inv hd (Commute.refl M)
      have c : Commute ((M - 1) ^ 2) M⁻¹ := (cMi.sub_left (Commute.one_left _)).pow_left 2
      rw [c.mul_pow, ← pow_mul, ← pow_succ', hM, zero_mul, smul_zero]
    · rw [if_neg ht]; exact ⟨_, rfl⟩

/-- **C44** in exact arithmetic `sqrt` returns for every unipotent matrix (`(m-1)^(2^j) = 0`) within `j+1` iterations; and for
a matrix without negative real eigenvalues only if it is unipotent -/
theorem c44_sqrt_terminates_iff (m : Sq n) (hm : ∀ c : ℝ, c < 0 → (m - c • (1 : Sq n)).det ≠ 0) :
    (∃ fuel R, sqrt 0 fuel m = .ret R) ↔ ∃ k, (m - 1) ^ k = 0 := by
  constructor
  · rintro ⟨fuel, R, h⟩; exact (sqrt_exact_aux fuel m R hm h).2.1
  · rintro ⟨k, hk⟩
    have : (m - 1) ^ (2 ^ k) = 0 := pow_eq_zero_of_le (Nat.lt_two_pow_self).le hk
    obtain ⟨R, h⟩ := sqrt_total_aux 0 le_rfl k m m this (k + 1) (Nat.lt_succ_self k)
    exact ⟨k + 1, R, h⟩

theorem exU : Unipotent (!![1, 5; 0, 1] : Sq 2) := by
  refine ⟨2, ?_⟩
  rw [pow_two]; ext i j; fin_cases i <;> fin_cases j <;> simp [Matrix.mul_apply, Fin.sum_univ_two]

example : ∃ fuel R, sqrt 0 fuel (!![1, 5; 0, 1] : Sq 2) = .ret R ∧ R * R = !![1, 5; 0, 1] := by
  obtain ⟨fuel, R, h⟩ := (c44_sqrt_terminates_iff _ exU.noNeg).2 exU
  exact ⟨fuel, R, h, c44_sqrt_exact _ _ _ exU.noNeg h⟩

/-! ## Logarithm -/

/-- the terms of the series in `log_taylor` -/
noncomputable def logTerm (X : Sq n) (j : Nat) : Sq n := ((-1 : ℝ) ^ j / (j + 1)) • X ^ (j + 1)

theorem logLoop_ret (tol : ℝ) (X : Sq n) (fuel k : Nat) (R : Sq n)
    (h : logTaylorLoop tol X fuel (∑ j ∈ range k, logTerm X j) (((-1 : ℝ) ^ k) • X ^ (k + 1)) ((k : ℝ) + 1) = .ret R) :
    ∃ K, k ≤ K ∧ R = ∑ j ∈ range K, logTerm X j ∧ ninf (logTerm X K) ≤ tol ∧
      ∀ j, k ≤ j → j < K → tol < ninf (logTerm X j) := by
  induction fuel generalizing k with
  | zero => simp [logTaylorLoop] at h
  | succ f ih =>
    have e0 : (1 / ((k : ℝ) + 1)) • (((-1 : ℝ) ^ k) • X ^ (k + 1)) = logTerm X k := by
      unfold logTerm; rw [smul_smul]; congr 1; ring
    rw [logTaylorLoop, e0, add_sub_cancel_left] at h
    by_cases ht : ninf (logTerm X k) > tol
    · rw [if_pos ht, ← Finset.sum_range_succ] at h
      have e : (k : ℝ) + 1 + 1 = ((k + 1 : Nat) : ℝ) + 1 := by push_cast; ring
      have e1 : -(((-1 : ℝ) ^ k) • X ^ (k + 1)) * X = ((-1 : ℝ) ^ (k + 1)) • X ^ (k + 1 + 1) := by
        rw [← neg_smul, Matrix.smul_mul, ← pow_succ, pow_succ (-1 : ℝ)]; congr 1; ring
      rw [e, e1] at h
      obtain ⟨K, h1, h2, h3, h4⟩ := ih (k + 1) h
      refine ⟨K, by omega, h2, h3, fun j hj hj' => ?_⟩
      rcases Nat.eq_or_lt_of_le hj with h | h
      · rw [← h]; exact ht
      · exact h4 j h hj'
    · rw [if_neg ht] at h
      simp only [Run.ret.injEq] at h
      exact ⟨k, le_rfl, h.symm, not_lt.1 ht, fun j hj hj' => by omega⟩

/-- **C44** when `log_taylor` returns, its result is the partial sum of `Σ (-1)^j (m-1)^(j+1)/(j+1)` up to the first term whose
norm passes the stopping test -/
theorem c44_log_taylor_partial_sum (tol : ℝ) (fuel : Nat) (m R : Sq n) (h : logTaylor tol fuel m = .ret R) :
    ∃ K, R = ∑ j ∈ range K, ((-1 : ℝ) ^ j / (j + 1)) • (m - 1) ^ (j + 1) ∧
      ninf (((-1 : ℝ) ^ K / (K + 1)) • (m - 1) ^ (K + 1)) ≤ tol ∧
      ∀ j, j < K → tol < ninf (((-1 : ℝ) ^ j / ((j : ℝ) + 1)) • (m - 1) ^ (j + 1)) := by
  have h' : logTaylorLoop tol (m - 1) fuel (∑ j ∈ range 0, logTerm (m - 1) j) (((-1 : ℝ) ^ 0) • (m - 1) ^ (0 + 1)) (((0 : Nat) : ℝ) + 1) = .ret R := by
    simpa [logTaylor] using h
  obtain ⟨K, -, h2, h3, h4⟩ := logLoop_ret tol (m - 1) fuel 0 R h'
  exact ⟨K, h2, h3, fun j hj => h4 j (Nat.zero_le j) hj⟩

open scoped Matrix.Norms.Operator in
/-- **C44** for `norm_inf(m-1) ≤ 1/2` (which `log` ensures) the result of `log_taylor` is within `2 tol` of a logarithm -/
theorem c44_log_taylor_error (tol : ℝ) (fuel : Nat) (m R : Sq n) (hm : ninf (m - 1) ≤ 0.5) (h : logTaylor tol fuel m = .ret R) :
    ∃ L, NormedSpace.exp L = m ∧ ‖R - L‖ ≤ 2 * tol := by
  obtain ⟨K, h1, h2, -⟩ := c44_log_taylor_partial_sum tol fuel m R h
  have hx : ‖m - 1‖ ≤ 1 / 2 := by rw [← ninf_eq_norm]; norm_num at hm ⊢; exact hm
  obtain ⟨L, hL, hb⟩ := log_series norm_one_le (m - 1) (by linarith)
  refine ⟨L, hL.trans (by abel), ?_⟩
  have := hb K
  rw [norm_sub_rev, h1]
  refine this.trans ?_
  have h3 : (1 - ‖m - 1‖)⁻¹ ≤ 2 := by
    rw [inv_le_comm₀ (by linarith) (by norm_num)]; linarith
  have h4 : ‖((-1 : ℝ) ^ K / (K + 1)) • (m - 1) ^ (K + 1)‖ ≤ tol := by rw [← ninf_eq_norm]; exact h2
  calc _ ≤ tol * 2 := mul_le_mul h4 h3 (inv_nonneg.2 (by linarith)) ((norm_nonneg _).trans h4)
    _ = _ := mul_comm _ _

/-- **C44** what `log` computes: repeated square roots `B 0 = m, …, B c` until `norm_inf(B c - 1) ≤ 1/2`, the Taylor logarithm of
the last one, times `2^c` -/
theorem c44_log_structure (tol : ℝ) (fT fS fuel : Nat) (m R : Sq n) (h : log tol fT fS fuel m = .ret R) :
    ∃ (c : Nat) (B : Nat → Sq n) (L : Sq n), B 0 = m ∧
      (∀ i, i < c → 0.5 < ninf (B i - 1) ∧ sqrt tol fS (B i) = .ret (B (i + 1))) ∧
      ninf (B c - 1) ≤ 0.5 ∧ logTaylor tol fT (B c) = .ret L ∧ R = (2 : ℝ) ^ c • L := by
  have gen : ∀ (fuel : Nat) (c0 : Nat) (A R : Sq n), logLoop tol fT fS fuel c0 A = .ret R →
      ∃ (c : Nat) (B : Nat → Sq n) (L : Sq n), B 0 = A ∧
      (∀ i, i < c → 0.5 < ninf (B i - 1) ∧ sqrt tol fS (B i) = .ret (B (i + 1))) ∧
      ninf (B c - 1) ≤ 0.5 ∧ logTaylor tol fT (B c) = .ret L ∧ R = (2 : ℝ) ^ (c0 + c) • L := by
    intro fuel
    induction fuel with
    | zero => intro c0 A R h; simp [logLoop] at h
    | succ f ih =>
      intro c0 A R h
      rw [logLoop] at h
      by_cases ht : ninf (A - 1) > 0.5
      · rw [if_pos ht] at h
        cases hs : sqrt tol fS A with
        | ret A' =>
          rw [hs] at h
          obtain ⟨c, B, L, h1, h2, h3, h4, h5⟩ := ih (c0 + 1) A' R h
          refine ⟨c + 1, fun i => match i with | 0 => A | i + 1 => B i, L, rfl, ?_, h3, h4, ?_⟩
          · intro i hi
            cases i with
            | zero => simp only [h1]; exact ⟨ht, hs⟩
            | succ i => exact h2 i (by omega)
          · rw [h5]; congr 2; omega
        | running => rw [hs] at h; cases h
        | divZero => rw [hs] at h; cases h
        | ub => rw [hs] at h; cases h
      · rw [if_neg ht] at h
        cases hl : logTaylor tol fT A with
        | ret L =>
          rw [hl] at h
          simp only [Run.ret.injEq] at h
          exact ⟨0, fun _ => A, L, rfl, fun i hi => by omega, not_lt.1 ht, hl, h.symm⟩
        | running => rw [hl] at h; cases h
        | divZero => rw [hl] at h; cases h
        | ub => rw [hl] at h; cases h
  obtain ⟨c, B, L, h1, h2, h3, h4, h5⟩ := gen fuel 0 m R h
  exact ⟨c, B, L, h1, h2, h3, h4, by rw [h5, zero_add]⟩

open scoped Matrix.Norms.Operator in
/-- **C44** in exact arithmetic: for a matrix without negative real eigenvalues, whatever `log` returns is a logarithm -/
theorem c44_log_exact (fT fS fuel : Nat) (m R : Sq n) (hm : ∀ c : ℝ, c < 0 → (m - c • (1 : Sq n)).det ≠ 0)
    (h : log 0 fT fS fuel m = .ret R) : NormedSpace.exp R = m := by
  obtain ⟨c, B, L, h1, h2, h3, h4, h5⟩ := c44_log_structure 0 fT fS fuel m R h
  obtain ⟨L', hL', hb⟩ := c44_log_taylor_error 0 fT (B c) L h3 h4
  have hLL : L = L' := by
    rw [mul_zero] at hb
    exact sub_eq_zero.1 (norm_le_zero_iff.1 hb)
  have hchain : ∀ i, i ≤ c → B i ^ (2 ^ i) = m ∧ NoNeg (B i) := by
    intro i
    induction i with
    | zero => intro _; rw [h1, pow_zero, pow_one]; exact ⟨rfl, hm⟩
    | succ i ih =>
      intro hi
      obtain ⟨ha, hb⟩ := ih (by omega)
      obtain ⟨s1, -, s3⟩ := sqrt_exact_aux fS (B i) (B (i + 1)) hb (h2 i (by omega)).2
      refine ⟨?_, s3.noNeg⟩
      rw [pow_succ', pow_mul, pow_two, s1, ha]
  rw [h5, hLL]
  have e : (2 : ℝ) ^ c • L' = (2 ^ c) • L' := by
    rw [← Nat.cast_smul_eq_nsmul ℝ]; push_cast; rfl
  rw [e, Matrix.exp_nsmul, hL']
  exact (hchain c le_rfl).1

example : ∃ R, log 0 2 1 1 (!![1, 0.25; 0, 1] : Sq 2) = .ret R ∧ NormedSpace.exp R = !![1, 0.25; 0, 1] := by
  have hu : Unipotent (!![1, 0.25; 0, 1] : Sq 2) := by
    refine ⟨2, ?_⟩
    rw [pow_two]; ext i j; fin_cases i <;> fin_cases j <;> simp [Matrix.mul_apply, Fin.sum_univ_two]
  have hX : (!![1, 0.25; 0, 1] : Sq 2) - 1 = !![0, 0.25; 0, 0] := by
    ext i j; fin_cases i <;> fin_cases j <;> simp
  have hX2 : (!![0, 0.25; 0, 0] : Sq 2) * !![0, 0.25; 0, 0] = 0 := by
    ext i j; fin_cases i <;> fin_cases j <;> simp [Matrix.mul_apply, Fin.sum_univ_two]
  have hle : ninf (!![0, 0.25; 0, 0] : Sq 2) ≤ 0.5 := by
    rcases (Helpers.c42_matrix_norms 2 2 (store (!![0, 0.25; 0, 0] : Sq 2))).1.1 with h | ⟨r, hr, h⟩
    · unfold ninf; rw [h]; norm_num
    · unfold ninf; rw [h]
      interval_cases r <;> norm_num [Fin.sum_univ_two, store, abs_of_pos]
  have hpos : ninf (!![0, 0.25; 0, 0] : Sq 2) > 0 := by
    refine lt_of_le_of_ne (ninf_nonneg _) fun h => ?_
    have := congrFun (congrFun ((ninf_eq_zero _).1 h.symm) 0) 1
    norm_num at this
  have hl : ∃ R, log 0 2 1 1 (!![1, 0.25; 0, 1] : Sq 2) = .ret R := by
    refine ⟨!![0, 0.25; 0, 0], ?_⟩
    unfold log logLoop
    rw [hX, if_neg (not_lt.2 hle)]
    have : logTaylor 0 2 (!![1, 0.25; 0, 1] : Sq 2) = .ret !![0, 0.25; 0, 0] := by
      unfold logTaylor
      rw [hX, logTaylorLoop, div_one, one_smul, add_sub_cancel_left, if_pos hpos, logTaylorLoop, if_neg]
      · rw [zero_add]
      · rw [add_sub_cancel_left, Matrix.neg_mul, hX2, neg_zero, smul_zero, (ninf_eq_zero _).2 rfl]
        exact lt_irrefl _
    rw [this]; simp
  obtain ⟨R, hR⟩ := hl
  exact ⟨R, hR, c44_log_exact _ _ _ _ _ hu.noNeg hR⟩

end TooN.MatFun
