import Verif.Model.FloatFromTo
import Verif.Props.FloatCoerce2
import Verif.Props.FloatSE
import Verif.Props.SymEigenF
/-!
# C90: the rotation from one vector to another in floating point
-/
set_option linter.unusedSectionVars false
namespace TooN.FlRot
open Finset Lie Matrix
variable {ρ : Rounding}

theorem eucl_le_sq {n : ℕ} {v : Fin n → ℝ} {c : ℝ} (hc : 0 ≤ c) (h : ∑ i, v i ^ 2 ≤ c ^ 2) : eucl v ≤ c := by
  unfold eucl; rw [Real.sqrt_le_left hc]; exact h

theorem eucl_sum {n : ℕ} (v : Fin n → ℝ) : eucl v ^ 2 = ∑ i, v i ^ 2 := by
  rw [eucl, Real.sq_sqrt (sum_nonneg fun i _ => sq_nonneg _)]

/-- Lagrange's identity -/
theorem lagrange (a b : Lie.V 3) : eucl (crossV a b) ^ 2 = eucl a ^ 2 * eucl b ^ 2 - (a ⬝ᵥ b) ^ 2 := by
  simp only [eucl_sum, Fin.sum_univ_three, crossV, dotProduct, Matrix.cons_val_zero, Matrix.cons_val_one, Matrix.cons_val]; ring

/-- the computed cross product -/
theorem cross_near (hu : ρ.u ≤ 1 / 10000) (a b w : Vec (Fl ρ)) :
    eucl (asV 3 (rvec (Ops.cross a b w)) - crossV (asV 3 (rvec a)) (asV 3 (rvec b))) ≤
      2.84 * ρ.u * (eucl (asV 3 (rvec a)) * eucl (asV 3 (rvec b))) := by
  have h0 := ρ.u_nonneg
  have h1 := ρ.u_lt_one
  have el : ∀ p q r s : Fl ρ, ((p * q - r * s).val - (p.val * q.val - r.val * s.val)) ^ 2 ≤
      8.05 * ρ.u ^ 2 * (p.val ^ 2 * q.val ^ 2 + r.val ^ 2 * s.val ^ 2) := by
    intro p q r s
    obtain ⟨f1, hf1, e1⟩ := Fl.mul_fac p q
    obtain ⟨f2, hf2, e2⟩ := Fl.mul_fac r s
    obtain ⟨f3, hf3, e3⟩ := Fl.sub_fac (p * q) (r * s)
    have n1 := fac_near h0 hu (hf1.mul h0 h1 hf3) (by norm_num)
    have n2 := fac_near h0 hu (hf2.mul h0 h1 hf3) (by norm_num)
    norm_num at n1 n2
    have e : (p * q - r * s).val - (p.val * q.val - r.val * s.val) =
        p.val * q.val * (f1 * f3 - 1) - r.val * s.val * (f2 * f3 - 1) := by rw [e3, e2, e1]; ring
    have s1 := pow_le_pow_left₀ (abs_nonneg _) n1 2
    have s2 := pow_le_pow_left₀ (abs_nonneg _) n2 2
    rw [sq_abs] at s1 s2
    have t1 := mul_le_mul_of_nonneg_left s1 (sq_nonneg (p.val * q.val))
    have t2 := mul_le_mul_of_nonneg_left s2 (sq_nonneg (r.val * s.val))
    have q1 := mul_nonneg (sq_nonneg ρ.u) (sq_nonneg (p.val * q.val))
    have q2 := mul_nonneg (sq_nonneg ρ.u) (sq_nonneg (r.val * s.val))
    rw [e]
    have := sq_nonneg (p.val * q.val * (f1 * f3 - 1) + r.val * s.val * (f2 * f3 - 1))
    norm_num at t1 t2 ⊢
    nlinarith
  have ha := eucl_sum (asV 3 (rvec a))
  have hb := eucl_sum (asV 3 (rvec b))
  have hA := eucl_nonneg (asV 3 (rvec a))
  have hB := eucl_nonneg (asV 3 (rvec b))
  apply eucl_le_sq (by positivity)
  rw [Fin.sum_univ_three] at ha hb ⊢
  have k0 := el (a 1) (b 2) (a 2) (b 1)
  have k1 := el (a 2) (b 0) (a 0) (b 2)
  have k2 := el (a 0) (b 1) (a 1) (b 0)
  change eucl _ ^ 2 = (a 0).val ^ 2 + (a 1).val ^ 2 + (a 2).val ^ 2 at ha
  change eucl _ ^ 2 = (b 0).val ^ 2 + (b 1).val ^ 2 + (b 2).val ^ 2 at hb
  change ((a 1 * b 2 - a 2 * b 1).val - ((a 1).val * (b 2).val - (a 2).val * (b 1).val)) ^ 2 +
    ((a 2 * b 0 - a 0 * b 2).val - ((a 2).val * (b 0).val - (a 0).val * (b 2).val)) ^ 2 +
    ((a 0 * b 1 - a 1 * b 0).val - ((a 0).val * (b 1).val - (a 1).val * (b 0).val)) ^ 2 ≤ _
  rw [mul_pow, mul_pow, mul_pow, ha, hb]
  refine (add_le_add (add_le_add k0 k1) k2).trans ?_
  have q := fun i : ℕ => mul_nonneg (sq_nonneg ρ.u) (mul_nonneg (sq_nonneg (a i).val) (sq_nonneg (b i).val))
  have hk : 0 ≤ ρ.u ^ 2 * (((a 0).val ^ 2 + (a 1).val ^ 2 + (a 2).val ^ 2) * ((b 0).val ^ 2 + (b 1).val ^ 2 + (b 2).val ^ 2)) := by positivity
  have := q 0
  have := q 1
  have := q 2
  norm_num
  nlinarith

/-- a frame of an orthonormal pair and its cross product -/
theorem frame_rot (n u : Lie.V 3) (n1 : n ⬝ᵥ n = 1) (hu : u ⬝ᵥ u = 1) (hun : u ⬝ᵥ n = 0) :
    IsRot (Matrix.of ![u, n, crossV u n] : M 3) := by
  rw [dot3] at hu hun n1
  constructor
  · ext i j
    fin_cases i <;> fin_cases j <;> simp [Matrix.mul_apply, Fin.sum_univ_three, crossV]
    · linear_combination hu
    · linear_combination hun
    · ring
    · linear_combination hun
    · linear_combination n1
    · ring
    · ring
    · ring
    · linear_combination (n 0 * n 0 + n 1 * n 1 + n 2 * n 2) * hu + n1 - (u 0 * n 0 + u 1 * n 1 + u 2 * n 2) * hun
  · rw [det_fin_three]
    simp [crossV]
    linear_combination (n 0 * n 0 + n 1 * n 1 + n 2 * n 2) * hu + n1 - (u 0 * n 0 + u 1 * n 1 + u 2 * n 2) * hun

theorem frob_sum {m n : ℕ} (A : Matrix (Fin m) (Fin n) ℝ) : frob A ^ 2 = ∑ i, ∑ j, A i j ^ 2 :=
  Real.sq_sqrt (sum_nonneg fun i _ => sum_nonneg fun j _ => sq_nonneg _)

theorem frob_frame (p q r p' q' r' : Lie.V 3) :
    frob ((Matrix.of ![p, q, r] : M 3) - Matrix.of ![p', q', r']) ^ 2 = eucl (p - p') ^ 2 + eucl (q - q') ^ 2 + eucl (r - r') ^ 2 := by
  rw [frob_sum]
  simp [eucl_sum, Fin.sum_univ_three]

theorem cross_sub_left (a b c : Lie.V 3) : crossV (a - b) c = crossV a c - crossV b c := by
  ext i; fin_cases i <;> simp only [crossV, Pi.sub_apply] <;> simp <;> ring
theorem cross_sub_right (a b c : Lie.V 3) : crossV a (b - c) = crossV a b - crossV a c := by
  ext i; fin_cases i <;> simp only [crossV, Pi.sub_apply] <;> simp <;> ring

/-- a frame computed from approximate axes -/
theorem frame_near (hu : ρ.u ≤ 1 / 10000) (t : ℝ) (ht : ρ.u ≤ t) (ht1 : t ≤ 1 / 1000) (c n w : Vec (Fl ρ)) (c' n' : Lie.V 3)
    (hc1 : eucl c' = 1) (hn1 : eucl n' = 1) (hc : eucl (asV 3 (rvec c) - c') ≤ 7 * ρ.u)
    (hn : eucl (asV 3 (rvec n) - n') ≤ 12.68 * t) :
    frob ((Matrix.of ![asV 3 (rvec c), asV 3 (rvec n), asV 3 (rvec (Ops.cross c n w))] : M 3) -
      Matrix.of ![c', n', crossV c' n']) ≤ 27 * t := by
  have h0 := ρ.u_nonneg
  have ht0 : 0 ≤ t := h0.trans ht
  have k := cross_near hu c n w
  have lc := eucl_le_of _ c' hc
  have ln := eucl_le_of _ n' hn
  rw [hc1] at lc
  rw [hn1] at ln
  have hC := eucl_nonneg (asV 3 (rvec c))
  have hN := eucl_nonneg (asV 3 (rvec n))
  generalize asV 3 (rvec c) = C at *
  generalize asV 3 (rvec n) = N at *
  generalize asV 3 (rvec (Ops.cross c n w)) = X at *
  have hCN : eucl C * eucl N ≤ 1.02 := by
    have := mul_le_mul (c := eucl N) (d := 1.01268) (show eucl C ≤ 1.0007 by norm_num at lc ⊢; linarith) (by norm_num at ln ⊢; linarith) hN (by norm_num)
    norm_num at this ⊢; linarith
  have e : X - crossV c' n' = (X - crossV C N) + (crossV (C - c') N + crossV c' (N - n')) := by
    rw [cross_sub_left, cross_sub_right]; abel
  have b1 : eucl (crossV (C - c') N) ≤ _ := eucl_cross (C - c') N
  have b2 : eucl (crossV c' (N - n')) ≤ _ := eucl_cross c' (N - n')
  rw [hc1, one_mul] at b2
  have hX : eucl (X - crossV c' n') ≤ 22.7 * t := by
    rw [e]
    have := eucl_add (X - crossV C N) (crossV (C - c') N + crossV c' (N - n'))
    have := eucl_add (crossV (C - c') N) (crossV c' (N - n'))
    have m1 : 2.84 * ρ.u * (eucl C * eucl N) ≤ 2.84 * ρ.u * 1.02 := mul_le_mul_of_nonneg_left hCN (by positivity)
    have m2 : eucl (C - c') * eucl N ≤ 7 * ρ.u * 1.01268 :=
      mul_le_mul hc (by norm_num at ln ⊢; linarith) hN (by positivity)
    generalize eucl (crossV (C - c') N + crossV c' (N - n')) = y1 at *
    generalize eucl (X - crossV C N + _) = y2 at *
    generalize eucl (crossV (C - c') N) = y3 at *
    generalize eucl (crossV c' (N - n')) = y4 at *
    generalize eucl (X - crossV C N) = y5 at *
    norm_num at *
    linarith
  have hsq := frob_frame C N X c' n' (crossV c' n')
  refine le_of_sq (by positivity) ?_
  rw [hsq]
  have s1 := pow_le_pow_left₀ (eucl_nonneg _) (hc.trans (mul_le_mul_of_nonneg_left ht (by norm_num))) 2
  have s2 := pow_le_pow_left₀ (eucl_nonneg _) hn 2
  have s3 := pow_le_pow_left₀ (eucl_nonneg _) hX 2
  have := sq_nonneg t
  norm_num [mul_pow] at s1 s2 s3 ⊢
  linarith

theorem eucl_unit {n : ℕ} (v : Fin n → ℝ) (hv : 0 < eucl v) : eucl ((1 / eucl v) • v) = 1 := by
  rw [eucl_smul', abs_of_pos (by positivity), one_div_mul_cancel hv.ne']

set_option maxHeartbeats 1000000 in
/-- **C90** `SO3(a, b)` for vectors that are not nearly parallel: if the sine `s` of the angle between them is at least `1000 u`, the stored
matrix is within `66 u/s` of the rotation about `a × b` that turns `a` into the direction of `b` -/
theorem c90_from_to_partial (hu : ρ.u ≤ 1 / 10000) (a b w : Vec (Fl ρ)) (M0 M1 W : Mat (Fl ρ)) (s : ℝ)
    (ha : 0 < eucl (asV 3 (rvec a))) (hb : 0 < eucl (asV 3 (rvec b)))
    (hs : s = eucl (crossV (asV 3 (rvec a)) (asV 3 (rvec b))) / (eucl (asV 3 (rvec a)) * eucl (asV 3 (rvec b))))
    (hs0 : 0 < s) (hsu : 1000 * ρ.u ≤ s) :
    ∃ (m : Mat (Fl ρ)) (R : M 3), so3FromToFl a b w M0 M1 W = some (.ok m) ∧ IsRot R ∧
      R.mulVec (crossV (asV 3 (rvec a)) (asV 3 (rvec b))) = crossV (asV 3 (rvec a)) (asV 3 (rvec b)) ∧
      (∃ k : ℝ, 0 < k ∧ R.mulVec (asV 3 (rvec a)) = k • asV 3 (rvec b)) ∧ frob (asM 3 3 (rmat m) - R) ≤ 66 * (ρ.u / s) := by
  have h0 := ρ.u_nonneg
  have h1 := ρ.u_lt_one
  have hab := mul_pos ha hb
  have hx : eucl (crossV (asV 3 (rvec a)) (asV 3 (rvec b))) = s * (eucl (asV 3 (rvec a)) * eucl (asV 3 (rvec b))) := by
    rw [hs]; field_simp
  have hxp : 0 < eucl (crossV (asV 3 (rvec a)) (asV 3 (rvec b))) := by rw [hx]; positivity
  have hs1 : s ≤ 1 := by rw [hs, div_le_one hab]; exact eucl_cross _ _
  have kc := cross_near hu a b w
  set t := ρ.u / s with ht
  have ht0 : 0 ≤ t := by positivity
  have htu : ρ.u ≤ t := by rw [ht, le_div_iff₀ hs0]; nlinarith
  have ht1 : t ≤ 1 / 1000 := by rw [ht, div_le_iff₀ hs0]; linarith
  have hts : ρ.u = t * s := by rw [ht]; field_simp
  -- the exact frame
  set A := asV 3 (rvec a) with hA
  set B := asV 3 (rvec b) with hB
  set X := crossV A B with hX
  set c := asV 3 (rvec (Ops.cross a b w)) with hc
  have hcX : eucl ((1 / eucl X) • c - (1 / eucl X) • X) ≤ 2.84 * t := by
    rw [← smul_sub, eucl_smul', abs_of_pos (by positivity), one_div, inv_mul_le_iff₀ hxp, hx]
    refine kc.trans (le_of_eq ?_)
    rw [hts]; ring
  have hXu := eucl_unit X hxp
  have hcpos : 0 < eucl c := by
    have := eucl_le_of _ _ (d := 2.84 * t) (by rw [eucl_sub_comm]; exact hcX)
    rw [hXu, eucl_smul', abs_of_pos (by positivity)] at this
    have h2 : 0 < 1 / eucl X * eucl c := by norm_num at this ht1 ⊢; linarith
    exact pos_of_mul_pos_right h2 (by positivity)
  have hcu : eucl ((1 / eucl c) • c - (1 / eucl X) • X) ≤ 5.68 * t := by
    have := unit_dist ((1 / eucl X) • c) ((1 / eucl X) • X) (by rw [eucl_smul', abs_of_pos (by positivity)]; positivity) hXu hcX
    rw [eucl_smul', abs_of_pos (by positivity), smul_smul] at this
    rw [show 1 / (1 / eucl X * eucl c) * (1 / eucl X) = 1 / eucl c by field_simp] at this
    norm_num at this ⊢; linarith
  obtain ⟨n, en, hn⟩ := unitFl_near le_rfl hu (Ops.cross a b w) w hcpos
  obtain ⟨ua, ea, hua⟩ := unitFl_near le_rfl hu a w ha
  obtain ⟨ub, eb, hub⟩ := unitFl_near le_rfl hu b w hb
  rw [← hc] at hn
  rw [← hA] at hua
  rw [← hB] at hub
  have hn' : eucl (asV 3 (rvec n) - (1 / eucl X) • X) ≤ 12.68 * t := by
    have := eucl_add (asV 3 (rvec n) - (1 / eucl c) • c) ((1 / eucl c) • c - (1 / eucl X) • X)
    rw [sub_add_sub_cancel] at this
    norm_num at *; linarith
  have hAu := eucl_unit A ha
  have hBu := eucl_unit B hb
  have fa := frame_near hu t htu ht1 ua n w _ _ hAu hXu hua hn'
  have fb := frame_near hu t htu ht1 ub n w _ _ hBu hXu hub hn'
  have dA : A ⬝ᵥ X = 0 := by rw [dot3]; simp [hX, crossV]; ring
  have dB : B ⬝ᵥ X = 0 := by rw [dot3]; simp [hX, crossV]; ring
  have du : ∀ {v : Lie.V 3}, eucl v = 1 → v ⬝ᵥ v = 1 := by intro v hv; rw [← eucl_sq, hv, one_pow]
  have rA := frame_rot ((1 / eucl X) • X) ((1 / eucl A) • A) (du hXu) (du hAu) (by rw [smul_dotProduct, dotProduct_smul, dA]; simp)
  have rB := frame_rot ((1 / eucl X) • X) ((1 / eucl B) • B) (du hXu) (du hBu) (by rw [smul_dotProduct, dotProduct_smul, dB]; simp)
  set FA : M 3 := Matrix.of ![(1 / eucl A) • A, (1 / eucl X) • X, crossV ((1 / eucl A) • A) ((1 / eucl X) • X)] with hFA
  set FB : M 3 := Matrix.of ![(1 / eucl B) • B, (1 / eucl X) • X, crossV ((1 / eucl B) • B) ((1 / eucl X) • X)] with hFB
  have hdot : Ops.dot 3 (Ops.cross a b w) (Ops.cross a b w) ≠ 0 := by
    intro h
    unfold unitFl at en
    rw [if_pos] at en
    · exact absurd en (by simp)
    · rw [h]; apply Fl.ext; rw [Fl.val_sqrt, Fl.val_zero, Real.sqrt_zero, Fl.rnd_zero]
  have ev : so3FromToFl a b w M0 M1 W = some (.ok (soMul 3
      (setCol (setCol (setCol M0 0 ub) 1 n) 2 (Ops.cross (fun r => setCol (setCol M0 0 ub) 1 n r 0) n w))
      (Mat.T (setCol (setCol (setCol M1 0 ua) 1 n) 2 (Ops.cross (fun r => setCol (setCol M1 0 ua) 1 n r 0) n w))) W)) := by
    unfold so3FromToFl
    dsimp only
    rw [if_neg hdot, en, Option.bind_some, ea, Option.bind_some, eb, Option.map_some]
  refine ⟨_, FBᵀ * FA, ev, ⟨?_, ?_⟩, ?_, ⟨eucl A / eucl B, div_pos ha hb, ?_⟩, ?_⟩
  · rw [transpose_mul, transpose_transpose, Matrix.mul_assoc, ← Matrix.mul_assoc FA, rA.orth, Matrix.one_mul, rB.orth']
  · rw [det_mul, det_transpose, rA.det, rB.det, mul_one]
  all_goals
    have rows : ∀ (F : M 3) (hF : IsRot F) (i : Fin 3), F.mulVec (F i) = Pi.single i 1 := by
      intro F hF i
      funext j
      have := congrFun (congrFun hF.orth j) i
      show F j ⬝ᵥ F i = _
      have e : F j ⬝ᵥ F i = (F * Fᵀ) j i := rfl
      rw [e, this, Matrix.one_apply, Pi.single_apply]
    have hR : ∀ i, (FBᵀ * FA).mulVec (FA i) = FB i := by
      intro i; rw [← mulVec_mulVec, rows FA rA]; funext j; simp
  · have e := hR 1
    change (FBᵀ * FA).mulVec ((1 / eucl X) • X) = (1 / eucl X) • X at e
    rw [mulVec_smul] at e
    exact smul_right_injective _ (by positivity : (1 / eucl X) ≠ 0) e
  · have e := hR 0
    change (FBᵀ * FA).mulVec ((1 / eucl A) • A) = (1 / eucl B) • B at e
    rw [mulVec_smul] at e
    have := congrArg (fun v => eucl A • v) e
    rw [smul_smul, smul_smul, mul_one_div_cancel ha.ne', one_smul, mul_one_div] at this
    exact this
  · have g := gam_le h0 hu 3 (by norm_num)
    have g0 : 0 ≤ gam ρ.u 3 := gam_nonneg h0 h1 (by push_cast; linarith)
    have key := c69_product (n := 3) (by push_cast; linarith)
      (setCol (setCol (setCol M0 0 ub) 1 n) 2 (Ops.cross (fun r => setCol (setCol M0 0 ub) 1 n r 0) n w))
      (Mat.T (setCol (setCol (setCol M1 0 ua) 1 n) 2 (Ops.cross (fun r => setCol (setCol M1 0 ua) 1 n r 0) n w))) W FBᵀ FA
      ⟨by rw [transpose_transpose]; exact rB.orth', by rw [det_transpose]; exact rB.det⟩ rA (27 * t) (27 * t)
      (by
        rw [← frob_transpose, transpose_sub, transpose_transpose]
        convert fb using 3
        ext i j; fin_cases i <;> fin_cases j <;> rfl)
      (by
        convert fa using 3
        ext i j; fin_cases i <;> fin_cases j <;> rfl)
    refine key.trans ?_
    push_cast at g ⊢
    have hg : 1 + 3 * gam ρ.u 3 ≤ 1 + 9.03 * t := by norm_num at g ⊢; linarith
    have hq : (1 + 27 * t) * (1 + 27 * t) ≤ 1 + 54.8 * t := by norm_num at *; nlinarith
    have := mul_le_mul hq hg (by positivity) (by positivity)
    norm_num at *; nlinarith

end TooN.FlRot
