import Verif.Props.FloatSE2
/-!
# C89: dead reckoning with `SE3::exp`
-/
set_option linter.unusedSectionVars false
namespace TooN.FlRot
open Finset Lie
variable {ρ : Rounding}

/-- the exponential of a twist is the homogeneous matrix of a rotation and a translation -/
theorem se3_exact_hom (mu : V 6) : (NormedSpace.exp (∑ i, mu i • se3Gen i) : M 4) =
    hom (NormedSpace.exp (skew (hi mu))) (fun i => (NormedSpace.exp (∑ i, mu i • se3Gen i) : M 4) i.castSucc (Fin.last 3)) := by
  obtain ⟨X, t, h⟩ : ∃ (X : M 3) (t : V 3), (NormedSpace.exp (∑ i, mu i • se3Gen i) : M 4) = hom X t := by
    rw [se3_gen_sum]
    by_cases h0 : hi mu = 0
    · have e : skew (hi mu) = 0 := by rw [h0]; ext i j; fin_cases i <;> fin_cases j <;> simp [skew]
      rw [e, exp_blk_trans]; exact ⟨_, _, rfl⟩
    · have hp : 0 < Real.sqrt (hi mu ⬝ᵥ hi mu) := Real.sqrt_pos.2 (dot_self_pos h0)
      have hq := Real.mul_self_sqrt (dot_self_nonneg (hi mu))
      rw [exp_blk_rigid (skew (hi mu)) (Real.sqrt (hi mu ⬝ᵥ hi mu)) hp.ne' (by rw [skew_cube_dot, hq]) (lo mu)]
      exact ⟨_, _, rfl⟩
  have hX : NormedSpace.exp (skew (hi mu)) = X := by
    ext i j
    rw [← (se3_exact mu _ rfl i j).1, h]; simp [hom, aug]
  rw [hX, h]
  congr 1
  ext i
  simp only [hom, aug, Fin.lastCases_last, Fin.lastCases_castSucc]

/-- the exact translation is never longer than the translation part of the twist -/
theorem se3_exact_short (mu : V 6) :
    eucl (fun i => (NormedSpace.exp (∑ i, mu i • se3Gen i) : M 4) i.castSucc (Fin.last 3)) ≤ eucl (lo mu) := by
  have hq := Real.sq_sqrt (dot_self_nonneg (hi mu))
  have hθ0 := Real.sqrt_nonneg (hi mu ⬝ᵥ hi mu)
  have key := fun i => (se3_exact mu _ rfl i i).2
  rw [funext key]
  set θ := Real.sqrt (hi mu ⬝ᵥ hi mu) with hθ
  unfold eucl
  apply Real.sqrt_le_sqrt
  have hB : (1 - Real.cos θ) / (θ * θ) = (1 - Real.cos θ) / (θ * θ) := rfl
  rcases hθ0.lt_or_eq with hp | hz
  · have hκ : 0 ≤ 2 * ((1 - Real.sin θ / θ) / (θ * θ)) - ((1 - Real.cos θ) / (θ * θ)) ^ 2 - ((1 - Real.sin θ / θ) / (θ * θ)) ^ 2 * θ ^ 2 := by
      have e : 2 * ((1 - Real.sin θ / θ) / (θ * θ)) - ((1 - Real.cos θ) / (θ * θ)) ^ 2 - ((1 - Real.sin θ / θ) / (θ * θ)) ^ 2 * θ ^ 2 =
          (θ ^ 2 - 2 * (1 - Real.cos θ)) / θ ^ 4 + (1 - (Real.sin θ ^ 2 + Real.cos θ ^ 2)) / θ ^ 4 := by
        field_simp; ring
      rw [e, Real.sin_sq_add_cos_sq, sub_self, zero_div, add_zero]
      have := Real.one_sub_sq_div_two_le_cos (x := θ)
      apply div_nonneg (by linarith) (by positivity)
    generalize (1 - Real.cos θ) / (θ * θ) = B at *
    generalize (1 - Real.sin θ / θ) / (θ * θ) = C at *
    have h2 : θ ^ 2 = hi mu 0 ^ 2 + hi mu 1 ^ 2 + hi mu 2 ^ 2 := by
      rw [hq]; simp [dotProduct, Fin.sum_univ_three]; ring
    have hn : 0 ≤ ∑ i, crossV (hi mu) (lo mu) i ^ 2 := sum_nonneg fun i _ => sq_nonneg _
    have := mul_nonneg hκ hn
    have e : ∑ i, (lo mu i + B * crossV (hi mu) (lo mu) i + C * crossV (hi mu) (crossV (hi mu) (lo mu)) i) ^ 2 =
        ∑ i, lo mu i ^ 2 - (2 * C - B ^ 2 - C ^ 2 * θ ^ 2) * ∑ i, crossV (hi mu) (lo mu) i ^ 2 := by
      rw [h2]
      generalize hi mu = w
      generalize lo mu = t
      simp [Fin.sum_univ_three, crossV]
      ring
    rw [e]; linarith
  · rw [← hz]
    simp

/-- products of homogeneous matrices -/
theorem chain_hom {n : ℕ} (R : ℕ → M n) (b : ℕ → V n) (k : ℕ) :
    chain (fun i => hom (R i) (b i)) k = hom (chain R k) (chainT R b k) := by
  induction k with
  | zero => simp [chain_zero, chainT]
  | succ k ih =>
    rw [chain_succ, ih, hom_mul, chain_succ]
    congr 1
    rw [chainT, chainT, sum_range_succ]; abel

theorem eucl3_le {v : V 3} {c : ℝ} (hc : 0 ≤ c) (h : ∀ i, |v i| ≤ c) : eucl v ≤ 1.7321 * c := by
  unfold eucl
  rw [Real.sqrt_le_left (by positivity), Fin.sum_univ_three]
  have := fun i => pow_le_pow_left₀ (abs_nonneg _) (h i) 2
  simp only [sq_abs] at this
  have h0 := this 0
  have h1 := this 1
  have h2 := this 2
  have := sq_nonneg c
  norm_num
  nlinarith

set_option maxHeartbeats 1000000 in
/-- **C89** dead reckoning in double precision: `T = exp(mu₀); T = T * exp(mu₁); …` with up to a million steps that turn by at most one
radian and whose translation parts are at most `ℓ` long, and a C library whose `sin` and `cos` are accurate to one part in `2⁵³`.  The
rotation is within `2·10⁻⁸` of that of the exact product of the exact exponentials, and the translation within
`(k+1)·(3·10⁻⁹ + 1.7·10⁻¹⁴ (k+1))·ℓ` of
that of the exact product: 2 cm after a million steps of one metre, of which 3 mm come from the branch of `c89_small_angle_wrong` -/
theorem c89_integrate (L : Libm Rounding.double) (hs : ∀ x, |(L.sin x).val - Real.sin x.val| ≤ 1 / 2 ^ 53)
    (hc : ∀ x, |(L.cos x).val - Real.cos x.val| ≤ 1 / 2 ^ 53) (mu : ℕ → Vec (Fl Rounding.double)) (W : ℕ → Junk Rounding.double)
    (V : ℕ → Mat (Fl Rounding.double)) (s s' : ℕ → Vec (Fl Rounding.double)) (k : ℕ) (hk : k < 1000000) (ℓ : ℝ)
    (hw : ∀ i, i ≤ k → eucl (asV 3 (rvec fun j => mu i (3 + j))) ≤ 1) (ht : ∀ i, i ≤ k → eucl (asV 3 (rvec (mu i))) ≤ ℓ)
    (T : Pose Rounding.double)
    (hT : T = seChain 3 (fun i => ⟨(se3ExpFl L (mu i) (V i) (s i) (s' i)).1, (se3ExpFl L (mu i) (V i) (s i) (s' i)).2⟩) W k)
    (X : M 4) (hX : X = chain (fun i => NormedSpace.exp (∑ j, asV 6 (rvec (mu i)) j • se3Gen j)) k) :
    frob (asM 3 3 (rmat T.R) - Matrix.of fun i j => X i.castSucc j.castSucc) ≤ 2e-8 ∧
    eucl (asV 3 (rvec T.t) - (fun i => X i.castSucc (Fin.last 3) : Lie.V 3)) ≤ (k + 1) * (3e-9 + 1.7e-14 * (k + 1)) * ℓ := by
  have hu : Rounding.double.u = 1 / 2 ^ 53 := Rounding.double_u
  have hu' : Rounding.double.u ≤ 1 / 10000 := by rw [hu]; norm_num
  have hn : ((3 : ℕ) : ℝ) * Rounding.double.u < 1 := by rw [hu]; norm_num
  have hℓ : 0 ≤ ℓ := le_trans (eucl_nonneg _) (ht 0 (by omega))
  set R : ℕ → M 3 := fun i => NormedSpace.exp (skew (asV 3 (rvec fun j => mu i (3 + j)))) with hRdef
  set b : ℕ → Lie.V 3 := fun i j => (NormedSpace.exp (∑ j, asV 6 (rvec (mu i)) j • se3Gen j) : M 4) j.castSucc (Fin.last 3) with hbdef
  have hR : ∀ i, i ≤ k → IsRot (R i) := fun i _ => exp_skew_rot _
  have hXX : X = hom (chain R k) (chainT R b k) := by
    rw [hX, ← chain_hom]
    congr 1
    funext i
    rw [hRdef, hbdef, se3_exact_hom, hi_rvec]
  have e1 : (Matrix.of fun i j => X i.castSucc j.castSucc : M 3) = chain R k := by rw [hXX]; ext i j; simp [hom, aug]
  have e2 : (fun i => X i.castSucc (Fin.last 3) : Lie.V 3) = chainT R b k := by rw [hXX]; ext i; simp only [hom, aug, Fin.lastCases_last, Fin.lastCases_castSucc]
  rw [e1, e2, hT]
  have hk' : (k : ℝ) + 1 ≤ 1000000 := by exact_mod_cast hk
  have hk0 : (0 : ℝ) ≤ k := Nat.cast_nonneg k
  have hg : gam Rounding.double.u 3 ≤ 3.4e-16 := by rw [gam, hu]; norm_num
  have hg0 : 0 ≤ gam Rounding.double.u 3 := gam_nonneg Rounding.double.u_nonneg Rounding.double.u_lt_one hn
  have hE : (1 + 131 / 2 ^ 53) * ((1 + 131 / 2 ^ 53) * (1 + (3 : ℕ) * gam Rounding.double.u 3)) ^ k - 1 ≤ 1.611e-14 * ((k : ℝ) + 1) := by
    have hx : (1 + 131 / 2 ^ 53) * (1 + (3 : ℕ) * gam Rounding.double.u 3) ≤ 1 + 145 / 2 ^ 53 := by
      rw [gam, hu]; norm_num
    have h1 := pow_le_pow_left₀ (by positivity) hx k
    have h2 := mul_le_mul (show (1 + 131 / 2 ^ 53 : ℝ) ≤ 1 + 145 / 2 ^ 53 by norm_num) h1 (by positivity) (by norm_num)
    have h3 := geom_lin (145 / 2 ^ 53) (by norm_num) (k + 1) (by push_cast; norm_num; linarith)
    rw [pow_succ'] at h3
    push_cast at h3
    refine le_trans (by linarith) (h3.trans ?_)
    rw [div_le_iff₀ (by norm_num; linarith)]
    norm_num; nlinarith
  set β : ℝ := 2.947e-9 * ℓ with hβ
  have key := c69_pose_drift hn (fun i => (⟨(se3ExpFl L (mu i) (V i) (s i) (s' i)).1, (se3ExpFl L (mu i) (V i) (s i) (s' i)).2⟩ : Pose Rounding.double))
    W R b k (131 / 2 ^ 53) β ℓ (1.611e-14 * ((k : ℝ) + 1)) ((1.612e-14 * ((k : ℝ) + 1) + 2.948e-9) * ℓ) hR ?_ ?_ ?_ hE ?_
  · refine ⟨key.1.trans (by norm_num at hk' ⊢; linarith), key.2.trans ?_⟩
    have hp : (1 + Rounding.double.u) ^ k ≤ 1 + 2e-10 := by
      rw [hu]
      have := geom_lin (1 / 2 ^ 53) (by norm_num) k (by norm_num; linarith)
      have h3 : (k : ℝ) * (1 / 2 ^ 53) / (1 - k * (1 / 2 ^ 53)) ≤ 2e-10 := by
        rw [div_le_iff₀ (by norm_num; linarith)]
        norm_num; linarith
      linarith
    rw [show ((k : ℝ) + 1) * (3e-9 + 1.7e-14 * (k + 1)) * ℓ = (k + 1) * ((3e-9 + 1.7e-14 * (k + 1)) * ℓ) by ring,
      show (1 + Rounding.double.u) ^ k * (((k : ℝ) + 1) * ((1.612e-14 * ((k : ℝ) + 1) + 2.948e-9) * ℓ + Rounding.double.u * (((k : ℝ) + 1) * ℓ))) =
        (k + 1) * ((1 + Rounding.double.u) ^ k * (1.612e-14 * ((k : ℝ) + 1) + 2.948e-9 + Rounding.double.u * ((k : ℝ) + 1)) * ℓ) by ring]
    refine mul_le_mul_of_nonneg_left (mul_le_mul_of_nonneg_right ?_ hℓ) (by linarith)
    refine (mul_le_mul_of_nonneg_right hp (by rw [hu]; positivity)).trans ?_
    rw [hu]
    norm_num; linarith
  · intro i hi
    have := frob_le_of_entries (asM 3 3 (rmat (se3ExpFl L (mu i) (V i) (s i) (s' i)).1) - R i) (43.5 / 2 ^ 53) (by norm_num) (fun a c => by
      have := c89_rotation hu' L _ hs hc (mu i) (V i) (s i) (s' i) a c
      rw [(se3_exact _ _ rfl a c).1, hi_rvec] at this
      refine le_trans this ?_
      have hwi := hw i hi
      rw [hu]
      norm_num at hwi ⊢
      linarith)
    refine this.trans ?_
    norm_num
  · intro i hi
    have hη : ∀ x : ℝ, (1 / 2 ^ 53 : ℝ) * min 1001 x ≤ 1 / 2 ^ 53 * 1001 := fun x =>
      mul_le_mul_of_nonneg_left (min_le_left _ _) (by norm_num)
    refine (eucl3_le (c := 1.7003e-9 * ℓ) (by positivity) (fun j => ?_)).trans ?_
    · refine (c89_translation hu' L _ hs hc (mu i) (V i) (s i) (s' i) j).trans ?_
      refine mul_le_mul ?_ (ht i hi) (eucl_nonneg _) (by norm_num)
      have := hη (1 / eucl (asV 3 (rvec fun j => mu i (3 + j))))
      generalize (1 / 2 ^ 53 : ℝ) * min 1001 (1 / eucl (asV 3 (rvec fun j => mu i (3 + j)))) = M at *
      rw [hu]
      norm_num at this ⊢
      linarith
    · rw [hβ]; norm_num; nlinarith
  · intro i hi
    have := se3_exact_short (asV 6 (rvec (mu i)))
    rw [lo_rvec] at this
    exact this.trans (ht i hi)
  · have hs3 : Real.sqrt ((3 : ℕ) : ℝ) ≤ 1.74 := by
      rw [Real.sqrt_le_left (by norm_num)]; norm_num
    have a1 : gam Rounding.double.u 3 * (Real.sqrt ((3 : ℕ) : ℝ) + 1.611e-14 * ((k : ℝ) + 1)) ≤ 3.4e-16 * 2 :=
      mul_le_mul hg (by norm_num at hs3 hk' ⊢; linarith) (by positivity) (by norm_num)
    rw [show ℓ + β = (1 + 2.947e-9) * ℓ by rw [hβ]; ring, ← mul_assoc, hβ, ← add_mul]
    refine mul_le_mul_of_nonneg_right ?_ hℓ
    generalize gam Rounding.double.u 3 * (Real.sqrt ((3 : ℕ) : ℝ) + 1.611e-14 * ((k : ℝ) + 1)) = G at *
    norm_num at a1 ⊢
    linarith

end TooN.FlRot
