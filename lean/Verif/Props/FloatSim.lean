import Verif.Model.FloatSim
import Verif.Model.SIM
import Verif.Props.FloatPose2
/-!
# C95: similarity transformations in floating point
-/
set_option linter.unusedSectionVars false
namespace TooN.FlRot
open Finset Lie Matrix
variable {ρ : Rounding} {n : ℕ}

theorem scale_err (s : Fl ρ) (x w : Vec (Fl ρ)) :
    eucl (asV n (rvec (Ops.applyScalarVL (· * ·) n s x w)) - s.val • asV n (rvec x)) ≤ ρ.u * (|s.val| * eucl (asV n (rvec x))) := by
  rw [← eucl_smul', ← eucl_smul _ ρ.u_nonneg]
  refine eucl_mono fun i => ?_
  have e : asV n (rvec (Ops.applyScalarVL (· * ·) n s x w)) i = ρ.rnd (s.val * (x i).val) := by
    change (Ops.applyScalarVL (· * ·) n s x w i).val = _
    rw [Ops.applyScalarVL, forN_vecset, if_pos i.2]; rfl
  rw [Pi.sub_apply, e]
  refine (ρ.err _).trans (le_of_eq ?_)
  rw [abs_mul ρ.u, abs_of_nonneg ρ.u_nonneg]; rfl

theorem scale_len (hu : ρ.u ≤ 1 / 10000) (s : Fl ρ) (x w : Vec (Fl ρ)) :
    eucl (asV n (rvec (Ops.applyScalarVL (· * ·) n s x w))) ≤ 1.0001 * (|s.val| * eucl (asV n (rvec x))) := by
  have h := eucl_le_of _ _ (scale_err (n := n) s x w)
  rw [eucl_smul'] at h
  have := mul_le_mul_of_nonneg_right hu (mul_nonneg (abs_nonneg s.val) (eucl_nonneg (asV n (rvec x))))
  norm_num at this ⊢; linarith

/-- rotation of a scaled vector -/
theorem rs_near (hn : n ≤ 3) (hu : ρ.u ≤ 1 / 10000) (a : Mat (Fl ρ)) {Q : M n} (hQ : IsRot Q) {e : ℝ} (he : e ≤ 1 / 100)
    (ha : frob (asM n n (rmat a) - Q) ≤ e) (s : Fl ρ) {σ κ : ℝ} (hκ : κ ≤ 1 / 100) (hs : |s.val - σ| ≤ κ * |σ|) (x w1 w2 : Vec (Fl ρ)) :
    eucl (asV n (rvec (soAct n a (Ops.applyScalarVL (· * ·) n s x w1) w2)) - Q.mulVec (σ • asV n (rvec x))) ≤
      (1.011 * e + κ + 6.32 * ρ.u) * (|σ| * eucl (asV n (rvec x))) := by
  have u0 := ρ.u_nonneg
  have e0 := (frob_nonneg _).trans ha
  have h1 := act_near hn hu a hQ he ha (Ops.applyScalarVL (· * ·) n s x w1) w2
  have h2 := scale_err (n := n) s x w1
  have h3 := scale_len (n := n) hu s x w1
  generalize asV n (rvec (soAct n a (Ops.applyScalarVL (· * ·) n s x w1) w2)) = r at *
  generalize asV n (rvec (Ops.applyScalarVL (· * ·) n s x w1)) = y at *
  generalize asV n (rvec x) = X at *
  have hX := eucl_nonneg X
  have hs' : |s.val| ≤ 1.01 * |σ| := by
    have : |s.val| ≤ |s.val - σ| + |σ| := by have := abs_add_le (s.val - σ) σ; rwa [sub_add_cancel] at this
    have := mul_le_mul_of_nonneg_right hκ (abs_nonneg σ)
    linarith
  have h4 : eucl ((s.val - σ) • X) ≤ κ * (|σ| * eucl X) := by
    rw [eucl_smul', ← mul_assoc]; exact mul_le_mul_of_nonneg_right hs hX
  have hP : |s.val| * eucl X ≤ 1.01 * (|σ| * eucl X) := by rw [← mul_assoc]; exact mul_le_mul_of_nonneg_right hs' hX
  have P0 : 0 ≤ |σ| * eucl X := mul_nonneg (abs_nonneg _) hX
  have e1 : r - Q.mulVec (σ • X) = (r - Q.mulVec y) + Q.mulVec ((y - s.val • X) + (s.val - σ) • X) := by
    rw [sub_smul, sub_add_sub_cancel, Matrix.mulVec_sub]; abel
  rw [e1]
  have g1 := eucl_add (r - Q.mulVec y) (Q.mulVec ((y - s.val • X) + (s.val - σ) • X))
  rw [eucl_orth hQ.orth'] at g1
  have g2 := eucl_add (y - s.val • X) ((s.val - σ) • X)
  generalize |σ| * eucl X = P at *
  generalize |s.val| * eucl X = P' at *
  have m1 := mul_le_mul_of_nonneg_left (h3.trans (mul_le_mul_of_nonneg_left hP (by norm_num))) (by positivity : 0 ≤ e + 5.25 * ρ.u)
  have m2 := mul_le_mul_of_nonneg_left hP u0
  have m3 : 0 ≤ e * P := mul_nonneg e0 P0
  have m4 : 0 ≤ ρ.u * P := mul_nonneg u0 P0
  norm_num at m1 m2 ⊢
  linarith

/-- the sum with the translation -/
theorem trans_near (hu : ρ.u ≤ 1 / 10000) (t r w : Vec (Fl ρ)) {b c : V n} {τ d : ℝ} (ht : eucl (asV n (rvec t) - b) ≤ τ)
    (hr : eucl (asV n (rvec r) - c) ≤ d) :
    eucl (asV n (rvec (Ops.addV n t r w)) - (b + c)) ≤ τ + 1.0001 * d + ρ.u * (eucl (asV n (rvec t)) + eucl c) := by
  have u0 := ρ.u_nonneg
  have h := addV_err (n := n) t r w
  generalize asV n (rvec (Ops.addV n t r w)) = z at *
  generalize asV n (rvec t) = t at *
  generalize asV n (rvec r) = r at *
  have d0 := (eucl_nonneg _).trans hr
  have e1 : z - (b + c) = (z - (t + r)) + ((t - b) + (r - c)) := by abel
  have g1 := eucl_add (z - (t + r)) ((t - b) + (r - c))
  have g2 := eucl_add (t - b) (r - c)
  have g3 := eucl_add t r
  have g4 := eucl_le_of r c hr
  have m1 := mul_le_mul_of_nonneg_left (g3.trans (by linarith : _ ≤ eucl t + (eucl c + d))) u0
  have m2 := mul_le_mul_of_nonneg_right hu d0
  rw [e1]
  norm_num at m2 ⊢
  linarith

/-- **C95** transforming a point by a stored similarity transformation within `(e, τ, κ)` of `x ↦ b + Q σ x` -/
theorem c95_act (hn : n ≤ 3) (hu : ρ.u ≤ 1 / 10000) (T : Sim ρ) {Q : M n} (hQ : IsRot Q) {e τ κ σ : ℝ} (he : e ≤ 1 / 100)
    (ha : frob (asM n n (rmat T.R) - Q) ≤ e) {b : V n} (hb : eucl (asV n (rvec T.t) - b) ≤ τ) (hκ : κ ≤ 1 / 100)
    (hs : |T.s.val - σ| ≤ κ * |σ|) (x w1 w2 w3 : Vec (Fl ρ)) :
    eucl (asV n (rvec (simAct n T x w1 w2 w3)) - (b + Q.mulVec (σ • asV n (rvec x)))) ≤
      τ + ρ.u * eucl (asV n (rvec T.t)) + (1.012 * e + 1.001 * κ + 7.33 * ρ.u) * (|σ| * eucl (asV n (rvec x))) := by
  have u0 := ρ.u_nonneg
  have e0 := (frob_nonneg _).trans ha
  have h := trans_near (n := n) hu T.t _ w3 hb (rs_near hn hu T.R hQ he ha T.s hκ hs x w1 w2)
  have hc : eucl (Q.mulVec (σ • asV n (rvec x))) = |σ| * eucl (asV n (rvec x)) := by rw [eucl_orth hQ.orth', eucl_smul']
  rw [hc] at h
  have P0 : 0 ≤ |σ| * eucl (asV n (rvec x)) := mul_nonneg (abs_nonneg _) (eucl_nonneg _)
  by_cases σ0 : |σ| * eucl (asV n (rvec x)) = 0
  · rw [σ0] at h ⊢
    simp only [mul_zero, add_zero] at h ⊢
    exact h
  have κ0 : 0 ≤ κ := by
    by_contra hk
    have hp : 0 < |σ| := by
      rcases eq_or_lt_of_le (abs_nonneg σ) with h0 | h0
      · rw [← h0, zero_mul] at σ0; exact absurd rfl σ0
      · exact h0
    have := (abs_nonneg _).trans hs
    nlinarith
  refine h.trans ?_
  generalize |σ| * eucl (asV n (rvec x)) = P at *
  have m1 : 0 ≤ e * P := mul_nonneg e0 P0
  have m2 : 0 ≤ κ * P := mul_nonneg κ0 P0
  have m3 : 0 ≤ ρ.u * P := mul_nonneg u0 P0
  norm_num; linarith

theorem scale_mul (a b : Fl ρ) {σ σ' κ κ' : ℝ} (hκ0 : 0 ≤ κ) (hκ0' : 0 ≤ κ')
    (ha : |a.val - σ| ≤ κ * |σ|) (hb : |b.val - σ'| ≤ κ' * |σ'|) :
    |(a * b).val - σ * σ'| ≤ ((1 + κ) * (1 + κ') * (1 + ρ.u) - 1) * |σ * σ'| := by
  have u0 := ρ.u_nonneg
  have h := ρ.err (a.val * b.val)
  change |ρ.rnd (a.val * b.val) - _| ≤ _
  have e1 : a.val * b.val - σ * σ' = (a.val - σ) * (b.val - σ') + ((a.val - σ) * σ' + σ * (b.val - σ')) := by ring
  have h1 : |a.val * b.val - σ * σ'| ≤ ((1 + κ) * (1 + κ') - 1) * |σ * σ'| := by
    rw [e1, abs_mul σ σ']
    refine (abs_add_le _ _).trans ?_
    have g := abs_add_le ((a.val - σ) * σ') (σ * (b.val - σ'))
    rw [abs_mul, abs_mul] at g
    rw [abs_mul]
    have m1 := mul_le_mul ha hb (abs_nonneg _) (by positivity)
    have m2 := mul_le_mul_of_nonneg_right ha (abs_nonneg σ')
    have m3 := mul_le_mul_of_nonneg_left hb (abs_nonneg σ)
    linarith
  have h2 : |a.val * b.val| ≤ (1 + κ) * (1 + κ') * |σ * σ'| := by
    have : |a.val * b.val| ≤ |a.val * b.val - σ * σ'| + |σ * σ'| := by
      have := abs_add_le (a.val * b.val - σ * σ') (σ * σ'); rwa [sub_add_cancel] at this
    linarith
  have e2 : ρ.rnd (a.val * b.val) - σ * σ' = (ρ.rnd (a.val * b.val) - a.val * b.val) + (a.val * b.val - σ * σ') := by ring
  rw [e2]
  refine (abs_add_le _ _).trans ?_
  have := mul_le_mul_of_nonneg_left h2 u0
  linarith

/-- **C95** the product of two stored similarity transformations -/
theorem c95_mul (hn : n ≤ 3) (hu : ρ.u ≤ 1 / 10000) (S T : Sim ρ) (w : SimJunk ρ) {P Q : M n} (hP : IsRot P) (hQ : IsRot Q)
    {e e' τ τ' κ κ' σ σ' : ℝ} (he : e ≤ 1 / 100) (ha : frob (asM n n (rmat S.R) - P) ≤ e) (ha' : frob (asM n n (rmat T.R) - Q) ≤ e')
    {b c : V n} (hb : eucl (asV n (rvec S.t) - b) ≤ τ) (hc : eucl (asV n (rvec T.t) - c) ≤ τ')
    (hκ0 : 0 ≤ κ) (hκ : κ ≤ 1 / 100) (hκ0' : 0 ≤ κ')
    (hs : |S.s.val - σ| ≤ κ * |σ|) (hs' : |T.s.val - σ'| ≤ κ' * |σ'|) :
    frob (asM n n (rmat (simMul n S T w).R) - P * Q) ≤ (1 + e) * (1 + e') * (1 + n * gam ρ.u n) - 1 ∧
    eucl (asV n (rvec (simMul n S T w).t) - (b + P.mulVec (σ • c))) ≤ τ + |σ| * τ' + ρ.u * eucl (asV n (rvec S.t)) +
      (1.012 * e + 1.001 * κ + 7.33 * ρ.u) * (|σ| * eucl (asV n (rvec T.t))) ∧
    |(simMul n S T w).s.val - σ * σ'| ≤ ((1 + κ) * (1 + κ') * (1 + ρ.u) - 1) * |σ * σ'| := by
  refine ⟨c69_product (small_bounds hn hu).1 _ _ _ P Q hP hQ e e' ha ha', ?_, scale_mul S.s T.s hκ0 hκ0' hs hs'⟩
  have h := c95_act hn hu S hP he ha hb hκ hs T.t w.v1 w.v2 w.v3
  change eucl (asV n (rvec (simMul n S T w).t) - _) ≤ _ at h
  generalize asV n (rvec (simMul n S T w).t) = z at *
  generalize asV n (rvec T.t) = t at *
  have e1 : z - (b + P.mulVec (σ • c)) = (z - (b + P.mulVec (σ • t))) + P.mulVec (σ • (t - c)) := by
    rw [smul_sub, Matrix.mulVec_sub]; abel
  rw [e1]
  have g := eucl_add (z - (b + P.mulVec (σ • t))) (P.mulVec (σ • (t - c)))
  rw [eucl_orth hP.orth', eucl_smul'] at g
  have := mul_le_mul_of_nonneg_left hc (abs_nonneg σ)
  linarith

/-- **C95** a product of `k+1` stored similarity transformations: rotation and scale drift at most geometrically, however long the chain -/
theorem c95_chain (hn : n ≤ 3) (hu : ρ.u ≤ 1 / 10000) (A : ℕ → Sim ρ) (W : ℕ → SimJunk ρ) (R : ℕ → M n) (σ : ℕ → ℝ) {ε κ : ℝ} (hκ : 0 ≤ κ)
    (k : ℕ) (hR : ∀ i, i ≤ k → IsRot (R i)) (ha : ∀ i, i ≤ k → frob (asM n n (rmat (A i).R) - R i) ≤ ε)
    (hs : ∀ i, i ≤ k → |(A i).s.val - σ i| ≤ κ * |σ i|) :
    frob (asM n n (rmat (simChain n A W k).R) - chain R k) ≤ (1 + ε) ^ (k + 1) * (1 + n * gam ρ.u n) ^ k - 1 ∧
    |(simChain n A W k).s.val - ∏ i ∈ range (k + 1), σ i| ≤ ((1 + κ) ^ (k + 1) * (1 + ρ.u) ^ k - 1) * |∏ i ∈ range (k + 1), σ i| := by
  have u0 := ρ.u_nonneg
  induction k with
  | zero =>
    refine ⟨?_, ?_⟩
    · have := ha 0 le_rfl
      rw [chain_zero]
      simpa [simChain] using this
    · simpa [simChain] using hs 0 le_rfl
  | succ k ih =>
    obtain ⟨i1, i2⟩ := ih (fun i hi => hR i (by omega)) (fun i hi => ha i (by omega)) (fun i hi => hs i (by omega))
    refine ⟨?_, ?_⟩
    · rw [chain_succ]
      have := c69_product (small_bounds hn hu).1 (simChain n A W k).R (A (k + 1)).R (W k).m (chain R k) (R (k + 1))
        (chain_isRot R k fun i hi => hR i (by omega)) (hR _ le_rfl) _ ε i1 (ha _ le_rfl)
      refine this.trans (le_of_eq ?_)
      ring
    · rw [prod_range_succ]
      have k0 : 0 ≤ (1 + κ) ^ (k + 1) * (1 + ρ.u) ^ k - 1 := by
        have a := one_le_pow₀ (by linarith : 1 ≤ 1 + κ) (n := k + 1)
        have b := one_le_pow₀ (by linarith : 1 ≤ 1 + ρ.u) (n := k)
        have := mul_le_mul a b zero_le_one (by positivity)
        linarith
      refine (scale_mul (simChain n A W k).s (A (k + 1)).s k0 hκ i2 (hs _ le_rfl)).trans (le_of_eq ?_)
      ring

/-! ## inverses -/

theorem inv_scale (hu : ρ.u ≤ 1 / 10000) {s : Fl ρ} {σ κ : ℝ} (hσ : σ ≠ 0) (hκ0 : 0 ≤ κ) (hκ : κ ≤ 1 / 100) (hs : |s.val - σ| ≤ κ * |σ|) :
    s ≠ 0 ∧ |(1 / s).val - 1 / σ| ≤ (1.0102 * κ + 1.0102 * ρ.u) * |1 / σ| ∧
      0.99 * |σ| ≤ |s.val| ∧ |(1 / s).val - 1 / s.val| ≤ ρ.u * (1 / |s.val|) := by
  have u0 := ρ.u_nonneg
  have hp := abs_pos.2 hσ
  have h1 : 0.99 * |σ| ≤ |s.val| := by
    have : |σ| ≤ |s.val| + |s.val - σ| := by
      have := abs_sub_abs_le_abs_sub σ s.val
      rw [abs_sub_comm σ s.val] at this; linarith
    have := mul_le_mul_of_nonneg_right hκ hp.le
    linarith
  have sp : 0 < |s.val| := lt_of_lt_of_le (by positivity) h1
  have sne := abs_pos.1 sp
  have e : |(1 / s).val - 1 / s.val| ≤ ρ.u * (1 / |s.val|) := by
    have := ρ.err (1 / s.val)
    rwa [abs_div, abs_one] at this
  refine ⟨fun h => sne (by rw [h]; rfl), ?_, h1, e⟩
  have f : |1 / s.val - 1 / σ| ≤ 1.0102 * κ * |1 / σ| := by
    rw [show 1 / s.val - 1 / σ = (σ - s.val) / s.val * (1 / σ) by field_simp, abs_mul]
    refine mul_le_mul_of_nonneg_right ?_ (abs_nonneg _)
    rw [abs_div, div_le_iff₀ sp, abs_sub_comm]
    have := mul_le_mul_of_nonneg_left h1 hκ0
    norm_num at this ⊢
    have := mul_nonneg hκ0 hp.le
    linarith
  have g : 1 / |s.val| ≤ 1.0102 * |1 / σ| := by
    rw [abs_div, abs_one, div_le_iff₀ sp]
    have : 1.0102 * (1 / |σ|) * (0.99 * |σ|) ≤ 1.0102 * (1 / |σ|) * |s.val| := mul_le_mul_of_nonneg_left h1 (by positivity)
    have k : 1.0102 * (1 / |σ|) * (0.99 * |σ|) = 1.0102 * 0.99 := by field_simp
    rw [k] at this
    norm_num at this ⊢; linarith
  have e2 : (1 / s).val - 1 / σ = ((1 / s).val - 1 / s.val) + (1 / s.val - 1 / σ) := by ring
  rw [e2]
  refine (abs_add_le _ _).trans ?_
  have := mul_le_mul_of_nonneg_left g u0
  linarith

/-- scaling a rotated vector -/
theorem sr_near (hn : n ≤ 3) (hu : ρ.u ≤ 1 / 10000) (a : Mat (Fl ρ)) {Q : M n} (hQ : IsRot Q) {e : ℝ} (he : e ≤ 1 / 100)
    (ha : frob (asM n n (rmat a) - Q) ≤ e) (s : Fl ρ) {σ κ : ℝ} (hκ : κ ≤ 2 / 100) (hs : |s.val - σ| ≤ κ * |σ|) (x w1 w2 : Vec (Fl ρ)) :
    eucl (asV n (rvec (Ops.applyScalarVL (· * ·) n s (soAct n a x w1) w2)) - σ • Q.mulVec (asV n (rvec x))) ≤
      (1.021 * e + κ + 6.4 * ρ.u) * (|σ| * eucl (asV n (rvec x))) := by
  have u0 := ρ.u_nonneg
  have e0 := (frob_nonneg _).trans ha
  have h1 := act_near hn hu a hQ he ha x w1
  have h2 := scale_err (n := n) s (soAct n a x w1) w2
  generalize asV n (rvec (Ops.applyScalarVL (· * ·) n s (soAct n a x w1) w2)) = z at *
  generalize asV n (rvec (soAct n a x w1)) = r at *
  generalize asV n (rvec x) = X at *
  have hX := eucl_nonneg X
  have hr : eucl r ≤ 1.0106 * eucl X := by
    have := eucl_le_of _ _ h1
    rw [eucl_orth hQ.orth'] at this
    have m1 := mul_le_mul_of_nonneg_right he hX
    have m2 := mul_le_mul_of_nonneg_right hu hX
    norm_num at this m1 m2 ⊢; linarith
  have hs' : |s.val| ≤ 1.02 * |σ| := by
    have : |s.val| ≤ |s.val - σ| + |σ| := by have := abs_add_le (s.val - σ) σ; rwa [sub_add_cancel] at this
    have := mul_le_mul_of_nonneg_right hκ (abs_nonneg σ)
    linarith
  have e1 : z - σ • Q.mulVec X = (z - s.val • r) + (s.val • (r - Q.mulVec X) + (s.val - σ) • Q.mulVec X) := by
    rw [smul_sub, sub_smul]; abel
  rw [e1]
  have g1 := eucl_add (z - s.val • r) (s.val • (r - Q.mulVec X) + (s.val - σ) • Q.mulVec X)
  have g2 := eucl_add (s.val • (r - Q.mulVec X)) ((s.val - σ) • Q.mulVec X)
  rw [eucl_smul', eucl_smul', eucl_orth hQ.orth'] at g2
  have m1 := mul_le_mul hs' h1 (eucl_nonneg _) (by positivity)
  have m2 := mul_le_mul_of_nonneg_left (mul_le_mul hs' hr (eucl_nonneg _) (by positivity)) u0
  have m3 := mul_le_mul_of_nonneg_right hs hX
  have p1 : 0 ≤ ρ.u * (|σ| * eucl X) := by positivity
  have p2 : 0 ≤ e * (|σ| * eucl X) := by positivity
  norm_num at m1 m2 ⊢
  linarith

/-- **C95** `SIM3::inverse` of a stored transformation within `(e, τ, κ)` of `x ↦ b + Q σ x`: no division by zero, and the result is near
`x ↦ -(1/σ) Q⁻¹ b + Q⁻¹ (1/σ) x` -/
theorem c95_sim3_inverse (hu : ρ.u ≤ 1 / 10000) (T : Sim ρ) (w1 w2 : Vec (Fl ρ)) {Q : M 3} (hQ : IsRot Q) {e τ κ σ : ℝ} (he : e ≤ 1 / 100)
    (ha : frob (asM 3 3 (rmat T.R) - Q) ≤ e) {b : V 3} (hb : eucl (asV 3 (rvec T.t) - b) ≤ τ) (hσ : σ ≠ 0) (hκ0 : 0 ≤ κ) (hκ : κ ≤ 1 / 100)
    (hs : |T.s.val - σ| ≤ κ * |σ|) :
    ∃ S : Sim ρ, sim3InvFl T w1 w2 = some S ∧ frob (asM 3 3 (rmat S.R) - Q⁻¹) ≤ e ∧
      eucl (asV 3 (rvec S.t) - -((1 / σ) • Q⁻¹.mulVec b)) ≤
        |1 / σ| * (τ + (1.021 * e + 1.0102 * κ + 7.42 * ρ.u) * eucl (asV 3 (rvec T.t))) ∧
      |S.s.val - 1 / σ| ≤ (1.0102 * κ + 1.0102 * ρ.u) * |1 / σ| := by
  obtain ⟨s0, h1, -, -⟩ := inv_scale hu hσ hκ0 hκ hs
  rw [Matrix.inv_eq_right_inv hQ.orth]
  have h := sr_near (n := 3) (by norm_num) hu (soInv T.R) (isRot_T hQ) he (near_T T.R ha) (1 / T.s) (by linarith) h1 T.t w1 w2
  unfold sim3InvFl
  dsimp only
  rw [if_neg s0]
  refine ⟨_, rfl, near_T T.R ha, ?_, h1⟩
  generalize Ops.applyScalarVL (· * ·) 3 (1 / T.s) (soAct 3 (soInv T.R) T.t w1) w2 = p at *
  have e1 : asV 3 (rvec fun i => -p i) = -asV 3 (rvec p) := rfl
  rw [e1]
  generalize asV 3 (rvec p) = z at *
  generalize asV 3 (rvec T.t) = t at *
  have e2 : -z - -((1 / σ) • Qᵀ.mulVec b) = -((z - (1 / σ) • Qᵀ.mulVec t) + (1 / σ) • Qᵀ.mulVec (t - b)) := by
    rw [Matrix.mulVec_sub, smul_sub]; abel
  rw [e2, eucl_neg]
  have g := eucl_add (z - (1 / σ) • Qᵀ.mulVec t) ((1 / σ) • Qᵀ.mulVec (t - b))
  rw [eucl_smul', eucl_orth (isRot_T hQ).orth'] at g
  have m := mul_le_mul_of_nonneg_left hb (abs_nonneg (1 / σ))
  have p1 := mul_nonneg ρ.u_nonneg (mul_nonneg (abs_nonneg (1 / σ)) (eucl_nonneg t))
  generalize |1 / σ| = ι at *
  linarith

/-- **C95** `SIM2::inverse` -/
theorem c95_sim2_inverse (hu : ρ.u ≤ 1 / 10000) (T : Sim ρ) (w1 w2 : Vec (Fl ρ)) {Q : M 2} (hQ : IsRot Q) {e τ κ σ : ℝ} (he : e ≤ 1 / 100)
    (ha : frob (asM 2 2 (rmat T.R) - Q) ≤ e) {b : V 2} (hb : eucl (asV 2 (rvec T.t) - b) ≤ τ) (hσ : σ ≠ 0) (hκ0 : 0 ≤ κ) (hκ : κ ≤ 97 / 10000)
    (hs : |T.s.val - σ| ≤ κ * |σ|) :
    ∃ S : Sim ρ, sim2InvFl T w1 w2 = some S ∧ frob (asM 2 2 (rmat S.R) - Q⁻¹) ≤ e ∧
      eucl (asV 2 (rvec S.t) - -(Q⁻¹.mulVec ((1 / σ) • b))) ≤
        |1 / σ| * (τ + (1.021 * e + 1.0102 * κ + 7.42 * ρ.u) * eucl (asV 2 (rvec T.t))) ∧
      |S.s.val - 1 / σ| ≤ (1.0102 * κ + 1.0102 * ρ.u) * |1 / σ| := by
  have u0 := ρ.u_nonneg
  have e0 := (frob_nonneg _).trans ha
  obtain ⟨s0, h1, -, -⟩ := inv_scale hu hσ hκ0 (by linarith) hs
  rw [Matrix.inv_eq_right_inv hQ.orth]
  have h := rs_near (n := 2) (by norm_num) hu (soInv T.R) (isRot_T hQ) he (near_T T.R ha) (1 / T.s)
    (by norm_num at hκ hu ⊢; linarith) h1 T.t w1 w2
  unfold sim2InvFl
  dsimp only
  rw [if_neg s0]
  refine ⟨_, rfl, near_T T.R ha, ?_, h1⟩
  generalize soAct 2 (soInv T.R) (Ops.applyScalarVL (· * ·) 2 (1 / T.s) T.t w1) w2 = p at *
  have e1 : asV 2 (rvec fun i => -p i) = -asV 2 (rvec p) := rfl
  rw [e1]
  generalize asV 2 (rvec p) = z at *
  generalize asV 2 (rvec T.t) = t at *
  have e2 : -z - -(Qᵀ.mulVec ((1 / σ) • b)) = -((z - Qᵀ.mulVec ((1 / σ) • t)) + Qᵀ.mulVec ((1 / σ) • (t - b))) := by
    rw [smul_sub, Matrix.mulVec_sub]; abel
  rw [e2, eucl_neg]
  have g := eucl_add (z - Qᵀ.mulVec ((1 / σ) • t)) (Qᵀ.mulVec ((1 / σ) • (t - b)))
  rw [eucl_orth (isRot_T hQ).orth', eucl_smul'] at g
  have m := mul_le_mul_of_nonneg_left hb (abs_nonneg (1 / σ))
  have p0 : 0 ≤ |1 / σ| * eucl t := mul_nonneg (abs_nonneg _) (eucl_nonneg t)
  have p1 := mul_nonneg u0 p0
  have p2 := mul_nonneg e0 p0
  generalize |1 / σ| = ι at *
  linarith

end TooN.FlRot
