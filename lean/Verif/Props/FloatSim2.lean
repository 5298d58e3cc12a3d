import Verif.Props.FloatSim
/-!
# C95, continued: there and back, exact arithmetic, a concrete case
-/
set_option linter.unusedSectionVars false
namespace TooN.FlRot
open Finset Lie Matrix
variable {ρ : Rounding} {n : ℕ}

/-- the lengths on the way -/
theorem rt_lengths {u S τ I X W e ly0 la ly lq v0 v1 v2 v3 v4 v5 : ℝ} (u0 : 0 ≤ u) (hu : u ≤ 1 / 10000) (X0 : 0 ≤ X) (W0 : 0 ≤ W) (τ0 : 0 ≤ τ)
    (e0 : 0 ≤ e) (he : e ≤ 1 / 100) (I0 : 0 ≤ I) (hIS : I * S ≤ 1.0001 * X) (hIτ : I * τ ≤ 1.0001 * W) (S0 : 0 ≤ S)
    (h0 : v0 ≤ u * S) (l0 : ly0 ≤ S + v0)
    (h1 : v1 ≤ 5.25 * u * ly0) (l1 : la ≤ (1 + e) * ly0 + v1)
    (h2 : v2 ≤ u * (τ + la)) (l2 : ly ≤ τ + la + v2)
    (h3 : v3 ≤ u * (I * ly)) (l3 : lq ≤ I * ly + v3)
    (h4 : v4 ≤ 5.25 * u * lq) (h5 : v5 ≤ 6.27 * u * (I * τ)) (n0 : 0 ≤ ly0) (n1 : 0 ≤ v0) :
    (1 + e) * ((1 + e) * (I * v0)) + ((1 + e) * (I * v1) + ((1 + e) * (I * v2) + ((1 + e) * v3 + (v4 + v5)))) ≤
      13.68 * u * X + 13.55 * u * W := by
  have p0 : 0 ≤ u * X := mul_nonneg u0 X0
  have p1 : 0 ≤ u * W := mul_nonneg u0 W0
  have a0 : ly0 ≤ 1.0001 * S := by
    have := mul_le_mul_of_nonneg_right hu S0; norm_num at this ⊢; linarith
  have a1 : la ≤ 1.0107 * S := by
    have m1 := mul_le_mul_of_nonneg_right he n0
    have m2 := mul_le_mul_of_nonneg_right hu n0
    norm_num at m1 m2 a0 ⊢; linarith
  have b0 : I * v0 ≤ 1.0001 * (u * X) := by
    have := mul_le_mul_of_nonneg_left h0 I0
    have := mul_le_mul_of_nonneg_left hIS u0
    linarith
  have a0' : I * ly0 ≤ 1.00021 * X := by
    have := mul_le_mul_of_nonneg_left a0 I0
    norm_num at this hIS ⊢; linarith
  have a1' : I * la ≤ 1.01081 * X := by
    have := mul_le_mul_of_nonneg_left a1 I0
    norm_num at this hIS ⊢; linarith
  have b1 : I * v1 ≤ 5.2512 * (u * X) := by
    have := mul_le_mul_of_nonneg_left h1 I0
    have := mul_le_mul_of_nonneg_left a0' u0
    linarith
  have b2 : I * v2 ≤ 1.01081 * (u * X) + 1.0001 * (u * W) := by
    have := mul_le_mul_of_nonneg_left h2 I0
    have := mul_le_mul_of_nonneg_left a1' u0
    have := mul_le_mul_of_nonneg_left hIτ u0
    linarith
  have uX : u * X ≤ 1 / 10000 * X := mul_le_mul_of_nonneg_right hu X0
  have uW : u * W ≤ 1 / 10000 * W := mul_le_mul_of_nonneg_right hu W0
  have ay : I * ly ≤ 1.01092 * X + 1.00021 * W := by
    have := mul_le_mul_of_nonneg_left l2 I0
    linarith
  have b3 : v3 ≤ 1.01092 * (u * X) + 1.00021 * (u * W) := by
    have := mul_le_mul_of_nonneg_left ay u0
    linarith
  have aq : lq ≤ 1.01103 * X + 1.00032 * W := by linarith
  have b4 : v4 ≤ 5.308 * (u * X) + 5.2518 * (u * W) := by
    have := mul_le_mul_of_nonneg_left aq u0
    linarith
  have b5 : v5 ≤ 6.271 * (u * W) := by
    have := mul_le_mul_of_nonneg_left hIτ u0
    linarith
  have I00 := mul_nonneg I0 n1
  have c0 : (1 + e) * (I * v0) ≤ 1.01 * (1.0001 * (u * X)) := mul_le_mul (by linarith) b0 I00 (by norm_num)
  have c00 : (1 + e) * ((1 + e) * (I * v0)) ≤ 1.01 * (1.01 * (1.0001 * (u * X))) :=
    mul_le_mul (by linarith) c0 (by positivity) (by norm_num)
  have up : ∀ z B : ℝ, z ≤ B → 0 ≤ B → (1 + e) * z ≤ 1.01 * B := fun z B hz hB =>
    (mul_le_mul_of_nonneg_left hz (by linarith)).trans (mul_le_mul_of_nonneg_right (by linarith) hB)
  have c1 := up _ _ b1 (by positivity)
  have c2 := up _ _ b2 (by positivity)
  have c3 := up _ _ b3 (by positivity)
  linarith

/-- the vectors on the way: `y0 = s x`, `a = A y0`, `y = t + a`, `q = si y`, `c = Aᵀ q`, `m = si Aᵀ t`, `z = -m + c`, all computed -/
theorem rt_core {u e s si : ℝ} (u0 : 0 ≤ u) (hu : u ≤ 1 / 10000) {A Q : M n} (hQ : IsRot Q) (he : e ≤ 1 / 100) (ha : frob (A - Q) ≤ e)
    {t X y0 a y q c m z : V n} (hs : s ≠ 0) (hsi : |si - 1 / s| ≤ u * (1 / |s|))
    (h0 : eucl (y0 - s • X) ≤ u * (|s| * eucl X)) (h1 : eucl (a - A.mulVec y0) ≤ 5.25 * u * eucl y0)
    (h2 : eucl (y - (t + a)) ≤ u * eucl (t + a)) (h3 : eucl (q - si • y) ≤ u * (|si| * eucl y))
    (h4 : eucl (c - Aᵀ.mulVec q) ≤ 5.25 * u * eucl q) (h5 : eucl (m - si • Aᵀ.mulVec t) ≤ 6.27 * u * (|si| * eucl t))
    (h6 : eucl (z - (-m + c)) ≤ u * eucl (-m + c)) :
    eucl (z - X) ≤ (2.011 * e + 15.8 * u) * eucl X + 13.6 * u * (eucl t / |s|) := by
  have sp := abs_pos.2 hs
  have e0 := (frob_nonneg _).trans ha
  have X0 := eucl_nonneg X
  have t0 := eucl_nonneg t
  have W0 : 0 ≤ eucl t / |s| := div_nonneg t0 sp.le
  have haT : frob (Aᵀ - Qᵀ) ≤ e := by rw [← Matrix.transpose_sub, frob_transpose]; exact ha
  have lA := fun v => stored_len hQ ha v
  have lT := fun v => stored_len (isRot_T hQ) haT v
  have hd := (stored_defect hQ he ha).2
  have sI : |si| * |s| ≤ 1.0001 := by
    have : |si| ≤ |si - 1 / s| + |1 / s| := by have := abs_add_le (si - 1 / s) (1 / s); rwa [sub_add_cancel] at this
    rw [abs_div, abs_one] at this
    have h : |si| ≤ 1.0001 * (1 / |s|) := by
      have := mul_le_mul_of_nonneg_right hu (one_div_pos.2 sp).le
      linarith
    have := mul_le_mul_of_nonneg_right h sp.le
    rwa [mul_assoc, one_div_mul_cancel sp.ne', mul_one] at this
  have hIS : |si| * (|s| * eucl X) ≤ 1.0001 * eucl X := by rw [← mul_assoc]; exact mul_le_mul_of_nonneg_right sI X0
  have hIτ : |si| * eucl t ≤ 1.0001 * (eucl t / |s|) := by
    have := mul_le_mul_of_nonneg_right sI W0
    rwa [mul_assoc, mul_div_cancel₀ _ sp.ne'] at this
  have ss : |si * s - 1| ≤ u := by
    have : si * s - 1 = (si - 1 / s) * s := by rw [sub_mul, one_div_mul_cancel hs]
    rw [this, abs_mul]
    have := mul_le_mul_of_nonneg_right hsi sp.le
    rwa [mul_assoc, one_div_mul_cancel sp.ne', mul_one] at this
  have k := rt_lengths (e := e) u0 hu X0 W0 t0 e0 he (abs_nonneg si) hIS hIτ (mul_nonneg sp.le X0) h0
    (by have := eucl_le_of y0 (s • X) le_rfl; rwa [eucl_smul'] at this) h1
    (by have := eucl_le_of a (A.mulVec y0) le_rfl; have := lA y0; linarith)
    (h2.trans (mul_le_mul_of_nonneg_left (eucl_add t a) u0))
    (by have := eucl_le_of y (t + a) le_rfl; have := eucl_add t a; linarith) h3
    (by have := eucl_le_of q (si • y) le_rfl; rwa [eucl_smul'] at this) h4 h5 (eucl_nonneg _) (eucl_nonneg _)
  have e1 : -m + c - X = ((si * s - 1) • Aᵀ.mulVec (A.mulVec X) + (Aᵀ * A - 1).mulVec X) + (Aᵀ.mulVec (A.mulVec (si • (y0 - s • X))) +
      (Aᵀ.mulVec (si • (a - A.mulVec y0)) + (Aᵀ.mulVec (si • (y - (t + a))) +
        (Aᵀ.mulVec (q - si • y) + ((c - Aᵀ.mulVec q) - (m - si • Aᵀ.mulVec t)))))) := by
    rw [Matrix.sub_mulVec, Matrix.one_mulVec, ← Matrix.mulVec_mulVec]
    simp only [Matrix.mulVec_sub, Matrix.mulVec_add, Matrix.mulVec_smul, smul_sub, smul_add, sub_smul, one_smul, mul_smul]
    abel
  have w0 : eucl ((si * s - 1) • Aᵀ.mulVec (A.mulVec X)) ≤ 1.0201 * u * eucl X := by
    rw [eucl_smul']
    have a1 := lT (A.mulVec X)
    have a2 := mul_le_mul_of_nonneg_left (lA X) (by linarith : 0 ≤ 1 + e)
    have a3 : eucl (Aᵀ.mulVec (A.mulVec X)) ≤ 1.0201 * eucl X := by
      have a4 : (1 + e) * ((1 + e) * eucl X) ≤ 1.01 * (1.01 * eucl X) :=
        mul_le_mul (by linarith) (mul_le_mul_of_nonneg_right (by linarith) X0) (by positivity) (by norm_num)
      linarith
    have := mul_le_mul ss a3 (eucl_nonneg _) u0
    linarith
  have w1 := (eucl_mulVec (Aᵀ * A - 1) X).trans (mul_le_mul_of_nonneg_right hd X0)
  have w2 := lT (A.mulVec (si • (y0 - s • X)))
  have w2' := mul_le_mul_of_nonneg_left (lA (si • (y0 - s • X))) (by linarith : 0 ≤ 1 + e)
  have w3 := lT (si • (a - A.mulVec y0))
  have w4 := lT (si • (y - (t + a)))
  have w5 := lT (q - si • y)
  rw [eucl_smul'] at w2' w3 w4
  have s1 : eucl (-m + c - X) ≤ (2.01 * e + 14.71 * u) * eucl X + 13.55 * u * (eucl t / |s|) := by
    rw [e1]
    have g0 := eucl_add ((si * s - 1) • Aᵀ.mulVec (A.mulVec X) + (Aᵀ * A - 1).mulVec X) (Aᵀ.mulVec (A.mulVec (si • (y0 - s • X))) +
      (Aᵀ.mulVec (si • (a - A.mulVec y0)) + (Aᵀ.mulVec (si • (y - (t + a))) +
        (Aᵀ.mulVec (q - si • y) + ((c - Aᵀ.mulVec q) - (m - si • Aᵀ.mulVec t))))))
    have g1 := eucl_add ((si * s - 1) • Aᵀ.mulVec (A.mulVec X)) ((Aᵀ * A - 1).mulVec X)
    have g2 := eucl_add (Aᵀ.mulVec (A.mulVec (si • (y0 - s • X)))) (Aᵀ.mulVec (si • (a - A.mulVec y0)) + (Aᵀ.mulVec (si • (y - (t + a))) +
        (Aᵀ.mulVec (q - si • y) + ((c - Aᵀ.mulVec q) - (m - si • Aᵀ.mulVec t)))))
    have g3 := eucl_add (Aᵀ.mulVec (si • (a - A.mulVec y0))) (Aᵀ.mulVec (si • (y - (t + a))) +
        (Aᵀ.mulVec (q - si • y) + ((c - Aᵀ.mulVec q) - (m - si • Aᵀ.mulVec t))))
    have g4 := eucl_add (Aᵀ.mulVec (si • (y - (t + a)))) (Aᵀ.mulVec (q - si • y) + ((c - Aᵀ.mulVec q) - (m - si • Aᵀ.mulVec t)))
    have g5 := eucl_add (Aᵀ.mulVec (q - si • y)) ((c - Aᵀ.mulVec q) - (m - si • Aᵀ.mulVec t))
    have g6 := eucl_sub (c - Aᵀ.mulVec q) (m - si • Aᵀ.mulVec t)
    have p := mul_nonneg u0 X0
    linarith
  have g := eucl_add (z - (-m + c)) (-m + c - X)
  rw [sub_add_sub_cancel] at g
  have l := eucl_le_of _ _ s1
  have m1 := mul_le_mul_of_nonneg_left l u0
  have p1 := mul_nonneg u0 X0
  have p2 := mul_nonneg u0 W0
  have p3 := mul_nonneg e0 X0
  have q1 := mul_le_mul_of_nonneg_right hu p1
  have q2 := mul_le_mul_of_nonneg_right hu p2
  have q3 := mul_le_mul_of_nonneg_right hu p3
  norm_num at m1 q1 q2 q3 s1 h6 ⊢
  linarith

/-- **C95** transforming a point by a stored `SIM3` and back by its `inverse()`: the point returns to within
`(2.011 e + 15.8 u)‖x‖ + 13.6 u ‖t‖/|s|`, whatever the scale -/
theorem c95_sim3_round_trip (hu : ρ.u ≤ 1 / 10000) (T : Sim ρ) {Q : M 3} (hQ : IsRot Q) {e : ℝ} (he : e ≤ 1 / 100)
    (ha : frob (asM 3 3 (rmat T.R) - Q) ≤ e) (hs : T.s.val ≠ 0) (x w1 w2 w3 w4 w5 w6 w7 w8 : Vec (Fl ρ)) :
    ∃ S : Sim ρ, sim3InvFl T w1 w2 = some S ∧
      eucl (asV 3 (rvec (simAct 3 S (simAct 3 T x w3 w4 w5) w6 w7 w8)) - asV 3 (rvec x)) ≤
        (2.011 * e + 15.8 * ρ.u) * eucl (asV 3 (rvec x)) + 13.6 * ρ.u * (eucl (asV 3 (rvec T.t)) / |T.s.val|) := by
  have u0 := ρ.u_nonneg
  have e0 := (frob_nonneg _).trans ha
  have hT := near_T T.R ha
  obtain ⟨s0, -, -, hsi⟩ := inv_scale (s := T.s) hu hs le_rfl (by norm_num) (by rw [sub_self, abs_zero, zero_mul])
  unfold sim3InvFl
  dsimp only
  rw [if_neg s0]
  refine ⟨_, rfl, ?_⟩
  have eT : asM 3 3 (rmat (soInv T.R)) = (asM 3 3 (rmat T.R))ᵀ := rfl
  have hm : eucl (asV 3 (rvec (Ops.applyScalarVL (· * ·) 3 (1 / T.s) (soAct 3 (soInv T.R) T.t w1) w2)) -
      (1 / T.s).val • (asM 3 3 (rmat T.R))ᵀ.mulVec (asV 3 (rvec T.t))) ≤ 6.27 * ρ.u * (|(1 / T.s).val| * eucl (asV 3 (rvec T.t))) := by
    have h1 := act_stored (n := 3) (by norm_num) hu (soInv T.R) (isRot_T hQ) he hT T.t w1
    have h2 := scale_err (n := 3) (1 / T.s) (soAct 3 (soInv T.R) T.t w1) w2
    rw [eT] at h1 hT
    have h3 := stored_len (isRot_T hQ) hT (asV 3 (rvec T.t))
    generalize asV 3 (rvec (Ops.applyScalarVL (· * ·) 3 (1 / T.s) (soAct 3 (soInv T.R) T.t w1) w2)) = z at *
    generalize asV 3 (rvec (soAct 3 (soInv T.R) T.t w1)) = r at *
    generalize asV 3 (rvec T.t) = t at *
    generalize (asM 3 3 (rmat T.R))ᵀ = B at *
    generalize (1 / T.s).val = si at *
    have e1 : z - si • B.mulVec t = (z - si • r) + si • (r - B.mulVec t) := by rw [smul_sub]; abel
    have g := eucl_add (z - si • r) (si • (r - B.mulVec t))
    rw [eucl_smul'] at g
    have t0 := eucl_nonneg t
    have l := eucl_le_of _ _ h1
    have l' : eucl r ≤ 1.0107 * eucl t := by
      have m1 := mul_le_mul_of_nonneg_right he t0
      have m2 := mul_le_mul_of_nonneg_right hu t0
      linarith
    have m1 := mul_le_mul_of_nonneg_left (mul_le_mul_of_nonneg_left l' (abs_nonneg si)) u0
    have m2 := mul_le_mul_of_nonneg_left h1 (abs_nonneg si)
    have p := mul_nonneg u0 (mul_nonneg (abs_nonneg si) t0)
    rw [e1]
    linarith
  have k2 := addV_err (n := 3) T.t (soAct 3 T.R (Ops.applyScalarVL (· * ·) 3 T.s x w3) w4) w5
  have k3 := scale_err (n := 3) (1 / T.s) (simAct 3 T x w3 w4 w5) w6
  have k4 := act_stored (n := 3) (by norm_num) hu (soInv T.R) (isRot_T hQ) he hT
    (Ops.applyScalarVL (· * ·) 3 (1 / T.s) (simAct 3 T x w3 w4 w5) w6) w7
  rw [eT] at k4
  exact rt_core u0 hu hQ he ha hs hsi (scale_err T.s x w3) (act_stored (by norm_num) hu T.R hQ he ha _ w4) k2 k3 k4 hm
    (addV_err (n := 3) (fun i => -Ops.applyScalarVL (· * ·) 3 (1 / T.s) (soAct 3 (soInv T.R) T.t w1) w2 i) _ w8)

/-- **C95** the same for `SIM2` -/
theorem c95_sim2_round_trip (hu : ρ.u ≤ 1 / 10000) (T : Sim ρ) {Q : M 2} (hQ : IsRot Q) {e : ℝ} (he : e ≤ 1 / 100)
    (ha : frob (asM 2 2 (rmat T.R) - Q) ≤ e) (hs : T.s.val ≠ 0) (x w1 w2 w3 w4 w5 w6 w7 w8 : Vec (Fl ρ)) :
    ∃ S : Sim ρ, sim2InvFl T w1 w2 = some S ∧
      eucl (asV 2 (rvec (simAct 2 S (simAct 2 T x w3 w4 w5) w6 w7 w8)) - asV 2 (rvec x)) ≤
        (2.011 * e + 15.8 * ρ.u) * eucl (asV 2 (rvec x)) + 13.6 * ρ.u * (eucl (asV 2 (rvec T.t)) / |T.s.val|) := by
  have u0 := ρ.u_nonneg
  have e0 := (frob_nonneg _).trans ha
  have hT := near_T T.R ha
  obtain ⟨s0, -, -, hsi⟩ := inv_scale (s := T.s) hu hs le_rfl (by norm_num) (by rw [sub_self, abs_zero, zero_mul])
  unfold sim2InvFl
  dsimp only
  rw [if_neg s0]
  refine ⟨_, rfl, ?_⟩
  have eT : asM 2 2 (rmat (soInv T.R)) = (asM 2 2 (rmat T.R))ᵀ := rfl
  have hm : eucl (asV 2 (rvec (soAct 2 (soInv T.R) (Ops.applyScalarVL (· * ·) 2 (1 / T.s) T.t w1) w2)) -
      (1 / T.s).val • (asM 2 2 (rmat T.R))ᵀ.mulVec (asV 2 (rvec T.t))) ≤ 6.27 * ρ.u * (|(1 / T.s).val| * eucl (asV 2 (rvec T.t))) := by
    have h1 := act_stored (n := 2) (by norm_num) hu (soInv T.R) (isRot_T hQ) he hT (Ops.applyScalarVL (· * ·) 2 (1 / T.s) T.t w1) w2
    have h2 := scale_err (n := 2) (1 / T.s) T.t w1
    have h2' := scale_len (n := 2) hu (1 / T.s) T.t w1
    rw [eT] at h1 hT
    have h3 := fun v => stored_len (isRot_T hQ) hT v
    generalize asV 2 (rvec (soAct 2 (soInv T.R) (Ops.applyScalarVL (· * ·) 2 (1 / T.s) T.t w1) w2)) = z at *
    generalize asV 2 (rvec (Ops.applyScalarVL (· * ·) 2 (1 / T.s) T.t w1)) = r at *
    generalize asV 2 (rvec T.t) = t at *
    generalize (asM 2 2 (rmat T.R))ᵀ = B at *
    generalize (1 / T.s).val = si at *
    have e1 : z - si • B.mulVec t = (z - B.mulVec r) + B.mulVec (r - si • t) := by rw [Matrix.mulVec_sub, Matrix.mulVec_smul]; abel
    have g := eucl_add (z - B.mulVec r) (B.mulVec (r - si • t))
    have t0 := eucl_nonneg t
    have p0 := mul_nonneg (abs_nonneg si) t0
    have m0 := h3 (r - si • t)
    have m1 : (1 + e) * eucl (r - si • t) ≤ 1.01 * (ρ.u * (|si| * eucl t)) := mul_le_mul (by linarith) h2 (eucl_nonneg _) (by norm_num)
    have m2 := mul_le_mul_of_nonneg_left h2' u0
    have p := mul_nonneg u0 p0
    rw [e1]
    linarith
  have k2 := addV_err (n := 2) T.t (soAct 2 T.R (Ops.applyScalarVL (· * ·) 2 T.s x w3) w4) w5
  have k3 := scale_err (n := 2) (1 / T.s) (simAct 2 T x w3 w4 w5) w6
  have k4 := act_stored (n := 2) (by norm_num) hu (soInv T.R) (isRot_T hQ) he hT
    (Ops.applyScalarVL (· * ·) 2 (1 / T.s) (simAct 2 T x w3 w4 w5) w6) w7
  rw [eT] at k4
  exact rt_core u0 hu hQ he ha hs hsi (scale_err T.s x w3) (act_stored (by norm_num) hu T.R hQ he ha _ w4) k2 k3 k4 hm
    (addV_err (n := 2) (fun i => -soAct 2 (soInv T.R) (Ops.applyScalarVL (· * ·) 2 (1 / T.s) T.t w1) w2 i) _ w8)

/-! ## exact arithmetic -/

/-- the stored object as a transformation of `Model/SIM.lean` -/
noncomputable def simVal (n : ℕ) (a : Sim Rounding.exact) : SIM n := ⟨asM n n (rmat a.R), asV n (rvec a.t), a.s.val⟩

theorem scale_exact (s : Fl Rounding.exact) (x w : Vec (Fl Rounding.exact)) :
    asV n (rvec (Ops.applyScalarVL (· * ·) n s x w)) = s.val • asV n (rvec x) := by
  funext i
  change (Ops.applyScalarVL (· * ·) n s x w i).val = _
  rw [Ops.applyScalarVL, forN_vecset, if_pos i.2]; rfl

theorem add_exact (a b w : Vec (Fl Rounding.exact)) : asV n (rvec (Ops.addV n a b w)) = asV n (rvec a) + asV n (rvec b) := by
  funext i
  have h := (c61_elementwise (ρ := Rounding.exact) n 0 0 a b w 0 (fun _ _ => 0) (fun _ _ => 0) (fun _ _ => 0)).1 i i.2
  have hu : Rounding.exact.u = 0 := rfl
  rw [hu, zero_mul] at h
  exact sub_eq_zero.1 (abs_nonpos_iff.1 h)

theorem mul_exact (a b w : Mat (Fl Rounding.exact)) : asM n n (rmat (soMul n a b w)) = asM n n (rmat a) * asM n n (rmat b) := by
  have h : ∀ i j : Fin n, (soMul n a b w i j).val = (asM n n (rmat a) * asM n n (rmat b)) i j := by
    intro i j
    rw [soMul, Ops.mulMM, evalM_apply, if_pos ⟨i.2, j.2⟩]
    exact dot_exact n (a i) ((Mat.T b) j)
  ext i j
  exact h i j

/-- **C95** in exact arithmetic these models are those of `Model/SIM.lean` -/
theorem c95_exact (a b : Sim Rounding.exact) (x w1 w2 w3 : Vec (Fl Rounding.exact)) (w : SimJunk Rounding.exact) :
    asV n (rvec (simAct n a x w1 w2 w3)) = SIM.act (simVal n a) (asV n (rvec x)) ∧
    simVal n (simMul n a b w) = SIM.mul (simVal n a) (simVal n b) ∧
    (sim3InvFl a w1 w2).map (simVal 3) = sim3Inv (simVal 3 a) ∧
    (sim2InvFl a w1 w2).map (simVal 2) = sim2Inv (simVal 2 a) := by
  have z : a.s = 0 ↔ a.s.val = 0 := ⟨fun h => congrArg Fl.val h, fun h => Fl.ext h⟩
  refine ⟨?_, ?_, ?_, ?_⟩
  · rw [simAct, add_exact, act_exact, scale_exact]; rfl
  · ext1
    · exact mul_exact _ _ _
    · change asV n (rvec (Ops.addV n a.t (soAct n a.R (Ops.applyScalarVL (· * ·) n a.s b.t w.v1) w.v2) w.v3)) = _
      rw [add_exact, act_exact, scale_exact]; rfl
    · rfl
  · unfold sim3InvFl sim3Inv
    dsimp only
    by_cases h : a.s.val = 0
    · rw [if_pos (z.2 h), if_pos (show (simVal 3 a).s = 0 from h)]; rfl
    · rw [if_neg (fun q => h (z.1 q)), if_neg (show ¬ (simVal 3 a).s = 0 from h), Option.map_some]
      congr 1
      ext1
      · rfl
      · change -asV 3 (rvec (Ops.applyScalarVL (· * ·) 3 (1 / a.s) (soAct 3 (soInv a.R) a.t w1) w2)) = _
        rw [scale_exact, act_exact]; rfl
      · rfl
  · unfold sim2InvFl sim2Inv
    dsimp only
    by_cases h : a.s.val = 0
    · rw [if_pos (z.2 h), if_pos (show (simVal 2 a).s = 0 from h)]; rfl
    · rw [if_neg (fun q => h (z.1 q)), if_neg (show ¬ (simVal 2 a).s = 0 from h), Option.map_some]
      congr 1
      ext1
      · rfl
      · change -asV 2 (rvec (soAct 2 (soInv a.R) (Ops.applyScalarVL (· * ·) 2 (1 / a.s) a.t w1) w2)) = _
        rw [act_exact, scale_exact]; rfl
      · rfl

/-- a quarter turn with scale three and some translation, stored in double precision: the hypotheses of the theorems above are met, with
`e = κ = 0` -/
example (T : Sim Rounding.double) (hR : T.R = fun r c => if r = 0 ∧ c = 1 then -1 else if r = 1 ∧ c = 0 then 1 else 0) (hs : T.s.val = 3)
    (x w1 w2 w3 w4 w5 w6 w7 w8 : Vec (Fl Rounding.double)) :
    ∃ S, sim2InvFl T w1 w2 = some S ∧
      eucl (asV 2 (rvec (simAct 2 S (simAct 2 T x w3 w4 w5) w6 w7 w8)) - asV 2 (rvec x)) ≤
        1.8e-15 * eucl (asV 2 (rvec x)) + 5.1e-16 * eucl (asV 2 (rvec T.t)) := by
  have hu : Rounding.double.u = 1 / 2 ^ 53 := Rounding.double_u
  have hQ : IsRot (!![0, -1; 1, 0] : M 2) := by
    constructor
    · ext i j; fin_cases i <;> fin_cases j <;> simp [Matrix.mul_apply, Fin.sum_univ_two]
    · simp [det_fin_two]
  have e0 : asM 2 2 (rmat T.R) = (!![0, -1; 1, 0] : M 2) := by
    rw [hR]; ext i j; fin_cases i <;> fin_cases j <;> simp [asM, rmat]
  have ha : frob (asM 2 2 (rmat T.R) - !![0, -1; 1, 0]) ≤ 0 := by rw [e0, sub_self, frob]; simp
  obtain ⟨S, h1, h2⟩ := c95_sim2_round_trip (by rw [hu]; norm_num) T hQ (by norm_num) ha (by rw [hs]; norm_num) x w1 w2 w3 w4 w5 w6 w7 w8
  refine ⟨S, h1, h2.trans ?_⟩
  rw [hu, hs]
  have a := eucl_nonneg (asV 2 (rvec x))
  have b := eucl_nonneg (asV 2 (rvec T.t))
  norm_num
  linarith

end TooN.FlRot
