import Verif.Proof.FloatLn
/-!
# C91: `SO3::ln` in rounded arithmetic
-/
set_option linter.unusedSectionVars false
namespace TooN.FlRot
open Finset Lie Matrix
variable {ρ : Rounding}

theorem scaleEq_near (v : Vec (Fl ρ)) (t : Fl ρ) :
    eucl (asV 3 (rvec (scaleEq v t)) - t.val • asV 3 (rvec v)) ≤ ρ.u * (|t.val| * eucl (asV 3 (rvec v))) := by
  rw [← mul_assoc, ← abs_of_nonneg (mul_nonneg ρ.u_nonneg (abs_nonneg t.val)), ← eucl_smul']
  apply eucl_mono
  intro i
  have e : scaleEq v t i = v i * t := by rw [scaleEq, forN_vecupd _ (fun _ x => x * t), if_pos i.2]
  rw [Pi.smul_apply, smul_eq_mul, abs_mul, abs_mul, abs_of_nonneg ρ.u_nonneg, abs_abs, mul_assoc, ← abs_mul]
  change |(scaleEq v t i).val - t.val * (v i).val| ≤ ρ.u * |t.val * (v i).val|
  rw [e, Fl.val_mul, mul_comm t.val]
  exact ρ.err _

theorem scaleVL_near (v w : Vec (Fl ρ)) (t : Fl ρ) :
    eucl (asV 3 (rvec (Ops.applyScalarVL (· * ·) 3 t v w)) - t.val • asV 3 (rvec v)) ≤ ρ.u * (|t.val| * eucl (asV 3 (rvec v))) := by
  rw [← mul_assoc, ← abs_of_nonneg (mul_nonneg ρ.u_nonneg (abs_nonneg t.val)), ← eucl_smul']
  apply eucl_mono
  intro i
  have e : Ops.applyScalarVL (· * ·) 3 t v w i = t * v i := by rw [Ops.applyScalarVL, forN_vecset, if_pos i.2]
  rw [Pi.smul_apply, smul_eq_mul, abs_mul, abs_mul, abs_of_nonneg ρ.u_nonneg, abs_abs, mul_assoc, ← abs_mul]
  change |(Ops.applyScalarVL (· * ·) 3 t v w i).val - t.val * (v i).val| ≤ ρ.u * |t.val * (v i).val|
  rw [e, Fl.val_mul]
  exact ρ.err _

theorem unit_scaled (v a : Lie.V 3) {κ d : ℝ} (hκ : 0 < κ) (ha : eucl a = 1) (hv : 0 < eucl v) (h : eucl (v - κ • a) ≤ d) :
    eucl ((1 / eucl v) • v - a) ≤ 2 * (d / κ) := by
  have hs : eucl ((1 / κ) • v) = 1 / κ * eucl v := by rw [eucl_smul', abs_of_pos (by positivity)]
  have h2 := unit_dist ((1 / κ) • v) a (by rw [hs]; positivity) ha (d := d / κ) (by
    have e : (1 / κ) • v - a = (1 / κ) • (v - κ • a) := by
      rw [smul_sub, smul_smul, one_div_mul_cancel hκ.ne', one_smul]
    rw [e, eucl_smul', abs_of_pos (by positivity), one_div_mul_eq_div]
    exact div_le_div_of_nonneg_right h hκ.le)
  rw [hs, smul_smul] at h2
  rwa [show 1 / (1 / κ * eucl v) * (1 / κ) = 1 / eucl v by field_simp] at h2

/-- accuracy of the library's `asin` and `acos` -/
structure LibmInv.Acc (L : LibmInv ρ) (η : ℝ) : Prop where
  asin : ∀ x : Fl ρ, |x.val| ≤ 1 → |(L.asin x).val - Real.arcsin x.val| ≤ η * |Real.arcsin x.val|
  acos : ∀ x : Fl ρ, |x.val| ≤ 1 → |(L.acos x).val - Real.arccos x.val| ≤ η * |Real.arccos x.val|

theorem half_lit (hu : ρ.u ≤ 1 / 10000) : 0.707 ≤ (lit (ρ := ρ) mSqrt1_2).val ∧ (lit (ρ := ρ) mSqrt1_2).val ≤ 0.7072 := by
  obtain ⟨q0, q1, q2⟩ := sqrt_half
  have h1 : 0.7071 ≤ mSqrt1_2 := by
    by_contra h; push Not at h
    have := mul_self_lt_mul_self q0.le h
    norm_num at this q2; linarith
  have h2 : mSqrt1_2 ≤ 0.70711 := by
    by_contra h; push Not at h
    have := mul_self_lt_mul_self (by norm_num) h
    norm_num at this q2; linarith
  obtain ⟨f, hf, e⟩ := of_fac (ρ := ρ) mSqrt1_2
  have g := abs_le.1 (fac_near ρ.u_nonneg hu hf (by norm_num))
  rw [e]
  push_cast at g
  have hp := hf.pos ρ.u_nonneg ρ.u_lt_one
  constructor
  · refine le_trans ?_ (mul_le_mul h1 (show 0.99989 ≤ f by norm_num at g ⊢; linarith) (by norm_num) q0.le)
    norm_num
  · refine le_trans (mul_le_mul h2 (show f ≤ 1.0001004 by norm_num at g ⊢; linarith) hp.le (by norm_num)) ?_
    norm_num

theorem ln_aux1 {u P A : ℝ} (hu : u ≤ 1 / 10000) (q1 : |P - Real.pi| ≤ 3.16 * u) (hA0 : -0.02 ≤ A) (hA1 : A ≤ 1.1) : |P - A| ≤ 3.2 := by
  have k2 := Real.pi_gt_d2
  have p1 := Real.pi_lt_d4
  have k3 : 3.16 * u ≤ 0.001 := by norm_num; linarith
  rw [abs_le] at q1 ⊢
  obtain ⟨k4, k5⟩ := q1
  generalize Real.pi = π at *
  norm_num at *
  constructor <;> linarith

theorem ln_aux2 {E u S κ X Y P : ℝ} (E0 : 0 ≤ E) (hE1 : E ≤ 1 / 2500) (uE : u ≤ 1 / 4 * E) (hs : 0 ≤ S) (hK1 : 0.56 ≤ κ)
    (hd2 : -(4.34 * u) ≤ -κ * S + X + Y) (hX : X ≤ κ * (1.74 * E)) (hY : Y ≤ 4.34 * E * P) (hP : P ≤ S + 1.74 * E) : S ≤ 8.4 * E := by
  have e9 : E * P ≤ E * (S + 1.74 * E) := mul_le_mul_of_nonneg_left hP E0
  have e10 : E * (S + 1.74 * E) ≤ 1 / 2500 * (S + 1.74 * E) := mul_le_mul_of_nonneg_right hE1 (by positivity)
  have e11 := e9.trans e10
  have e12 : κ * (S - 1.74 * E) ≤ 0.01 * S + 1.1 * E := by
    have e13 : κ * (S - 1.74 * E) = κ * S - κ * (1.74 * E) := by ring
    have e14 : 4.34 * E * P = 4.34 * (E * P) := by ring
    rw [e13]; rw [e14] at hY
    generalize κ * (1.74 * E) = z1 at *
    have e15 : -κ * S = -(κ * S) := by ring
    rw [e15] at hd2
    generalize κ * S = z2 at *
    generalize E * P = z3 at *
    clear e9 e10 e13 e14 e15
    norm_num at *; linarith
  by_contra hcon
  push Not at hcon
  have e16 : 0.56 * (S - 1.74 * E) ≤ κ * (S - 1.74 * E) := mul_le_mul_of_nonneg_right hK1 (by norm_num at hcon ⊢; linarith)
  have e17 := e16.trans e12
  norm_num at e17 hcon
  linarith

section main
variable {m : Mat (Fl ρ)} {R : M 3} {δ E η : ℝ} (hm : ∀ i j : Fin 3, |(m i j).val - R i j| ≤ δ) (hE : E = δ + 4 * ρ.u)
  (hE1 : E ≤ 1 / 2500) (hR : IsRot R) (L : LibmInv ρ) (hL : L.Acc η) (hη : 0 ≤ η) (hη1 : η ≤ 1 / 100)
  {a : Lie.V 3} {θ : ℝ} (ha : eucl a = 1) (h0 : 0 ≤ θ) (hpi : θ ≤ Real.pi) (hc : cosA R = Real.cos θ) (hA : antiV R = Real.sin θ • a)
include hm hE hE1 hR hη ha h0 hpi hc hA

omit hη in
/-- the antisymmetric part and its length -/
theorem ln_pre (r : Vec (Fl ρ)) : 0 ≤ E ∧ ρ.u ≤ 1 / 4 * E ∧ ρ.u ≤ 1 / 10000 ∧ 0 ≤ Real.sin θ ∧
    eucl (asV 3 (rvec (antiFl m r)) - Real.sin θ • a) ≤ 1.74 * E ∧
    |eucl (asV 3 (rvec (antiFl m r))) - Real.sin θ| ≤ 1.74 * E ∧
    ∃ g, Fac ρ.u 4 g ∧ (Fl.sqrt (Ops.dot 3 (antiFl m r) (antiFl m r))).val = eucl (asV 3 (rvec (antiFl m r))) * g := by
  have hE1' : δ + 4 * ρ.u ≤ 1 / 2500 := hE ▸ hE1
  obtain ⟨hδ, u0, hu⟩ := parts_nonneg hm hE1' hR
  have hs : 0 ≤ Real.sin θ := Real.sin_nonneg_of_nonneg_of_le_pi h0 hpi
  have h1 := anti_err hm hE1' hR r
  rw [hA, ← hE] at h1
  refine ⟨by rw [hE]; positivity, by rw [hE]; linarith, hu, hs, h1, ?_, ?_⟩
  · have ea : eucl (Real.sin θ • a) = Real.sin θ := by rw [eucl_smul', abs_of_nonneg hs, ha, mul_one]
    have k1 := eucl_le_of _ _ h1
    have k2 := eucl_le_of (Real.sin θ • a) (asV 3 (rvec (antiFl m r))) (d := 1.74 * E) (by rw [eucl_sub_comm]; exact h1)
    rw [ea] at k1 k2
    rw [abs_le]; constructor <;> linarith
  · obtain ⟨g, hg, e⟩ := norm_fac 3 (antiFl m r)
    refine ⟨g, hg, ?_⟩
    change (normFl 3 (antiFl m r)).val = _
    rw [e, eucl, Finset.sum_range]; rfl

include hL hη1

/-- first branch -/
theorem ln_small (J : LnJunk ρ) (hb : (m 0 0 + m 1 1 + m 2 2 - 1) * lit 0.5 > lit mSqrt1_2) :
    ∃ w, so3LnFl L m J = some w ∧ eucl (asV 3 (rvec w) - θ • a) ≤ 11 * E + 1.1 * η := by
  obtain ⟨E0, uE, hu, hs, hp, hp', g, hg, eg⟩ := ln_pre hm hE hE1 hR ha h0 hpi hc hA J.res
  have u0 := ρ.u_nonneg
  have hce := cos_err hm (hE ▸ hE1) hR hc (Real.abs_cos_le_one θ)
  rw [← hE] at hce
  have hlit := half_lit hu
  have hb' : (lit mSqrt1_2).val < ((m 0 0 + m 1 1 + m 2 2 - 1) * lit 0.5).val := hb
  have hcos : 0.706 ≤ Real.cos θ := by
    have := abs_le.1 hce
    norm_num at this hlit ⊢; linarith
  have hsin : Real.sin θ ≤ 0.7083 := by
    by_contra h; push Not at h
    have := Real.sin_sq_add_cos_sq θ
    norm_num at hcos h
    nlinarith
  have hth : Real.arcsin (Real.sin θ) = θ := by
    refine Real.arcsin_sin (by linarith [Real.pi_pos]) ?_
    by_contra h; push Not at h
    have := Real.cos_nonpos_of_pi_div_two_le_of_le h.le (by linarith [Real.pi_pos])
    norm_num at hcos; linarith
  set p := asV 3 (rvec (antiFl m J.res)) with hpd
  have er : eucl (Real.sin θ • a) = Real.sin θ := by rw [eucl_smul', abs_of_nonneg hs, ha, mul_one]
  have hF : (Real.arcsin (eucl (Real.sin θ • a)) / eucl (Real.sin θ • a)) • (Real.sin θ • a) = θ • a := by
    rw [er, hth, smul_smul]
    rcases hs.lt_or_eq with h | h
    · rw [div_mul_cancel₀ _ h.ne']
    · have : θ = 0 := by rw [← hth, ← h, Real.arcsin_zero]
      rw [this]; simp
  have hp2 := abs_le.1 hp'
  have P0 := eucl_nonneg p
  have hP : eucl p ≤ 0.709 := by norm_num at hp2 hsin ⊢; linarith
  have hd := dir_lip p (Real.sin θ • a) (by norm_num at hP ⊢; linarith) (by rw [er]; norm_num at hsin ⊢; linarith)
  rw [hF] at hd
  have gp := hg.pos u0 ρ.u_lt_one
  have gn := fac_near u0 hu hg (by norm_num)
  push_cast at gn
  unfold so3LnFl
  dsimp only
  rw [if_pos hb]
  by_cases hz : Fl.sqrt (Ops.dot 3 (antiFl m J.res) (antiFl m J.res)) > 0
  · rw [if_pos hz]
    generalize Fl.sqrt (Ops.dot 3 (antiFl m J.res) (antiFl m J.res)) = s at *
    refine ⟨_, rfl, ?_⟩
    have sp : 0 < s.val := hz
    have Pp : 0 < eucl p := by
      rcases P0.lt_or_eq with h | h
      · exact h
      · rw [eg, ← h, zero_mul] at sp; exact absurd sp (lt_irrefl _)
    have hsd : |s.val - eucl p| ≤ 0.709 * (4 * (1.003 * ρ.u)) := by
      rw [eg, ← mul_sub_one, abs_mul, abs_of_pos Pp]
      exact mul_le_mul hP gn (abs_nonneg _) (by norm_num)
    have hs1 : s.val ≤ 0.7095 := by
      have := abs_le.1 hsd
      norm_num at this hP ⊢; linarith
    have as : |s.val| ≤ 0.73 := by rw [abs_of_pos sp]; norm_num at hs1 ⊢; linarith
    have h1 := arcsin_lip as (y := eucl p) (by rw [abs_of_pos Pp]; norm_num at hP ⊢; linarith)
    have h2 := hL.asin s (by norm_num at as ⊢; linarith)
    have h3 := arcsin_le as
    rw [abs_of_pos sp] at h3
    obtain ⟨f, hf, ef⟩ := Fl.div_fac (L.asin s) s
    have hfg := fac_near u0 hu (hf.div u0 ρ.u_lt_one hg) (by norm_num)
    push_cast at hfg
    have fp := hf.pos u0 ρ.u_lt_one
    have et : (L.asin s / s).val * eucl p = (L.asin s).val * (f / g) := by
      rw [ef, eg]; field_simp
    have hsc := scaleEq_near (antiFl m J.res) (L.asin s / s)
    rw [← hpd] at hsc
    generalize (L.asin s / s) = t at *
    generalize (L.asin s).val = A at *
    have hAs : |Real.arcsin s.val| ≤ 1.0643 := by norm_num at h3 hs1 ⊢; linarith
    have h2' : |A - Real.arcsin s.val| ≤ 1.0643 * η := h2.trans (by rw [mul_comm]; exact mul_le_mul_of_nonneg_right hAs hη)
    have hA1 : |A| ≤ 1.08 := by
      have := abs_sub_abs_le_abs_sub A (Real.arcsin s.val)
      norm_num at this h2' hAs ⊢; linarith
    have h4 : |A * (f / g) - A| ≤ 1.08 * (5 * (1.003 * ρ.u)) := by
      rw [← mul_sub_one, abs_mul]; exact mul_le_mul hA1 hfg (abs_nonneg _) (by norm_num)
    -- the scale factor
    have h5 : |t.val * eucl p - Real.arcsin (eucl p)| ≤ 9.69 * ρ.u + 1.0643 * η := by
      rw [et]
      rw [abs_le] at h1 h2' h4 hsd ⊢
      have h1a : 1.5 * |s.val - eucl p| ≤ 1.5 * (0.709 * (4 * (1.003 * ρ.u))) := mul_le_mul_of_nonneg_left (abs_le.2 hsd) (by norm_num)
      norm_num at h1 h2' h4 h1a ⊢
      constructor <;> linarith
    have h6 : |t.val| * eucl p ≤ 1.09 := by
      rw [← abs_of_pos Pp, ← abs_mul, et, abs_mul]
      have : |f / g| ≤ 1.001 := by
        have := abs_le.1 hfg
        rw [abs_of_pos (div_pos fp gp)]; norm_num at this ⊢; linarith
      exact (mul_le_mul hA1 this (abs_nonneg _) (by norm_num)).trans (by norm_num)
    have h7 : eucl (t.val • p - (Real.arcsin (eucl p) / eucl p) • p) ≤ 9.69 * ρ.u + 1.0643 * η := by
      rw [← sub_smul, eucl_smul', ← abs_of_pos Pp, ← abs_mul, abs_of_pos Pp, sub_mul, div_mul_cancel₀ _ Pp.ne']
      exact h5
    have h8 := mul_le_mul_of_nonneg_left h6 u0
    have tri : ∀ x y z q : Lie.V 3, eucl (x - q) ≤ eucl (x - y) + eucl (y - z) + eucl (z - q) := by
      intro x y z q
      have e : x - q = (x - y) + (y - z) + (z - q) := by abel
      rw [e]
      exact (eucl_add _ _).trans (by gcongr; exact eucl_add _ _)
    refine (tri _ (t.val • p) ((Real.arcsin (eucl p) / eucl p) • p) _).trans ?_
    norm_num at hsc h8 h7 hd hp ⊢
    linarith
  · rw [if_neg hz]
    refine ⟨_, rfl, ?_⟩
    have hz' : ¬ 0 < eucl p * g := by rw [← eg]; exact hz
    have P1 : eucl p = 0 := by
      rcases P0.lt_or_eq with h | h
      · exact absurd (mul_pos h gp) hz'
      · exact h.symm
    have P2 : p = 0 := by
      funext i
      have := abs_le_eucl p i
      rw [P1] at this
      exact abs_nonpos_iff.1 this
    rw [← hpd, P2]
    rw [P2, smul_zero] at hd
    rw [P2] at hp
    norm_num at hd hp ⊢
    linarith

/-- second branch -/
theorem ln_middle (J : LnJunk ρ) (hb : ¬ (m 0 0 + m 1 1 + m 2 2 - 1) * lit 0.5 > lit mSqrt1_2)
    (hb2 : (m 0 0 + m 1 1 + m 2 2 - 1) * lit 0.5 > -lit mSqrt1_2) :
    ∃ w, so3LnFl L m J = some w ∧ eucl (asV 3 (rvec w) - θ • a) ≤ 20 * E + 2.8 * η := by
  obtain ⟨E0, uE, hu, hs, hp, hp', g, hg, eg⟩ := ln_pre hm hE hE1 hR ha h0 hpi hc hA J.res
  have u0 := ρ.u_nonneg
  have hce := cos_err hm (hE ▸ hE1) hR hc (Real.abs_cos_le_one θ)
  rw [← hE] at hce
  have hlit := half_lit hu
  have hb' : ¬ (lit mSqrt1_2).val < ((m 0 0 + m 1 1 + m 2 2 - 1) * lit 0.5).val := hb
  have hb2' : -(lit mSqrt1_2).val < ((m 0 0 + m 1 1 + m 2 2 - 1) * lit 0.5).val := hb2
  unfold so3LnFl
  dsimp only
  rw [if_neg hb, if_pos hb2]
  generalize (m 0 0 + m 1 1 + m 2 2 - 1) * lit 0.5 = C at *
  have hC : |C.val| ≤ 0.7072 := by
    rw [abs_le]; constructor <;> linarith [not_lt.1 hb']
  have hcos : |Real.cos θ| ≤ 0.7078 := by
    have := abs_le.1 hce
    have := abs_le.1 hC
    rw [abs_le]
    norm_num at *; constructor <;> linarith
  have hsin : 0.7063 ≤ Real.sin θ := by
    by_contra h; push Not at h
    have := Real.sin_sq_add_cos_sq θ
    have h2 := pow_le_pow_left₀ (abs_nonneg _) hcos 2
    rw [sq_abs] at h2
    have h3 := pow_le_pow_left₀ hs h.le 2
    norm_num at h2 h3; linarith
  have hth : Real.arccos (Real.cos θ) = θ := Real.arccos_cos h0 hpi
  have acl := arccos_lip (x := C.val) (y := Real.cos θ) (by norm_num at hC ⊢; linarith) (by norm_num at hcos ⊢; linarith)
  rw [hth] at acl
  have acl' : |Real.arccos C.val - θ| ≤ 2.25 * E := acl.trans (by norm_num at hce ⊢; linarith)
  have ac1 : |Real.arccos C.val| ≤ 2.7 := by
    have h1 := abs_le.1 (arcsin_le (x := C.val) (by norm_num at hC ⊢; linarith))
    rw [abs_of_nonneg (Real.arccos_nonneg _), Real.arccos]
    have := Real.pi_lt_d4
    norm_num at h1 hC this ⊢; linarith
  have ac2 := hL.acos C (by norm_num at hC ⊢; linarith)
  have ac3 : |(L.acos C).val - Real.arccos C.val| ≤ 2.7 * η := ac2.trans (by rw [mul_comm]; exact mul_le_mul_of_nonneg_right ac1 hη)
  set p := asV 3 (rvec (antiFl m J.res)) with hpd
  have hp2 := abs_le.1 hp'
  have Pp : 0 < eucl p := by norm_num at hp2 hsin; linarith
  have gp := hg.pos u0 ρ.u_lt_one
  have sp : 0 < (Fl.sqrt (Ops.dot 3 (antiFl m J.res) (antiFl m J.res))).val := by rw [eg]; exact mul_pos Pp gp
  rw [if_neg (by intro h; rw [h, Fl.val_zero] at sp; exact lt_irrefl _ sp)]
  refine ⟨_, rfl, ?_⟩
  generalize Fl.sqrt (Ops.dot 3 (antiFl m J.res) (antiFl m J.res)) = s at *
  have hdir := unit_scaled p a (lt_of_lt_of_le (by norm_num) hsin) ha Pp hp
  have hdir' : eucl ((1 / eucl p) • p - a) ≤ 4.93 * E := by
    refine hdir.trans ?_
    rw [← mul_div_assoc, div_le_iff₀ (lt_of_lt_of_le (by norm_num) hsin)]
    have := mul_le_mul_of_nonneg_left hsin E0
    norm_num at this ⊢; linarith
  obtain ⟨f, hf, ef⟩ := Fl.div_fac (L.acos C) s
  have hfg := fac_near u0 hu (hf.div u0 ρ.u_lt_one hg) (by norm_num)
  push_cast at hfg
  have fp := hf.pos u0 ρ.u_lt_one
  have et : (L.acos C / s).val * eucl p = (L.acos C).val * (f / g) := by
    rw [ef, eg]; field_simp
  have hsc := scaleEq_near (antiFl m J.res) (L.acos C / s)
  rw [← hpd] at hsc
  generalize (L.acos C / s) = t at *
  generalize (L.acos C).val = A at *
  have hA1 : |A| ≤ 2.73 := by
    have := abs_sub_abs_le_abs_sub A (Real.arccos C.val)
    norm_num at this ac3 ac1 ⊢; linarith
  have h4 : |A * (f / g) - A| ≤ 2.73 * (5 * (1.003 * ρ.u)) := by
    rw [← mul_sub_one, abs_mul]; exact mul_le_mul hA1 hfg (abs_nonneg _) (by norm_num)
  have h5 : |t.val * eucl p - θ| ≤ 13.7 * ρ.u + 2.25 * E + 2.7 * η := by
    rw [et]
    rw [abs_le] at h4 ac3 acl' ⊢
    norm_num at h4 ac3 acl' ⊢
    constructor <;> linarith
  have h6 : |t.val| * eucl p ≤ 2.74 := by
    rw [← abs_of_pos Pp, ← abs_mul, et, abs_mul]
    have : |f / g| ≤ 1.001 := by
      have := abs_le.1 hfg
      rw [abs_of_pos (div_pos fp gp)]; norm_num at this ⊢; linarith
    exact (mul_le_mul hA1 this (abs_nonneg _) (by norm_num)).trans (by norm_num)
  have tri : ∀ x y z q : Lie.V 3, eucl (x - q) ≤ eucl (x - y) + eucl (y - z) + eucl (z - q) := by
    intro x y z q
    have e : x - q = (x - y) + (y - z) + (z - q) := by abel
    rw [e]
    exact (eucl_add _ _).trans (by gcongr; exact eucl_add _ _)
  have h7 : eucl (t.val • p - θ • ((1 / eucl p) • p)) ≤ 13.7 * ρ.u + 2.25 * E + 2.7 * η := by
    rw [smul_smul, ← sub_smul, eucl_smul', ← abs_of_pos Pp, ← abs_mul, abs_of_pos Pp, sub_mul, mul_assoc, one_div_mul_cancel Pp.ne', mul_one]
    exact h5
  have h8 : eucl (θ • ((1 / eucl p) • p) - θ • a) ≤ 2.71 * (4.93 * E) := by
    rw [← smul_sub, eucl_smul']
    refine mul_le_mul ?_ hdir' (eucl_nonneg _) (by norm_num)
    have := abs_sub_abs_le_abs_sub θ (Real.arccos C.val)
    rw [abs_sub_comm] at this
    norm_num at this ac1 acl' ⊢; linarith
  have h9 := mul_le_mul_of_nonneg_left h6 u0
  refine (tri _ (t.val • p) (θ • ((1 / eucl p) • p)) _).trans ?_
  norm_num at hsc h9 h7 h8 ⊢
  linarith

set_option maxHeartbeats 1000000 in
/-- third branch -/
theorem ln_large (hN : ∀ i j, symN R i j = (1 - Real.cos θ) * (a i * a j)) (J : LnJunk ρ)
    (hb : ¬ (m 0 0 + m 1 1 + m 2 2 - 1) * lit 0.5 > lit mSqrt1_2)
    (hb2 : ¬ (m 0 0 + m 1 1 + m 2 2 - 1) * lit 0.5 > -lit mSqrt1_2) :
    Real.cos θ ≤ -0.7 ∧ ∃ w, so3LnFl L m J = some w ∧ (eucl (asV 3 (rvec w) - θ • a) ≤ 65 * E + 1.2 * η ∨
      (Real.sin θ ≤ 8.4 * E ∧ eucl (asV 3 (rvec w) - (θ - 2 * Real.pi) • a) ≤ 90 * E + 1.2 * η)) := by
  obtain ⟨E0, uE, hu, hs, hp, hp', g, hg, eg⟩ := ln_pre hm hE hE1 hR ha h0 hpi hc hA J.res
  have u0 := ρ.u_nonneg
  have hce := cos_err hm (hE ▸ hE1) hR hc (Real.abs_cos_le_one θ)
  rw [← hE] at hce
  have hlit := half_lit hu
  have hb2' : ¬ -(lit mSqrt1_2).val < ((m 0 0 + m 1 1 + m 2 2 - 1) * lit 0.5).val := hb2
  have hcos : Real.cos θ ≤ -0.7 := by
    have := abs_le.1 hce
    norm_num at this hlit ⊢; linarith [not_lt.1 hb2']
  refine ⟨hcos, ?_⟩
  have ha2 : a ⬝ᵥ a = 1 := by rw [← eucl_sq, ha, one_pow]
  have hN0 : ∀ i, 0 ≤ symN R i i := by
    intro i; rw [hN]
    exact mul_nonneg (by linarith [Real.cos_le_one θ]) (mul_self_nonneg _)
  obtain ⟨k, hk, hcol⟩ := column_err hm (hE ▸ hE1) hR hc (Real.abs_cos_le_one θ) hcos hN0 J.r2
  rw [← hE] at hcol
  have hcolN : (fun i => symN R i k) = ((1 - Real.cos θ) * a k) • a := by
    funext i; rw [hN, Pi.smul_apply, smul_eq_mul]; ring
  rw [hcolN] at hcol
  rw [hN] at hk
  unfold so3LnFl
  dsimp only
  rw [if_neg hb, if_neg hb2]
  generalize lnColumnFl m ((m 0 0 + m 1 1 + m 2 2 - 1) * lit 0.5) J.r2 = r2 at *
  set K := (1 - Real.cos θ) * a k with hK
  have hak : |a k| ≤ 1 := by rw [← ha]; exact abs_le_eucl a k
  have hK1 : 0.56 ≤ |K| := by
    have e : (1 - Real.cos θ) * (a k * a k) = K * a k := by rw [hK]; ring
    rw [e] at hk
    refine hk.trans ((le_abs_self _).trans ?_)
    rw [abs_mul]
    exact mul_le_of_le_one_right (abs_nonneg _) hak
  have hK2 : |K| ≤ 2 := by
    rw [hK, abs_mul, abs_of_nonneg (by linarith [Real.cos_le_one θ])]
    exact (mul_le_of_le_one_right (by linarith [Real.cos_le_one θ]) hak).trans (by linarith [Real.neg_one_le_cos θ])
  have hsin : Real.sin θ ≤ 0.7142 := by
    by_contra h; push Not at h
    have := Real.sin_sq_add_cos_sq θ
    norm_num at hcos h
    nlinarith
  have hth : Real.arcsin (Real.sin θ) = Real.pi - θ := by
    rw [← Real.sin_pi_sub]
    refine Real.arcsin_sin (by linarith [Real.pi_pos]) ?_
    by_contra h; push Not at h
    have := Real.cos_nonneg_of_neg_pi_div_two_le_of_le (x := θ) (by linarith [Real.pi_pos]) (by linarith)
    norm_num at hcos; linarith
  set p := asV 3 (rvec (antiFl m J.res)) with hpd
  have hp2 := abs_le.1 hp'
  have P0 := eucl_nonneg p
  have hP : eucl p ≤ 0.715 := by norm_num at hp2 hsin ⊢; linarith
  have gp := hg.pos u0 ρ.u_lt_one
  have gn := fac_near u0 hu hg (by norm_num)
  push_cast at gn
  -- the angle
  generalize hsv : Fl.sqrt (Ops.dot 3 (antiFl m J.res) (antiFl m J.res)) = s at *
  have s0 : 0 ≤ s.val := by rw [eg]; exact mul_nonneg P0 gp.le
  have hsd : |s.val - eucl p| ≤ 0.715 * (4 * (1.003 * ρ.u)) := by
    rw [eg, ← mul_sub_one, abs_mul, abs_of_nonneg P0]
    exact mul_le_mul hP gn (abs_nonneg _) (by norm_num)
  have hs1 : s.val ≤ 0.716 := by
    have := abs_le.1 hsd
    norm_num at this hP ⊢; linarith
  have as : |s.val| ≤ 0.73 := by rw [abs_of_nonneg s0]; norm_num at hs1 ⊢; linarith
  have h1 := arcsin_lip as (y := Real.sin θ) (by rw [abs_of_nonneg hs]; norm_num at hsin ⊢; linarith)
  rw [hth] at h1
  have h1' : |s.val - Real.sin θ| ≤ 2.46 * E := by
    have := abs_le.1 hsd
    rw [abs_le]
    norm_num at this hp2 ⊢; constructor <;> linarith
  have h2 := hL.asin s (by norm_num at as ⊢; linarith)
  have h3 := arcsin_le as
  rw [abs_of_nonneg s0] at h3
  have hAs : |Real.arcsin s.val| ≤ 1.075 := by norm_num at h3 hs1 ⊢; linarith
  have h2' : |(L.asin s).val - Real.arcsin s.val| ≤ 1.075 * η := h2.trans (by rw [mul_comm]; exact mul_le_mul_of_nonneg_right hAs hη)
  have hang : |(lit Real.pi - L.asin s).val - θ| ≤ 5.4 * E + 1.08 * η := by
    obtain ⟨f, hf, e⟩ := of_fac (ρ := ρ) Real.pi
    have gf := abs_le.1 (fac_near u0 hu hf (by norm_num))
    push_cast at gf
    have p1 := Real.pi_lt_d4
    have p0 := Real.pi_pos
    have q1 : |(lit (ρ := ρ) Real.pi).val - Real.pi| ≤ 3.16 * ρ.u := by
      rw [e, ← mul_sub_one, abs_mul, abs_of_pos p0]
      have := fac_near u0 hu hf (by norm_num)
      refine (mul_le_mul p1.le this (abs_nonneg _) (by norm_num)).trans ?_
      push_cast; norm_num; linarith
    have hA0 : -0.02 ≤ (L.asin s).val := by
      have := abs_le.1 h2'
      have a0 := Real.arcsin_nonneg.2 s0
      norm_num at this ⊢; linarith
    have hA1 : (L.asin s).val ≤ 1.1 := by
      have k1 := abs_le.1 h2'
      have k2 := abs_le.1 hAs
      norm_num at k1 k2 ⊢; linarith
    have q2 := (ρ.err ((lit Real.pi).val - (L.asin s).val)).trans (mul_le_mul_of_nonneg_left
      (ln_aux1 hu q1 hA0 hA1) u0)
    rw [← Fl.val_sub] at q2
    have h1'' : 1.5 * |s.val - Real.sin θ| ≤ 1.5 * (2.46 * E) := mul_le_mul_of_nonneg_left h1' (by norm_num)
    rw [abs_le] at h1 h2' q1 q2 ⊢
    norm_num at h1 h1'' h2' q1 q2 ⊢
    constructor <;> linarith
  generalize lit Real.pi - L.asin s = ang at *
  have hang1 : |ang.val| ≤ 3.16 := by
    have k1 := abs_le.1 hang
    have k2 := Real.pi_lt_d4
    rw [abs_le]
    norm_num at k1 k2 ⊢
    constructor <;> linarith
  -- the direction
  have huT : ∀ (v : Vec (Fl ρ)) (σ : ℝ), |σ| = 1 → eucl (asV 3 (rvec v) - (|K| * σ) • a) ≤ 4.34 * E →
      ∃ w, (unitFl 3 v J.un).map (fun r2 => Ops.applyScalarVL (· * ·) 3 ang r2 (antiFl m J.res)) = some w ∧
        eucl (asV 3 (rvec w) - ang.val • (σ • a)) ≤ 56.3 * E := by
    intro v σ hσ hv
    have hσa : eucl (σ • a) = 1 := by rw [eucl_smul', hσ, ha, one_mul]
    rw [mul_smul] at hv
    have kk : eucl (|K| • (σ • a)) = |K| := by rw [eucl_smul', abs_abs, hσa, mul_one]
    have vp : 0 < eucl (asV 3 (rvec v)) := by
      have := eucl_le_of (|K| • (σ • a)) (asV 3 (rvec v)) (d := 4.34 * E) (by rw [eucl_sub_comm]; exact hv)
      rw [kk] at this
      norm_num at this hK1; linarith
    have d1 := unit_scaled (asV 3 (rvec v)) (σ • a) (lt_of_lt_of_le (by norm_num) hK1) hσa vp hv
    have d2 : 2 * (4.34 * E / |K|) ≤ 15.5 * E := by
      rw [← mul_div_assoc, div_le_iff₀ (lt_of_lt_of_le (by norm_num) hK1)]
      have := mul_le_mul_of_nonneg_left hK1 E0
      norm_num at this ⊢; linarith
    obtain ⟨n, en, hn⟩ := unitFl_near le_rfl hu v J.un vp
    rw [en, Option.map_some]
    refine ⟨_, rfl, ?_⟩
    have tri : ∀ x y z : Lie.V 3, eucl (x - z) ≤ eucl (x - y) + eucl (y - z) := by
      intro x y z
      have e : x - z = (x - y) + (y - z) := by abel
      rw [e]; exact eucl_add _ _
    have d3 : eucl (asV 3 (rvec n) - σ • a) ≤ 17.3 * E := by
      refine (tri _ ((1 / eucl (asV 3 (rvec v))) • asV 3 (rvec v)) _).trans ?_
      norm_num at d1 d2 hn ⊢; linarith
    have nn : eucl (asV 3 (rvec n)) ≤ 1.01 := by
      have := eucl_le_of _ _ d3
      rw [hσa] at this
      norm_num at this ⊢; linarith
    have d4 := scaleVL_near n (antiFl m J.res) ang
    have d5 : |ang.val| * eucl (asV 3 (rvec n)) ≤ 3.2 := (mul_le_mul hang1 nn (eucl_nonneg _) (by norm_num)).trans (by norm_num)
    have d6 := mul_le_mul_of_nonneg_left d5 u0
    refine (tri _ (ang.val • asV 3 (rvec n)) _).trans ?_
    rw [← smul_sub, eucl_smul']
    have d7 := mul_le_mul hang1 d3 (eucl_nonneg _) (by norm_num)
    norm_num at d4 d6 d7 ⊢; linarith
  -- the sign
  have flip : ∃ (φ : ℝ) (v : Vec (Fl ρ)), |φ| = 1 ∧ (if Ops.dot 3 r2 (antiFl m J.res) < 0 then scaleEq r2 (-1) else r2) = v ∧
      asV 3 (rvec v) = φ • asV 3 (rvec r2) ∧ 0 ≤ φ * (Ops.dot 3 r2 (antiFl m J.res)).val := by
    by_cases hd : Ops.dot 3 r2 (antiFl m J.res) < 0
    · refine ⟨-1, scaleEq r2 (-1), by norm_num, if_pos hd, ?_, ?_⟩
      · funext i
        have e : scaleEq r2 (-1) i = r2 i * (-1) := by rw [scaleEq, forN_vecupd _ (fun _ x => x * (-1)), if_pos i.2]
        change (scaleEq r2 (-1) i).val = -1 * (r2 i).val
        rw [e, Fl.val_mul, Fl.val_neg, Fl.val_one, mul_neg_one, ρ.neg, (r2 i).repr]; ring
      · have : (Ops.dot 3 r2 (antiFl m J.res)).val < 0 := hd
        linarith
    · refine ⟨1, r2, by norm_num, if_neg hd, by rw [one_smul], ?_⟩
      have : ¬ (Ops.dot 3 r2 (antiFl m J.res)).val < 0 := hd
      linarith
  obtain ⟨φ, v, hφ, ev, hv, hsg⟩ := flip
  rw [ev]
  have hve : eucl (asV 3 (rvec v) - (φ * K) • a) ≤ 4.34 * E := by
    rw [hv, mul_smul, ← smul_sub, eucl_smul', hφ, one_mul]; exact hcol
  have hφK : |φ * K| = |K| := by rw [abs_mul, hφ, one_mul]
  have tri : ∀ x y z : Lie.V 3, eucl (x - z) ≤ eucl (x - y) + eucl (y - z) := by
    intro x y z
    have e : x - z = (x - y) + (y - z) := by abel
    rw [e]; exact eucl_add _ _
  rcases le_total 0 (φ * K) with hpos | hneg
  · -- the right sign
    obtain ⟨w, ew, hw⟩ := huT v 1 (by norm_num) (by rw [mul_one, ← hφK, abs_of_nonneg hpos]; exact hve)
    refine ⟨w, ew, Or.inl ?_⟩
    rw [one_smul] at hw
    have d1 : eucl (ang.val • a - θ • a) ≤ 5.4 * E + 1.08 * η := by rw [← sub_smul, eucl_smul', ha, mul_one]; exact hang
    refine (tri _ (ang.val • a) _).trans ?_
    norm_num at hw d1 ⊢; linarith
  · -- the wrong sign: the angle is close to `π`
    obtain ⟨w, ew, hw⟩ := huT v (-1) (by norm_num) (by rw [mul_neg_one, ← hφK, abs_of_nonpos hneg, neg_neg]; exact hve)
    have hsmall : Real.sin θ ≤ 8.4 * E := by
      -- the dot product of the two computed vectors
      have hd := c61_dot (ρ := ρ) 3 (by push_cast; linarith) r2 (antiFl m J.res)
      have e1 : ∑ i ∈ range 3, (r2 i).val * (antiFl m J.res i).val = asV 3 (rvec r2) ⬝ᵥ p := by rw [Finset.sum_range]; rfl
      have e2 : ∑ i ∈ range 3, |(r2 i).val * (antiFl m J.res i).val| ≤ eucl (asV 3 (rvec r2)) * eucl p := by
        have := abs_dot_le (fun i => |asV 3 (rvec r2) i|) (fun i => |p i|)
        rw [eucl_abs, eucl_abs] at this
        refine le_trans (le_of_eq ?_) ((le_abs_self _).trans this)
        rw [Finset.sum_range]
        exact sum_congr rfl fun i _ => abs_mul _ _
      have hr2 : eucl (asV 3 (rvec r2)) ≤ 2.01 := by
        have := eucl_le_of _ _ hcol
        rw [eucl_smul', ha, mul_one] at this
        norm_num at this ⊢; linarith
      have hrp : eucl (asV 3 (rvec r2)) * eucl p ≤ 1.44 := (mul_le_mul hr2 hP P0 (by norm_num)).trans (by norm_num)
      have gg := gam_le u0 hu 3 (by norm_num)
      have g0 : 0 ≤ gam ρ.u 3 := gam_nonneg u0 ρ.u_lt_one (by push_cast; linarith)
      rw [e1] at hd
      have hd' : |(Ops.dot 3 r2 (antiFl m J.res)).val - asV 3 (rvec r2) ⬝ᵥ p| ≤ 4.34 * ρ.u := by
        refine hd.trans ((mul_le_mul_of_nonneg_left (e2.trans hrp) g0).trans ?_)
        push_cast at gg; norm_num at gg ⊢; linarith
      have hd2 : -(4.34 * ρ.u) ≤ asV 3 (rvec v) ⬝ᵥ p := by
        have e3 : asV 3 (rvec v) ⬝ᵥ p = φ * (asV 3 (rvec r2) ⬝ᵥ p) := by rw [hv, smul_dotProduct, smul_eq_mul]
        rw [e3]
        have : |φ * ((Ops.dot 3 r2 (antiFl m J.res)).val - asV 3 (rvec r2) ⬝ᵥ p)| ≤ 4.34 * ρ.u := by rw [abs_mul, hφ, one_mul]; exact hd'
        rw [mul_sub, abs_le] at this
        linarith [this.2]
      -- the true one is `-|K| sin θ`
      have e4 : asV 3 (rvec v) ⬝ᵥ p = (φ * K) * Real.sin θ + (φ * K) * (a ⬝ᵥ (p - Real.sin θ • a)) +
          (asV 3 (rvec v) - (φ * K) • a) ⬝ᵥ p := by
        rw [sub_dotProduct, dotProduct_sub, dotProduct_smul, ha2, smul_dotProduct, smul_eq_mul, smul_eq_mul]; ring
      have e5 : |a ⬝ᵥ (p - Real.sin θ • a)| ≤ 1.74 * E := (abs_dot_le _ _).trans (by rw [ha, one_mul]; exact hp)
      have e6 : |(φ * K) * (a ⬝ᵥ (p - Real.sin θ • a))| ≤ |K| * (1.74 * E) := by
        rw [abs_mul, hφK]; exact mul_le_mul_of_nonneg_left e5 (abs_nonneg _)
      have e7 : |(asV 3 (rvec v) - (φ * K) • a) ⬝ᵥ p| ≤ 4.34 * E * eucl p :=
        (abs_dot_le _ _).trans (mul_le_mul_of_nonneg_right hve P0)
      have e8 : φ * K = -|K| := by rw [← hφK, abs_of_nonpos hneg, neg_neg]
      rw [e4] at hd2
      rw [e8] at hd2 e6 e7
      have e6' := (abs_le.1 e6).2
      have e7' := (abs_le.1 e7).2
      generalize -|K| * (a ⬝ᵥ (p - Real.sin θ • a)) = X at *
      generalize (asV 3 (rvec v) - -|K| • a) ⬝ᵥ p = Y at *
      generalize |K| = κ at *
      exact ln_aux2 E0 hE1 uE hs hK1 hd2 e6' e7' (by linarith [hp2.2])
    refine ⟨w, ew, Or.inr ⟨hsmall, ?_⟩⟩
    have e : ang.val • ((-1 : ℝ) • a) - (θ - 2 * Real.pi) • a = (-((ang.val - θ) - 2 * (Real.pi - θ))) • a := by
      rw [smul_smul, ← sub_smul]; congr 1; ring
    have d1 : eucl (ang.val • ((-1 : ℝ) • a) - (θ - 2 * Real.pi) • a) ≤ 30.6 * E + 1.08 * η := by
      rw [e, eucl_smul', ha, mul_one, abs_neg]
      have q := arcsin_le (x := Real.sin θ) (by rw [abs_of_nonneg hs]; norm_num at hsin ⊢; linarith)
      rw [hth, abs_of_nonneg hs] at q
      rw [abs_le] at q hang ⊢
      norm_num at q hang hsmall ⊢
      constructor <;> linarith
    refine (tri _ (ang.val • ((-1 : ℝ) • a)) _).trans ?_
    norm_num at hw d1 ⊢; linarith

end main
end TooN.FlRot
