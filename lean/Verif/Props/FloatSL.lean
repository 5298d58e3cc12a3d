import Verif.Model.FloatSL
import Verif.Props.FloatDet
import Verif.Props.FloatElim
import Verif.Props.FloatOps
/-!
# C96: SL(N) in rounded arithmetic
-/
set_option linter.unusedSectionVars false
namespace TooN.SLF
open Finset
open scoped Classical
variable {ρ : Rounding}

/-- `P` computes powers of positive numbers with a relative error of at most `η` -/
def PowAcc (P : Fl ρ → Fl ρ → Fl ρ) (η : ℝ) : Prop :=
  ∀ x y : Fl ρ, 0 < x.val → |(P x y).val - x.val ^ y.val| ≤ η * x.val ^ y.val

/-- the backward error bound of the determinant -/
noncomputable def detB (ρ : Rounding) (N : ℕ) (M : ℝ) : ℝ := gam ρ.u (N+1) * (2^N * (1+ρ.u)^(2*N) * M)

/-- both formulas of `determinant` are backward stable -/
theorem det_backward (n : ℕ) (hu : ((n + 1 : ℕ) : ℝ) * ρ.u < 1) (A : Mat (Fl ρ))
    (M : ℝ) (hM : ∀ r c, r < n → c < n → |(A r c).val| ≤ M) :
    ∃ d, Elim.determinant n A = some d ∧ ∃ (E : Matrix (Fin n) (Fin n) ℝ) (δ : ℝ),
      (∀ r c, |E r c| ≤ detB ρ n M) ∧ |δ| ≤ gam ρ.u n ∧
      d.val = (asM n n (rmat A) + E).det * (1 + δ) := by
  by_cases hn : n = 2
  · subst hn
    have h0 := ρ.u_nonneg
    have h1 := ρ.u_lt_one
    refine ⟨_, if_pos rfl, ?_⟩
    obtain ⟨a, ha, ea⟩ := Fl.mul_fac (A 0 0) (A 1 1)
    obtain ⟨b, hb, eb⟩ := Fl.mul_fac (A 1 0) (A 0 1)
    obtain ⟨c, hc, ec⟩ := Fl.sub_fac (A 0 0 * A 1 1) (A 1 0 * A 0 1)
    have hu3 : (3:ℝ) * ρ.u < 1 := by simpa using hu
    have M0 : 0 ≤ M := le_trans (abs_nonneg _) (hM 0 0 (by norm_num) (by norm_num))
    have g1 : gam ρ.u 1 ≤ gam ρ.u (2+1) := gam_mono h0 h1 (by omega) (by push_cast; linarith)
    have g12 : gam ρ.u 1 ≤ gam ρ.u 2 := gam_mono h0 h1 (by omega) (by push_cast; linarith)
    have g0 : 0 ≤ gam ρ.u 1 := gam_nonneg h0 h1 (by push_cast; linarith)
    have ga := ha.gam h0 h1 (by push_cast; linarith)
    have gb := hb.gam h0 h1 (by push_cast; linarith)
    have gc := hc.gam h0 h1 (by push_cast; linarith)
    have p1 : (1:ℝ) ≤ 2^2 * (1+ρ.u)^(2*2) := by
      have : (1:ℝ) ≤ (1+ρ.u)^(2*2) := one_le_pow₀ (by linarith)
      linarith
    have key : ∀ x f : ℝ, |x| ≤ M → |f - 1| ≤ gam ρ.u 1 → |x * (f - 1)| ≤ detB ρ 2 M := by
      intro x f hx hf
      rw [abs_mul, mul_comm]
      unfold detB
      refine mul_le_mul (hf.trans g1) (hx.trans (le_mul_of_one_le_left M0 p1)) (abs_nonneg _) (g0.trans g1)
    have hz : 0 ≤ detB ρ 2 M := le_trans (abs_nonneg _) (key _ _ (hM 0 0 (by norm_num) (by norm_num)) ga)
    refine ⟨!![(A 0 0).val * (a - 1), (A 0 1).val * (b - 1); 0, 0], c - 1, ?_, gc.trans g12, ?_⟩
    · intro r q
      fin_cases r <;> fin_cases q
      · exact key _ _ (hM 0 0 (by norm_num) (by norm_num)) ga
      · exact key _ _ (hM 0 1 (by norm_num) (by norm_num)) gb
      · simpa using hz
      · simpa using hz
    · rw [ec, ea, eb, Matrix.det_fin_two]
      simp only [Matrix.add_apply, asM_apply, rmat, Fin.val_zero, Fin.val_one, Matrix.of_apply, Matrix.cons_val]
      ring
  · exact Elim.c64_determinant n hn hu A M hM

theorem abs_log_one_add {x : ℝ} (h : |x| ≤ 1/2) : |Real.log (1 + x)| ≤ 2 * |x| := by
  obtain ⟨h1, h2⟩ := abs_le.1 h
  have hp : 0 < 1 + x := by linarith
  have hi := Real.log_le_sub_one_of_pos hp
  have hj := Real.one_sub_inv_le_log_of_pos hp
  have : 1 - (1+x)⁻¹ = x / (1+x) := by field_simp; ring
  rw [this] at hj
  rcases le_or_gt 0 x with hx | hx
  · rw [abs_of_nonneg hx, abs_of_nonneg (Real.log_nonneg (by linarith))]; linarith
  · rw [abs_of_neg hx, abs_of_nonpos (Real.log_nonpos hp.le (by linarith))]
    have : 2 * x ≤ x / (1+x) := by rw [le_div_iff₀ hp]; nlinarith
    linarith

/-- **C96** `coerce` of a matrix with a positive computed determinant `d` divides every element by one number `p > 0`, and the stored
matrix is the rounding of a matrix whose determinant is 1 up to the rounding of the determinant, of the exponent `1/N` and of `pow`:
`det(m' + E) = exp ℓ` with `|ℓ| ≤ 2γ_N + u|log d| + 2Nη` and `|E| ≤ (uM + γ_{N+1}2^N(1+u)^{2N}M)/p`. -/
theorem c96_coerce (P : Fl ρ → Fl ρ → Fl ρ) (η : ℝ) (hP : PowAcc P η) (hη : η ≤ 1/2) (N : ℕ) (hN : 0 < N)
    (hu : ((N + 1 : ℕ) : ℝ) * ρ.u < 1) (hg : gam ρ.u N ≤ 1/2)
    (m : Mat (Fl ρ)) (M : ℝ) (hM : ∀ r c, r < N → c < N → |(m r c).val| ≤ M)
    (d : Fl ρ) (hd : Elim.determinant N m = some d) (hpos : 0 < d.val) :
    ∃ m' p, slCoerceFl P N m = .ok (some m') ∧ 0 < p ∧
      |p - d.val ^ (1 / (N : ℝ))| ≤ (Real.exp (ρ.u * |Real.log d.val| / N) * (1 + η) - 1) * d.val ^ (1 / (N : ℝ)) ∧
      (∀ r c, |(m' r c).val - (m r c).val / p| ≤ ρ.u * |(m r c).val / p|) ∧
      ∃ (E : Matrix (Fin N) (Fin N) ℝ) (ℓ : ℝ), (∀ r c, |E r c| ≤ (ρ.u * M + detB ρ N M) / p) ∧
        |ℓ| ≤ 2 * gam ρ.u N + ρ.u * |Real.log d.val| + 2 * N * η ∧
        (asM N N (rmat m') + E).det = Real.exp ℓ := by
  have h0 := ρ.u_nonneg
  have h1 := ρ.u_lt_one
  have hN' : (0:ℝ) < N := by exact_mod_cast hN
  obtain ⟨d', hd', E₀, δ, hE, hδ, e⟩ := det_backward N hu m M hM
  have : d' = d := Option.some.inj (hd'.symm.trans hd)
  subst this
  have hp0 := hP d' (Fl.of ρ (1 / (N : ℝ))) hpos
  have hw0 : |(Fl.of ρ (1 / (N:ℝ))).val - 1 / (N:ℝ)| ≤ ρ.u * (1 / N) := by
    have := ρ.err (1 / (N:ℝ))
    rwa [abs_of_pos (show (0:ℝ) < 1/N by positivity)] at this
  have hco : slCoerceFl P N m = .ok (some fun r c => m r c / P d' (Fl.of ρ (1 / (N : ℝ)))) := by
    unfold slCoerceFl
    rw [hd]
    have hne : d' ≠ 0 := fun h => by rw [h] at hpos; exact lt_irrefl _ hpos
    have hlt : (0 : Fl ρ) < d' := hpos
    simp only [rootFl, if_pos hne, if_pos hlt]
  generalize hpp : P d' (Fl.of ρ (1 / (N : ℝ))) = p at *
  generalize hww : (Fl.of ρ (1 / (N : ℝ))).val = w at *
  generalize hL : Real.log d'.val = L at *
  have hdw : d'.val ^ w = Real.exp (L * w) := by rw [Real.rpow_def_of_pos hpos, hL]
  have hd1 : d'.val ^ (1/(N:ℝ)) = Real.exp (L * (1/N)) := by rw [Real.rpow_def_of_pos hpos, hL]
  have hηn : 0 ≤ η := by
    have : 0 < d'.val ^ w := Real.rpow_pos_of_pos hpos _
    by_contra hc
    push Not at hc
    have := le_trans (abs_nonneg _) hp0
    nlinarith
  -- p = d^w (1+η')
  obtain ⟨η', hη', hpv⟩ : ∃ η', |η'| ≤ η ∧ p.val = Real.exp (L * w) * (1 + η') := by
    have hx : 0 < Real.exp (L * w) := Real.exp_pos _
    refine ⟨p.val / Real.exp (L*w) - 1, ?_, by field_simp; ring⟩
    rw [hdw] at hp0
    rw [show p.val / Real.exp (L*w) - 1 = (p.val - Real.exp (L*w)) / Real.exp (L*w) by field_simp, abs_div, abs_of_pos hx,
      div_le_iff₀ hx]
    exact hp0
  have hη2 : 0 < 1 + η' := by have := (abs_le.1 (hη'.trans hη)).1; linarith
  have hppos : 0 < p.val := by rw [hpv]; positivity
  have hLw : |L * w - L * (1/N)| ≤ ρ.u * |L| / N := by
    rw [← mul_sub, abs_mul]
    calc |L| * |w - 1/N| ≤ |L| * (ρ.u * (1/N)) := mul_le_mul_of_nonneg_left hw0 (abs_nonneg _)
      _ = _ := by ring
  refine ⟨_, p.val, hco, hppos, ?_, ?_, ?_⟩
  · rw [hd1, hpv]
    have hx : 0 < Real.exp (L * (1/N)) := Real.exp_pos _
    have es : Real.exp (L*w) = Real.exp (L*w - L*(1/N)) * Real.exp (L*(1/N)) := by rw [← Real.exp_add]; congr 1; ring
    rw [es]
    generalize L * w - L * (1/N) = t at *
    rw [show Real.exp t * Real.exp (L * (1/N)) * (1+η') - Real.exp (L*(1/N)) =
      (Real.exp t * (1+η') - 1) * Real.exp (L*(1/N)) by ring, abs_mul, abs_of_pos hx]
    refine mul_le_mul_of_nonneg_right ?_ hx.le
    generalize ρ.u * |L| / N = s at *
    obtain ⟨t1, t2⟩ := abs_le.1 hLw
    obtain ⟨e1, e2⟩ := abs_le.1 hη'
    have u1 : Real.exp t ≤ Real.exp s := Real.exp_le_exp.2 t2
    have u2 : Real.exp (-s) ≤ Real.exp t := Real.exp_le_exp.2 (by linarith)
    have u3 : Real.exp (-s) * Real.exp s = 1 := by rw [← Real.exp_add]; simp
    have ps := Real.exp_pos s
    have pt := Real.exp_pos t
    have pns := Real.exp_pos (-s)
    have s0 : 0 ≤ s := le_trans (abs_nonneg _) hLw
    have hs1 : 1 ≤ Real.exp s := Real.one_le_exp s0
    rw [abs_le]
    constructor
    · have a1 : Real.exp (-s) * (1 - η) ≤ Real.exp t * (1+η') :=
        mul_le_mul u2 (by linarith) (by linarith) pt.le
      have a2 : 2 - Real.exp s ≤ Real.exp (-s) := by nlinarith [sq_nonneg (Real.exp s - 1)]
      have a3 : Real.exp (-s) ≤ 1 := by rw [Real.exp_le_one_iff]; linarith
      nlinarith
    · have := mul_le_mul u1 (show 1 + η' ≤ 1 + η by linarith) hη2.le ps.le
      linarith
  · intro r c
    have := ρ.err ((m r c).val / p.val)
    exact this
  · refine ⟨Matrix.of fun r c => ((m r c).val + E₀ r c) / p.val - ((m r c) / p).val,
      -(Real.log (1 + δ)) - (L * (N * w - 1)) - N * Real.log (1 + η'), ?_, ?_, ?_⟩
    · intro r c
      have h2 := ρ.err ((m r c).val / p.val)
      have h3 := hM r c r.2 c.2
      have h4 := hE r c
      rw [Matrix.of_apply, show ((m r c).val + E₀ r c) / p.val - ((m r c) / p).val =
        E₀ r c / p.val - (((m r c) / p).val - (m r c).val / p.val) by ring]
      refine le_trans (abs_sub _ _) ?_
      rw [Fl.val_div]
      have h5 : |E₀ r c / p.val| ≤ detB ρ N M / p.val := by
        rw [abs_div, abs_of_pos hppos]; exact div_le_div_of_nonneg_right h4 hppos.le
      have h6 : ρ.u * |(m r c).val / p.val| ≤ ρ.u * M / p.val := by
        rw [abs_div, abs_of_pos hppos, mul_div_assoc]
        exact mul_le_mul_of_nonneg_left (div_le_div_of_nonneg_right h3 hppos.le) h0
      rw [add_div]; linarith
    · have l1 := abs_log_one_add (hδ.trans hg)
      have l2 := abs_log_one_add (hη'.trans hη)
      have l3 : |L * (N * w - 1)| ≤ ρ.u * |L| := by
        have : L * (N * w - 1) = N * (L * w - L * (1/N)) := by field_simp
        rw [this, abs_mul, abs_of_pos hN']
        calc (N:ℝ) * |L * w - L * (1/N)| ≤ N * (ρ.u * |L| / N) := mul_le_mul_of_nonneg_left hLw hN'.le
          _ = _ := by field_simp
      have l4 : |N * Real.log (1 + η')| ≤ N * (2 * η) := by
        rw [abs_mul, abs_of_pos hN']
        exact mul_le_mul_of_nonneg_left (by linarith) hN'.le
      have t1 := abs_sub (-(Real.log (1 + δ)) - (L * (N * w - 1))) (N * Real.log (1 + η'))
      have t2 := abs_sub (-(Real.log (1 + δ))) (L * (N * w - 1))
      rw [abs_neg] at t2
      linarith
    · have hδ1 : 0 < 1 + δ := by have := (abs_le.1 (hδ.trans hg)).1; linarith
      have es : asM N N (rmat fun r c => m r c / p) + Matrix.of (fun r c : Fin N => ((m r c).val + E₀ r c) / p.val - ((m r c) / p).val) =
          (p.val)⁻¹ • (asM N N (rmat m) + E₀) := by
        ext r c
        simp only [Matrix.add_apply, asM_apply, rmat, Matrix.of_apply, Matrix.smul_apply, smul_eq_mul]
        ring
      rw [es, Matrix.det_smul, Fintype.card_fin]
      have hdet : (asM N N (rmat m) + E₀).det = d'.val / (1 + δ) := by rw [e]; field_simp
      have hde : d'.val = Real.exp L := by rw [← hL, Real.exp_log hpos]
      rw [hdet, hde, inv_pow, hpv, mul_pow, ← Real.exp_nat_mul]
      rw [show -(Real.log (1 + δ)) - (L * (N * w - 1)) - N * Real.log (1 + η') =
        L - N * (L * w) - Real.log (1+δ) - N * Real.log (1+η') by ring, Real.exp_sub, Real.exp_sub, Real.exp_sub,
        Real.exp_log hδ1, Real.exp_nat_mul (Real.log (1+η')), Real.exp_log hη2]
      field_simp

/-- **C96** in double precision, for sizes up to 100 and a `pow` correct to two units in the last place: whatever the (positive) determinant
was, the result is within `E` of a matrix with determinant `1 ± 1.4e-13` -/
theorem c96_coerce_double (P : Fl Rounding.double → Fl Rounding.double → Fl Rounding.double) (hP : PowAcc P (1/2^51))
    (N : ℕ) (hN : 0 < N) (hN2 : N ≤ 100) (m : Mat (Fl Rounding.double)) (M : ℝ)
    (hM : ∀ r c, r < N → c < N → |(m r c).val| ≤ M) (d : Fl Rounding.double) (hd : Elim.determinant N m = some d)
    (hpos : 0 < d.val) (hlog : |Real.log d.val| ≤ 745) :
    ∃ m' p, slCoerceFl P N m = .ok (some m') ∧ 0 < p ∧
      |p - d.val ^ (1 / (N : ℝ))| ≤ (1/10^12) * d.val ^ (1 / (N : ℝ)) ∧
      ∃ E : Matrix (Fin N) (Fin N) ℝ, (∀ r c, |E r c| ≤ (1/2^53 * M + detB Rounding.double N M) / p) ∧
        |(asM N N (rmat m') + E).det - 1| ≤ 2.5/10^13 := by
  have hu := Rounding.double_u
  have hN1 : (1:ℝ) ≤ N := by exact_mod_cast hN
  have hN' : (N:ℝ) ≤ 100 := by exact_mod_cast hN2
  have hg : gam Rounding.double.u N ≤ 101/2^53 := by
    unfold gam
    rw [hu, div_le_iff₀ (by nlinarith)]
    nlinarith
  obtain ⟨m', p, h1, h2, h3, -, E, ℓ, h5, h6, h7⟩ := c96_coerce P (1/2^51) hP (by norm_num) N hN
    (by rw [hu]; push_cast; nlinarith) (hg.trans (by norm_num)) m M hM d hd hpos
  rw [hu] at h3 h5 h6 hg
  have hp : 0 < d.val ^ (1 / (N:ℝ)) := Real.rpow_pos_of_pos hpos _
  refine ⟨m', p, h1, h2, h3.trans (mul_le_mul_of_nonneg_right ?_ hp.le), E, h5, ?_⟩
  · have hs : 1/2^53 * |Real.log d.val| / N ≤ 745/2^53 := by
      rw [div_le_iff₀ (by linarith)]
      nlinarith [abs_nonneg (Real.log d.val)]
    have he := Real.exp_le_exp.2 hs
    have hb := Real.abs_exp_sub_one_sub_id_le (x := 745/2^53) (by rw [abs_of_pos (by norm_num)]; norm_num)
    have hb2 := (abs_le.1 hb).2
    have : Real.exp (1/2^53 * |Real.log d.val| / N) ≤ 1 + 746/2^53 := by
      refine he.trans ?_
      nlinarith
    nlinarith
  · rw [h7]
    have hl : |ℓ| ≤ 2.3/10^13 := by
      refine h6.trans ?_
      have : 2 * (N:ℝ) * (1/2^51) ≤ 200/2^51 := by linarith
      have : 1/2^53 * |Real.log d.val| ≤ 745/2^53 := by linarith
      linarith
    have hb := Real.abs_exp_sub_one_sub_id_le (x := ℓ) (hl.trans (by norm_num))
    have t := abs_add_le (Real.exp ℓ - 1 - ℓ) ℓ
    rw [show Real.exp ℓ - 1 - ℓ + ℓ = Real.exp ℓ - 1 by ring] at t
    have : ℓ^2 ≤ (2.3/10^13)*(2.3/10^13) := by
      rw [← sq_abs, sq]; exact mul_le_mul hl hl (abs_nonneg _) (by norm_num)
    linarith

end TooN.SLF
