import Verif.Proof.SymEigenF
import Verif.Proof.Bridge
import Verif.Model.SymEigen
/-!
# C88: the closed form for 2×2 eigenproblems in rounded arithmetic

`x`, `y` are the diagonal elements, `b` the off-diagonal element read by the code; `frob x y b` is the Frobenius norm.
-/
set_option linter.unusedSectionVars false
namespace TooN.SymEigenF
open Finset
variable {ρ : Rounding}

/-- the Frobenius norm of the symmetric matrix `(x b; b y)` -/
noncomputable def frob (x y b : ℝ) : ℝ := Real.sqrt (x ^ 2 + y ^ 2 + 2 * b ^ 2)
/-- the difference of its eigenvalues -/
noncomputable def gap (x y b : ℝ) : ℝ := Real.sqrt ((x - y) ^ 2 + 4 * b ^ 2)

/-- `gap` is what it is called: the roots of the characteristic polynomial are `(x + y ∓ gap)/2` -/
theorem gap_spec (x y b l : ℝ) : (Matrix.charpoly !![x, b; b, y]).IsRoot l ↔
    l = (x + y - gap x y b) / 2 ∨ l = (x + y + gap x y b) / 2 := by
  have hs : gap x y b ^ 2 = (x - y) ^ 2 + 4 * b ^ 2 := Real.sq_sqrt (by positivity)
  rw [Polynomial.IsRoot.def, Matrix.charpoly_fin_two]
  simp only [Matrix.trace_fin_two, Matrix.det_fin_two_of, Polynomial.eval_add, Polynomial.eval_sub, Polynomial.eval_pow,
    Polynomial.eval_mul, Polynomial.eval_C, Polynomial.eval_X]
  have e : l ^ 2 - (!![x, b; b, y] 0 0 + !![x, b; b, y] 1 1) * l + (x * y - b * b) =
      (l - (x + y - gap x y b) / 2) * (l - (x + y + gap x y b) / 2) := by
    simp
    linear_combination (1 / 4 : ℝ) * hs
  rw [e, mul_eq_zero, sub_eq_zero, sub_eq_zero]

/-- **C88** over the real numbers, with the exact square root, this is the code of C29 -/
theorem c88_same_code (m eig : Mat ℝ) (ev : Vec ℝ) :
    SymEigen.compute2 m eig ev = (compute2 Real.sqrt 4 0.5 m eig ev).map fun p => ⟨2, p.1, p.2⟩ := by
  unfold SymEigen.compute2 compute2 ev0 ev1 disc
  dsimp only
  rw [Option.map_map]
  congr! 1

/-- **C88** the code divides by no zero, the rows of the result are exactly orthogonal, and their squared lengths are within
`11u` of 1 -/
theorem c88_orthonormal (hu : ρ.u ≤ 1 / 10000) (m eig : Mat (Fl ρ)) (ev : Vec (Fl ρ)) :
    ∃ E e, compute2 Fl.sqrt (four ρ) (half ρ) m eig ev = some (E, e) ∧
      (E 0 0).val * (E 1 0).val + (E 0 1).val * (E 1 1).val = 0 ∧
      |(E 0 0).val ^ 2 + (E 0 1).val ^ 2 - 1| ≤ 11 * ρ.u ∧ |(E 1 0).val ^ 2 + (E 1 1).val ^ 2 - 1| ≤ 11 * ρ.u := by
  have h0 := ρ.u_nonneg
  have h1 := ρ.u_lt_one
  obtain ⟨E, e, hE, _, _, h10, h11, hv⟩ := compute2_eq m eig ev
  have key : |(E 0 0).val ^ 2 + (E 0 1).val ^ 2 - 1| ≤ 11 * ρ.u := by
    rcases hv with ⟨_, v0, v1⟩ | ⟨hne, v0, v1⟩
    · rw [v0, v1, Fl.val_one, Fl.val_zero]; norm_num; exact h0
    · obtain ⟨F, hF, eF⟩ := unit_fac _ _ (-(m 0 1)) hne
      obtain ⟨G, hG, eG⟩ := unit_fac _ _ (m 0 0 - e 0) hne
      rw [v0, v1, eF, eG, Fl.val_neg]
      set a := (m 0 0 - e 0).val with ha
      set b := (m 0 1).val with hb
      have hpos : 0 < a ^ 2 + b ^ 2 := by
        rcases (add_nonneg (sq_nonneg a) (sq_nonneg b)).lt_or_eq with h | h
        · exact h
        · exfalso
          refine hne ((magsq_zero _ _).2 ⟨?_, ?_⟩)
          · exact pow_eq_zero_iff two_ne_zero |>.1 (by nlinarith [sq_nonneg a, sq_nonneg b])
          · exact pow_eq_zero_iff two_ne_zero |>.1 (by nlinarith [sq_nonneg a, sq_nonneg b])
      have bF := fac_abs (c := 10.2) (hF.mul h0 h1 hF) hu (by norm_num) (by norm_num)
      have bG := fac_abs (c := 10.2) (hG.mul h0 h1 hG) hu (by norm_num) (by norm_num)
      have es : Real.sqrt (a ^ 2 + b ^ 2) ^ 2 = a ^ 2 + b ^ 2 := Real.sq_sqrt hpos.le
      have e2 : (-b / Real.sqrt (a ^ 2 + b ^ 2) * F) ^ 2 + (a / Real.sqrt (a ^ 2 + b ^ 2) * G) ^ 2 - 1 =
          b ^ 2 / (a ^ 2 + b ^ 2) * (F * F - 1) + a ^ 2 / (a ^ 2 + b ^ 2) * (G * G - 1) := by
        rw [mul_pow, mul_pow, div_pow, div_pow, es]
        field_simp
        ring
      rw [e2]
      have p1 : 0 ≤ b ^ 2 / (a ^ 2 + b ^ 2) := by positivity
      have p2 : 0 ≤ a ^ 2 / (a ^ 2 + b ^ 2) := by positivity
      have p3 : b ^ 2 / (a ^ 2 + b ^ 2) + a ^ 2 / (a ^ 2 + b ^ 2) = 1 := by field_simp; ring
      refine (abs_add_le _ _).trans ?_
      rw [abs_mul, abs_mul, abs_of_nonneg p1, abs_of_nonneg p2]
      have q1 := mul_le_mul_of_nonneg_left bF p1
      have q2 := mul_le_mul_of_nonneg_left bG p2
      have q3 : b ^ 2 / (a ^ 2 + b ^ 2) * (10.2 * ρ.u) + a ^ 2 / (a ^ 2 + b ^ 2) * (10.2 * ρ.u) = 10.2 * ρ.u := by
        rw [← add_mul, p3, one_mul]
      linarith
  refine ⟨E, e, hE, ?_, key, ?_⟩
  · rw [h10, h11, Fl.val_neg]; ring
  · rw [h10, h11, Fl.val_neg, neg_sq, add_comm]; exact key

/-- **C88** the eigenvalues: the error is at most `3√u` times the norm of the matrix, and at most `9u ‖A‖²/gap + 5u‖A‖` -/
theorem c88_eigenvalues (hu : ρ.u ≤ 1 / 10000) (h4 : ρ.rnd 4 = 4) (hh : ρ.rnd (1 / 2) = 1 / 2) (m eig : Mat (Fl ρ)) (ev : Vec (Fl ρ))
    (x y b : ℝ) (hx : x = (m 0 0).val) (hy : y = (m 1 1).val) (hb : b = (m 0 1).val) :
    ∃ E e, compute2 Fl.sqrt (four ρ) (half ρ) m eig ev = some (E, e) ∧
      |(e 0).val - (x + y - gap x y b) / 2| ≤ 3 * Real.sqrt ρ.u * frob x y b ∧
      |(e 1).val - (x + y + gap x y b) / 2| ≤ 3 * Real.sqrt ρ.u * frob x y b ∧
      |(e 0).val - (x + y - gap x y b) / 2| * gap x y b ≤ 9 * ρ.u * frob x y b ^ 2 + 5 * ρ.u * frob x y b * gap x y b ∧
      |(e 1).val - (x + y + gap x y b) / 2| * gap x y b ≤ 9 * ρ.u * frob x y b ^ 2 + 5 * ρ.u * frob x y b * gap x y b := by
  have h0 := ρ.u_nonneg
  obtain ⟨E, e, hE, e0, e1, _⟩ := compute2_eq m eig ev
  obtain ⟨t, d0, d1, t1, t2, b0, b1, q0, q1⟩ := ev_err hu h4 hh m x y b _ _ hx hy hb rfl rfl
  have hN0 : 0 ≤ frob x y b := Real.sqrt_nonneg _
  have hg0 : 0 ≤ gap x y b := Real.sqrt_nonneg _
  have hsu := Real.sqrt_nonneg ρ.u
  have hsu2 : Real.sqrt ρ.u * Real.sqrt ρ.u = ρ.u := Real.mul_self_sqrt h0
  have hsu100 : Real.sqrt ρ.u ≤ 1 / 100 := Real.sqrt_le_iff.2 ⟨by norm_num, by norm_num; linarith⟩
  change |t| ≤ 4.05 * Real.sqrt ρ.u * frob x y b at t1
  change |t| * gap x y b ≤ 16.3 * ρ.u * frob x y b ^ 2 at t2
  change |d0| ≤ 4 * ρ.u * frob x y b at b0
  change |d1| ≤ 4 * ρ.u * frob x y b at b1
  change _ = (x + y - gap x y b) / 2 - t / 2 + d0 at q0
  change _ = (x + y + gap x y b) / 2 + t / 2 + d1 at q1
  have huN : ρ.u * frob x y b ≤ 1 / 100 * (Real.sqrt ρ.u * frob x y b) := by
    have := mul_le_mul_of_nonneg_right hsu100 (mul_nonneg hsu hN0)
    rwa [← mul_assoc, hsu2] at this
  have hsuN : 0 ≤ Real.sqrt ρ.u * frob x y b := mul_nonneg hsu hN0
  have a0 : |(e 0).val - (x + y - gap x y b) / 2| ≤ |t| / 2 + |d0| := by
    rw [e0, q0, show (x + y - gap x y b) / 2 - t / 2 + d0 - (x + y - gap x y b) / 2 = d0 - t / 2 by ring]
    refine (abs_sub _ _).trans ?_
    rw [abs_div, abs_of_pos (by norm_num : (0:ℝ) < 2)]; linarith
  have a1 : |(e 1).val - (x + y + gap x y b) / 2| ≤ |t| / 2 + |d1| := by
    rw [e1, q1, show (x + y + gap x y b) / 2 + t / 2 + d1 - (x + y + gap x y b) / 2 = d1 + t / 2 by ring]
    refine (abs_add_le _ _).trans ?_
    rw [abs_div, abs_of_pos (by norm_num : (0:ℝ) < 2)]; linarith
  have hp : 0 ≤ ρ.u * frob x y b ^ 2 := by positivity
  have fin : ∀ A d : ℝ, A ≤ |t| / 2 + |d| → |d| ≤ 4 * ρ.u * frob x y b →
      A ≤ 3 * Real.sqrt ρ.u * frob x y b ∧
      A * gap x y b ≤ 9 * ρ.u * frob x y b ^ 2 + 5 * ρ.u * frob x y b * gap x y b := by
    intro A d hA hd
    refine ⟨by linarith, ?_⟩
    have s1 := mul_le_mul_of_nonneg_right hA hg0
    have s2 := mul_le_mul_of_nonneg_right hd hg0
    have s3 : 0 ≤ ρ.u * frob x y b * gap x y b := by positivity
    linarith
  exact ⟨E, e, hE, (fin _ _ a0 b0).1, (fin _ _ a1 b1).1, (fin _ _ a0 b0).2, (fin _ _ a1 b1).2⟩

/-- the arithmetic behind the residual bound -/
theorem residual_aux {u N x y b s v h F G w a : ℝ} (hu0 : 0 ≤ u) (hb : b ≠ 0) (hw : 0 < w)
    (hbw : |b| ≤ w) (haw : |a| ≤ w) (hbN : |b| ≤ N) (ha : a = (x - v) * h) (hh : 1 / 1.001 ≤ h)
    (hxv : |x - v| ≤ 2.03 * N) (hyv : |y - v| ≤ 2.03 * N) (hs0 : 0 ≤ s) (hsN : s ≤ 1.415 * N)
    (hp : (x - v) * (y - v) - b ^ 2 = (v - (x + y - s) / 2) * (v - (x + y + s) / 2))
    (e1 : |v - (x + y - s) / 2| ^ 2 ≤ 9 * u * N ^ 2)
    (e2 : |v - (x + y - s) / 2| * s ≤ 9 * u * N ^ 2 + 5 * u * N * s)
    (hF : |F - 1| ≤ 5.1 * u) (hG : |h * G - 1| ≤ 6.1 * u) :
    |(x - v) * (-b / w * F) + b * (a / w * G)| ≤ 24 * (u * N ^ 2 / |b|) ∧
    |b * (-b / w * F) + (y - v) * (a / w * G)| ≤ 44 * (u * N ^ 2 / |b|) := by
  have hb0 : 0 < |b| := abs_pos.2 hb
  have hN0 : 0 ≤ N := hb0.le.trans hbN
  have hNU : u * N ≤ u * N ^ 2 / |b| := by
    rw [le_div_iff₀ hb0, sq, ← mul_assoc]
    exact mul_le_mul_of_nonneg_left hbN (mul_nonneg hu0 hN0)
  have hU0 : 0 ≤ u * N ^ 2 / |b| := by positivity
  have hh0 : 0 < h := lt_of_lt_of_le (by norm_num) hh
  have hbw1 : |b / w| ≤ 1 := by rw [abs_div, abs_of_pos hw, div_le_one hw]; exact hbw
  have hxw : |(x - v) / w| ≤ 1.001 := by
    have h1 : |a / w| ≤ 1 := by rw [abs_div, abs_of_pos hw, div_le_one hw]; exact haw
    have h2 : (x - v) / w = a / w * (1 / h) := by rw [ha]; field_simp
    have h3 : |1 / h| ≤ 1.001 := by
      rw [abs_of_pos (by positivity), div_le_iff₀ hh0]
      have := mul_le_mul_of_nonneg_left hh (by norm_num : (0:ℝ) ≤ 1.001)
      norm_num at this ⊢; linarith
    rw [h2, abs_mul]
    exact (mul_le_mul h1 h3 (abs_nonneg _) (by norm_num)).trans (by norm_num)
  constructor
  · have e : (x - v) * (-b / w * F) + b * (a / w * G) = b / w * ((x - v) * ((h * G - 1) - (F - 1))) := by
      rw [ha]; ring
    rw [e, abs_mul, abs_mul]
    have h1 : |h * G - 1 - (F - 1)| ≤ 11.2 * u := (abs_sub _ _).trans (by linarith)
    have h2 : |x - v| * |h * G - 1 - (F - 1)| ≤ 2.03 * N * (11.2 * u) := mul_le_mul hxv h1 (abs_nonneg _) (by positivity)
    have h3 : |b / w| * (|x - v| * |h * G - 1 - (F - 1)|) ≤ 1 * (2.03 * N * (11.2 * u)) :=
      mul_le_mul hbw1 h2 (by positivity) (by norm_num)
    have h4 : 0 ≤ u * N := mul_nonneg hu0 hN0
    linarith
  · have e : b * (-b / w * F) + (y - v) * (a / w * G) =
        ((x - v) * (y - v) - b ^ 2) / w - b * (b / w) * (F - 1) + (y - v) * ((x - v) / w) * (h * G - 1) := by
      rw [ha]; ring
    rw [e]
    have h1 : |((x - v) * (y - v) - b ^ 2) / w| ≤ 25.2 * (u * N ^ 2 / |b|) := by
      rw [abs_div, abs_of_pos hw, hp, abs_mul]
      have k1 : |v - (x + y + s) / 2| ≤ |v - (x + y - s) / 2| + s := by
        rw [show v - (x + y + s) / 2 = v - (x + y - s) / 2 - s by ring]
        refine (abs_sub _ _).trans ?_
        rw [abs_of_nonneg hs0]
      have k2 := mul_le_mul_of_nonneg_left k1 (abs_nonneg (v - (x + y - s) / 2))
      have k3 : 5 * u * N * s ≤ 5 * u * N * (1.415 * N) := mul_le_mul_of_nonneg_left hsN (by positivity)
      have k4 : |v - (x + y - s) / 2| * |v - (x + y + s) / 2| ≤ 25.2 * (u * N ^ 2) := by
        have : 0 ≤ u * N ^ 2 := by positivity
        calc _ ≤ _ := k2
          _ = |v - (x + y - s) / 2| ^ 2 + |v - (x + y - s) / 2| * s := by ring
          _ ≤ 9 * u * N ^ 2 + (9 * u * N ^ 2 + 5 * u * N * (1.415 * N)) := by linarith
          _ = 25.075 * (u * N ^ 2) := by ring
          _ ≤ _ := by linarith
      rw [div_le_iff₀ hw]
      refine k4.trans ?_
      rw [mul_assoc]
      refine mul_le_mul_of_nonneg_left ?_ (by norm_num)
      rw [div_mul_eq_mul_div, le_div_iff₀ hb0]
      exact mul_le_mul_of_nonneg_left hbw (by positivity)
    have h2 : |b * (b / w) * (F - 1)| ≤ 5.1 * (u * N) := by
      rw [abs_mul, abs_mul]
      have := mul_le_mul (mul_le_mul hbN hbw1 (abs_nonneg _) hN0) hF (abs_nonneg _) (by positivity)
      linarith
    have h3 : |(y - v) * ((x - v) / w) * (h * G - 1)| ≤ 12.5 * (u * N) := by
      rw [abs_mul, abs_mul]
      have := mul_le_mul (mul_le_mul hyv hxw (abs_nonneg _) (by positivity)) hG (abs_nonneg _) (by positivity)
      have h4 : 0 ≤ u * N := mul_nonneg hu0 hN0
      linarith
    refine (abs_add_le _ _).trans ((add_le_add ((abs_sub _ _).trans (add_le_add h1 h2)) h3).trans ?_)
    linarith

set_option maxHeartbeats 1000000 in
/-- **C88** the eigenvectors: if the off-diagonal element `b` is not zero, every element of `A vᵢ - λᵢ vᵢ` is at most `60 u ‖A‖²/|b|` -/
theorem c88_residual_partial (hu : ρ.u ≤ 1 / 10000) (h4 : ρ.rnd 4 = 4) (hh : ρ.rnd (1 / 2) = 1 / 2) (m eig : Mat (Fl ρ))
    (ev : Vec (Fl ρ)) (x y b : ℝ) (hx : x = (m 0 0).val) (hy : y = (m 1 1).val) (hb : b = (m 0 1).val) (hb0 : b ≠ 0) :
    ∃ E e, compute2 Fl.sqrt (four ρ) (half ρ) m eig ev = some (E, e) ∧ ∀ i, i < 2 →
      |x * (E i 0).val + b * (E i 1).val - (e i).val * (E i 0).val| ≤ 60 * (ρ.u * frob x y b ^ 2 / |b|) ∧
      |b * (E i 0).val + y * (E i 1).val - (e i).val * (E i 1).val| ≤ 60 * (ρ.u * frob x y b ^ 2 / |b|) := by
  have h0 := ρ.u_nonneg
  have h1 := ρ.u_lt_one
  obtain ⟨E, e, hE, e0, e1, h10, h11, hv⟩ := compute2_eq m eig ev
  obtain ⟨E', e', hE', A0, _, A2, _⟩ := c88_eigenvalues hu h4 hh m eig ev x y b hx hy hb
  obtain ⟨rfl, rfl⟩ : E = E' ∧ e = e' := by
    rw [hE] at hE'
    exact Prod.mk.inj (Option.some.inj hE')
  obtain ⟨t, d0, d1, _, _, b0, b1, q0, q1⟩ := ev_err hu h4 hh m x y b _ _ hx hy hb rfl rfl
  obtain ⟨hN0, hN2, hxN, hyN, hbN, hTN, hsN⟩ := n_facts x y b (frob x y b) rfl
  change gap x y b ≤ _ at hsN
  change |d0| ≤ 4 * ρ.u * frob x y b at b0
  change |d1| ≤ 4 * ρ.u * frob x y b at b1
  change _ = (x + y - gap x y b) / 2 - t / 2 + d0 at q0
  change _ = (x + y + gap x y b) / 2 + t / 2 + d1 at q1
  have hg0 : 0 ≤ gap x y b := Real.sqrt_nonneg _
  have hgg : gap x y b ^ 2 = (x - y) ^ 2 + 4 * b ^ 2 := Real.sq_sqrt (by positivity)
  have hlam := lam_le hN0 hN2 hg0 hgg
  rw [← e0] at q0
  rw [← e1] at q1
  have hsu := Real.sqrt_nonneg ρ.u
  have hsu2 : Real.sqrt ρ.u ^ 2 = ρ.u := Real.sq_sqrt h0
  have hsu100 : Real.sqrt ρ.u ≤ 1 / 100 := Real.sqrt_le_iff.2 ⟨by norm_num, by norm_num; linarith⟩
  generalize frob x y b = N at *
  generalize gap x y b = s at *
  rcases hv with ⟨hz, _⟩ | ⟨hne, v0, v1⟩
  · exact absurd (hb.trans ((magsq_zero _ _).1 hz).2) hb0
  obtain ⟨F, hF, eF⟩ := unit_fac _ _ (-(m 0 1)) hne
  obtain ⟨G, hG, eG⟩ := unit_fac _ _ (m 0 0 - e 0) hne
  obtain ⟨h, hhf, eh⟩ := Fl.sub_fac (m 0 0) (e 0)
  rw [← v0, Fl.val_neg, ← hb] at eF
  rw [← v1, ← hb] at eG
  rw [← hx] at eh
  set a := (m 0 0 - e 0).val with ha
  set w := Real.sqrt (a ^ 2 + b ^ 2) with hw
  set v := (e 0).val with hvv
  have hb2 : 0 < b ^ 2 := by positivity
  have hwpos : 0 < w := Real.sqrt_pos.2 (by nlinarith [sq_nonneg a])
  have hbw : |b| ≤ w := Real.abs_le_sqrt (by nlinarith [sq_nonneg a])
  have haw : |a| ≤ w := Real.abs_le_sqrt (by nlinarith)
  have hvN : |v| ≤ 1.03 * N := by
    have k1 : |v - (x + y - s) / 2| ≤ 0.03 * N := A0.trans (by
      have := mul_le_mul_of_nonneg_right hsu100 hN0
      linarith)
    have k2 := abs_le.1 k1
    have k3 := abs_le.1 (le_refl |x + y|)
    rw [abs_le]; constructor <;> linarith [k2.1, k2.2, k3.1, k3.2]
  have hxv : |x - v| ≤ 2.03 * N := (abs_sub _ _).trans (by linarith)
  have hyv : |y - v| ≤ 2.03 * N := (abs_sub _ _).trans (by linarith)
  have bF := fac_abs (c := 5.1) hF hu (by norm_num) (by norm_num)
  have bG := fac_abs (c := 6.1) (hhf.mul h0 h1 hG) hu (by norm_num) (by norm_num)
  have bh := abs_le.1 (fac_abs (c := 1.02) hhf hu (by norm_num) (by norm_num))
  have hA2 : |v - (x + y - s) / 2| ^ 2 ≤ 9 * ρ.u * N ^ 2 := by
    have := pow_le_pow_left₀ (abs_nonneg _) A0 2
    rw [mul_pow, mul_pow, hsu2] at this
    linarith
  obtain ⟨r0, r1⟩ := residual_aux (N := N) (s := s) (v := v) h0 hb0 hwpos hbw haw hbN eh (by norm_num; linarith [bh.1])
    hxv hyv hg0 hsN (by linear_combination (1 / 4 : ℝ) * hgg) hA2 A2 bF bG
  rw [← eF, ← eG] at r0 r1
  have hbb : 0 < |b| := abs_pos.2 hb0
  have hNU : ρ.u * N ≤ ρ.u * N ^ 2 / |b| := by
    rw [le_div_iff₀ hbb, sq, ← mul_assoc]
    exact mul_le_mul_of_nonneg_left hbN (mul_nonneg h0 hN0)
  have hU0 : 0 ≤ ρ.u * N ^ 2 / |b| := by positivity
  set U := ρ.u * N ^ 2 / |b| with hU
  -- lengths of the elements
  have hlen : ∀ z f : ℝ, |z| ≤ w → Fac ρ.u 5 f → |z / w * f| ≤ 1.001 := by
    intro z f hz hf
    obtain ⟨_, _, ff⟩ := fac_le (c := 1.001) hf hu (by norm_num) (by norm_num)
    rw [abs_mul, abs_div, abs_of_pos hwpos]
    have := mul_le_mul ((div_le_one hwpos).2 hz) ff (abs_nonneg _) (by norm_num)
    linarith
  have l0 : |(E 0 0).val| ≤ 1.001 := by rw [eF]; exact hlen _ _ (by rw [abs_neg]; exact hbw) hF
  have l1 : |(E 0 1).val| ≤ 1.001 := by rw [eG]; exact hlen _ _ haw hG
  have hδ : |d0 + d1| ≤ 8 * (ρ.u * N) := (abs_add_le _ _).trans (by linarith)
  have m1 : |(d0 + d1) * (E 0 1).val| ≤ 9 * U := by
    rw [abs_mul]
    have := mul_le_mul hδ l1 (abs_nonneg _) (by positivity)
    have : 0 ≤ ρ.u * N := mul_nonneg h0 hN0
    linarith
  have m0 : |(d0 + d1) * (E 0 0).val| ≤ 9 * U := by
    rw [abs_mul]
    have := mul_le_mul hδ l0 (abs_nonneg _) (by positivity)
    have : 0 ≤ ρ.u * N := mul_nonneg h0 hN0
    linarith
  refine ⟨E, e, hE, fun i hi => ?_⟩
  rcases (show i = 0 ∨ i = 1 by omega) with rfl | rfl
  · rw [← hvv]
    constructor
    · rw [show x * (E 0 0).val + b * (E 0 1).val - v * (E 0 0).val = (x - v) * (E 0 0).val + b * (E 0 1).val by ring]
      linarith
    · rw [show b * (E 0 0).val + y * (E 0 1).val - v * (E 0 1).val = b * (E 0 0).val + (y - v) * (E 0 1).val by ring]
      linarith
  · rw [h10, h11, Fl.val_neg, show (e 1).val = x + y - v + (d0 + d1) by rw [q0, q1]; ring]
    constructor
    · rw [show x * -(E 0 1).val + b * (E 0 0).val - (x + y - v + (d0 + d1)) * -(E 0 1).val =
        (b * (E 0 0).val + (y - v) * (E 0 1).val) + (d0 + d1) * (E 0 1).val by ring]
      exact (abs_add_le _ _).trans (by linarith)
    · rw [show b * -(E 0 1).val + y * (E 0 0).val - (x + y - v + (d0 + d1)) * (E 0 0).val =
        -((x - v) * (E 0 0).val + b * (E 0 1).val) - (d0 + d1) * (E 0 0).val by ring]
      refine (abs_sub _ _).trans ?_
      rw [abs_neg]; linarith

/-- **C88** a diagonal matrix: unless the smaller value computed is exactly `m[0][0]`, the first eigenvector returned is the second axis —
also when `m[0][0] < m[1][1]` -/
theorem c88_diagonal (hu : ρ.u ≤ 1 / 10000) (m eig : Mat (Fl ρ)) (ev : Vec (Fl ρ)) (hb : (m 0 1).val = 0)
    (hne : ev0 Fl.sqrt (four ρ) (half ρ) m ≠ m 0 0) :
    ∃ E e, compute2 Fl.sqrt (four ρ) (half ρ) m eig ev = some (E, e) ∧ (E 0 0).val = 0 ∧ abs (|(E 0 1).val| - 1) ≤ 6 * ρ.u := by
  have h0 := ρ.u_nonneg
  obtain ⟨E, e, hE, e0, _, _, _, hv⟩ := compute2_eq m eig ev
  have ha : (m 0 0 - e 0).val ≠ 0 := by
    rw [Fl.val_sub]
    refine rnd_ne_zero ρ fun h => hne ?_
    rw [← e0]
    exact Fl.ext (by linarith)
  rcases hv with ⟨hz, _⟩ | ⟨hne, v0, v1⟩
  · exact absurd ((magsq_zero _ _).1 hz).1 ha
  refine ⟨E, e, hE, ?_, ?_⟩
  · rw [v0, Fl.val_mul, Fl.val_neg, hb, neg_zero, zero_mul, Fl.rnd_zero]
  · obtain ⟨G, hG, eG⟩ := unit_fac _ _ (m 0 0 - e 0) hne
    rw [← v1, hb] at eG
    have bG := fac_abs (c := 6) hG hu (by norm_num) (by norm_num)
    rw [eG, abs_mul, abs_div, zero_pow two_ne_zero, add_zero, Real.sqrt_sq_eq_abs, abs_abs, div_self (abs_ne_zero.2 ha), one_mul,
      abs_of_pos (hG.pos h0 ρ.u_lt_one)]
    exact bG

/-- the nearest integer -/
theorem rne_eq {y : ℝ} {k : ℤ} (h : |y - k| < 1 / 2) : rne y = k := by
  have h1 := abs_le.1 (rne_err y)
  have h2 := abs_lt.1 h
  have h3 : (rne y : ℝ) < k + 1 := by linarith
  have h4 : (k : ℝ) < rne y + 1 := by linarith
  have h3' : rne y < k + 1 := by exact_mod_cast h3
  have h4' : k < rne y + 1 := by exact_mod_cast h4
  omega

/-- rounding inside a binade -/
theorem rnd_binade (p : ℕ) {x : ℝ} {k e : ℤ} (h1 : (2:ℝ) ^ e ≤ x) (h2 : x < (2:ℝ) ^ (e + 1)) (h : |x / (2:ℝ) ^ (e + 1 - p) - k| < 1 / 2) :
    rndNearest p x = k * (2:ℝ) ^ (e + 1 - p) := by
  unfold rndNearest
  rw [ulp_of_binade p x e h1 h2, rne_eq h]

/-- numbers with few enough digits are not rounded -/
theorem rnd_dyadic {x : ℝ} (k : ℤ) (n : ℕ) (hk : |k| ≤ 2 ^ 53) (hx : x = k / 2 ^ n) : rndNearest 53 x = x := by
  have := Special.rndNearest_multiple (p := 53) (emin := -n) (by norm_num) k hk
  rw [zpow_neg, zpow_natCast, ← div_eq_mul_inv] at this
  rw [hx, this]

set_option maxHeartbeats 1000000 in
/-- **C88** the unconditional claim is false.  For the diagonal matrix `diag(1 + 3·2⁻²⁶, 3)` of doubles the smaller eigenvalue is
computed as `1 + 3·2⁻²⁶ - 2⁻⁵²`, and the eigenvector returned for it is `(0, 1)`, which belongs to the other eigenvalue: `A v = 3 v`. -/
theorem c88_diagonal_wrong (eig : Mat (Fl Rounding.double)) (ev : Vec (Fl Rounding.double)) :
    ∃ (m E : Mat (Fl Rounding.double)) (e : Vec (Fl Rounding.double)),
      (m 0 0).val = 1 + 3 / 2 ^ 26 ∧ (m 0 1).val = 0 ∧ (m 1 0).val = 0 ∧ (m 1 1).val = 3 ∧
      compute2 Fl.sqrt (four Rounding.double) (half Rounding.double) m eig ev = some (E, e) ∧
      (e 0).val = 1 + 3 / 2 ^ 26 - 1 / 2 ^ 52 ∧ (E 0 0).val = 0 ∧ (E 0 1).val = 1 := by
  have hr : ∀ x, Rounding.double.rnd x = rndNearest 53 x := fun _ => rfl
  have r0 : rndNearest 53 0 = 0 := rndNearest_zero 53
  have hx : rndNearest 53 (1 + 3 / 2 ^ 26) = 1 + 3 / 2 ^ 26 := rnd_dyadic (2 ^ 26 + 3) 26 (by norm_num) (by norm_num)
  have h3 : rndNearest 53 3 = 3 := rnd_dyadic 3 0 (by norm_num) (by norm_num)
  set X : Fl Rounding.double := ⟨1 + 3 / 2 ^ 26, hx⟩ with hX
  set Y : Fl Rounding.double := ⟨3, h3⟩ with hY
  set m : Mat (Fl Rounding.double) := fun r c => if r = c then (if r = 0 then X else Y) else 0 with hm
  have m00 : (m 0 0).val = 1 + 3 / 2 ^ 26 := rfl
  have m11 : (m 1 1).val = 3 := rfl
  have m01 : (m 0 1).val = 0 := rfl
  have e4 : (four Rounding.double).val = 4 := by
    show rndNearest 53 4 = 4
    exact rnd_dyadic 4 0 (by norm_num) (by norm_num)
  have eh : (half Rounding.double).val = 1 / 2 := by
    show rndNearest 53 (1 / 2) = 1 / 2
    exact rnd_dyadic 1 1 (by norm_num) (by norm_num)
  have tr : (m 0 0 + m 1 1).val = 4 + 3 / 2 ^ 26 := by
    rw [Fl.val_add, m00, m11, hr, rnd_dyadic (2 ^ 28 + 3) 26 (by norm_num) (by norm_num)]; norm_num
  have tt : ((m 0 0 + m 1 1) * (m 0 0 + m 1 1)).val = 16 + 24 / 2 ^ 26 + 1 / 2 ^ 48 := by
    rw [Fl.val_mul, tr, hr, rnd_binade 53 (k := 2 ^ 52 + 24 * 2 ^ 22 + 1) (e := 4) (by norm_num) (by norm_num)
      (by norm_num [abs_lt])]
    norm_num
  have det : (m 0 0 * m 1 1 - m 0 1 * m 0 1).val = 3 + 9 / 2 ^ 26 := by
    rw [Fl.val_sub, Fl.val_mul, Fl.val_mul, m00, m11, m01, hr, hr, hr, mul_zero, r0, sub_zero,
      rnd_dyadic (x := (1 + 3 / 2 ^ 26) * 3) (3 * 2 ^ 26 + 9) 26 (by norm_num) (by norm_num),
      rnd_dyadic (x := (1 + 3 / 2 ^ 26) * 3) (3 * 2 ^ 26 + 9) 26 (by norm_num) (by norm_num)]
    norm_num
  have det4 : (four Rounding.double * (m 0 0 * m 1 1 - m 0 1 * m 0 1)).val = 12 + 36 / 2 ^ 26 := by
    rw [Fl.val_mul, e4, det, hr, rnd_dyadic (12 * 2 ^ 26 + 36) 26 (by norm_num) (by norm_num)]
    norm_num
  have dv : ((m 0 0 + m 1 1) * (m 0 0 + m 1 1) - four Rounding.double * (m 0 0 * m 1 1 - m 0 1 * m 0 1)).val =
      4 - 12 / 2 ^ 26 + 1 / 2 ^ 48 := by
    rw [Fl.val_sub, tt, det4, hr, rnd_dyadic (2 ^ 50 - 12 * 2 ^ 22 + 1) 48 (by norm_num) (by norm_num)]
    norm_num
  have hdisc : (disc (four Rounding.double) m).val = 4 - 12 / 2 ^ 26 + 1 / 2 ^ 48 := by
    unfold disc
    dsimp only
    rw [if_neg, dv]
    rw [Fl.lt_def, dv, Fl.val_zero]; norm_num
  have hroot : (Fl.sqrt (disc (four Rounding.double) m)).val = 2 - 3 / 2 ^ 26 + 1 / 2 ^ 51 := by
    rw [Fl.val_sqrt, hdisc, hr]
    have l : 2 - 3 / 2 ^ 26 + 1 / 2 ^ 51 - 3 / 2 ^ 55 ≤ Real.sqrt (4 - 12 / 2 ^ 26 + 1 / 2 ^ 48) :=
      Real.le_sqrt_of_sq_le (by norm_num)
    have r : Real.sqrt (4 - 12 / 2 ^ 26 + 1 / 2 ^ 48) ≤ 2 - 3 / 2 ^ 26 + 1 / 2 ^ 51 :=
      Real.sqrt_le_iff.2 ⟨by norm_num, by norm_num⟩
    rw [rnd_binade 53 (k := 2 ^ 53 - 3 * 2 ^ 26 + 2) (e := 0) ?_ ?_ ?_]
    · norm_num
    · refine le_trans ?_ l; norm_num
    · refine lt_of_le_of_lt r ?_; norm_num
    · have e : (2:ℝ) ^ ((0:ℤ) + 1 - (53:ℕ)) = 1 / 2 ^ 52 := by norm_num
      rw [e, div_div_eq_mul_div, div_one]
      push_cast
      rw [abs_lt]
      constructor
      · have := mul_le_mul_of_nonneg_right l (show (0:ℝ) ≤ 2 ^ 52 by positivity)
        norm_num at this ⊢; linarith
      · have := mul_le_mul_of_nonneg_right r (show (0:ℝ) ≤ 2 ^ 52 by positivity)
        norm_num at this ⊢; linarith
  have hev : (ev0 Fl.sqrt (four Rounding.double) (half Rounding.double) m).val = 1 + 3 / 2 ^ 26 - 1 / 2 ^ 52 := by
    unfold ev0
    have hsub : (m 0 0 + m 1 1 - Fl.sqrt (disc (four Rounding.double) m)).val = 2 + 6 / 2 ^ 26 - 1 / 2 ^ 51 := by
      rw [Fl.val_sub, tr, hroot, hr, rnd_dyadic (2 ^ 52 + 6 * 2 ^ 25 - 1) 51 (by norm_num) (by norm_num)]
      norm_num
    rw [Fl.val_mul, eh, hsub, hr, rnd_dyadic (2 ^ 52 + 3 * 2 ^ 26 - 1) 52 (by norm_num) (by norm_num)]
    norm_num
  obtain ⟨E, e, hE, e0, _, _, _, hv⟩ := compute2_eq m eig ev
  rw [← e0] at hev
  have ha : (m 0 0 - e 0).val = 1 / 2 ^ 52 := by
    rw [Fl.val_sub, m00, hev, hr, rnd_dyadic 1 52 (by norm_num) (by norm_num)]
    norm_num
  rcases hv with ⟨hz, _⟩ | ⟨hne, v0, v1⟩
  · have := ((magsq_zero _ _).1 hz).1
    rw [ha] at this; norm_num at this
  have hmag : ((m 0 0 - e 0) * (m 0 0 - e 0) + m 0 1 * m 0 1).val = 1 / 2 ^ 104 := by
    rw [Fl.val_add, Fl.val_mul, Fl.val_mul, ha, m01, hr, hr, hr, mul_zero, r0, add_zero,
      rnd_dyadic (x := 1 / 2 ^ 52 * (1 / 2 ^ 52)) 1 104 (by norm_num) (by norm_num),
      rnd_dyadic (x := 1 / 2 ^ 52 * (1 / 2 ^ 52)) 1 104 (by norm_num) (by norm_num)]
    norm_num
  have hs : (Fl.sqrt ((m 0 0 - e 0) * (m 0 0 - e 0) + m 0 1 * m 0 1)).val = 1 / 2 ^ 52 := by
    rw [Fl.val_sqrt, hmag, hr, show (1:ℝ) / 2 ^ 104 = (1 / 2 ^ 52) ^ 2 by norm_num, Real.sqrt_sq (by positivity),
      rnd_dyadic 1 52 (by norm_num) (by norm_num)]
  have hi : (1 / Fl.sqrt ((m 0 0 - e 0) * (m 0 0 - e 0) + m 0 1 * m 0 1)).val = 2 ^ 52 := by
    rw [Fl.val_div, hs, Fl.val_one, hr, rnd_dyadic (2 ^ 52) 0 (by norm_num) (by norm_num)]
    norm_num
  refine ⟨m, E, e, m00, m01, rfl, m11, hE, hev, ?_, ?_⟩
  · rw [v0, Fl.val_mul, Fl.val_neg, m01, neg_zero, zero_mul, Fl.rnd_zero]
  · rw [v1, Fl.val_mul, ha, hi, hr, show (1:ℝ) / 2 ^ 52 * 2 ^ 52 = 1 by norm_num]
    exact Rounding.double.one

/-- the hypotheses hold for `double` -/
example : Rounding.double.u ≤ 1 / 10000 ∧ Rounding.double.rnd 4 = 4 ∧ Rounding.double.rnd (1 / 2) = 1 / 2 := by
  refine ⟨by rw [Rounding.double_u]; norm_num, ?_, ?_⟩
  · exact rnd_dyadic 4 0 (by norm_num) (by norm_num)
  · exact rnd_dyadic 1 1 (by norm_num) (by norm_num)
/-- and `c88_residual_partial` says something about the matrix `(0 1; 1 0)` of doubles -/
example : ∃ m : Mat (Fl Rounding.double), (m 0 1).val ≠ 0 ∧ (m 0 0).val = 0 ∧ (m 1 1).val = 0 :=
  ⟨fun r c => if r = c then 0 else 1, by simp, by simp, by simp⟩

end TooN.SymEigenF
