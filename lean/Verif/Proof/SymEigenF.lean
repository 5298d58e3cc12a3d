import Verif.Model.SymEigenF
import Verif.Proof.Float
import Mathlib.Tactic
/-!
# Error analysis of the closed form for 2×2 eigenproblems
-/
set_option linter.unusedSectionVars false
namespace TooN.SymEigenF
open Finset
variable {ρ : Rounding}

/-- the constants of the code, converted to the element type -/
noncomputable def four (ρ : Rounding) : Fl ρ := Fl.of ρ 4
noncomputable def half (ρ : Rounding) : Fl ρ := Fl.of ρ (1 / 2)

theorem fac_abs {n : ℕ} {f c : ℝ} (hf : Fac ρ.u n f) (hu : ρ.u ≤ 1 / 10000) (hn : (n : ℝ) ≤ 20) (hc : (n : ℝ) * 1.01 ≤ c) :
    |f - 1| ≤ c * ρ.u := by
  have h0 := ρ.u_nonneg
  have hnu : (n : ℝ) * ρ.u ≤ 20 * (1 / 10000) := mul_le_mul hn hu h0 (by norm_num)
  refine (hf.gam h0 ρ.u_lt_one (by linarith)).trans ?_
  unfold gam
  rw [div_le_iff₀ (by linarith)]
  have h2 : (n : ℝ) * 1.01 * ρ.u ≤ c * ρ.u := mul_le_mul_of_nonneg_right hc h0
  have hcu : 0 ≤ c * ρ.u := le_trans (by positivity) h2
  nlinarith

/-- a small positive factor -/
theorem fac_le {n : ℕ} {f c : ℝ} (hf : Fac ρ.u n f) (hu : ρ.u ≤ 1 / 10000) (hn : (n : ℝ) ≤ 20) (hc : 1 + (n : ℝ) * 1.01 / 10000 ≤ c) :
    0 < f ∧ f ≤ c ∧ |f| ≤ c := by
  have hp := hf.pos ρ.u_nonneg ρ.u_lt_one
  have := abs_le.1 (fac_abs hf hu hn le_rfl)
  have hl : f ≤ c := by
    have : (n : ℝ) * 1.01 * ρ.u ≤ (n : ℝ) * 1.01 * (1 / 10000) := mul_le_mul_of_nonneg_left hu (by positivity)
    linarith
  exact ⟨hp, hl, by rw [abs_of_pos hp]; exact hl⟩

section real
variable (x y b : ℝ)

theorem n_facts (N : ℝ) (hN : N = Real.sqrt (x ^ 2 + y ^ 2 + 2 * b ^ 2)) :
    0 ≤ N ∧ N ^ 2 = x ^ 2 + y ^ 2 + 2 * b ^ 2 ∧ |x| ≤ N ∧ |y| ≤ N ∧ |b| ≤ N ∧ |x + y| ≤ 1.415 * N ∧
      Real.sqrt ((x - y) ^ 2 + 4 * b ^ 2) ≤ 1.415 * N := by
  have h0 : 0 ≤ x ^ 2 + y ^ 2 + 2 * b ^ 2 := by positivity
  have hN0 : 0 ≤ N := by rw [hN]; exact Real.sqrt_nonneg _
  have hN2 : N ^ 2 = x ^ 2 + y ^ 2 + 2 * b ^ 2 := by rw [hN, Real.sq_sqrt h0]
  refine ⟨hN0, hN2, ?_, ?_, ?_, ?_, ?_⟩
  · exact abs_le_of_sq_le_sq (by nlinarith [sq_nonneg y, sq_nonneg b]) hN0
  · exact abs_le_of_sq_le_sq (by nlinarith [sq_nonneg x, sq_nonneg b]) hN0
  · exact abs_le_of_sq_le_sq (by nlinarith [sq_nonneg x, sq_nonneg y, sq_nonneg b]) hN0
  · exact abs_le_of_sq_le_sq (by nlinarith [sq_nonneg (x - y), sq_nonneg b, sq_nonneg x, sq_nonneg y]) (by linarith)
  · rw [Real.sqrt_le_left (by linarith)]
    nlinarith [sq_nonneg (x + y), sq_nonneg b, sq_nonneg x, sq_nonneg y]

theorem sqrt_diff (p q : ℝ) (hp : 0 ≤ p) (hq : 0 ≤ q) :
    |Real.sqrt p - Real.sqrt q| ≤ Real.sqrt |p - q| ∧ |Real.sqrt p - Real.sqrt q| * Real.sqrt q ≤ |p - q| := by
  have a := Real.sqrt_nonneg p
  have c := Real.sqrt_nonneg q
  have e : p - q = (Real.sqrt p - Real.sqrt q) * (Real.sqrt p + Real.sqrt q) := by
    rw [← Real.mul_self_sqrt hp, ← Real.mul_self_sqrt hq]
    simp only [Real.sqrt_mul_self a, Real.sqrt_mul_self c]; ring
  have e2 : |p - q| = |Real.sqrt p - Real.sqrt q| * (Real.sqrt p + Real.sqrt q) := by
    rw [e, abs_mul, abs_of_nonneg (add_nonneg a c)]
  have hd : |Real.sqrt p - Real.sqrt q| ≤ Real.sqrt p + Real.sqrt q := by
    rw [abs_le]; constructor <;> linarith
  refine ⟨?_, ?_⟩
  · rw [e2]
    apply Real.le_sqrt_of_sq_le
    rw [sq]
    exact mul_le_mul_of_nonneg_left hd (abs_nonneg _)
  · rw [e2]
    exact mul_le_mul_of_nonneg_left (by linarith) (abs_nonneg _)

end real

set_option maxHeartbeats 1000000 in
/-- the discriminant -/
theorem disc_err (hu : ρ.u ≤ 1 / 10000) (h4 : ρ.rnd 4 = 4) (m : Mat (Fl ρ)) :
    0 ≤ (disc (four ρ) m).val ∧
    |(disc (four ρ) m).val - (((m 0 0).val - (m 1 1).val) ^ 2 + 4 * (m 0 1).val ^ 2)| ≤
      16.2 * ρ.u * ((m 0 0).val ^ 2 + (m 1 1).val ^ 2 + 2 * (m 0 1).val ^ 2) := by
  have h0 := ρ.u_nonneg
  have h1 := ρ.u_lt_one
  set x := (m 0 0).val with hx
  set y := (m 1 1).val with hy
  set b := (m 0 1).val with hb
  obtain ⟨f, hf, ef⟩ := Fl.add_fac (m 0 0) (m 1 1)
  obtain ⟨f1, hf1, ef1⟩ := Fl.mul_fac (m 0 0) (m 1 1)
  obtain ⟨f2, hf2, ef2⟩ := Fl.mul_fac (m 0 1) (m 0 1)
  obtain ⟨f3, hf3, ef3⟩ := Fl.sub_fac (m 0 0 * m 1 1) (m 0 1 * m 0 1)
  obtain ⟨f4, hf4, ef4⟩ := Fl.mul_fac (m 0 0 + m 1 1) (m 0 0 + m 1 1)
  obtain ⟨f5, hf5, ef5⟩ := Fl.mul_fac (four ρ) (m 0 0 * m 1 1 - m 0 1 * m 0 1)
  obtain ⟨f6, hf6, ef6⟩ := Fl.sub_fac ((m 0 0 + m 1 1) * (m 0 0 + m 1 1)) (four ρ * (m 0 0 * m 1 1 - m 0 1 * m 0 1))
  set d : Fl ρ := (m 0 0 + m 1 1) * (m 0 0 + m 1 1) - four ρ * (m 0 0 * m 1 1 - m 0 1 * m 0 1) with hd
  have e4 : (four ρ).val = 4 := h4
  rw [ef4, ef, ef5, e4, ef3, ef1, ef2] at ef6
  have F1 : Fac ρ.u 4 (f * f * f4 * f6) := ((hf.mul h0 h1 hf).mul h0 h1 hf4).mul h0 h1 hf6
  have F2 : Fac ρ.u 4 (f1 * f3 * f5 * f6) := ((hf1.mul h0 h1 hf3).mul h0 h1 hf5).mul h0 h1 hf6
  have F3 : Fac ρ.u 4 (f2 * f3 * f5 * f6) := ((hf2.mul h0 h1 hf3).mul h0 h1 hf5).mul h0 h1 hf6
  have g1 := fac_abs (c := 4.05) F1 hu (by norm_num) (by norm_num)
  have g2 := fac_abs (c := 4.05) F2 hu (by norm_num) (by norm_num)
  have g3 := fac_abs (c := 4.05) F3 hu (by norm_num) (by norm_num)
  have hD : 0 ≤ (x - y) ^ 2 + 4 * b ^ 2 := by positivity
  have key : |d.val - ((x - y) ^ 2 + 4 * b ^ 2)| ≤ 16.2 * ρ.u * (x ^ 2 + y ^ 2 + 2 * b ^ 2) := by
    rw [ef6, show ((x + y) * f * ((x + y) * f) * f4 - 4 * ((x * y * f1 - b * b * f2) * f3) * f5) * f6 - ((x - y) ^ 2 + 4 * b ^ 2) =
      (f * f * f4 * f6 - 1) * (x + y) ^ 2 - (f1 * f3 * f5 * f6 - 1) * (4 * (x * y)) + (f2 * f3 * f5 * f6 - 1) * (4 * b ^ 2) by ring]
    have a1 : |(f * f * f4 * f6 - 1) * (x + y) ^ 2| ≤ 4.05 * ρ.u * (x + y) ^ 2 := by
      rw [abs_mul, abs_of_nonneg (sq_nonneg (x + y))]; exact mul_le_mul_of_nonneg_right g1 (sq_nonneg _)
    have a2 : |(f1 * f3 * f5 * f6 - 1) * (4 * (x * y))| ≤ 4.05 * ρ.u * (2 * (x ^ 2 + y ^ 2)) := by
      rw [abs_mul]
      refine mul_le_mul g2 ?_ (abs_nonneg _) (by positivity)
      clear_value x y
      have n1 := sq_nonneg (x - y)
      have n2 := sq_nonneg (x + y)
      rw [abs_le]; constructor <;> linarith [show (x - y) ^ 2 = x ^ 2 - 2 * (x * y) + y ^ 2 by ring, show (x + y) ^ 2 = x ^ 2 + 2 * (x * y) + y ^ 2 by ring]
    have a3 : |(f2 * f3 * f5 * f6 - 1) * (4 * b ^ 2)| ≤ 4.05 * ρ.u * (4 * b ^ 2) := by
      rw [abs_mul, abs_of_nonneg (by positivity : 0 ≤ 4 * b ^ 2)]; exact mul_le_mul_of_nonneg_right g3 (by positivity)
    refine (abs_add_le _ _).trans ((add_le_add ((abs_sub _ _).trans (add_le_add a1 a2)) a3).trans ?_)
    have e : 16.2 * ρ.u * (x ^ 2 + y ^ 2 + 2 * b ^ 2) - (4.05 * ρ.u * (x + y) ^ 2 + 4.05 * ρ.u * (2 * (x ^ 2 + y ^ 2)) +
      4.05 * ρ.u * (4 * b ^ 2)) = 4.05 * (ρ.u * (x - y) ^ 2) + 16.2 * (ρ.u * b ^ 2) := by ring
    have n1 := mul_nonneg h0 (sq_nonneg (x - y))
    have n2 := mul_nonneg h0 (sq_nonneg b)
    clear_value x y b
    linarith
  have ed : disc (four ρ) m = if d < 0 then 0 else d := rfl
  rw [ed]
  by_cases hneg : d < 0
  · rw [if_pos hneg, Fl.val_zero]
    have hn : d.val < 0 := hneg
    refine ⟨le_rfl, le_trans ?_ key⟩
    rw [abs_of_nonpos (by linarith), abs_of_nonpos (by linarith)]
    linarith
  · rw [if_neg hneg]
    exact ⟨not_lt.1 hneg, key⟩

theorem ev_fin (hu : ρ.u ≤ 1 / 10000) {N z zr k : ℝ} (hN0 : 0 ≤ N) (hz : |zr - z| ≤ 3.1 * ρ.u * N) (hzN : |z| ≤ 2.1 * N)
    (hk : Fac ρ.u 2 k) : |1 / 2 * zr * k - z / 2| ≤ 4 * ρ.u * N := by
  have h0 := ρ.u_nonneg
  have bk := fac_abs (c := 2.03) hk hu (by norm_num) (by norm_num)
  obtain ⟨_, _, kk⟩ := fac_le (c := 1.001) hk hu (by norm_num) (by norm_num)
  rw [show 1 / 2 * zr * k - z / 2 = 1 / 2 * ((zr - z) * k) + 1 / 2 * ((k - 1) * z) by ring]
  refine (abs_add_le _ _).trans ?_
  rw [abs_mul, abs_mul, abs_mul (1/2 : ℝ), abs_mul (k - 1), abs_of_pos (by norm_num : (0:ℝ) < 1/2)]
  have p1 : |zr - z| * |k| ≤ 3.1 * ρ.u * N * 1.001 := mul_le_mul hz kk (abs_nonneg _) (by positivity)
  have p2 : |k - 1| * |z| ≤ 2.03 * ρ.u * (2.1 * N) := mul_le_mul bk hzN (abs_nonneg _) (by positivity)
  have huN0 : 0 ≤ ρ.u * N := by positivity
  have e1 : 3.1 * ρ.u * N * 1.001 = 3.1031 * (ρ.u * N) := by ring
  have e2 : 2.03 * ρ.u * (2.1 * N) = 4.263 * (ρ.u * N) := by ring
  linarith

theorem ev_root (hu : ρ.u ≤ 1 / 10000) (d D N s t : ℝ) (hN0 : 0 ≤ N) (hd0 : 0 ≤ d) (hD : 0 ≤ D)
    (hd : |d - D| ≤ 16.2 * ρ.u * N ^ 2) (hs : s = Real.sqrt D) (ht : t = Real.sqrt d - s) :
    |t| ≤ 4.05 * Real.sqrt ρ.u * N ∧ |t| * s ≤ 16.3 * ρ.u * N ^ 2 ∧ |t| ≤ 0.0405 * N := by
  have h0 := ρ.u_nonneg
  obtain ⟨q1, q2⟩ := sqrt_diff d _ hd0 hD
  rw [← hs, ← ht] at q1 q2
  have hsu := Real.sqrt_nonneg ρ.u
  have hsu2 : Real.sqrt ρ.u ^ 2 = ρ.u := Real.sq_sqrt h0
  have hp : 0 ≤ ρ.u * N ^ 2 := by positivity
  have t1 : |t| ≤ 4.05 * Real.sqrt ρ.u * N := by
    refine q1.trans (Real.sqrt_le_iff.2 ⟨by positivity, hd.trans ?_⟩)
    rw [mul_pow, mul_pow, hsu2]
    linarith
  have hsu100 : Real.sqrt ρ.u ≤ 1 / 100 := Real.sqrt_le_iff.2 ⟨by norm_num, by norm_num; linarith⟩
  refine ⟨t1, q2.trans (hd.trans (by linarith)), t1.trans ?_⟩
  have := mul_le_mul_of_nonneg_right hsu100 hN0
  linarith

theorem lam_le {x y b N s : ℝ} (hN0 : 0 ≤ N) (hN2 : N ^ 2 = x ^ 2 + y ^ 2 + 2 * b ^ 2) (hs0 : 0 ≤ s)
    (hss : s ^ 2 = (x - y) ^ 2 + 4 * b ^ 2) : |x + y| + s ≤ 2 * N := by
  have hT2 : |x + y| ^ 2 = (x + y) ^ 2 := sq_abs _
  have : (|x + y| + s) ^ 2 ≤ (2 * N) ^ 2 := by
    have := sq_nonneg (|x + y| - s)
    have e1 : (|x + y| - s) ^ 2 = |x + y| ^ 2 - 2 * (|x + y| * s) + s ^ 2 := by ring
    have e2 : (|x + y| + s) ^ 2 = |x + y| ^ 2 + 2 * (|x + y| * s) + s ^ 2 := by ring
    have e3 : (2 * N) ^ 2 = 4 * N ^ 2 := by ring
    rw [e2, e3, hN2]
    rw [e1] at this
    rw [hT2, hss] at *
    linarith [show (x - y) ^ 2 = x ^ 2 - 2 * (x * y) + y ^ 2 by ring, show (x + y) ^ 2 = x ^ 2 + 2 * (x * y) + y ^ 2 by ring]
  exact (abs_le_of_sq_le_sq' this (by positivity)).2

set_option maxHeartbeats 1000000 in
/-- the two values computed, compared with the eigenvalues `(T ∓ √D)/2` -/
theorem ev_err (hu : ρ.u ≤ 1 / 10000) (h4 : ρ.rnd 4 = 4) (hh : ρ.rnd (1 / 2) = 1 / 2) (m : Mat (Fl ρ)) (x y b N s : ℝ)
    (hx : x = (m 0 0).val) (hy : y = (m 1 1).val) (hb : b = (m 0 1).val) (hN : N = Real.sqrt (x ^ 2 + y ^ 2 + 2 * b ^ 2))
    (hs : s = Real.sqrt ((x - y) ^ 2 + 4 * b ^ 2)) :
    ∃ t e0 e1, |t| ≤ 4.05 * Real.sqrt ρ.u * N ∧ |t| * s ≤ 16.3 * ρ.u * N ^ 2 ∧ |e0| ≤ 4 * ρ.u * N ∧ |e1| ≤ 4 * ρ.u * N ∧
      (ev0 Fl.sqrt (four ρ) (half ρ) m).val = (x + y - s) / 2 - t / 2 + e0 ∧
      (ev1 Fl.sqrt (four ρ) (half ρ) m).val = (x + y + s) / 2 + t / 2 + e1 := by
  have h0 := ρ.u_nonneg
  have h1 := ρ.u_lt_one
  obtain ⟨hN0, hN2, hxN, hyN, hbN, hTN, hsN⟩ := n_facts x y b N hN
  rw [← hs] at hsN
  obtain ⟨hd0, hd⟩ := disc_err hu h4 m
  rw [← hx, ← hy, ← hb, ← hN2] at hd
  have hD : 0 ≤ (x - y) ^ 2 + 4 * b ^ 2 := by positivity
  have hs0 : 0 ≤ s := by rw [hs]; exact Real.sqrt_nonneg _
  have hss : s ^ 2 = (x - y) ^ 2 + 4 * b ^ 2 := by rw [hs, Real.sq_sqrt hD]
  obtain ⟨t, ht⟩ : ∃ t, t = Real.sqrt (disc (four ρ) m).val - s := ⟨_, rfl⟩
  obtain ⟨t1, t2, t3⟩ := ev_root hu _ _ N s t hN0 hd0 hD hd hs ht
  have hsq : Real.sqrt (disc (four ρ) m).val = s + t := by rw [ht]; ring
  have hab := lam_le hN0 hN2 hs0 hss
  have ehalf : (half ρ).val = 1 / 2 := hh
  obtain ⟨f, hf, ef⟩ := Fl.add_fac (m 0 0) (m 1 1)
  rw [← hx, ← hy] at ef
  obtain ⟨g, hg, eg⟩ := rnd_fac ρ (Real.sqrt (disc (four ρ) m).val)
  have eg' : (Fl.sqrt (disc (four ρ) m)).val = (s + t) * g := by rw [Fl.val_sqrt, eg, hsq]
  have bf := fac_abs (c := 1.02) hf hu (by norm_num) (by norm_num)
  have bg := fac_abs (c := 1.02) hg hu (by norm_num) (by norm_num)
  have huN0 : 0 ≤ ρ.u * N := by positivity
  have eT : |(f - 1) * (x + y)| ≤ 1.5 * (ρ.u * N) := by
    rw [abs_mul]
    refine (mul_le_mul bf hTN (abs_nonneg _) (by positivity)).trans ?_
    linarith
  have hr : |s + t| ≤ 1.46 * N := by
    refine (abs_add_le _ _).trans ?_
    rw [abs_of_nonneg hs0]; linarith
  have eR : |(g - 1) * (s + t)| ≤ 1.5 * (ρ.u * N) := by
    rw [abs_mul]
    refine (mul_le_mul bg hr (abs_nonneg _) (by positivity)).trans ?_
    linarith
  have hxy := abs_le.1 (le_refl |x + y|)
  have ht3 := abs_le.1 t3
  obtain ⟨k0, hk0, ek0⟩ : ∃ k, Fac ρ.u 2 k ∧ (ev0 Fl.sqrt (four ρ) (half ρ) m).val = 1 / 2 * ((x + y) * f - (s + t) * g) * k := by
    obtain ⟨k, hk, ek⟩ := Fl.sub_fac (m 0 0 + m 1 1) (Fl.sqrt (disc (four ρ) m))
    obtain ⟨l, hl, el⟩ := Fl.mul_fac (half ρ) (m 0 0 + m 1 1 - Fl.sqrt (disc (four ρ) m))
    refine ⟨k * l, hk.mul h0 h1 hl, ?_⟩
    unfold ev0
    rw [el, ek, ef, eg', ehalf]; ring
  obtain ⟨k1, hk1, ek1⟩ : ∃ k, Fac ρ.u 2 k ∧ (ev1 Fl.sqrt (four ρ) (half ρ) m).val = 1 / 2 * ((x + y) * f + (s + t) * g) * k := by
    obtain ⟨k, hk, ek⟩ := Fl.add_fac (m 0 0 + m 1 1) (Fl.sqrt (disc (four ρ) m))
    obtain ⟨l, hl, el⟩ := Fl.mul_fac (half ρ) (m 0 0 + m 1 1 + Fl.sqrt (disc (four ρ) m))
    refine ⟨k * l, hk.mul h0 h1 hl, ?_⟩
    unfold ev1
    rw [el, ek, ef, eg', ehalf]; ring
  have r0 := ev_fin hu (z := x + y - (s + t)) (zr := (x + y) * f - (s + t) * g) hN0 (by
      rw [show (x + y) * f - (s + t) * g - (x + y - (s + t)) = (f - 1) * (x + y) - (g - 1) * (s + t) by ring]
      refine (abs_sub _ _).trans ?_
      linarith) (by rw [abs_le]; constructor <;> linarith [ht3.1, ht3.2, hxy.1, hxy.2]) hk0
  have r1 := ev_fin hu (z := x + y + (s + t)) (zr := (x + y) * f + (s + t) * g) hN0 (by
      rw [show (x + y) * f + (s + t) * g - (x + y + (s + t)) = (f - 1) * (x + y) + (g - 1) * (s + t) by ring]
      refine (abs_add_le _ _).trans ?_
      linarith) (by rw [abs_le]; constructor <;> linarith [ht3.1, ht3.2, hxy.1, hxy.2]) hk1
  refine ⟨t, _, _, t1, t2, r0, r1, ?_, ?_⟩
  · rw [ek0]; ring
  · rw [ek1]; ring

theorem magsq_fac (a b : Fl ρ) : ∃ G, Fac ρ.u 2 G ∧ (a * a + b * b).val = (a.val ^ 2 + b.val ^ 2) * G := by
  have h0 := ρ.u_nonneg
  have h1 := ρ.u_lt_one
  obtain ⟨f, hf, ef⟩ := Fl.mul_fac a a
  obtain ⟨g, hg, eg⟩ := Fl.mul_fac b b
  obtain ⟨k, hk, ek⟩ := Fl.add_fac (a * a) (b * b)
  obtain ⟨t, ht, et⟩ := fac_mean h0 h1 2 1 (fun i => if i = 0 then a.val ^ 2 else b.val ^ 2) (fun i => if i = 0 then f else g)
    (fun i => by split_ifs <;> positivity) (fun i hi => by split_ifs; exacts [hf, hg])
  rw [sum_range_succ, sum_range_succ, sum_range_succ, sum_range_succ] at et
  simp at et
  refine ⟨t * k, ht.mul h0 h1 hk, ?_⟩
  rw [ek, ef, eg, show a.val * a.val * f + b.val * b.val * g = a.val ^ 2 * f + b.val ^ 2 * g by ring, et]; ring

theorem magsq_zero (a b : Fl ρ) : a * a + b * b = 0 ↔ a.val = 0 ∧ b.val = 0 := by
  obtain ⟨G, hG, e⟩ := magsq_fac a b
  rw [Fl.eq_zero_iff, e, mul_eq_zero, or_iff_left (hG.pos ρ.u_nonneg ρ.u_lt_one).ne']
  constructor
  · intro h
    have ha := sq_nonneg a.val
    have hb := sq_nonneg b.val
    exact ⟨pow_eq_zero_iff (two_ne_zero) |>.1 (by linarith), pow_eq_zero_iff (two_ne_zero) |>.1 (by linarith)⟩
  · rintro ⟨h1, h2⟩; rw [h1, h2]; ring

theorem sqrt_magsq_ne (a b : Fl ρ) (h : a * a + b * b ≠ 0) : Fl.sqrt (a * a + b * b) ≠ 0 := by
  obtain ⟨G, hG, e⟩ := magsq_fac a b
  intro h'
  rw [Fl.eq_zero_iff, Fl.val_sqrt] at h'
  refine rnd_ne_zero ρ ?_ h'
  have hpos : 0 < (a * a + b * b).val := by
    have h3 : (a * a + b * b).val ≠ 0 := fun h4 => h ((Fl.eq_zero_iff _).2 h4)
    have h5 : 0 ≤ (a * a + b * b).val := by
      rw [e]; exact mul_nonneg (by positivity) (hG.pos ρ.u_nonneg ρ.u_lt_one).le
    exact lt_of_le_of_ne h5 (Ne.symm h3)
  exact (Real.sqrt_pos.2 hpos).ne'

/-- an element divided by the length -/
theorem unit_fac (a b z : Fl ρ) (_h : a * a + b * b ≠ 0) :
    ∃ F, Fac ρ.u 5 F ∧ (z * (1 / Fl.sqrt (a * a + b * b))).val = z.val / Real.sqrt (a.val ^ 2 + b.val ^ 2) * F := by
  have h0 := ρ.u_nonneg
  have h1 := ρ.u_lt_one
  obtain ⟨G, hG, e⟩ := magsq_fac a b
  obtain ⟨r, hr, er⟩ := rnd_fac ρ (Real.sqrt (a * a + b * b).val)
  obtain ⟨f, hf, ef⟩ := Fl.div_fac 1 (Fl.sqrt (a * a + b * b))
  obtain ⟨g, hg, eg⟩ := Fl.mul_fac z (1 / Fl.sqrt (a * a + b * b))
  refine ⟨f * g / (Real.sqrt G * r), ?_, ?_⟩
  · exact (hf.mul h0 h1 hg).div h0 h1 ((hG.sqrt h0 h1).mul h0 h1 hr)
  · rw [eg, ef, Fl.val_one, Fl.val_sqrt, er, e, Real.sqrt_mul (by positivity)]
    have := hr.pos h0 h1
    have := Real.sqrt_pos.2 (hG.pos h0 h1)
    by_cases hs : Real.sqrt (a.val ^ 2 + b.val ^ 2) = 0
    · rw [hs]; simp
    · field_simp

/-- everything the code stores -/
theorem compute2_eq (m eig : Mat (Fl ρ)) (ev : Vec (Fl ρ)) :
    ∃ E e, compute2 Fl.sqrt (four ρ) (half ρ) m eig ev = some (E, e) ∧
      e 0 = ev0 Fl.sqrt (four ρ) (half ρ) m ∧ e 1 = ev1 Fl.sqrt (four ρ) (half ρ) m ∧
      E 1 0 = -(E 0 1) ∧ E 1 1 = E 0 0 ∧
      (let a := m 0 0 - e 0
       let b := m 0 1
       (a * a + b * b = 0 ∧ E 0 0 = 1 ∧ E 0 1 = 0) ∨
       (a * a + b * b ≠ 0 ∧ E 0 0 = -b * (1 / Fl.sqrt (a * a + b * b)) ∧ E 0 1 = a * (1 / Fl.sqrt (a * a + b * b)))) := by
  unfold compute2
  dsimp only
  have e0 : Vec.set (Vec.set ev 0 (ev0 Fl.sqrt (four ρ) (half ρ) m)) 1 (ev1 Fl.sqrt (four ρ) (half ρ) m) 0 =
      ev0 Fl.sqrt (four ρ) (half ρ) m := rfl
  rw [e0]
  by_cases h : (m 0 0 - ev0 Fl.sqrt (four ρ) (half ρ) m) * (m 0 0 - ev0 Fl.sqrt (four ρ) (half ρ) m) + m 0 1 * m 0 1 = 0
  · rw [if_pos h]
    exact ⟨_, _, rfl, rfl, rfl, rfl, rfl, Or.inl ⟨h, rfl, rfl⟩⟩
  · rw [if_neg h, if_neg (sqrt_magsq_ne _ _ h)]
    exact ⟨_, _, rfl, rfl, rfl, rfl, rfl, Or.inr ⟨h, rfl, rfl⟩⟩

end TooN.SymEigenF
