import Verif.Model.Float
import Verif.Proof.Ops
/-! Rounding error analysis: products of relative perturbations, sums, and the loops of the library. -/
set_option linter.unusedSectionVars false
namespace TooN
open Finset

/-- `x` is a product of at most `n` factors `(1+δ)^{±1}` with `|δ| ≤ u` (as an interval) -/
def Fac (u : ℝ) (n : ℕ) (x : ℝ) : Prop := (1-u)^n ≤ x ∧ x * (1-u)^n ≤ 1

section fac
variable {u : ℝ} (h0 : 0 ≤ u) (h1 : u < 1)
include h0 h1

theorem pw_pos (n : ℕ) : 0 < (1-u)^n := pow_pos (by linarith) n
theorem pw_le (n : ℕ) : (1-u)^n ≤ 1 := pow_le_one₀ (by linarith) (by linarith)

theorem Fac.pos {n : ℕ} {x : ℝ} (h : Fac u n x) : 0 < x := lt_of_lt_of_le (pw_pos h0 h1 n) h.1

theorem Fac.one (n : ℕ) : Fac u n 1 := ⟨pw_le h0 h1 n, by rw [one_mul]; exact pw_le h0 h1 n⟩

theorem Fac.mono {m n : ℕ} (hmn : m ≤ n) {x : ℝ} (h : Fac u m x) : Fac u n x := by
  have e : (1-u)^n ≤ (1-u)^m := pow_le_pow_of_le_one (by linarith) (by linarith) hmn
  exact ⟨le_trans e h.1, le_trans (mul_le_mul_of_nonneg_left e (h.pos h0 h1).le) h.2⟩

theorem Fac.mul {m n : ℕ} {x y : ℝ} (hx : Fac u m x) (hy : Fac u n y) : Fac u (m+n) (x*y) := by
  have a := pw_pos h0 h1 m
  have b := pw_pos h0 h1 n
  refine ⟨?_, ?_⟩
  · rw [pow_add]; exact mul_le_mul hx.1 hy.1 b.le (hx.pos h0 h1).le
  · rw [pow_add, show x * y * ((1-u)^m * (1-u)^n) = (x * (1-u)^m) * (y * (1-u)^n) by ring]
    exact mul_le_one₀ hx.2 (mul_nonneg (hy.pos h0 h1).le b.le) hy.2

theorem Fac.inv {n : ℕ} {x : ℝ} (h : Fac u n x) : Fac u n x⁻¹ := by
  have hx := h.pos h0 h1
  refine ⟨?_, ?_⟩
  · rw [inv_eq_one_div, le_div_iff₀ hx, mul_comm]; exact h.2
  · rw [inv_mul_eq_div, div_le_one hx]; exact h.1

theorem Fac.div {m n : ℕ} {x y : ℝ} (hx : Fac u m x) (hy : Fac u n y) : Fac u (m+n) (x/y) := by
  rw [div_eq_mul_inv]; exact hx.mul h0 h1 (hy.inv h0 h1)

theorem fac_delta {d : ℝ} (hd : |d| ≤ u) : Fac u 1 (1+d) := by
  have := abs_le.1 hd
  refine ⟨by rw [pow_one]; linarith, ?_⟩
  rw [pow_one]; nlinarith

theorem bernoulli (n : ℕ) : 1 - n * u ≤ (1-u)^n := by
  have := one_add_mul_le_pow (a := -u) (by linarith) n
  rw [← sub_eq_add_neg] at this
  linarith

/-- the usual bound on the total relative perturbation -/
theorem Fac.gam {n : ℕ} {x : ℝ} (h : Fac u n x) (hn : n * u < 1) : |x - 1| ≤ gam u n := by
  have hb := bernoulli h0 h1 n
  have hp : 0 < 1 - n * u := by linarith
  have hnu : 0 ≤ n * u := by positivity
  have hx := h.pos h0 h1
  rw [TooN.gam, le_div_iff₀ hp, abs_eq_max_neg, max_mul_of_nonneg _ _ hp.le]
  apply max_le
  · have : x * (1 - n * u) ≤ 1 := le_trans (mul_le_mul_of_nonneg_left hb hx.le) h.2
    linarith
  · have : 1 - n * u ≤ x := le_trans hb h.1
    nlinarith

theorem gam_nonneg {n : ℕ} (hn : n * u < 1) : 0 ≤ gam u n := by
  unfold gam; apply div_nonneg (by positivity); linarith

theorem gam_mono {m n : ℕ} (hmn : m ≤ n) (hn : n * u < 1) : gam u m ≤ gam u n := by
  unfold gam
  have : (m:ℝ) * u ≤ n * u := mul_le_mul_of_nonneg_right (by exact_mod_cast hmn) h0
  apply div_le_div₀ (by positivity) this <;> linarith

theorem gam_add {a b : ℕ} (h : (a + b : ℕ) * u < 1) : gam u a + gam u b ≤ gam u (a + b) := by
  unfold gam
  push_cast at *
  have ha : 0 ≤ (a:ℝ) * u := by positivity
  have hb : 0 ≤ (b:ℝ) * u := by positivity
  have e : ((a:ℝ) + b) * u / (1 - (a + b) * u) = a * u / (1 - (a + b) * u) + b * u / (1 - (a + b) * u) := by ring
  rw [e]
  apply add_le_add
  · apply div_le_div_of_nonneg_left ha <;> linarith
  · apply div_le_div_of_nonneg_left hb <;> linarith

end fac

section ops
variable {ρ : Rounding}

theorem rnd_fac (ρ : Rounding) (x : ℝ) : ∃ f, Fac ρ.u 1 f ∧ ρ.rnd x = x * f := by
  by_cases hx : x = 0
  · exact ⟨1, Fac.one ρ.u_nonneg ρ.u_lt_one 1, by rw [hx, Fl.rnd_zero, zero_mul]⟩
  · refine ⟨1 + (ρ.rnd x - x)/x, fac_delta ρ.u_nonneg ρ.u_lt_one ?_, by field_simp; ring⟩
    rw [abs_div, div_le_iff₀ (abs_pos.2 hx)]
    exact ρ.err x

theorem Fl.mul_fac (a b : Fl ρ) : ∃ f, Fac ρ.u 1 f ∧ (a * b).val = a.val * b.val * f :=
  rnd_fac ρ (a.val * b.val)
theorem Fl.add_fac (a b : Fl ρ) : ∃ f, Fac ρ.u 1 f ∧ (a + b).val = (a.val + b.val) * f :=
  rnd_fac ρ (a.val + b.val)
theorem Fl.sub_fac (a b : Fl ρ) : ∃ f, Fac ρ.u 1 f ∧ (a - b).val = (a.val - b.val) * f :=
  rnd_fac ρ (a.val - b.val)
theorem Fl.div_fac (a b : Fl ρ) : ∃ f, Fac ρ.u 1 f ∧ (a / b).val = a.val / b.val * f :=
  rnd_fac ρ (a.val / b.val)

theorem Fl.zero_add' (a : Fl ρ) : 0 + a = a := by
  apply Fl.ext; rw [Fl.val_add, Fl.val_zero, zero_add, a.repr]

theorem rnd_ne_zero (ρ : Rounding) {x : ℝ} (hx : x ≠ 0) : ρ.rnd x ≠ 0 := by
  obtain ⟨f, hf, e⟩ := rnd_fac ρ x
  rw [e]; exact mul_ne_zero hx (hf.pos ρ.u_nonneg ρ.u_lt_one).ne'

/-- a sum of perturbed terms is close to the sum of the terms -/
theorem fac_sum_err {u : ℝ} (h0 : 0 ≤ u) (h1 : u < 1) {N : ℕ} (hN : N * u < 1) (s : Finset ℕ) (t f : ℕ → ℝ)
    (hf : ∀ i ∈ s, Fac u N (f i)) :
    |∑ i ∈ s, t i * f i - ∑ i ∈ s, t i| ≤ gam u N * ∑ i ∈ s, |t i| := by
  rw [← sum_sub_distrib, mul_sum]
  refine le_trans (abs_sum_le_sum_abs _ _) (sum_le_sum fun i hi => ?_)
  rw [show t i * f i - t i = (f i - 1) * t i by ring, abs_mul]
  exact mul_le_mul_of_nonneg_right ((hf i hi).gam h0 h1 hN) (abs_nonneg _)

/-- accumulation `s = 0; for i<n: s += t i` where term `i` carries a relative error -/
theorem forN_add_fac (n : ℕ) (t : ℕ → Fl ρ) :
    ∃ f : ℕ → ℝ, (∀ i, i < n → Fac ρ.u (n-1) (f i)) ∧
      (forN n (fun i s => s + t i) (0 : Fl ρ)).val = ∑ i ∈ range n, (t i).val * f i := by
  have h0 := ρ.u_nonneg
  have h1 := ρ.u_lt_one
  induction n with
  | zero => exact ⟨fun _ => 1, by simp, by simp⟩
  | succ n ih =>
    obtain ⟨f, hf, e⟩ := ih
    rw [forN_succ]
    rcases Nat.eq_zero_or_pos n with rfl | hn
    · refine ⟨fun _ => 1, fun i _ => Fac.one h0 h1 _, ?_⟩
      simp [Fl.zero_add']
    · obtain ⟨g, hg, eg⟩ := Fl.add_fac (forN n (fun i s => s + t i) (0 : Fl ρ)) (t n)
      refine ⟨fun i => if i < n then f i * g else g, ?_, ?_⟩
      · intro i hi
        dsimp only
        split_ifs with h
        · have := (hf i h).mul h0 h1 hg
          rwa [show n - 1 + 1 = n + 1 - 1 by omega] at this
        · exact hg.mono h0 h1 (by omega)
      · rw [eg, e, sum_range_succ, add_mul, sum_mul]
        beta_reduce
        rw [if_neg (lt_irrefl n)]
        congr 1
        apply sum_congr rfl
        intro i hi
        rw [if_pos (mem_range.1 hi)]; ring

/-- the dot product of the library -/
theorem dot_fac (n : ℕ) (a b : Vec (Fl ρ)) :
    ∃ f : ℕ → ℝ, (∀ i, i < n → Fac ρ.u n (f i)) ∧
      (Ops.dot n a b).val = ∑ i ∈ range n, (a i).val * (b i).val * f i := by
  have h0 := ρ.u_nonneg
  have h1 := ρ.u_lt_one
  obtain ⟨f, hf, e⟩ := forN_add_fac n (fun i => a i * b i)
  choose g hg eg using fun i => Fl.mul_fac (a i) (b i)
  refine ⟨fun i => g i * f i, fun i hi => ?_, ?_⟩
  · have := (hg i).mul h0 h1 (hf i hi)
    rwa [show 1 + (n - 1) = n by omega] at this
  · unfold Ops.dot
    rw [e]
    apply sum_congr rfl
    intro i _
    dsimp only
    rw [eg i]; ring

/-- the loop `v = r; for k<n: v -= p_k*q_k`: dividing out the rounding factor of the result -/
theorem forN_sub_fac (n : ℕ) (p q : ℕ → Fl ρ) (r : Fl ρ) :
    ∃ (g : ℝ) (f : ℕ → ℝ), Fac ρ.u n g ∧ (∀ k, k < n → Fac ρ.u n (f k)) ∧
      r.val = (forN n (fun k v => v - p k * q k) r).val * g +
        ∑ k ∈ range n, (p k).val * (q k).val * f k := by
  have h0 := ρ.u_nonneg
  have h1 := ρ.u_lt_one
  induction n with
  | zero => exact ⟨1, fun _ => 1, Fac.one h0 h1 _, by simp, by simp⟩
  | succ n ih =>
    obtain ⟨g, f, hg, hf, e⟩ := ih
    rw [forN_succ]
    set v := forN n (fun k v => v - p k * q k) r with hv
    obtain ⟨c, hc, ec⟩ := Fl.sub_fac v (p n * q n)
    obtain ⟨d, hd, ed⟩ := Fl.mul_fac (p n) (q n)
    have hc0 := (hc.pos h0 h1).ne'
    have ev : v.val = (v - p n * q n).val * c⁻¹ + (p n).val * (q n).val * d := by
      rw [ec, ed]; field_simp; ring
    refine ⟨c⁻¹ * g, fun k => if k < n then f k else d * g, ?_, ?_, ?_⟩
    · have := (hc.inv h0 h1).mul h0 h1 hg
      rwa [add_comm] at this
    · intro k hk
      dsimp only
      split_ifs with h
      · exact (hf k h).mono h0 h1 (by omega)
      · have := hd.mul h0 h1 hg
        rwa [add_comm] at this
    · rw [e, sum_range_succ]
      beta_reduce
      rw [if_neg (lt_irrefl n)]
      have : ∑ k ∈ range n, (p k).val * (q k).val * (if k < n then f k else d * g) =
          ∑ k ∈ range n, (p k).val * (q k).val * f k := by
        apply sum_congr rfl; intro k hk; rw [if_pos (mem_range.1 hk)]
      rw [this]
      linear_combination g * ev

/-- the same for a loop over `lo ≤ k < hi` -/
theorem forRange_sub_fac (lo hi : ℕ) (p q : ℕ → Fl ρ) (r : Fl ρ) :
    ∃ (g : ℝ) (f : ℕ → ℝ), Fac ρ.u (hi - lo) g ∧ (∀ k, lo ≤ k → k < hi → Fac ρ.u (hi - lo) (f k)) ∧
      r.val = (forRange lo hi (fun k v => v - p k * q k) r).val * g +
        ∑ k ∈ Ico lo hi, (p k).val * (q k).val * f k := by
  obtain ⟨g, f, hg, hf, e⟩ := forN_sub_fac (hi - lo) (fun k => p (lo + k)) (fun k => q (lo + k)) r
  refine ⟨g, fun k => f (k - lo), hg, fun k h1 h2 => hf _ (by omega), ?_⟩
  rw [sum_Ico_eq_sum_range]
  unfold forRange
  rw [e]
  congr 1
  apply sum_congr rfl
  intro k _
  beta_reduce
  rw [show lo + k - lo = k by omega]

/-- a weighted mean of perturbation factors is a perturbation factor -/
theorem fac_mean {u : ℝ} (h0 : 0 ≤ u) (h1 : u < 1) (n N : ℕ) (t f : ℕ → ℝ) (ht : ∀ i, 0 ≤ t i)
    (hf : ∀ i, i < n → Fac u N (f i)) :
    ∃ g, Fac u N g ∧ ∑ i ∈ range n, t i * f i = (∑ i ∈ range n, t i) * g := by
  by_cases hs : ∑ i ∈ range n, t i = 0
  · refine ⟨1, Fac.one h0 h1 N, ?_⟩
    rw [hs, zero_mul]
    have := (sum_eq_zero_iff_of_nonneg (fun i _ => ht i)).1 hs
    apply sum_eq_zero
    intro i hi; rw [this i hi, zero_mul]
  · have hp : 0 < ∑ i ∈ range n, t i := lt_of_le_of_ne (sum_nonneg fun i _ => ht i) (Ne.symm hs)
    refine ⟨(∑ i ∈ range n, t i * f i) / ∑ i ∈ range n, t i, ⟨?_, ?_⟩, by field_simp⟩
    · rw [le_div_iff₀ hp, mul_comm, sum_mul]
      exact sum_le_sum fun i hi => mul_le_mul_of_nonneg_left (hf i (mem_range.1 hi)).1 (ht i)
    · rw [div_mul_eq_mul_div, div_le_one hp, sum_mul]
      refine sum_le_sum fun i hi => ?_
      rw [mul_assoc]
      exact mul_le_of_le_one_right (ht i) (hf i (mem_range.1 hi)).2

theorem Fac.sqrt {u : ℝ} (h0 : 0 ≤ u) (h1 : u < 1) {n : ℕ} {x : ℝ} (h : Fac u n x) : Fac u n (Real.sqrt x) := by
  have a := pw_pos h0 h1 n
  have b := pw_le h0 h1 n
  have hx := h.pos h0 h1
  refine ⟨?_, ?_⟩
  · apply Real.le_sqrt_of_sq_le
    nlinarith [h.1]
  · have h2 : Real.sqrt x ^ 2 = x := Real.sq_sqrt hx.le
    have h3 := Real.sqrt_nonneg x
    have : (Real.sqrt x * (1-u)^n)^2 ≤ 1 := by
      rw [mul_pow, h2]
      nlinarith [h.2]
    nlinarith [mul_nonneg h3 a.le]

/-- the squared length computed by the library -/
theorem normSq_fac (n : ℕ) (v : Vec (Fl ρ)) :
    ∃ g, Fac ρ.u n g ∧ (Ops.dot n v v).val = (∑ i ∈ range n, (v i).val ^ 2) * g := by
  obtain ⟨f, hf, e⟩ := dot_fac n v v
  obtain ⟨g, hg, eg⟩ := fac_mean ρ.u_nonneg ρ.u_lt_one n n (fun i => (v i).val ^ 2) f (fun i => sq_nonneg _) hf
  exact ⟨g, hg, by rw [← eg, e]; exact sum_congr rfl (fun i _ => by ring)⟩

theorem norm_fac (n : ℕ) (v : Vec (Fl ρ)) :
    ∃ g, Fac ρ.u (n+1) g ∧ (normFl n v).val = Real.sqrt (∑ i ∈ range n, (v i).val ^ 2) * g := by
  obtain ⟨g, hg, e⟩ := normSq_fac n v
  obtain ⟨d, hd, ed⟩ := rnd_fac ρ (Real.sqrt (Ops.dot n v v).val)
  refine ⟨Real.sqrt g * d, (hg.sqrt ρ.u_nonneg ρ.u_lt_one).mul ρ.u_nonneg ρ.u_lt_one hd, ?_⟩
  rw [normFl, Fl.val_sqrt, ed, e, Real.sqrt_mul (sum_nonneg fun i _ => sq_nonneg _)]
  ring

end ops

end TooN
