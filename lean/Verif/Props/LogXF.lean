import Verif.Proof.LogXF
import Verif.Props.ExpXF
/-!
# C79: the matrix logarithm in IEEE floating point

`log_taylor` adds terms of the Mercator series of `m - I` until the addition changes nothing; `log` first takes square roots until the
matrix is close to the identity.  The theorems bound the number of iterations of the former and the distance of the result from the
logarithm of the matrix; the error is *relative* to `‖m - I‖`, up to underflow.  The termination of the square root iteration is not covered.
-/
set_option linter.unusedSectionVars false
namespace TooN.Special
open TooN.Ops Finset TooN.MatFun Filter Topology
open scoped Classical Nat
open scoped Matrix.Norms.Operator

variable {G : Grid} {u η ξ : ℝ} {n N : ℕ}

/-- `L` is the logarithm of `a` that the series defines: `∑ (-1)^k/(k+1) (a-1)^(k+1) = L`, and `e^L = a` -/
def IsLog (a L : Sq n) : Prop :=
  NormedSpace.exp L = a ∧ Tendsto (fun k => ∑ j ∈ range k, ((-1 : ℝ) ^ j / (j + 1)) • (a - 1) ^ (j + 1)) atTop (𝓝 L)

theorem isLog_of (a L : Sq n) (ha : ‖a - 1‖ < 1) (h1 : NormedSpace.exp L = a)
    (h2 : ∀ k : ℕ, ‖L - TooN.logPartial (a - 1) k‖ ≤ ‖((-1 : ℝ) ^ k / (k + 1)) • (a - 1) ^ (k + 1)‖ * (1 - ‖a - 1‖)⁻¹) : IsLog a L := by
  refine ⟨h1, ?_⟩
  refine tendsto_iff_norm_sub_tendsto_zero.2 ?_
  have hlim : Tendsto (fun k : ℕ => ‖a - 1‖ ^ (k + 1) * (1 - ‖a - 1‖)⁻¹) atTop (𝓝 (0 * (1 - ‖a - 1‖)⁻¹)) :=
    Tendsto.mul_const _ ((tendsto_pow_atTop_nhds_zero_of_lt_one (norm_nonneg _) ha).comp (tendsto_add_atTop_nat 1))
  rw [zero_mul] at hlim
  refine squeeze_zero (fun _ => norm_nonneg _) (fun k => ?_) hlim
  rw [norm_sub_rev]
  refine le_trans (h2 k) (mul_le_mul_of_nonneg_right ?_ (inv_nonneg.2 (by linarith)))
  have hk : (1:ℝ) ≤ (k:ℝ) + 1 := by linarith [(Nat.cast_nonneg k : (0:ℝ) ≤ k)]
  rw [norm_smul, norm_div, norm_pow, norm_neg, norm_one, one_pow, Real.norm_eq_abs, abs_of_pos (by linarith), one_div, inv_mul_eq_div]
  exact le_trans (div_le_self (norm_nonneg _) hk) (TooN.norm_pow_le_of_one norm_one_le _ _)

/-- **C79** (any format with rounding unit `u` and smallest positive number `η`) For a matrix of finite numbers at a distance of at most
`ξ` from the identity the loop of `log_taylor` ends after at most `i+4(3n²+1)` iterations, where `(2/3)^i ≤ η`, with finite numbers, and
the result differs from the logarithm of the matrix by at most `logBound + 3uξ`, for any choice of `J`. -/
theorem c79_log_taylor (H : LogHyp G u η ((1 + u) * ξ) n N) (m w : Mat (XF G)) (a : Sq n) (hm : IsM m a) (ha : ninf (a - 1) ≤ ξ) (i : ℕ)
    (hi : (2 / 3 : ℝ) ^ i ≤ η) (hN : i + 4 * (3 * n ^ 2 + 1) ≤ N) (fuel : ℕ) (hf : i + 4 * (3 * n ^ 2 + 1) < fuel) :
    ∃ L, IsLog a L ∧ ∃ K M R, K ≤ i + 4 * (3 * n ^ 2 + 1) ∧ logTaylor XF.abs n m w fuel = some M ∧ IsM (n := n) M R ∧
        ∀ J, ninf (R - L) ≤ logBound u η ((1 + u) * ξ) n J K + 3 * u * ξ := by
  rw [ninf_eq_norm] at ha
  obtain ⟨L, l1, l2, K, M, R, h1, h2, h3, h4⟩ := logTaylor_total H m w a hm ha i hi hN fuel hf
  have hlt : ‖a - 1‖ < 1 := by
    have h0 := H.F.u0
    have h5 := H.xic
    have h6 := H.c
    have : 0 ≤ ‖a - 1‖ := norm_nonneg _
    nlinarith
  refine ⟨L, isLog_of a L hlt l1 l2, K, M, R, h1, h2, h3, fun J => ?_⟩
  rw [ninf_eq_norm]
  exact h4 J

/-! ### `double` -/

theorem log_pow_double (hn : n ≤ 10 ^ 6) : 2 * (((n:ℝ) + 2) * (1 / 2 ^ 53)) ≤ 1 / 10 ^ 9 ∧
    (1 + 1 / 2 ^ 53 : ℝ) ^ (n + 2) ≤ 1 + 1 / 10 ^ 9 ∧ (1 + 1 / 2 ^ 53 : ℝ) ^ (n + 1) - 1 ≤ 2 * ((n + 1) * (1 / 2 ^ 53)) := by
  have hnR : (n:ℝ) ≤ 1000000 := by exact_mod_cast hn
  have hn0 : (0:ℝ) ≤ n := Nat.cast_nonneg n
  have h1 : 2 * (((n:ℝ) + 2) * (1 / 2 ^ 53)) ≤ 1 / 10 ^ 9 := by
    norm_num
    linarith
  have hP := pow_sub_one (u := 1 / 2 ^ 53) (by positivity) (n + 2) (by
    push_cast
    norm_num
    linarith)
  have hP' := pow_sub_one (u := 1 / 2 ^ 53) (by positivity) (n + 1) (by
    push_cast
    norm_num
    linarith)
  push_cast at hP hP'
  exact ⟨h1, by linarith, hP'⟩

theorem logHyp_double (hn : n ≤ 10 ^ 6) (h0 : 0 ≤ ξ) (hξ : ξ ≤ 1 / 2) :
    LogHyp Grid.double (1 / 2 ^ 53) ((2:ℝ) ^ (-1074 : ℤ)) ((1 + 1 / 2 ^ 53) * ξ) n (1837 + 4 * (3 * n ^ 2 + 1)) := by
  have hnR : (n:ℝ) ≤ 1000000 := by exact_mod_cast hn
  have hn0 : (0:ℝ) ≤ n := Nat.cast_nonneg n
  have hη : (2:ℝ) ^ (-1074 : ℤ) = 1 / 2 ^ 1074 := pow_two_neg (by norm_num)
  have hη2 : (1:ℝ) / 2 ^ 1074 ≤ 1 / 2 ^ 150 :=
    div_le_div_of_nonneg_left (by norm_num) (by positivity) (pow_le_pow_right₀ (by norm_num) (by norm_num))
  have hbig : (2:ℝ) ^ 64 ≤ Grid.double.big := le_trans (pow_le_pow_right₀ (by norm_num) (by norm_num)) big_double
  obtain ⟨p1, p2, p3⟩ := log_pow_double hn
  have hnn : (n:ℝ) ^ 2 ≤ 10 ^ 12 := by
    have := mul_le_mul hnR hnR hn0 (by norm_num)
    rw [← sq] at this
    refine le_trans this (by norm_num)
  refine ⟨fmt_double, by positivity, ?_, ?_, ?_, ?_, ?_, ?_, ?_⟩
  · rw [show (1 + 1 / 2 ^ 53) * ξ * (1 + 1 / 2 ^ 53 : ℝ) ^ (n + 1) = ξ * (1 + 1 / 2 ^ 53) ^ (n + 2) by ring]
    refine le_trans (mul_le_mul hξ p2 (by positivity) (by norm_num)) (by norm_num)
  · push_cast
    norm_num at hnn ⊢
    linarith
  · have : n ≤ n ^ 2 := Nat.le_self_pow (by norm_num) n
    omega
  · rw [hη, ← sq]
    push_cast
    have h2 : 5 * (1837 + 4 * (3 * (n:ℝ) ^ 2 + 1)) ≤ 2 ^ 50 := by
      norm_num at hnn ⊢
      linarith
    have h3 : (n:ℝ) ^ 2 * (1 / 2 ^ 1074) ≤ 10 ^ 12 * (1 / 2 ^ 150) := mul_le_mul hnn hη2 (by positivity) (by positivity)
    refine le_trans (mul_le_mul h2 h3 (by positivity) (by positivity)) (by norm_num)
  · rw [hη]
    refine le_trans hη2 (by norm_num)
  · exact le_trans (by norm_num) hbig
  · refine le_trans ?_ hbig
    push_cast
    norm_num at hnn ⊢
    linarith

/-- the bound, when `‖X‖` is at most about one half -/
theorem logBound_le (u0 : 0 ≤ u) (β ρ : ℝ) (h0 : 0 ≤ β) (hβ : β ≤ 1 / 2) (hρ : ρ ≤ 1 / 10 ^ 4) (J K : ℕ)
    (hP : (1 + u) ^ (n + 2) ≤ 1 + ρ) (hP' : (1 + u) ^ (n + 1) - 1 ≤ 2 * ((n + 1) * u)) (hu : u ≤ 1 / 10 ^ 6)
    (hJ : 4.01 * ((1 + ρ) / 2) ^ J ≤ u * (J + 1)) :
    logBound u η ((1 + u) * β) n J K + 3 * u * β ≤ u * β * (9 * n + 6.01 * J + 36) + 40 * (K + 1) * (n * n * η) := by
  unfold logBound
  dsimp only
  have hρ0 : 0 ≤ ρ := by
    have : (1:ℝ) ≤ (1 + u) ^ (n + 2) := one_le_pow₀ (by linarith)
    linarith
  have hn0 : (0:ℝ) ≤ n := Nat.cast_nonneg n
  have hJ0 : (0:ℝ) ≤ J := Nat.cast_nonneg J
  have hce : (1 + u) * β * (1 + u) ^ (n + 1) = β * (1 + u) ^ (n + 2) := by ring
  have hc : (1 + u) * β * (1 + u) ^ (n + 1) ≤ β * (1 + ρ) := by
    rw [hce]
    exact mul_le_mul_of_nonneg_left hP h0
  have hc0 : 0 ≤ (1 + u) * β * (1 + u) ^ (n + 1) := by positivity
  have hcx : (1 + u) * β * (1 + u) ^ (n + 1) - (1 + u) * β ≤ 1.0001 * (β * (2 * ((n + 1) * u))) := by
    have e : (1 + u) * β * (1 + u) ^ (n + 1) - (1 + u) * β = (1 + u) * (β * ((1 + u) ^ (n + 1) - 1)) := by ring
    rw [e]
    refine mul_le_mul (by linarith) (mul_le_mul_of_nonneg_left hP' h0) ?_ (by norm_num)
    exact mul_nonneg h0 (sub_nonneg.2 (one_le_pow₀ (by linarith)))
  set c := (1 + u) * β * (1 + u) ^ (n + 1) with hcd
  have hc1 : c ≤ (1 + ρ) / 2 := by nlinarith
  have hcβ : c ≤ 1.0001 * β := by nlinarith
  have hc12 : c ≤ 0.50005 := by linarith
  set σ := (1 - c)⁻¹ with hσd
  have hσ : σ ≤ 2.0003 := by
    rw [hσd, inv_le_comm₀ (by linarith) (by norm_num)]
    refine le_trans ?_ (show (0.49995:ℝ) ≤ 1 - c by linarith)
    norm_num
  have hσ0 : 0 ≤ σ := inv_nonneg.2 (by linarith)
  have hσ2 : σ ^ 2 ≤ 4.0013 := by
    have := mul_le_mul hσ hσ hσ0 (by norm_num)
    rw [sq]
    linarith
  have t1 : u * c * (3 * J * σ + 5 * σ ^ 2) ≤ u * (1.0001 * β) * (6.001 * J + 20.007) := by
    refine mul_le_mul (mul_le_mul_of_nonneg_left hcβ u0) ?_ (by positivity) (by positivity)
    nlinarith
  have t2 : (c - (1 + u) * β) * σ ^ 2 ≤ 1.0001 * (β * (2 * ((n + 1) * u))) * 4.0013 :=
    mul_le_mul hcx hσ2 (by positivity) (by positivity)
  have t3 : 2 * c ^ (J + 1) * σ / (J + 1) ≤ u * β := by
    rw [div_le_iff₀ (by positivity), pow_succ]
    have q1 : c ^ J ≤ ((1 + ρ) / 2) ^ J := pow_le_pow_left₀ hc0 hc1 J
    have q2 : c * σ ≤ 1.0001 * β * 2.0003 := mul_le_mul hcβ hσ hσ0 (by positivity)
    have q3 : c ^ J * (c * σ) ≤ ((1 + ρ) / 2) ^ J * (1.0001 * β * 2.0003) := mul_le_mul q1 q2 (by positivity) (by positivity)
    have q4 : 4.01 * ((1 + ρ) / 2) ^ J * β ≤ u * (J + 1) * β := mul_le_mul_of_nonneg_right hJ h0
    have q5 : 0 ≤ ((1 + ρ) / 2) ^ J * β := by positivity
    nlinarith
  have t4 : 0 ≤ u * β := by positivity
  have t5 : 0 ≤ u * β * n := by positivity
  have t6 : 0 ≤ u * β * J := by positivity
  linarith

/-- **C79** (`double`) `log_taylor` of any matrix `m` of at most a million rows with finite elements and `‖m - I‖ ≤ 1/2` returns after at
most `12n²+1841` iterations, and the result is within `(9n+337)·2⁻⁵³·‖m - I‖` of the logarithm of the matrix, up to underflow. -/
theorem c79_log_taylor_double (hn : n ≤ 10 ^ 6) (m w : Mat (XF Grid.double)) (a : Sq n) (hm : IsM m a) (ha : ninf (a - 1) ≤ 1 / 2)
    (fuel : ℕ) (hf : 12 * n ^ 2 + 1841 < fuel) :
    ∃ L M R, IsLog a L ∧ logTaylor XF.abs n m w fuel = some M ∧ IsM (n := n) M R ∧
      ninf (R - L) ≤ (9 * n + 337) / 2 ^ 53 * ninf (a - 1) + 1 / 2 ^ 980 := by
  have hnR : (n:ℝ) ≤ 1000000 := by exact_mod_cast hn
  have hn0 : (0:ℝ) ≤ n := Nat.cast_nonneg n
  have h0 : 0 ≤ ninf (a - 1) := by rw [ninf_eq_norm]; exact norm_nonneg _
  have hi : (2 / 3 : ℝ) ^ 1837 ≤ (2:ℝ) ^ (-1074 : ℤ) := by
    rw [pow_two_neg (k := 1074) (by norm_num), div_pow, div_le_div_iff₀ (by positivity) (by positivity), one_mul]
    have e1 : (3:ℝ) ^ 1837 = (3 ^ 53) ^ 34 * 3 ^ 35 := by rw [← pow_mul, ← pow_add]
    have e2 : (2:ℝ) ^ 1837 * 2 ^ 1074 = (2 ^ 84) ^ 34 * 2 ^ 55 := by rw [← pow_mul, ← pow_add, ← pow_add]
    rw [e1, e2]
    exact mul_le_mul (pow_le_pow_left₀ (by positivity) (by norm_num) 34) (by norm_num) (by positivity) (by positivity)
  obtain ⟨L, l1, K, M, R, h1, h2, h3, h4⟩ := c79_log_taylor (logHyp_double hn h0 ha) m w a hm (le_refl _) 1837 hi (le_refl _) fuel
    (by omega)
  refine ⟨L, M, R, l1, h2, h3, le_trans (h4 50) ?_⟩
  obtain ⟨p1, p2, p3⟩ := log_pow_double hn
  refine le_trans (logBound_le (n := n) (by positivity) _ (1 / 10 ^ 9) h0 ha (by norm_num) 50 K p2 p3 (by norm_num)
    (by norm_num)) ?_
  have hnn : (n:ℝ) * n ≤ 10 ^ 12 := le_trans (mul_le_mul hnR hnR hn0 (by norm_num)) (by norm_num)
  have hK : (K:ℝ) + 1 ≤ 2 ^ 44 := by
    have : (K:ℝ) ≤ ((1837 + 4 * (3 * n ^ 2 + 1) : ℕ):ℝ) := by exact_mod_cast h1
    push_cast at this
    rw [sq] at this
    norm_num at hnn ⊢
    linarith
  have hU : 40 * ((K:ℝ) + 1) * (n * n * (2:ℝ) ^ (-1074 : ℤ)) ≤ 1 / 2 ^ 980 := by
    rw [pow_two_neg (k := 1074) (by norm_num)]
    have q1 : 40 * ((K:ℝ) + 1) * (n * n * (1 / 2 ^ 1074)) ≤ 40 * 2 ^ 44 * (10 ^ 12 * (1 / 2 ^ 1074)) :=
      mul_le_mul (mul_le_mul_of_nonneg_left hK (by norm_num)) (mul_le_mul_of_nonneg_right hnn (by positivity)) (by positivity) (by positivity)
    refine le_trans q1 ?_
    have e : (2:ℝ) ^ 1074 = 2 ^ 980 * 2 ^ 94 := by rw [← pow_add]
    rw [e, one_div, mul_inv, one_div]
    have : (0:ℝ) < (2 ^ 980 : ℝ)⁻¹ := by positivity
    rw [show 40 * 2 ^ 44 * (10 ^ 12 * ((2 ^ 980 : ℝ)⁻¹ * (2 ^ 94 : ℝ)⁻¹)) = (40 * 2 ^ 44 * 10 ^ 12 * (2 ^ 94 : ℝ)⁻¹) * (2 ^ 980 : ℝ)⁻¹ by ring]
    exact mul_le_of_le_one_left this.le (by norm_num)
  have e : (9 * (n:ℝ) + 337) / 2 ^ 53 * ninf (a - 1) = 1 / 2 ^ 53 * ninf (a - 1) * (9 * n + 6.01 * (50:ℕ) + 36) + 0.5 / 2 ^ 53 * ninf (a - 1) := by
    push_cast
    ring
  rw [e]
  have : 0 ≤ (0.5:ℝ) / 2 ^ 53 * ninf (a - 1) := by positivity
  linarith

/-! ### `log` -/

/-- multiplication of a number by a power of two is exact -/
theorem rndIEEE_scale (p : ℕ) (emin : ℤ) (hp : 1 ≤ p) (x : ℝ) (hx : rndIEEE p emin x = x) (c : ℕ) :
    rndIEEE p emin (x * 2 ^ c) = x * 2 ^ c := by
  obtain ⟨k, hk⟩ := rndIEEE_multiple (p := p) (emin := emin) x
  rw [hx] at hk
  have h1 : rndIEEE p emin (x * 2 ^ c) = rndNearest p (x * 2 ^ c) := by
    have := agree_multiple (p := p) (emin := emin) hp (k * 2 ^ c)
    have e : ((k * 2 ^ c : ℤ) : ℝ) * (2:ℝ) ^ emin = x * 2 ^ c := by
      rw [hk]
      push_cast
      ring
    rwa [e] at this
  rw [h1]
  have h2 := rep_standard hp hx
  have h3 : ∀ y : ℝ, 0 < y → rndNearest p y = y → rndNearest p (y * 2 ^ c) = y * 2 ^ c := fun y hy h => by
    have := rndNearest_scale (p := p) y hy (c : ℤ)
    rw [zpow_natCast, h] at this
    exact this
  rcases lt_trichotomy x 0 with h | h | h
  · have := h3 (-x) (by linarith) (by rw [rndNearest_neg, h2])
    rw [neg_mul, rndNearest_neg] at this
    linarith
  · rw [h, zero_mul, rndNearest_zero]
  · exact h3 x h h2

theorem half_rep : Grid.double.rnd (1 / 2) = 1 / 2 := by
  have := rndIEEE_pow (p := 53) (emin := -1074) (by norm_num) (-1) (by norm_num)
  rw [zpow_neg_one, ← one_div] at this
  exact this

/-- the test of the loop of `log` -/
theorem log_test (m w : Mat (XF G)) (F : Fmt G u η) (a : Sq n) (hm : IsM m a) (ha : ‖a - 1‖ ≤ 1) (hb : 64 ≤ G.big) (hP : (1 + u) ^ (n + 1) ≤ 2)
    (half : XF G) (h : ℝ) (hh : Is half h) :
    ((1 + u) ^ (n + 1) * ‖a - 1‖ ≤ h → ¬ half < normInfM XF.abs n n (minusId n m w)) ∧
    (¬ half < normInfM XF.abs n n (minusId n m w) → ‖a - 1‖ * ((1 - u) * (2 - (1 + u) ^ n)) ≤ h) := by
  have u0 := F.u0
  obtain ⟨x, x1, x2⟩ := minusId_is F m w a hm ha hb
  have hx : ‖x‖ ≤ (1 + u) * ‖a - 1‖ := by
    have := norm_add_le (x - (a - 1)) (a - 1)
    rw [sub_add_cancel] at this
    linarith
  have hx' : (1 - u) * ‖a - 1‖ ≤ ‖x‖ := by
    have := norm_sub_le x (x - (a - 1))
    rw [sub_sub_cancel] at this
    linarith
  have hq : (1 + u) ^ n * ‖x‖ ≤ (1 + u) ^ (n + 1) * ‖a - 1‖ := by
    rw [pow_succ, mul_assoc]
    exact mul_le_mul_of_nonneg_left hx (by positivity)
  have hq2 : (1 + u) ^ (n + 1) * ‖a - 1‖ ≤ 2 := by
    have := mul_le_mul hP ha (norm_nonneg _) (by norm_num)
    linarith
  obtain ⟨v, v1, v2, v3⟩ := norm_value F (minusId n m w) x x1 (by linarith)
  obtain ⟨g1, e1⟩ := hh
  obtain ⟨g2, e2⟩ := v1
  rw [e1, e2]
  constructor
  · intro h1 h2
    have := fin_lt.1 h2
    linarith
  · intro h1
    have h2 : v ≤ h := not_lt.1 fun hlt => h1 (fin_lt.2 hlt)
    have h3 : (1:ℝ) ≤ (1 + u) ^ n := one_le_pow₀ (by linarith)
    have h4 : (1 + u) ^ n ≤ 2 := le_trans (pow_le_pow_right₀ (by linarith) (by omega)) hP
    have h5 := mul_le_mul_of_nonneg_right hx' (show 0 ≤ 2 - (1 + u) ^ n by linarith)
    linarith

/-- the last part of `log`: after `c` square roots the series is summed and multiplied by `2^c` -/
theorem log_last (hn : n ≤ 10 ^ 6) (m w : Mat (XF Grid.double)) (a : Sq n) (hm : IsM m a) (ha : ninf (a - 1) ≤ 1 / 2) (half : XF Grid.double)
    (ht : ¬ half < normInfM XF.abs n n (minusId n m w)) (pow2 : ℕ → XF Grid.double) (c : ℕ) (hc : c ≤ 1000) (hpow : Is (pow2 c) (2 ^ c))
    (sqrt : Mat (XF Grid.double) → Option (Mat (XF Grid.double))) (fuelT fuel : ℕ) (hf : 12 * n ^ 2 + 1841 < fuelT) :
    ∃ L M R, IsLog a L ∧ logLoop XF.abs half pow2 sqrt n w fuelT (fuel + 1) c m = some M ∧ IsM (n := n) M R ∧
      ninf (R - (2:ℝ) ^ c • L) ≤ 2 ^ c * ((9 * n + 337) / 2 ^ 53 * ninf (a - 1) + 1 / 2 ^ 980) := by
  obtain ⟨L, M, R, l1, l2, l3, l4⟩ := c79_log_taylor_double hn m w a hm ha fuelT hf
  have hnR : (n:ℝ) ≤ 1000000 := by exact_mod_cast hn
  rw [ninf_eq_norm] at ha l4
  have hlogL : ‖L‖ ≤ 1 := by
    obtain ⟨L', g1, g2⟩ := TooN.log_series norm_one_le (a - 1) (by linarith)
    have hL : L' = L := tendsto_nhds_unique (isLog_of a L' (by linarith) (g1.trans (by abel)) g2).2 l1.2
    have := g2 0
    rw [hL] at this
    simp [TooN.logPartial] at this
    have h3 : (1 - ‖a - 1‖)⁻¹ ≤ 2 := by
      rw [inv_le_comm₀ (by linarith) (by norm_num)]
      linarith
    have := mul_le_mul ha h3 (inv_nonneg.2 (by linarith)) (by norm_num : (0:ℝ) ≤ 1 / 2)
    linarith
  have hR : ‖R‖ ≤ 2 := by
    have h1 := norm_add_le (R - L) L
    rw [sub_add_cancel] at h1
    have h2 : (9 * (n:ℝ) + 337) / 2 ^ 53 * ninf (a - 1) ≤ 1 / 4 * (1 / 2) := by
      refine mul_le_mul ?_ (by rw [ninf_eq_norm]; exact ha) (by rw [ninf_eq_norm]; exact norm_nonneg _) (by norm_num)
      rw [div_le_iff₀ (by positivity)]
      norm_num
      linarith
    have h3 : (1:ℝ) / 2 ^ 980 ≤ 1 / 2 := by
      have : (1:ℝ) / 2 ^ 980 ≤ 1 / 2 ^ 1 :=
        div_le_div_of_nonneg_left (by norm_num) (by positivity) (pow_le_pow_right₀ (by norm_num) (by norm_num))
      rwa [pow_one] at this
    linarith
  have hrep : ∀ i j, Grid.double.rnd (R i j * 2 ^ c) = R i j * 2 ^ c := fun i j =>
    rndIEEE_scale 53 (-1074) (by norm_num) (R i j) (l3 i j).rep c
  refine ⟨L, applyScalarM (· * ·) n n M (pow2 c) w, (2:ℝ) ^ c • R, l1, ?_, ?_, ?_⟩
  · unfold logLoop
    rw [if_neg ht, l2]
    rfl
  · intro i j
    unfold applyScalarM
    rw [evalM_apply, if_pos ⟨i.2, j.2⟩]
    have := (l3 i j).mul hpow (by
      rw [hrep, abs_mul, abs_of_pos (by positivity : (0:ℝ) < 2 ^ c)]
      have h1 : |R i j| ≤ 2 := le_trans (entry_le_norm R i j) hR
      have h2 : (2:ℝ) ^ c ≤ 2 ^ 1000 := pow_le_pow_right₀ (by norm_num) hc
      refine le_trans (mul_le_mul h1 h2 (by positivity) (by norm_num)) (le_trans ?_ big_double)
      rw [show (2:ℝ) * 2 ^ 1000 = 2 ^ 1001 by rw [← pow_succ']]
      exact pow_le_pow_right₀ (by norm_num) (by norm_num))
    rw [hrep] at this
    rw [Matrix.smul_apply, smul_eq_mul, mul_comm]
    exact this
  · rw [← smul_sub, ninf_eq_norm, norm_smul, Real.norm_eq_abs, abs_of_pos (by positivity)]
    exact mul_le_mul_of_nonneg_left l4 (by positivity)

/-- **C79** (`double`) `log(m)` of any matrix of at most a million rows with finite elements and `‖m - I‖ ≤ 0.499` returns without a square
root; the result is within `(9n+337)·2⁻⁵³·‖m - I‖` of the logarithm of the matrix, up to underflow.  `half` is the constant `0.5`. -/
theorem c79_log_double (hn : n ≤ 10 ^ 6) (m w : Mat (XF Grid.double)) (a : Sq n) (hm : IsM m a) (ha : ninf (a - 1) ≤ 0.499)
    (half : XF Grid.double) (hh : Is half (1 / 2)) (pow2 : ℕ → XF Grid.double) (hpow : Is (pow2 0) 1)
    (sqrt : Mat (XF Grid.double) → Option (Mat (XF Grid.double))) (fuelT fuel : ℕ) (hf : 12 * n ^ 2 + 1841 < fuelT) :
    ∃ L M R, IsLog a L ∧ logLoop XF.abs half pow2 sqrt n w fuelT (fuel + 1) 0 m = some M ∧ IsM (n := n) M R ∧
      ninf (R - L) ≤ (9 * n + 337) / 2 ^ 53 * ninf (a - 1) + 1 / 2 ^ 980 := by
  obtain ⟨p1, p2, -⟩ := log_pow_double hn
  have p4 : (1 + 1 / 2 ^ 53 : ℝ) ^ (n + 1) ≤ 1 + 1 / 10 ^ 9 := le_trans (pow_le_pow_right₀ (by norm_num) (by omega)) p2
  have hbig : (2:ℝ) ^ 64 ≤ Grid.double.big := le_trans (pow_le_pow_right₀ (by norm_num) (by norm_num)) big_double
  have ha' := ha
  rw [ninf_eq_norm] at ha'
  have ht := (log_test m w fmt_double a hm (le_trans ha' (by norm_num)) (le_trans (by norm_num) hbig) (le_trans p4 (by norm_num)) half _ hh).1 (by
    refine le_trans (mul_le_mul p4 ha' (norm_nonneg _) (by norm_num)) (by norm_num))
  obtain ⟨L, M, R, h1, h2, h3, h4⟩ := log_last hn m w a hm (le_trans ha (by norm_num)) half ht pow2 0 (by norm_num) (by simpa using hpow) sqrt
    fuelT fuel hf
  rw [pow_zero, one_smul, one_mul] at h4
  exact ⟨L, M, R, h1, h2, h3, h4⟩

/-- **C79** (`double`) in general: if the square root routine returns for the matrices `B 0 = m, …, B (c-1)`, which are too far from the
identity for the test of `log`, with `B (i+1)` the root computed for `B i`, and `B c` has finite elements and passes the test, then `log`
returns `2^c` times a matrix that is within the bound of the logarithm of `B c`. -/
theorem c79_log_roots_double (hn : n ≤ 10 ^ 6) (B : ℕ → Mat (XF Grid.double)) (w : Mat (XF Grid.double)) (c : ℕ) (hc : c ≤ 1000)
    (half : XF Grid.double) (pow2 : ℕ → XF Grid.double) (hpow : Is (pow2 c) (2 ^ c))
    (sqrt : Mat (XF Grid.double) → Option (Mat (XF Grid.double)))
    (hB : ∀ i, i < c → half < normInfM XF.abs n n (minusId n (B i) w) ∧ sqrt (B i) = some (B (i + 1)))
    (hlast : ¬ half < normInfM XF.abs n n (minusId n (B c) w)) (a : Sq n) (hm : IsM (B c) a) (ha : ninf (a - 1) ≤ 1 / 2)
    (fuelT fuel : ℕ) (hf : 12 * n ^ 2 + 1841 < fuelT) (hfuel : c < fuel) :
    ∃ L M R, IsLog a L ∧ logLoop XF.abs half pow2 sqrt n w fuelT fuel 0 (B 0) = some M ∧ IsM (n := n) M R ∧
      ninf (R - (2:ℝ) ^ c • L) ≤ 2 ^ c * ((9 * n + 337) / 2 ^ 53 * ninf (a - 1) + 1 / 2 ^ 980) := by
  have key : ∀ j, j ≤ c → logLoop XF.abs half pow2 sqrt n w fuelT fuel 0 (B 0) = logLoop XF.abs half pow2 sqrt n w fuelT (fuel - j) j (B j) := by
    intro j
    induction j with
    | zero => intro _; rfl
    | succ j ih =>
      intro hj
      rw [ih (by omega)]
      obtain ⟨b1, b2⟩ := hB j (by omega)
      obtain ⟨f, hf⟩ : ∃ f, fuel - j = f + 1 := ⟨fuel - j - 1, by omega⟩
      rw [hf, show fuel - (j + 1) = f by omega]
      conv_lhs => unfold logLoop
      rw [if_pos b1, b2]
      rfl
  rw [key c (le_refl _)]
  obtain ⟨f, hf'⟩ : ∃ f, fuel - c = f + 1 := ⟨fuel - c - 1, by omega⟩
  rw [hf']
  exact log_last hn (B c) w a hm ha half hlast pow2 c hc hpow sqrt fuelT f hf

/-! ### `float` -/

/-- **C79** (`float`) `log_taylor` of any matrix of at most 500 rows with finite elements and `‖m - I‖ ≤ 1/2` returns after at most
`12n²+259` iterations, and the result is within `(9n+169)·2⁻²⁴·‖m - I‖` of the logarithm of the matrix, up to underflow. -/
theorem c79_log_taylor_float (hn : n ≤ 500) (m w : Mat (XF Grid.float)) (a : Sq n) (hm : IsM m a) (ha : ninf (a - 1) ≤ 1 / 2)
    (fuel : ℕ) (hf : 12 * n ^ 2 + 259 < fuel) :
    ∃ L M R, IsLog a L ∧ logTaylor XF.abs n m w fuel = some M ∧ IsM (n := n) M R ∧
      ninf (R - L) ≤ (9 * n + 169) / 2 ^ 24 * ninf (a - 1) + 1 / 2 ^ 100 := by
  have hnR : (n:ℝ) ≤ 500 := by exact_mod_cast hn
  have hn0 : (0:ℝ) ≤ n := Nat.cast_nonneg n
  have h0 : 0 ≤ ninf (a - 1) := by rw [ninf_eq_norm]; exact norm_nonneg _
  have hη : (2:ℝ) ^ (-149 : ℤ) = 1 / 2 ^ 149 := pow_two_neg (by norm_num)
  have hi : (2 / 3 : ℝ) ^ 255 ≤ (2:ℝ) ^ (-149 : ℤ) := by
    rw [hη, div_pow, div_le_div_iff₀ (by positivity) (by positivity)]
    norm_num
  have hnn : (n:ℝ) * n ≤ 250000 := le_trans (mul_le_mul hnR hnR hn0 (by norm_num)) (by norm_num)
  have hbig : (2:ℝ) ^ 64 ≤ Grid.float.big := le_trans (pow_le_pow_right₀ (by norm_num) (by norm_num)) big_float
  have hP := pow_sub_one (u := 1 / 2 ^ 24) (by positivity) (n + 2) (by
    push_cast
    norm_num
    linarith)
  have hP' := pow_sub_one (u := 1 / 2 ^ 24) (by positivity) (n + 1) (by
    push_cast
    norm_num
    linarith)
  push_cast at hP hP'
  have hP2 : (1 + 1 / 2 ^ 24 : ℝ) ^ (n + 2) ≤ 1 + 1 / 10 ^ 4 := by
    have : 2 * (((n:ℝ) + 2) * (1 / 2 ^ 24)) ≤ 1 / 10 ^ 4 := by
      norm_num
      linarith
    linarith
  have H : LogHyp Grid.float (1 / 2 ^ 24) ((2:ℝ) ^ (-149 : ℤ)) ((1 + 1 / 2 ^ 24) * ninf (a - 1)) n (255 + 4 * (3 * n ^ 2 + 1)) := by
    refine ⟨fmt_float, by positivity, ?_, ?_, ?_, ?_, ?_, ?_, ?_⟩
    · rw [show (1 + 1 / 2 ^ 24) * ninf (a - 1) * (1 + 1 / 2 ^ 24 : ℝ) ^ (n + 1) = ninf (a - 1) * (1 + 1 / 2 ^ 24) ^ (n + 2) by ring]
      refine le_trans (mul_le_mul ha hP2 (by positivity) (by norm_num)) (by norm_num)
    · push_cast
      rw [sq]
      norm_num
      linarith
    · have : n ≤ n ^ 2 := Nat.le_self_pow (by norm_num) n
      omega
    · rw [hη]
      push_cast
      rw [sq]
      have h2 : 5 * (255 + 4 * (3 * ((n:ℝ) * n) + 1)) ≤ 2 ^ 30 := by
        norm_num
        linarith
      have h3 : (n:ℝ) * n * (1 / 2 ^ 149) ≤ 250000 * (1 / 2 ^ 149) := mul_le_mul_of_nonneg_right hnn (by positivity)
      refine le_trans (mul_le_mul h2 h3 (by positivity) (by positivity)) (by norm_num)
    · rw [hη]
      norm_num
    · exact le_trans (by norm_num) hbig
    · refine le_trans ?_ hbig
      push_cast
      rw [sq]
      norm_num
      linarith
  obtain ⟨L, l1, K, M, R, h1, h2, h3, h4⟩ := c79_log_taylor H m w a hm (le_refl _) 255 hi (le_refl _) fuel (by omega)
  refine ⟨L, M, R, l1, h2, h3, le_trans (h4 22) ?_⟩
  refine le_trans (logBound_le (n := n) (by positivity) _ (1 / 10 ^ 4) h0 ha (by norm_num) 22 K hP2 hP' (by norm_num)
    (by norm_num)) ?_
  have hK : (K:ℝ) + 1 ≤ 2 ^ 22 := by
    have : (K:ℝ) ≤ ((255 + 4 * (3 * n ^ 2 + 1) : ℕ):ℝ) := by exact_mod_cast h1
    push_cast at this
    rw [sq] at this
    norm_num
    linarith
  have hU : 40 * ((K:ℝ) + 1) * (n * n * (2:ℝ) ^ (-149 : ℤ)) ≤ 1 / 2 ^ 100 := by
    rw [hη]
    have q1 : 40 * ((K:ℝ) + 1) * (n * n * (1 / 2 ^ 149)) ≤ 40 * 2 ^ 22 * (250000 * (1 / 2 ^ 149)) :=
      mul_le_mul (mul_le_mul_of_nonneg_left hK (by norm_num)) (mul_le_mul_of_nonneg_right hnn (by positivity)) (by positivity) (by positivity)
    exact le_trans q1 (by norm_num)
  have e : (9 * (n:ℝ) + 169) / 2 ^ 24 * ninf (a - 1) = 1 / 2 ^ 24 * ninf (a - 1) * (9 * n + 6.01 * (22:ℕ) + 36) + 0.78 / 2 ^ 24 * ninf (a - 1) := by
    push_cast
    ring
  rw [e]
  have : 0 ≤ (0.78:ℝ) / 2 ^ 24 * ninf (a - 1) := by positivity
  linarith

/-! ### The hypotheses can be met -/

/-- the shear by one quarter, in `double`: its logarithm has the single non-zero element 1/4 -/
example : ∃ m : Mat (XF Grid.double), IsM (n := 2) m !![1, 1 / 4; 0, 1] ∧ (∀ w half pow2 sqrt, Is half (1 / 2) → Is (pow2 0) 1 →
    ∃ L M R, IsLog !![1, 1 / 4; 0, 1] L ∧ logLoop XF.abs half pow2 sqrt 2 w 2000 1 0 m = some M ∧ IsM (n := 2) M R ∧
      ninf (R - L) ≤ (9 * (2:ℕ) + 337) / 2 ^ 53 * ninf (!![1, 1 / 4; 0, 1] - 1) + 1 / 2 ^ 980) := by
  have hq : Grid.double.rnd (1 / 4) = 1 / 4 := by
    have := rndIEEE_pow (p := 53) (emin := -1074) (by norm_num) (-2) (by norm_num)
    rw [show (2:ℝ) ^ (-2:ℤ) = 1 / 4 by norm_num] at this
    exact this
  have hq2 : |(1 / 4 : ℝ)| ≤ Grid.double.big := by
    have := Grid.double.two_le
    rw [abs_of_pos (by norm_num)]
    linarith
  have h1 : IsM (n := 2) (fun i j => if i = j then (1 : XF Grid.double) else if i = 0 then .fin (1 / 4) ⟨hq, hq2⟩ else 0) !![1, 1 / 4; 0, 1] := by
    intro i j
    fin_cases i <;> fin_cases j
    · exact is_one
    · exact ⟨_, rfl⟩
    · exact is_zero
    · exact is_one
  refine ⟨_, h1, fun w half pow2 sqrt hh hp => ?_⟩
  refine c79_log_double (by norm_num) _ w _ h1 ?_ half hh pow2 hp sqrt 2000 0 (by norm_num)
  rw [ninf_eq_norm]
  refine norm_le_rows _ (by norm_num) fun i => ?_
  fin_cases i
  · simp [Fin.sum_univ_two]
    norm_num
  · simp [Fin.sum_univ_two]
    norm_num

end TooN.Special
