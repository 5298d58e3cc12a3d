import Verif.Proof.ExpSq
/-!
# C78: the matrix exponential in IEEE floating point

`exp_taylor` adds terms of the series until the addition changes nothing.  In a binary floating-point format, with rounding,
underflow and overflow, this happens: the terms become smaller than half a unit in the last place of the sum, or they underflow to zero.  The
theorems bound the number of iterations and the distance of the result from the mathematical exponential.
-/
set_option linter.unusedSectionVars false
namespace TooN.Special
open TooN.Ops Finset TooN.MatFun
open scoped Classical Nat
open scoped Matrix.Norms.Operator

variable {G : Grid} {u η α : ℝ} {n N : ℕ}

/-- **C78** (any format with rounding unit `u` and smallest positive number `η`) For a matrix of finite numbers of norm at most
`α` the loop of `exp_taylor` ends after at most `4(n+2)+i` iterations, where `3 < 2^i η`, with finite numbers, and the result differs
from the exponential by at most `expBound`, for any choice of `J`. -/
theorem c78_exp_taylor (H : ExpHyp G u η α n N) (m w : Mat (XF G)) (a : Sq n) (hm : IsM m a) (ha : ‖a‖ ≤ α) (i : ℕ)
    (hi : 3 < 2 ^ i * η) (hN : 4 * (n + 2) + i ≤ N) (fuel : ℕ) (hf : 4 * (n + 2) + i < fuel) :
    ∃ K M R, K ≤ 4 * (n + 2) + i ∧ expTaylor XF.abs n m w fuel = some M ∧ IsM (n := n) M R ∧
      ∀ J, ‖R - NormedSpace.exp a‖ ≤ expBound u η α n J K :=
  expTaylor_total H m w a hm ha i hi hN fuel hf

/-- **C78** the same for `exp`, with the library functions of the scaling as in `ScaleSpec`, provided the numbers stay below the
largest one.  The relative error doubles with every squaring. -/
theorem c78_exp (H : ExpHyp G u η ((1 + u) * α + n * η) n N) (m w : Mat (XF G)) (a : Sq n) (hm : IsM m a) (h0 : a ≠ 0)
    (scale : XF G → Option ℕ) (δ : ℝ) (hδ : 0 ≤ δ) (hsc : ScaleSpec G δ scale) (hP : (1 + δ) * (1 + u) ^ n < 2)
    (hα : 1 + δ ≤ α * (2 - (1 + u) ^ n)) (hmax : ‖a‖ ≤ 2 ^ 29) (hr : (1 + u) ^ n * ‖a‖ ≤ G.big)
    (ofInt : ℕ → XF G) (hint : ∀ s, s ≤ 30 → Is (ofInt (2 ^ s)) (2 ^ s))
    (i : ℕ) (hi : 3 < 2 ^ i * η) (hN : 4 * (n + 2) + i ≤ N) (J : ℕ) :
    ∃ s, s ≤ 30 ∧ ‖a‖ ≤ α * 2 ^ s ∧ (s = 0 ∨ 2 ^ s ≤ 2 * ((1 + δ) * (1 + u) ^ n) * ‖a‖) ∧
      (((1 + scaledErr u η α n J N) * ((1 + u) ^ (n + 1) + n * (n + 1) * η) * Real.exp ((1 + u) * α + n * η)) ^ 2 ^ s ≤ G.big →
      ∀ fuel, N < fuel → ∃ M R, expM XF.abs ofInt scale n m w fuel = .ret M ∧ IsM (n := n) M R ∧
        ‖R - NormedSpace.exp a‖ ≤
          (((1 + scaledErr u η α n J N) * ((1 + u) ^ (n + 1) + n * (n + 1) * η)) ^ 2 ^ s - 1) *
            Real.exp ((1 + u) * α + n * η) ^ 2 ^ s) :=
  expM_total H m w a hm h0 scale δ hδ hsc hP hα hmax hr ofInt hint i hi hN J

/-! ### `double` -/

theorem fmt_double : Fmt Grid.double (1 / 2 ^ 53) ((2:ℝ) ^ (-1074 : ℤ)) :=
  fmt_ieee 53 (-1074) 1023 (by norm_num) (by norm_num) (by norm_num) (by norm_num)

theorem fmt_float : Fmt Grid.float (1 / 2 ^ 24) ((2:ℝ) ^ (-149 : ℤ)) :=
  fmt_ieee 24 (-149) 127 (by norm_num) (by norm_num) (by norm_num) (by norm_num)

theorem big_double : (2:ℝ) ^ 1023 ≤ Grid.double.big := by
  change (2:ℝ) ^ 1023 ≤ (2 ^ 53 - 1) * (2:ℝ) ^ ((1023:ℤ) + 1 - 53)
  rw [show ((1023:ℤ) + 1 - 53) = ((971:ℕ):ℤ) by norm_num, zpow_natCast, show (2:ℝ) ^ 1023 = 2 ^ 52 * 2 ^ 971 by rw [← pow_add]]
  exact mul_le_mul_of_nonneg_right (by norm_num) (by positivity)

theorem big_float : (2:ℝ) ^ 127 ≤ Grid.float.big := by
  change (2:ℝ) ^ 127 ≤ (2 ^ 24 - 1) * (2:ℝ) ^ ((127:ℤ) + 1 - 24)
  rw [show ((127:ℤ) + 1 - 24) = ((104:ℕ):ℤ) by norm_num, zpow_natCast, show (2:ℝ) ^ 127 = 2 ^ 23 * 2 ^ 104 by rw [← pow_add]]
  exact mul_le_mul_of_nonneg_right (by norm_num) (by positivity)

theorem exp_le_2722 {c : ℝ} (h : c ≤ 1001 / 1000) : Real.exp c ≤ 2722 / 1000 := by
  have h1 : Real.exp c ≤ Real.exp 1 * Real.exp (1 / 1000) := by
    rw [← Real.exp_add]
    exact Real.exp_le_exp.2 (by linarith)
  have h2 := Real.exp_one_lt_d9
  have h3 := Real.add_one_le_exp (-(1 / 1000 : ℝ))
  have h4 : Real.exp (1 / 1000) * Real.exp (-(1 / 1000)) = 1 := by rw [← Real.exp_add, add_neg_cancel, Real.exp_zero]
  have h5 := Real.exp_pos (1 / 1000)
  have h6 := Real.exp_pos 1
  have h7 : Real.exp (1 / 1000) ≤ 1000 / 999 := by
    rw [le_div_iff₀ (by norm_num)]
    nlinarith
  nlinarith

/-- the bound for norms of about one at most -/
theorem expBound_le (u0 : 0 ≤ u) (he : 0 ≤ η) (hα0 : 0 ≤ α) (hα : α ≤ 1 + 1 / 10 ^ 6) (hc : α * (1 + u) ^ (n + 2) ≤ 1001 / 1000) (J K : ℕ)
    (ω : ℝ) (hJ : 3 * (1001 / 1000) ^ J / (J ! : ℝ) ≤ ω) :
    expBound u η α n J K ≤ u * (15 * n + 7.445 * J + 61) + ω + 3 * (2 * K + 3) * (n * (n + 1) * η) := by
  unfold expBound
  dsimp only
  have hc0 : 0 ≤ α * (1 + u) ^ (n + 2) := by positivity
  set c := α * (1 + u) ^ (n + 2) with hcd
  have hA := exp_le_2722 hc
  have hA0 := Real.exp_pos c
  set A := Real.exp c
  have hn0 : (0:ℝ) ≤ n := Nat.cast_nonneg n
  have hJ0 : (0:ℝ) ≤ J := Nat.cast_nonneg J
  have hAA : A * A ≤ 7.4093 := by nlinarith
  have g1 : 2 * J * (A + 1) ≤ 7.445 * J := by nlinarith
  have g2 : 2 * (n + 2) * α * A * A ≤ 15 * n + 30 := by
    have q1 : α * (A * A) ≤ 7.41 := by nlinarith [mul_nonneg hA0.le hA0.le]
    have q2 : 2 * (n + 2) * α * A * A = 2 * (n + 2) * (α * (A * A)) := by ring
    rw [q2]
    nlinarith
  have g3 : 3 * A * (A + 1) ≤ 31 := by nlinarith
  have g4 : c ^ J / (J ! : ℝ) * A ≤ ω := by
    refine le_trans ?_ hJ
    have : c ^ J ≤ (1001 / 1000) ^ J := pow_le_pow_left₀ hc0 hc J
    rw [div_mul_eq_mul_div]
    refine div_le_div_of_nonneg_right ?_ (by positivity)
    have : 0 ≤ (1001 / 1000 : ℝ) ^ J := by positivity
    nlinarith [pow_nonneg hc0 J]
  have g5 : 3 * (2 * K + A) * (n * (n + 1) * η) ≤ 3 * (2 * K + 3) * (n * (n + 1) * η) := by
    refine mul_le_mul_of_nonneg_right (by linarith) (by positivity)
  have g6 : u * (2 * J * (A + 1) + 2 * (n + 2) * α * A * A + 3 * A * (A + 1)) ≤ u * (15 * n + 7.445 * J + 61) :=
    mul_le_mul_of_nonneg_left (by linarith) u0
  linarith

theorem pow_two_neg {k : ℕ} {z : ℤ} (h : z = -(k:ℤ)) : (2:ℝ) ^ z = 1 / 2 ^ k := by
  rw [h, zpow_neg, zpow_natCast, one_div]

/-- the conditions hold for `double` and matrices of at most a million rows -/
theorem hyp_double (hn : n ≤ 10 ^ 6) (hα0 : 0 ≤ α) (hα : α ≤ 1 + 1 / 10 ^ 6) :
    ExpHyp Grid.double (1 / 2 ^ 53) ((2:ℝ) ^ (-1074 : ℤ)) α n (4 * (n + 2) + 1076) ∧ α * (1 + 1 / 2 ^ 53) ^ (n + 2) ≤ 1001 / 1000 := by
  have hnR : (n:ℝ) ≤ 1000000 := by exact_mod_cast hn
  have hn0 : (0:ℝ) ≤ n := Nat.cast_nonneg n
  have hη : (2:ℝ) ^ (-1074 : ℤ) = 1 / 2 ^ 1074 := pow_two_neg (by norm_num)
  have hη2 : (1:ℝ) / 2 ^ 1074 ≤ 1 / 2 ^ 100 := by
    refine div_le_div_of_nonneg_left (by norm_num) (by positivity) (pow_le_pow_right₀ (by norm_num) (by norm_num))
  have hP := pow_sub_one (u := 1 / 2 ^ 53) (by positivity) (n + 2) (by
    push_cast
    nlinarith)
  push_cast at hP
  have hP2 : (1 + 1 / 2 ^ 53 : ℝ) ^ (n + 2) ≤ 1 + 1 / 10 ^ 6 := by
    have : 2 * (((n:ℝ) + 2) * (1 / 2 ^ 53)) ≤ 1 / 10 ^ 6 := by
      norm_num
      linarith
    linarith
  have hP0 : (0:ℝ) ≤ (1 + 1 / 2 ^ 53 : ℝ) ^ (n + 2) := by positivity
  have hc : α * (1 + 1 / 2 ^ 53) ^ (n + 2) ≤ 1001 / 1000 := by
    have := mul_le_mul hα hP2 hP0 (by norm_num)
    refine le_trans this (by norm_num)
  have hbig : (2:ℝ) ^ 64 ≤ Grid.double.big := le_trans (pow_le_pow_right₀ (by norm_num) (by norm_num)) big_double
  refine ⟨⟨fmt_double, hα0, by linarith, ?_, by omega, ?_, ?_, ?_, ?_⟩, hc⟩
  · push_cast
    norm_num
    linarith
  · rw [hη]
    have h1 : (n:ℝ) * (n + 1) ≤ 2 ^ 41 := by
      have : (n:ℝ) * (n + 1) ≤ 1000000 * (1000000 + 1) := by gcongr
      norm_num at this ⊢
      linarith
    have h2 : 3 * ((4 * (n + 2) + 1076 : ℕ):ℝ) ≤ 2 ^ 24 := by
      push_cast
      norm_num
      linarith
    have h3 : (n:ℝ) * (n + 1) * (1 / 2 ^ 1074) ≤ 2 ^ 41 * (1 / 2 ^ 100) := mul_le_mul h1 hη2 (by positivity) (by positivity)
    have h4 : 3 * ((4 * (n + 2) + 1076 : ℕ):ℝ) * ((n:ℝ) * (n + 1) * (1 / 2 ^ 1074)) ≤ 2 ^ 24 * (2 ^ 41 * (1 / 2 ^ 100)) :=
      mul_le_mul h2 h3 (by positivity) (by positivity)
    refine le_trans h4 (by norm_num)
  · rw [hη]
    refine le_trans hη2 (by norm_num)
  · refine le_trans (by norm_num) hbig
  · refine le_trans ?_ hbig
    push_cast
    norm_num
    linarith

theorem tiny_double (hn : n ≤ 10 ^ 6) (K : ℕ) (hK : K ≤ 4 * (n + 2) + 1076) :
    3 * (2 * (K:ℝ) + 3) * (n * (n + 1) * (2:ℝ) ^ (-1074 : ℤ)) ≤ 1 / 2 ^ 60 := by
  have hnR : (n:ℝ) ≤ 1000000 := by exact_mod_cast hn
  have hn0 : (0:ℝ) ≤ n := Nat.cast_nonneg n
  rw [pow_two_neg (k := 1074) (by norm_num)]
  have hη2 : (1:ℝ) / 2 ^ 1074 ≤ 1 / 2 ^ 150 := by
    refine div_le_div_of_nonneg_left (by norm_num) (by positivity) (pow_le_pow_right₀ (by norm_num) (by norm_num))
  have h1 : (n:ℝ) * (n + 1) ≤ 2 ^ 41 := by
    have : (n:ℝ) * (n + 1) ≤ 1000000 * (1000000 + 1) := by gcongr
    norm_num at this ⊢
    linarith
  have h2 : 3 * (2 * (K:ℝ) + 3) ≤ 2 ^ 25 := by
    have : (K:ℝ) ≤ ((4 * (n + 2) + 1076 : ℕ):ℝ) := by exact_mod_cast hK
    push_cast at this
    norm_num
    linarith
  have h3 : (n:ℝ) * (n + 1) * (1 / 2 ^ 1074) ≤ 2 ^ 41 * (1 / 2 ^ 150) := mul_le_mul h1 hη2 (by positivity) (by positivity)
  have h4 : 3 * (2 * (K:ℝ) + 3) * ((n:ℝ) * (n + 1) * (1 / 2 ^ 1074)) ≤ 2 ^ 25 * (2 ^ 41 * (1 / 2 ^ 150)) :=
    mul_le_mul h2 h3 (by positivity) (by positivity)
  refine le_trans h4 (by norm_num)

theorem bound_double (hn : n ≤ 10 ^ 6) (hα0 : 0 ≤ α) (hα : α ≤ 1 + 1 / 10 ^ 6) (K : ℕ) (hK : K ≤ 4 * (n + 2) + 1076) :
    expBound (1 / 2 ^ 53) ((2:ℝ) ^ (-1074 : ℤ)) α n 20 K ≤ (15 * n + 211) / 2 ^ 53 := by
  have h := expBound_le (n := n) (u := 1 / 2 ^ 53) (η := (2:ℝ) ^ (-1074 : ℤ)) (by positivity) (by positivity) hα0 hα
    (hyp_double hn hα0 hα).2 20 K (0.1 / 2 ^ 53) (by
      rw [show (20 ! : ℕ) = 2432902008176640000 by decide]
      norm_num)
  have h2 := tiny_double hn K hK
  have h3 : (1:ℝ) / 2 ^ 60 ≤ 0.1 / 2 ^ 53 := by norm_num
  have e : (15 * (n:ℝ) + 211) / 2 ^ 53 = 1 / 2 ^ 53 * (15 * n + 7.445 * (20:ℕ) + 61) + 0.1 / 2 ^ 53 + 1 / 2 ^ 53 := by
    push_cast
    ring
  rw [e]
  have : (0.1:ℝ) / 2 ^ 53 ≤ 1 / 2 ^ 53 := by norm_num
  linarith

/-- **C78** (`double`) `exp_taylor` of any matrix of at most a million rows with finite elements and norm at most 1 returns after at most
`4n+1084` iterations, and the result is within `(15n+211)·2⁻⁵³` of the exponential of the matrix. -/
theorem c78_exp_taylor_double (hn : n ≤ 10 ^ 6) (m w : Mat (XF Grid.double)) (a : Sq n) (hm : IsM m a) (ha : ninf a ≤ 1)
    (fuel : ℕ) (hf : 4 * n + 1084 < fuel) :
    ∃ M R, expTaylor XF.abs n m w fuel = some M ∧ IsM (n := n) M R ∧ ninf (R - NormedSpace.exp a) ≤ (15 * n + 211) / 2 ^ 53 := by
  rw [ninf_eq_norm] at ha
  have hi : (3:ℝ) < 2 ^ 1076 * (2:ℝ) ^ (-1074 : ℤ) := by
    rw [← zpow_natCast, ← zpow_add₀ (by norm_num)]
    norm_num
  obtain ⟨K, M, R, h1, h2, h3, h4⟩ := c78_exp_taylor (hyp_double hn zero_le_one (by norm_num)).1 m w a hm ha 1076 hi (le_refl _)
    fuel (by omega)
  refine ⟨M, R, h2, h3, ?_⟩
  rw [ninf_eq_norm]
  exact le_trans (h4 20) (bound_double hn zero_le_one (by norm_num) K h1)


/-- the element type's conversion of `1<<s` -/
noncomputable def ofIntXF (G : Grid) (k : ℕ) : XF G := XF.ofReal G k

theorem scaledErr_double (hn : n ≤ 10 ^ 6) :
    scaledErr (1 / 2 ^ 53) ((2:ℝ) ^ (-1074 : ℤ)) (1 + 5 / 10 ^ 7) n 20 (4 * (n + 2) + 1076) ≤ (15 * n + 213) / 2 ^ 53 := by
  have hnR : (n:ℝ) ≤ 1000000 := by exact_mod_cast hn
  have hn0 : (0:ℝ) ≤ n := Nat.cast_nonneg n
  have hη : (n:ℝ) * (2:ℝ) ^ (-1074 : ℤ) ≤ 0.1 / 2 ^ 53 := by
    rw [pow_two_neg (k := 1074) (by norm_num)]
    have h1 : (1:ℝ) / 2 ^ 1074 ≤ 1 / 2 ^ 100 :=
      div_le_div_of_nonneg_left (by norm_num) (by positivity) (pow_le_pow_right₀ (by norm_num) (by norm_num))
    have h2 : (n:ℝ) * (1 / 2 ^ 1074) ≤ 1000000 * (1 / 2 ^ 100) := mul_le_mul hnR h1 (by positivity) (by norm_num)
    exact le_trans h2 (by norm_num)
  have hη0 : 0 ≤ (n:ℝ) * (2:ℝ) ^ (-1074 : ℤ) := by positivity
  unfold scaledErr
  have h := bound_double hn (α := (1 + 1 / 2 ^ 53) * (1 + 5 / 10 ^ 7) + n * (2:ℝ) ^ (-1074 : ℤ)) (by positivity)
    (by
      have : (0.1:ℝ) / 2 ^ 53 ≤ 1 / 10 ^ 8 := by norm_num
      have : (1 + 1 / 2 ^ 53 : ℝ) * (1 + 5 / 10 ^ 7) ≤ 1 + 6 / 10 ^ 7 := by norm_num
      have : (6:ℝ) / 10 ^ 7 + 1 / 10 ^ 8 ≤ 1 / 10 ^ 6 := by norm_num
      linarith) _ (le_refl _)
  have e : (15 * (n:ℝ) + 213) / 2 ^ 53 = (15 * n + 211) / 2 ^ 53 + 1.9 / 2 ^ 53 + 0.1 / 2 ^ 53 := by ring
  rw [e]
  have : (1:ℝ) / 2 ^ 53 * (1 + 5 / 10 ^ 7) ≤ 1.9 / 2 ^ 53 := by norm_num
  linarith

/-- from the bound of `c78_exp` to a relative error proportional to `2^s` -/
theorem pow_close (τ q B E : ℝ) (k : ℕ) (h0 : 0 ≤ τ) (hq1 : 1 ≤ q) (hq : q ≤ 1 + τ) (hk : k * τ ≤ 1 / 2) (hB0 : 0 ≤ B) (hB : B ≤ E) :
    (q ^ k - 1) * B ^ k ≤ 2 * (k * τ) * E ^ k := by
  have h1 : q ^ k ≤ (1 + τ) ^ k := pow_le_pow_left₀ (by linarith) hq k
  have h2 := pow_sub_one h0 k hk
  have h3 : 1 ≤ q ^ k := one_le_pow₀ hq1
  have h4 : B ^ k ≤ E ^ k := pow_le_pow_left₀ hB0 hB k
  exact mul_le_mul (by linarith) h4 (by positivity) (by positivity)

theorem factor_double (hn : n ≤ 10 ^ 6) (σ : ℝ) (h0 : 0 ≤ σ) (hσ : σ ≤ (15 * n + 213) / 2 ^ 53) :
    1 ≤ (1 + σ) * ((1 + 1 / 2 ^ 53 : ℝ) ^ (n + 1) + n * (n + 1) * (2:ℝ) ^ (-1074 : ℤ)) ∧
    (1 + σ) * ((1 + 1 / 2 ^ 53 : ℝ) ^ (n + 1) + n * (n + 1) * (2:ℝ) ^ (-1074 : ℤ)) ≤ 1 + (17 * n + 217) / 2 ^ 53 := by
  have hnR : (n:ℝ) ≤ 1000000 := by exact_mod_cast hn
  have hn0 : (0:ℝ) ≤ n := Nat.cast_nonneg n
  have hP := pow_sub_one (u := 1 / 2 ^ 53) (by positivity) (n + 1) (by
    push_cast
    norm_num
    linarith)
  push_cast at hP
  have hP1 : (1:ℝ) ≤ (1 + 1 / 2 ^ 53) ^ (n + 1) := one_le_pow₀ (by norm_num)
  have hε0 : 0 ≤ (n:ℝ) * (n + 1) * (2:ℝ) ^ (-1074 : ℤ) := by positivity
  have hε : (n:ℝ) * (n + 1) * (2:ℝ) ^ (-1074 : ℤ) ≤ 1 / 2 ^ 60 := by
    have := tiny_double hn 0 (by omega)
    push_cast at this
    linarith
  constructor
  · exact one_le_mul_of_one_le_of_one_le (by linarith) (by linarith)
  · have g1 : (1 + 1 / 2 ^ 53 : ℝ) ^ (n + 1) + n * (n + 1) * (2:ℝ) ^ (-1074 : ℤ) ≤ 1 + (2 * n + 3) / 2 ^ 53 := by
      have : (1:ℝ) / 2 ^ 60 ≤ 1 / 2 ^ 53 := by norm_num
      have e : 1 + (2 * (n:ℝ) + 3) / 2 ^ 53 = 1 + 2 * ((n + 1) * (1 / 2 ^ 53)) + 1 / 2 ^ 53 := by ring
      rw [e]
      linarith
    have g2 : (1 + σ) * ((1 + 1 / 2 ^ 53 : ℝ) ^ (n + 1) + n * (n + 1) * (2:ℝ) ^ (-1074 : ℤ)) ≤
        (1 + (15 * n + 213) / 2 ^ 53) * (1 + (2 * n + 3) / 2 ^ 53) :=
      mul_le_mul (by linarith) g1 (by linarith) (by positivity)
    refine le_trans g2 ?_
    have e : 1 + (17 * (n:ℝ) + 217) / 2 ^ 53 - (1 + (15 * n + 213) / 2 ^ 53) * (1 + (2 * n + 3) / 2 ^ 53) =
        (1 - (15 * n + 213) * (2 * n + 3) / 2 ^ 53) / 2 ^ 53 := by ring
    have g3 : (15 * (n:ℝ) + 213) * (2 * n + 3) ≤ 2 ^ 53 := by
      have : (15 * (n:ℝ) + 213) * (2 * n + 3) ≤ (15 * 1000000 + 213) * (2 * 1000000 + 3) := by gcongr
      norm_num at this ⊢
      linarith
    have g4 : 0 ≤ (1 - (15 * (n:ℝ) + 213) * (2 * n + 3) / 2 ^ 53) / 2 ^ 53 := by
      refine div_nonneg ?_ (by positivity)
      rw [sub_nonneg, div_le_one (by positivity)]
      exact g3
    linarith

/-- **C78** (`double`) `exp(m)` of any non-zero matrix of at most a million rows with finite elements and norm at most 511 returns: with `s` the
number of squarings (`2^s` is the first power of two not below the norm, up to the error `δ` of the library's logarithm), every element of
the result is finite and the result is within `2^(s+1)·(17n+217)·2⁻⁵³·exp(1.000001·2^s)` of the exponential. -/
theorem c78_exp_double (hn : n ≤ 10 ^ 6) (m w : Mat (XF Grid.double)) (a : Sq n) (hm : IsM m a) (h0 : a ≠ 0) (ha : ninf a ≤ 511)
    (scale : XF Grid.double → Option ℕ) (δ : ℝ) (hδ : 0 ≤ δ) (hδ1 : δ ≤ 1 / 10 ^ 7) (hsc : ScaleSpec Grid.double δ scale)
    (fuel : ℕ) (hf : 4 * n + 1084 < fuel) :
    ∃ s M R, s ≤ 9 ∧ ninf a ≤ (1 + 5 / 10 ^ 7) * 2 ^ s ∧ (s = 0 ∨ 2 ^ s ≤ (2 + 1 / 10 ^ 6) * ninf a) ∧
      expM XF.abs (ofIntXF Grid.double) scale n m w fuel = .ret M ∧ IsM (n := n) M R ∧
      ninf (R - NormedSpace.exp a) ≤ 2 * (2 ^ s * ((17 * n + 217) / 2 ^ 53)) * Real.exp ((1 + 1 / 10 ^ 6) * 2 ^ s) := by
  rw [ninf_eq_norm] at ha ⊢
  have hnR : (n:ℝ) ≤ 1000000 := by exact_mod_cast hn
  have hn0 : (0:ℝ) ≤ n := Nat.cast_nonneg n
  have hnη : (n:ℝ) * (2:ℝ) ^ (-1074 : ℤ) ≤ 1 / 10 ^ 8 := by
    rw [pow_two_neg (k := 1074) (by norm_num)]
    have h1 : (1:ℝ) / 2 ^ 1074 ≤ 1 / 2 ^ 100 :=
      div_le_div_of_nonneg_left (by norm_num) (by positivity) (pow_le_pow_right₀ (by norm_num) (by norm_num))
    have h2 : (n:ℝ) * (1 / 2 ^ 1074) ≤ 1000000 * (1 / 2 ^ 100) := mul_le_mul hnR h1 (by positivity) (by norm_num)
    exact le_trans h2 (by norm_num)
  have hnη0 : 0 ≤ (n:ℝ) * (2:ℝ) ^ (-1074 : ℤ) := by positivity
  have hβ : (1 + 1 / 2 ^ 53 : ℝ) * (1 + 5 / 10 ^ 7) + n * (2:ℝ) ^ (-1074 : ℤ) ≤ 1 + 1 / 10 ^ 6 := by
    have : (1 + 1 / 2 ^ 53 : ℝ) * (1 + 5 / 10 ^ 7) ≤ 1 + 6 / 10 ^ 7 := by norm_num
    have : (6:ℝ) / 10 ^ 7 + 1 / 10 ^ 8 ≤ 1 / 10 ^ 6 := by norm_num
    linarith
  have hP := pow_sub_one (u := 1 / 2 ^ 53) (by positivity) n (by
    norm_num
    linarith)
  have hP1 : (1:ℝ) ≤ (1 + 1 / 2 ^ 53) ^ n := one_le_pow₀ (by norm_num)
  have hP2 : (1 + 1 / 2 ^ 53 : ℝ) ^ n ≤ 1 + 1 / 10 ^ 9 := by
    have : 2 * ((n:ℝ) * (1 / 2 ^ 53)) ≤ 1 / 10 ^ 9 := by
      norm_num
      linarith
    linarith
  have hδP : (1 + δ) * (1 + 1 / 2 ^ 53 : ℝ) ^ n ≤ (1 + 1 / 10 ^ 7) * (1 + 1 / 10 ^ 9) :=
    mul_le_mul (by linarith) hP2 (by positivity) (by norm_num)
  have hδP' : ((1:ℝ) + 1 / 10 ^ 7) * (1 + 1 / 10 ^ 9) ≤ 1 + 5 / 10 ^ 7 := by norm_num
  have hi : (3:ℝ) < 2 ^ 1076 * (2:ℝ) ^ (-1074 : ℤ) := by
    rw [← zpow_natCast, ← zpow_add₀ (by norm_num)]
    norm_num
  have hbig : (2:ℝ) ^ 64 ≤ Grid.double.big := le_trans (pow_le_pow_right₀ (by norm_num) (by norm_num)) big_double
  obtain ⟨s, s1, s2, s3, s4⟩ := c78_exp (hyp_double hn (by positivity) hβ).1 m w a hm h0 scale δ hδ hsc
    (by
      refine lt_of_le_of_lt (le_trans hδP hδP') ?_
      norm_num)
    (by
      have : (1 + 5 / 10 ^ 7 : ℝ) * (1 - 1 / 10 ^ 9) ≤ (1 + 5 / 10 ^ 7) * (2 - (1 + 1 / 2 ^ 53) ^ n) :=
        mul_le_mul_of_nonneg_left (by linarith) (by norm_num)
      refine le_trans ?_ this
      refine le_trans (add_le_add_right hδ1 1) ?_
      norm_num)
    (le_trans ha (by norm_num))
    (by
      refine le_trans (mul_le_mul hP2 ha (norm_nonneg _) (by norm_num)) (le_trans (by norm_num) hbig))
    (ofIntXF Grid.double)
    (fun s hs => by
      have h1 : ((2 ^ s : ℕ):ℝ) ≤ 2 ^ 30 := by
        push_cast
        exact pow_le_pow_right₀ (by norm_num) hs
      have h2 : Grid.double.rnd ((2 ^ s : ℕ):ℝ) = ((2 ^ s : ℕ):ℝ) := fmt_double.int _ (by
        have := mul_le_mul_of_nonneg_right h1 (show (0:ℝ) ≤ 1 / 2 ^ 53 by positivity)
        refine le_trans this (by norm_num))
      have h3 := is_ofReal (G := Grid.double) (z := ((2 ^ s : ℕ):ℝ)) (by
        rw [h2, abs_of_nonneg (by positivity)]
        exact le_trans h1 (le_trans (by norm_num) hbig))
      rw [h2] at h3
      have e : ((2 ^ s : ℕ):ℝ) = 2 ^ s := by push_cast; rfl
      rw [e] at h3
      unfold ofIntXF
      rw [e]
      exact h3)
    1076 hi (le_refl _) 20
  have hs9 : s ≤ 9 := by
    rcases s3 with h | h
    · omega
    · by_contra hc
      have h4 : (2:ℝ) ^ 10 ≤ 2 ^ s := pow_le_pow_right₀ (by norm_num) (by omega)
      have h5 : 2 * ((1 + δ) * (1 + 1 / 2 ^ 53 : ℝ) ^ n) * ‖a‖ ≤ 2 * (1 + 5 / 10 ^ 7) * 511 :=
        mul_le_mul (by linarith) ha (norm_nonneg _) (by norm_num)
      have h6 : (2 * (1 + 5 / 10 ^ 7) * 511 : ℝ) < 2 ^ 10 := by norm_num
      linarith
  have hσ := scaledErr_double hn
  have hσ0 : 0 ≤ scaledErr (1 / 2 ^ 53) ((2:ℝ) ^ (-1074 : ℤ)) (1 + 5 / 10 ^ 7) n 20 (4 * (n + 2) + 1076) := by
    unfold scaledErr expBound
    dsimp only
    positivity
  obtain ⟨f1, f2⟩ := factor_double hn _ hσ0 hσ
  have h2s : (2:ℝ) ^ s ≤ 2 ^ 9 := pow_le_pow_right₀ (by norm_num) hs9
  have hτ : (17 * (n:ℝ) + 217) / 2 ^ 53 ≤ 1 / 2 ^ 28 := by
    rw [div_le_div_iff₀ (by positivity) (by positivity)]
    norm_num
    linarith
  have hE := exp_le_2722 (le_trans hβ (by norm_num))
  have hE1 : 1 ≤ Real.exp ((1 + 1 / 2 ^ 53 : ℝ) * (1 + 5 / 10 ^ 7) + n * (2:ℝ) ^ (-1074 : ℤ)) := Real.one_le_exp (by positivity)
  obtain ⟨M, R, r1, r2, r3⟩ := s4 (by
    have x1 : (1 + scaledErr (1 / 2 ^ 53) ((2:ℝ) ^ (-1074 : ℤ)) (1 + 5 / 10 ^ 7) n 20 (4 * (n + 2) + 1076)) *
        ((1 + 1 / 2 ^ 53 : ℝ) ^ (n + 1) + n * (n + 1) * (2:ℝ) ^ (-1074 : ℤ)) *
        Real.exp ((1 + 1 / 2 ^ 53 : ℝ) * (1 + 5 / 10 ^ 7) + n * (2:ℝ) ^ (-1074 : ℤ)) ≤ 4 := by
      have : (1 + (17 * (n:ℝ) + 217) / 2 ^ 53) ≤ 1 + 1 / 2 ^ 28 := by linarith
      refine le_trans (mul_le_mul (le_trans f2 this) hE (by linarith) (by norm_num)) (by norm_num)
    have x2 := one_le_mul_of_one_le_of_one_le f1 hE1
    have x3 : 2 ^ s ≤ 2 ^ 9 := Nat.pow_le_pow_right (by norm_num) hs9
    refine le_trans (pow_le_pow_right₀ x2 x3) ?_
    have x4 : (1 + scaledErr (1 / 2 ^ 53) ((2:ℝ) ^ (-1074 : ℤ)) (1 + 5 / 10 ^ 7) n 20 (4 * (n + 2) + 1076)) *
        ((1 + 1 / 2 ^ 53 : ℝ) ^ (n + 1) + n * (n + 1) * (2:ℝ) ^ (-1074 : ℤ)) *
        Real.exp ((1 + 1 / 2 ^ 53 : ℝ) * (1 + 5 / 10 ^ 7) + n * (2:ℝ) ^ (-1074 : ℤ)) ≤ 2.8 := by
      have : (1 + (17 * (n:ℝ) + 217) / 2 ^ 53) ≤ 1 + 1 / 2 ^ 28 := by linarith
      refine le_trans (mul_le_mul (le_trans f2 this) hE (by linarith) (by norm_num)) (by norm_num)
    refine le_trans (pow_le_pow_left₀ (by linarith) x4 _) ?_
    refine le_trans ?_ big_double
    rw [show (2 ^ 9 : ℕ) = 2 * 256 by norm_num, pow_mul, show (1023 : ℕ) = 3 * 256 + 255 by norm_num, pow_add, pow_mul]
    refine le_trans (pow_le_pow_left₀ (by positivity) (show (2.8:ℝ) ^ 2 ≤ 2 ^ 3 by norm_num) 256) ?_
    exact le_mul_of_one_le_right (by positivity) (one_le_pow₀ (by norm_num))) fuel (by omega)
  refine ⟨s, M, R, hs9, s2, ?_, r1, r2, ?_⟩
  · rcases s3 with h | h
    · exact Or.inl h
    · right
      refine le_trans h (mul_le_mul_of_nonneg_right ?_ (norm_nonneg _))
      have : (2:ℝ) * (1 + 5 / 10 ^ 7) ≤ 2 + 1 / 10 ^ 6 := by norm_num
      linarith
  · rw [ninf_eq_norm]
    refine le_trans r3 ?_
    have hk : ((2 ^ s : ℕ):ℝ) * ((17 * (n:ℝ) + 217) / 2 ^ 53) ≤ 1 / 2 := by
      push_cast
      refine le_trans (mul_le_mul h2s hτ (by positivity) (by positivity)) (by norm_num)
    have := pow_close ((17 * (n:ℝ) + 217) / 2 ^ 53) _ _ (Real.exp (1 + 1 / 10 ^ 6)) (2 ^ s) (by positivity) f1 f2 hk
      (by linarith) (Real.exp_le_exp.2 hβ)
    refine le_trans this (le_of_eq ?_)
    rw [← Real.exp_nat_mul]
    push_cast
    rw [mul_comm ((2:ℝ) ^ s) (1 + 1 / 10 ^ 6 : ℝ)]

/-- **C78** `exp` of the zero matrix is undefined (the logarithm of its norm is converted to `int`) -/
theorem c78_exp_zero_ub (m w : Mat (XF G)) (h : ∀ i j, i < n → j < n → m i j = 0) (ofInt : ℕ → XF G) (scale : XF G → Option ℕ)
    (δ : ℝ) (hsc : ScaleSpec G δ scale) (fuel : ℕ) : expM XF.abs ofInt scale n m w fuel = .ub := by
  have hnorm : normInfM XF.abs n n m = 0 := by
    have habs : XF.abs (0 : XF G) = 0 := by
      change XF.fin |(0:ℝ)| _ = XF.fin 0 _
      congr 1
      exact abs_zero
    have hadd : (0 : XF G) + 0 = 0 := by
      have := (is_zero (G := G)).add is_zero (by rw [add_zero, G.rnd_zero, abs_zero]; linarith [G.two_le])
      rw [add_zero, G.rnd_zero] at this
      obtain ⟨g, e⟩ := this
      exact e
    have hrow : ∀ r, r < n → forN n (fun c s => s + XF.abs (m r c)) (0 : XF G) = 0 := fun r hr =>
      forN_inv (fun _ (s : XF G) => s = 0) n _ 0 rfl (by
        rintro c s hc rfl
        rw [h r c hr hc, habs, hadd])
    refine forN_inv (fun _ (s : XF G) => s = 0) n _ 0 rfl ?_
    rintro r s hr rfl
    show smax 0 (forN n (fun c s => s + XF.abs (m r c)) 0) = 0
    rw [hrow r hr]
    unfold smax
    rw [ite_self]
  unfold expM
  rw [hnorm, hsc.zero]

/-- **C78** the shift `1<<s` is undefined exactly from `s = 31` on: in terms of the scaling the mathematical library returns, `exp` has
undefined behaviour iff that conversion is undefined or at least 31. -/
theorem c78_exp_ub_iff (m w : Mat (XF G)) (ofInt : ℕ → XF G) (scale : XF G → Option ℕ) (fuel : ℕ) :
    expM XF.abs ofInt scale n m w fuel = .ub ↔ ∀ s, scale (normInfM XF.abs n n m) = some s → 31 ≤ s := by
  unfold expM
  cases hs : scale (normInfM XF.abs n n m) with
  | none => exact ⟨fun _ s h => (by cases h), fun _ => rfl⟩
  | some s =>
    dsimp only
    by_cases h : 31 ≤ s
    · rw [if_pos h]
      exact ⟨fun _ t ht => by cases ht; exact h, fun _ => rfl⟩
    · rw [if_neg h]
      constructor
      · intro hx
        cases he : expTaylor XF.abs n (applyScalarM (· / ·) n n m (ofInt (2 ^ s)) w) w fuel with
        | none => rw [he] at hx; cases hx
        | some r => rw [he] at hx; cases hx
      · intro hx
        exact absurd (hx s rfl) h


/-! ### `float` -/

/-- **C78** (`float`) `exp_taylor` of any matrix of at most a thousand rows with finite elements and norm at most 1 returns after at most
`4n+159` iterations, and the result is within `(15n+145)·2⁻²⁴` of the exponential of the matrix. -/
theorem c78_exp_taylor_float (hn : n ≤ 1000) (m w : Mat (XF Grid.float)) (a : Sq n) (hm : IsM m a) (ha : ninf a ≤ 1)
    (fuel : ℕ) (hf : 4 * n + 159 < fuel) :
    ∃ M R, expTaylor XF.abs n m w fuel = some M ∧ IsM (n := n) M R ∧ ninf (R - NormedSpace.exp a) ≤ (15 * n + 145) / 2 ^ 24 := by
  rw [ninf_eq_norm] at ha
  have hnR : (n:ℝ) ≤ 1000 := by exact_mod_cast hn
  have hn0 : (0:ℝ) ≤ n := Nat.cast_nonneg n
  have hη : (2:ℝ) ^ (-149 : ℤ) = 1 / 2 ^ 149 := pow_two_neg (by norm_num)
  have hP := pow_sub_one (u := 1 / 2 ^ 24) (by positivity) (n + 2) (by
    push_cast
    norm_num
    linarith)
  push_cast at hP
  have hc : (1:ℝ) * (1 + 1 / 2 ^ 24) ^ (n + 2) ≤ 1001 / 1000 := by
    have : 2 * (((n:ℝ) + 2) * (1 / 2 ^ 24)) ≤ 1 / 1000 := by
      norm_num
      linarith
    linarith
  have hbig : (2:ℝ) ^ 64 ≤ Grid.float.big := le_trans (pow_le_pow_right₀ (by norm_num) (by norm_num)) big_float
  have hnn : (n:ℝ) * (n + 1) ≤ 2 ^ 20 := by
    have : (n:ℝ) * (n + 1) ≤ 1000 * (1000 + 1) := by gcongr
    norm_num at this ⊢
    linarith
  have hnη : (n:ℝ) * (n + 1) * (1 / 2 ^ 149) ≤ 2 ^ 20 * (1 / 2 ^ 149) := mul_le_mul_of_nonneg_right hnn (by positivity)
  have H : ExpHyp Grid.float (1 / 2 ^ 24) ((2:ℝ) ^ (-149 : ℤ)) 1 n (4 * (n + 2) + 151) := by
    refine ⟨fmt_float, zero_le_one, by linarith, ?_, by omega, ?_, ?_, ?_, ?_⟩
    · push_cast
      norm_num
      linarith
    · rw [hη]
      have h2 : 3 * ((4 * (n + 2) + 151 : ℕ):ℝ) ≤ 2 ^ 14 := by
        push_cast
        norm_num
        linarith
      refine le_trans (mul_le_mul h2 hnη (by positivity) (by positivity)) (by norm_num)
    · rw [hη]
      norm_num
    · exact le_trans (by norm_num) hbig
    · refine le_trans ?_ hbig
      push_cast
      norm_num
      linarith
  have hi : (3:ℝ) < 2 ^ 151 * (2:ℝ) ^ (-149 : ℤ) := by
    rw [← zpow_natCast, ← zpow_add₀ (by norm_num)]
    norm_num
  obtain ⟨K, M, R, h1, h2, h3, h4⟩ := c78_exp_taylor H m w a hm ha 151 hi (le_refl _) fuel (by omega)
  refine ⟨M, R, h2, h3, ?_⟩
  rw [ninf_eq_norm]
  have h := expBound_le (n := n) (u := 1 / 2 ^ 24) (η := (2:ℝ) ^ (-149 : ℤ)) (by positivity) (by positivity) zero_le_one (by norm_num)
    hc 11 K (1.3 / 2 ^ 24) (by
      rw [show (11 ! : ℕ) = 39916800 by decide]
      norm_num)
  refine le_trans (h4 11) (le_trans h ?_)
  have g : 3 * (2 * (K:ℝ) + 3) * (n * (n + 1) * (2:ℝ) ^ (-149 : ℤ)) ≤ 0.8 / 2 ^ 24 := by
    rw [hη]
    have h2 : 3 * (2 * (K:ℝ) + 3) ≤ 2 ^ 15 := by
      have : (K:ℝ) ≤ ((4 * (n + 2) + 151 : ℕ):ℝ) := by exact_mod_cast h1
      push_cast at this
      norm_num
      linarith
    refine le_trans (mul_le_mul h2 hnη (by positivity) (by positivity)) (by norm_num)
  have e : (15 * (n:ℝ) + 145) / 2 ^ 24 = 1 / 2 ^ 24 * (15 * n + 7.445 * (11:ℕ) + 61) + 1.3 / 2 ^ 24 + 0.805 / 2 ^ 24 := by
    push_cast
    ring
  rw [e]
  have : (0.8:ℝ) / 2 ^ 24 ≤ 0.805 / 2 ^ 24 := by norm_num
  linarith

/-! ### The hypotheses can be met -/

/-- an exact logarithm satisfies the contract with `δ = 0` -/
example : ScaleSpec Grid.double 0 (fun x => match x with
    | .fin v _ => if 0 < v then some (MatFun.scaling v) else none
    | _ => none) where
  pos := by
    rintro x v ⟨g, rfl⟩ hv
    refine ⟨MatFun.scaling v, if_pos hv, ?_, ?_⟩
    · rw [add_zero, one_mul]
      exact (scaling_spec v hv).1
    · by_cases h : MatFun.scaling v = 0
      · exact Or.inl h
      · right
        rw [add_zero, one_mul]
        by_contra hc
        push Not at hc
        have := (scaling_spec v hv).2 (MatFun.scaling v - 1) hc.le
        omega
  zero := if_neg (lt_irrefl 0)

/-- the matrix with the rows (0, 1) and (-1, 0), whose exponential is a rotation by one radian, in `double` -/
example : ∃ m : Mat (XF Grid.double), IsM (n := 2) m !![0, 1; -1, 0] ∧ (∀ w fuel, 1092 < fuel →
    ∃ M R, expTaylor XF.abs 2 m w fuel = some M ∧ IsM (n := 2) M R ∧
      ninf (R - NormedSpace.exp !![0, 1; -1, 0]) ≤ (15 * (2:ℕ) + 211) / 2 ^ 53) := by
  have h1 : IsM (n := 2) (fun i j => if i = 0 ∧ j = 1 then (1 : XF Grid.double) else if i = 1 ∧ j = 0 then -1 else 0) !![0, 1; -1, 0] := by
    intro i j
    fin_cases i <;> fin_cases j
    · exact is_zero
    · exact is_one
    · exact is_one.neg
    · exact is_zero
  refine ⟨_, h1, fun w fuel hf => ?_⟩
  refine c78_exp_taylor_double (by norm_num) _ w _ h1 ?_ fuel (by omega)
  rw [ninf_eq_norm]
  refine norm_le_rows _ zero_le_one fun i => ?_
  fin_cases i <;> simp [Fin.sum_univ_two]

end TooN.Special
