import Mathlib.Analysis.SpecialFunctions.Pow.Real
import Mathlib.Data.Int.Log
import Mathlib.Tactic
/-!
# Specification of floating-point rounding

The *standard model* of floating-point arithmetic: every operation returns the rounded exact result,
and rounding changes a value by a relative amount of at most the unit roundoff `u`.  This describes
IEEE-754 round-to-nearest arithmetic as long as no operation overflows or underflows
(`nearest` below: radix 2, `p` significant bits, unbounded exponent; `float` is `p = 24`,
`double` is `p = 53`).  Nothing here refers to TooN.
-/
namespace TooN

/-- a rounding function with unit roundoff `u` -/
structure Rounding where
  /-- unit roundoff -/
  u : ℝ
  /-- rounding of a real number to a representable one -/
  rnd : ℝ → ℝ
  u_nonneg : 0 ≤ u
  u_lt_one : u < 1
  /-- the relative error of a rounding is at most `u` -/
  err : ∀ x, |rnd x - x| ≤ u * |x|
  /-- a rounded value is representable -/
  idem : ∀ x, rnd (rnd x) = rnd x
  /-- rounding is monotone -/
  mono : ∀ x y, x ≤ y → rnd x ≤ rnd y
  /-- rounding is symmetric -/
  neg : ∀ x, rnd (-x) = -rnd x
  /-- 1 is representable -/
  one : rnd 1 = 1

/-- the error constant `γₙ = n u / (1 - n u)` of rounding error analysis -/
noncomputable def gam (u : ℝ) (n : ℕ) : ℝ := n * u / (1 - n * u)

/-- exact arithmetic is the rounding with `u = 0` -/
noncomputable def Rounding.exact : Rounding where
  u := 0
  rnd := id
  u_nonneg := le_refl _
  u_lt_one := one_pos
  err := by simp
  idem := by simp
  mono := by simp
  neg := by simp
  one := rfl

/-- round to the nearest integer, ties to even -/
noncomputable def rne (y : ℝ) : ℤ :=
  if Int.fract y = 1/2 then 2 * ((⌊y⌋ + 1) / 2) else ⌊y + 1/2⌋

theorem rne_err (y : ℝ) : |(rne y : ℝ) - y| ≤ 1/2 := by
  unfold rne
  split_ifs with h
  · have hy : y = ⌊y⌋ + 1/2 := by have := Int.floor_add_fract y; linarith
    generalize ⌊y⌋ = m at *
    rcases Int.even_or_odd' m with ⟨k, rfl | rfl⟩
    · have : (2 * k + 1) / 2 = k := by omega
      rw [this, hy]; push_cast; norm_num [abs_le]
    · have : (2 * k + 1 + 1) / 2 = k + 1 := by omega
      rw [this, hy]; push_cast; norm_num [abs_le]
      constructor <;> linarith
  · rw [abs_le]
    have h1 := Int.floor_le (y + 1/2)
    have h2 := Int.lt_floor_add_one (y + 1/2)
    constructor <;> linarith

theorem rne_mono (x y : ℝ) (h : x ≤ y) : rne x ≤ rne y := by
  by_contra hc
  push Not at hc
  have h1 := abs_le.1 (rne_err x)
  have h2 := abs_le.1 (rne_err y)
  have h3 : (rne y : ℝ) + 1 ≤ rne x := by exact_mod_cast hc
  have : x = y := by linarith [h1.1, h1.2, h2.1, h2.2]
  rw [this] at hc
  exact lt_irrefl _ hc

theorem rne_int (k : ℤ) : rne (k : ℝ) = k := by
  have h := abs_le.1 (rne_err (k : ℝ))
  have h1 : (rne (k:ℝ) : ℝ) < k + 1 := by linarith [h.2]
  have h2 : (k : ℝ) < rne (k:ℝ) + 1 := by linarith [h.1]
  have h1' : rne (k:ℝ) < k + 1 := by exact_mod_cast h1
  have h2' : k < rne (k:ℝ) + 1 := by exact_mod_cast h2
  omega

theorem rne_neg (y : ℝ) : rne (-y) = -rne y := by
  by_cases h : Int.fract y = 1/2
  · have hy : y = ⌊y⌋ + 1/2 := by have := Int.floor_add_fract y; linarith
    have hf : ⌊-y⌋ = -⌊y⌋ - 1 := by
      rw [Int.floor_eq_iff]; push_cast; constructor <;> linarith
    have hfr : Int.fract (-y) = 1/2 := by
      unfold Int.fract; rw [hf]; push_cast; linarith
    unfold rne
    rw [if_pos h, if_pos hfr, hf]
    omega
  · have h1 := abs_le.1 (rne_err y)
    have h2 := abs_le.1 (rne_err (-y))
    have h3 : (rne (-y) : ℝ) + rne y ≤ 1 := by linarith [h1.2, h2.2]
    have h4 : -1 ≤ (rne (-y) : ℝ) + rne y := by linarith [h1.1, h2.1]
    have h3' : rne (-y) + rne y ≤ 1 := by exact_mod_cast h3
    have h4' : -1 ≤ rne (-y) + rne y := by exact_mod_cast h4
    have key : ∀ m : ℤ, y ≠ m + 1/2 := by
      intro m hm
      apply h
      have : ⌊y⌋ = m := by rw [Int.floor_eq_iff]; constructor <;> linarith
      unfold Int.fract; rw [this]; linarith
    have h5 : rne (-y) + rne y ≠ 1 := by
      intro he
      have he' : (rne (-y) : ℝ) + rne y = 1 := by exact_mod_cast he
      apply key (rne y - 1); push_cast; linarith [h1.2, h2.2]
    have h6 : rne (-y) + rne y ≠ -1 := by
      intro he
      have he' : (rne (-y) : ℝ) + rne y = -1 := by exact_mod_cast he
      apply key (rne y); linarith [h1.1, h2.1]
    omega

/-- spacing of the `p`-bit numbers around `x`: `2^(e+1-p)` for `2^e ≤ |x| < 2^(e+1)` -/
noncomputable def ulp (p : ℕ) (x : ℝ) : ℝ := (2:ℝ) ^ (Int.log 2 |x| + 1 - p)

/-- IEEE-754 rounding to nearest, ties to even, of `p`-bit binary numbers with unbounded exponent -/
noncomputable def rndNearest (p : ℕ) (x : ℝ) : ℝ := rne (x / ulp p x) * ulp p x

theorem ulp_pos (p : ℕ) (x : ℝ) : 0 < ulp p x := by unfold ulp; positivity

theorem ulp_neg (p : ℕ) (x : ℝ) : ulp p (-x) = ulp p x := by unfold ulp; rw [abs_neg]

theorem rndNearest_neg (p : ℕ) (x : ℝ) : rndNearest p (-x) = -rndNearest p x := by
  unfold rndNearest
  rw [ulp_neg, neg_div, rne_neg]; push_cast; ring

theorem rndNearest_zero (p : ℕ) : rndNearest p 0 = 0 := by
  unfold rndNearest
  have := rne_int 0
  simp only [Int.cast_zero] at this
  rw [zero_div, this]; simp

/-- the binade of a positive number -/
theorem binade (x : ℝ) (hx : 0 < x) :
    (2:ℝ) ^ (Int.log 2 |x|) ≤ x ∧ x < (2:ℝ) ^ (Int.log 2 |x| + 1) := by
  rw [abs_of_pos hx]
  exact ⟨by exact_mod_cast Int.zpow_log_le_self (b := 2) (by norm_num) hx,
    by exact_mod_cast Int.lt_zpow_succ_log_self (b := 2) (by norm_num) x⟩

theorem ulp_of_binade (p : ℕ) (x : ℝ) (e : ℤ) (h1 : (2:ℝ)^e ≤ x) (h2 : x < (2:ℝ)^(e+1)) :
    ulp p x = (2:ℝ)^(e + 1 - p) := by
  have hx : 0 < x := lt_of_lt_of_le (by positivity) h1
  have hb := binade x hx
  unfold ulp
  have a1 : Int.log 2 |x| < e + 1 :=
    (zpow_lt_zpow_iff_right₀ (by norm_num : (1:ℝ) < 2)).1 (lt_of_le_of_lt hb.1 h2)
  have a2 : e < Int.log 2 |x| + 1 :=
    (zpow_lt_zpow_iff_right₀ (by norm_num : (1:ℝ) < 2)).1 (lt_of_le_of_lt h1 hb.2)
  rw [show Int.log 2 |x| = e by omega]

/-- the rounded value of a number of a binade stays in the closed binade -/
theorem rndNearest_binade (p : ℕ) (hp : 1 ≤ p) (x : ℝ) (e : ℤ) (h1 : (2:ℝ)^e ≤ x)
    (h2 : x < (2:ℝ)^(e+1)) :
    (2:ℝ)^e ≤ rndNearest p x ∧ rndNearest p x ≤ (2:ℝ)^(e+1) := by
  unfold rndNearest
  rw [ulp_of_binade p x e h1 h2]
  obtain ⟨q, rfl⟩ : ∃ q, p = q + 1 := ⟨p - 1, by omega⟩
  have hs : (0:ℝ) < (2:ℝ)^(e + 1 - (q+1 : ℕ)) := by positivity
  have e1 : (2:ℝ)^e = ((2^q : ℤ) : ℝ) * (2:ℝ)^(e + 1 - (q+1 : ℕ)) := by
    push_cast
    rw [← zpow_natCast, ← zpow_add₀ (by norm_num)]
    congr 1; ring
  have e2 : (2:ℝ)^(e+1) = ((2^(q+1) : ℤ) : ℝ) * (2:ℝ)^(e + 1 - (q+1 : ℕ)) := by
    push_cast
    rw [← zpow_natCast, ← zpow_add₀ (by norm_num)]
    congr 1; push_cast; ring
  constructor
  · rw [e1]
    apply mul_le_mul_of_nonneg_right _ hs.le
    have : rne ((2^q : ℤ) : ℝ) ≤ rne (x / (2:ℝ)^(e + 1 - (q+1 : ℕ))) := by
      apply rne_mono
      rw [le_div_iff₀ hs, ← e1]; exact h1
    rw [rne_int] at this
    exact_mod_cast this
  · rw [e2]
    apply mul_le_mul_of_nonneg_right _ hs.le
    have : rne (x / (2:ℝ)^(e + 1 - (q+1 : ℕ))) ≤ rne ((2^(q+1) : ℤ) : ℝ) := by
      apply rne_mono
      rw [div_le_iff₀ hs, ← e2]; exact h2.le
    rw [rne_int] at this
    exact_mod_cast this

theorem rndNearest_pow (p : ℕ) (hp : 1 ≤ p) (e : ℤ) : rndNearest p ((2:ℝ)^e) = (2:ℝ)^e := by
  unfold rndNearest
  rw [ulp_of_binade p _ e le_rfl (zpow_lt_zpow_right₀ (by norm_num) (by omega))]
  obtain ⟨q, rfl⟩ : ∃ q, p = q + 1 := ⟨p - 1, by omega⟩
  have hs : (0:ℝ) < (2:ℝ)^(e + 1 - (q+1 : ℕ)) := by positivity
  have e1 : (2:ℝ)^e = ((2^q : ℤ) : ℝ) * (2:ℝ)^(e + 1 - (q+1 : ℕ)) := by
    push_cast
    rw [← zpow_natCast, ← zpow_add₀ (by norm_num)]
    congr 1; ring
  rw [e1, mul_div_cancel_right₀ _ hs.ne', rne_int]

theorem rndNearest_idem_pos (p : ℕ) (hp : 1 ≤ p) (x : ℝ) (hx : 0 < x) :
    rndNearest p (rndNearest p x) = rndNearest p x := by
  have hb := binade x hx
  obtain ⟨l, r⟩ := rndNearest_binade p hp x _ hb.1 hb.2
  rcases r.lt_or_eq with hr | hr
  · conv_lhs => unfold rndNearest
    rw [show (rne (x / ulp p x) : ℝ) * ulp p x = rndNearest p x from rfl]
    rw [ulp_of_binade p _ _ l hr, show (2:ℝ) ^ (Int.log 2 |x| + 1 - p) = ulp p x from rfl]
    conv_lhs => rw [show rndNearest p x = rne (x / ulp p x) * ulp p x from rfl]
    rw [mul_div_cancel_right₀ _ (ulp_pos p x).ne', rne_int]
    rfl
  · rw [hr]; exact rndNearest_pow p hp _

theorem rndNearest_mono_pos (p : ℕ) (hp : 1 ≤ p) (x y : ℝ) (hx : 0 < x) (h : x ≤ y) :
    rndNearest p x ≤ rndNearest p y := by
  have hy : 0 < y := lt_of_lt_of_le hx h
  have bx := binade x hx
  have b_y := binade y hy
  by_cases hc : y < (2:ℝ) ^ (Int.log 2 |x| + 1)
  · have e1 := ulp_of_binade p y _ (le_trans bx.1 h) hc
    unfold rndNearest
    rw [e1, show (2:ℝ) ^ (Int.log 2 |x| + 1 - p) = ulp p x from rfl]
    have : rne (x / ulp p x) ≤ rne (y / ulp p x) :=
      rne_mono _ _ (div_le_div_of_nonneg_right h (ulp_pos p x).le)
    have hr : (rne (x / ulp p x) : ℝ) ≤ rne (y / ulp p x) := by exact_mod_cast this
    exact mul_le_mul_of_nonneg_right hr (ulp_pos p x).le
  · push Not at hc
    have h1 : Int.log 2 |x| + 1 < Int.log 2 |y| + 1 :=
      (zpow_lt_zpow_iff_right₀ (by norm_num : (1:ℝ) < 2)).1 (lt_of_le_of_lt hc b_y.2)
    have h2 : (2:ℝ) ^ (Int.log 2 |x| + 1) ≤ (2:ℝ) ^ (Int.log 2 |y|) :=
      zpow_le_zpow_right₀ (by norm_num) (by omega)
    exact le_trans (rndNearest_binade p hp x _ bx.1 bx.2).2
      (le_trans h2 (rndNearest_binade p hp y _ b_y.1 b_y.2).1)

theorem rndNearest_nonneg (p : ℕ) (hp : 1 ≤ p) (x : ℝ) (hx : 0 ≤ x) : 0 ≤ rndNearest p x := by
  rcases hx.lt_or_eq with h | h
  · have hb := binade x h
    exact le_trans (by positivity) (rndNearest_binade p hp x _ hb.1 hb.2).1
  · rw [← h, rndNearest_zero]

theorem rndNearest_err (p : ℕ) (x : ℝ) :
    |rndNearest p x - x| ≤ (2:ℝ)^(-(p:ℤ)) * |x| := by
  rcases eq_or_ne x 0 with rfl | h0
  · rw [rndNearest_zero]; simp
  have hs := ulp_pos p x
  have hx : x = x / ulp p x * ulp p x := (div_mul_cancel₀ x hs.ne').symm
  have e1 : |rndNearest p x - x| = |(rne (x / ulp p x) : ℝ) - x / ulp p x| * ulp p x := by
    conv_lhs => rw [hx]
    rw [show rndNearest p (x / ulp p x * ulp p x) = rne (x / ulp p x) * ulp p x by rw [← hx]; rfl,
      ← sub_mul, abs_mul, abs_of_pos hs]
  rw [e1]
  have hb := binade |x| (abs_pos.2 h0)
  rw [abs_abs] at hb
  have e2 : ulp p x = 2 * (2:ℝ)^(-(p:ℤ)) * (2:ℝ)^(Int.log 2 |x|) := by
    unfold ulp
    rw [show Int.log 2 |x| + 1 - (p:ℤ) = 1 + (-(p:ℤ)) + Int.log 2 |x| by ring,
      zpow_add₀ (by norm_num), zpow_add₀ (by norm_num), zpow_one]
  calc _ ≤ 1/2 * ulp p x := mul_le_mul_of_nonneg_right (rne_err _) hs.le
    _ = (2:ℝ)^(-(p:ℤ)) * (2:ℝ)^(Int.log 2 |x|) := by rw [e2]; ring
    _ ≤ _ := mul_le_mul_of_nonneg_left hb.1 (by positivity)

/-- integers of at most `p` bits are representable -/
theorem rndNearest_int (p : ℕ) (hp : 1 ≤ p) (k : ℤ) (hk : |k| ≤ 2^p) : rndNearest p (k : ℝ) = k := by
  have pos : ∀ k : ℤ, 0 < k → k ≤ 2^p → rndNearest p (k : ℝ) = k := by
    intro k h0 h1
    rcases h1.lt_or_eq with h1 | h1
    · have hk0 : (0:ℝ) < k := by exact_mod_cast h0
      have hb := binade (k:ℝ) hk0
      have h2 : (2:ℝ) ^ (Int.log 2 |(k:ℝ)|) < (2:ℝ)^(p:ℤ) := by
        refine lt_of_le_of_lt hb.1 ?_
        rw [zpow_natCast]; exact_mod_cast h1
      have h3 : Int.log 2 |(k:ℝ)| < p := (zpow_lt_zpow_iff_right₀ (by norm_num : (1:ℝ) < 2)).1 h2
      obtain ⟨j, hj⟩ : ∃ j : ℕ, (j:ℤ) = p - 1 - Int.log 2 |(k:ℝ)| :=
        ⟨(p - 1 - Int.log 2 |(k:ℝ)|).toNat, Int.toNat_of_nonneg (by omega)⟩
      have hu : ulp p (k:ℝ) = ((2:ℝ)^j)⁻¹ := by
        unfold ulp
        rw [show Int.log 2 |(k:ℝ)| + 1 - (p:ℤ) = -(j:ℤ) by omega, zpow_neg, zpow_natCast]
      have hd : (k:ℝ) / ulp p (k:ℝ) = ((k * 2^j : ℤ) : ℝ) := by
        rw [hu]; push_cast; field_simp
      unfold rndNearest
      rw [hd, rne_int, hu]; push_cast; field_simp
    · have : (k:ℝ) = (2:ℝ)^(p:ℤ) := by rw [h1]; push_cast; rw [zpow_natCast]
      rw [this]; exact rndNearest_pow p hp _
  rcases lt_trichotomy k 0 with h | h | h
  · have := pos (-k) (by omega) (by rw [← abs_of_neg h]; exact hk)
    push_cast at this
    rw [rndNearest_neg] at this
    linarith
  · rw [h]; push_cast; exact rndNearest_zero p
  · exact pos k h (by rw [← abs_of_pos h]; exact hk)

/-- IEEE-754 binary arithmetic with `p` significant bits -/
noncomputable def Rounding.nearest (p : ℕ) (hp : 1 ≤ p) : Rounding where
  u := (2:ℝ)^(-(p:ℤ))
  rnd := rndNearest p
  u_nonneg := by positivity
  u_lt_one := zpow_lt_one_of_neg₀ (by norm_num) (by omega)
  err := rndNearest_err p
  idem := by
    intro x
    rcases lt_trichotomy x 0 with h | h | h
    · have := rndNearest_idem_pos p hp (-x) (by linarith)
      rw [rndNearest_neg, rndNearest_neg] at this
      linarith
    · rw [h, rndNearest_zero, rndNearest_zero]
    · exact rndNearest_idem_pos p hp x h
  mono := by
    intro x y h
    rcases lt_or_ge 0 x with hx | hx
    · exact rndNearest_mono_pos p hp x y hx h
    · rcases lt_or_ge y 0 with hy | hy
      · have := rndNearest_mono_pos p hp (-y) (-x) (by linarith) (by linarith)
        rw [rndNearest_neg, rndNearest_neg] at this
        linarith
      · have h1 := rndNearest_nonneg p hp y hy
        have h2 := rndNearest_nonneg p hp (-x) (by linarith)
        rw [rndNearest_neg] at h2
        linarith
  neg := rndNearest_neg p
  one := by simpa using rndNearest_pow p hp 0

/-- C++ `float` and `double` -/
noncomputable def Rounding.float : Rounding := .nearest 24 (by norm_num)
noncomputable def Rounding.double : Rounding := .nearest 53 (by norm_num)

theorem Rounding.double_u : Rounding.double.u = 1 / 2^53 := by
  show (2:ℝ)^(-((53:ℕ):ℤ)) = 1 / 2^53
  norm_num

theorem Rounding.float_u : Rounding.float.u = 1 / 2^24 := by
  show (2:ℝ)^(-((24:ℕ):ℤ)) = 1 / 2^24
  norm_num

end TooN
