import Verif.Spec.Float
/-!
# IEEE-754 rounding with gradual underflow and overflow

`rndIEEE p emin` rounds to the nearest multiple of `2^emin` among the numbers of at most `p` significant bits, ties to even:
this is the rounding of the binary formats, including subnormal numbers.  A `Grid` is a rounding function with a largest finite
number; `Grid.double` and `Grid.float` are the C++ types on common platforms.  Nothing here refers to TooN.
-/
namespace TooN

/-- round to nearest with `p` significant bits and smallest positive number `2^emin` -/
noncomputable def rndIEEE (p : ℕ) (emin : ℤ) (x : ℝ) : ℝ :=
  if |x| < (2:ℝ) ^ (emin + p - 1) then rne (x / (2:ℝ) ^ emin) * (2:ℝ) ^ emin else rndNearest p x

/-- a rounding function together with the largest finite number -/
structure Grid where
  rnd : ℝ → ℝ
  /-- the largest finite number -/
  big : ℝ
  mono : ∀ x y, x ≤ y → rnd x ≤ rnd y
  idem : ∀ x, rnd (rnd x) = rnd x
  neg : ∀ x, rnd (-x) = -rnd x
  big_fix : rnd big = big
  two_le : 2 ≤ big
  one : rnd 1 = 1
  half : rnd (1 / 2) = 1 / 2
  quarter : rnd (1 / 4) = 1 / 4
  two : rnd 2 = 2
  /-- a golden section step from `p` towards `q` is not longer than the distance -/
  tame : ∀ p q, rnd p = p → rnd q = q → p ≤ q → rnd (rnd ((3 - Real.sqrt 5) / 2) * rnd (q - p)) ≤ q - p

theorem gold_bounds : 0 ≤ (3 - Real.sqrt 5) / 2 ∧ (3 - Real.sqrt 5) / 2 ≤ 1 / 2 := by
  have h1 : Real.sqrt 5 ≤ 3 := by rw [Real.sqrt_le_left (by norm_num)]; norm_num
  have h2 : 2 ≤ Real.sqrt 5 := by rw [Real.le_sqrt' (by norm_num)]; norm_num
  constructor <;> linarith

/-- exact arithmetic with an arbitrary overflow threshold -/
noncomputable def Grid.exact (big : ℝ) (h : 2 ≤ big) : Grid where
  rnd := id
  big := big
  mono := fun _ _ h => h
  idem := fun _ => rfl
  neg := fun _ => rfl
  big_fix := rfl
  two_le := h
  one := rfl
  half := rfl
  quarter := rfl
  two := rfl
  tame := by
    intro p q _ _ h
    have := gold_bounds
    simp only [id]
    nlinarith

section
variable {p : ℕ} {emin : ℤ}

theorem rndIEEE_neg (x : ℝ) : rndIEEE p emin (-x) = -rndIEEE p emin x := by
  unfold rndIEEE
  rw [abs_neg]
  split
  · rw [neg_div, rne_neg]; push_cast; ring
  · exact rndNearest_neg p x

theorem normal_eq (hp : 1 ≤ p) : (2:ℝ) ^ (emin + p - 1) = ((2 ^ (p - 1) : ℤ) : ℝ) * (2:ℝ) ^ emin := by
  obtain ⟨q, rfl⟩ : ∃ q, p = q + 1 := ⟨p - 1, by omega⟩
  push_cast
  rw [show emin + (q + 1 : ℤ) - 1 = (q : ℤ) + emin by ring, zpow_add₀ (by norm_num), zpow_natCast]

/-- a small number rounds to a multiple of the smallest number, at most the smallest normal one -/
theorem small_le (hp : 1 ≤ p) (x : ℝ) (h : x ≤ (2:ℝ) ^ (emin + p - 1)) :
    rne (x / (2:ℝ) ^ emin) * (2:ℝ) ^ emin ≤ (2:ℝ) ^ (emin + p - 1) := by
  have hs : (0:ℝ) < (2:ℝ) ^ emin := by positivity
  rw [normal_eq hp] at h ⊢
  refine mul_le_mul_of_nonneg_right ?_ hs.le
  have : rne (x / (2:ℝ) ^ emin) ≤ rne ((2 ^ (p - 1) : ℤ) : ℝ) := rne_mono _ _ (by rw [div_le_iff₀ hs]; exact h)
  rw [rne_int] at this
  exact_mod_cast this

theorem small_nonneg (x : ℝ) (h : 0 ≤ x) : 0 ≤ rne (x / (2:ℝ) ^ emin) * (2:ℝ) ^ emin := by
  have hs : (0:ℝ) < (2:ℝ) ^ emin := by positivity
  refine mul_nonneg ?_ hs.le
  have : rne ((0 : ℤ) : ℝ) ≤ rne (x / (2:ℝ) ^ emin) := rne_mono _ _ (by push_cast; positivity)
  rw [rne_int] at this
  exact_mod_cast this

theorem rndIEEE_nonneg (hp : 1 ≤ p) (x : ℝ) (h : 0 ≤ x) : 0 ≤ rndIEEE p emin x := by
  unfold rndIEEE
  split
  · exact small_nonneg x h
  · exact rndNearest_nonneg p hp x h

theorem normal_le (hp : 1 ≤ p) (x : ℝ) (h : (2:ℝ) ^ (emin + p - 1) ≤ x) : (2:ℝ) ^ (emin + p - 1) ≤ rndNearest p x := by
  rw [← rndNearest_pow p hp (emin + p - 1)]
  exact rndNearest_mono_pos p hp _ _ (by positivity) h

theorem rndIEEE_mono_nonneg (hp : 1 ≤ p) (x y : ℝ) (hx : 0 ≤ x) (h : x ≤ y) : rndIEEE p emin x ≤ rndIEEE p emin y := by
  have hs : (0:ℝ) < (2:ℝ) ^ emin := by positivity
  have hN : (0:ℝ) < (2:ℝ) ^ (emin + p - 1) := by positivity
  unfold rndIEEE
  rw [abs_of_nonneg hx, abs_of_nonneg (hx.trans h)]
  split_ifs with h1 h2 h2
  · refine mul_le_mul_of_nonneg_right ?_ hs.le
    exact_mod_cast rne_mono _ _ (div_le_div_of_nonneg_right h hs.le)
  · exact (small_le hp x h1.le).trans (normal_le hp y (not_lt.1 h2))
  · exact absurd (lt_of_le_of_lt h h2) h1
  · exact rndNearest_mono_pos p hp _ _ (lt_of_lt_of_le hN (not_lt.1 h1)) h

theorem rndIEEE_mono (hp : 1 ≤ p) (x y : ℝ) (h : x ≤ y) : rndIEEE p emin x ≤ rndIEEE p emin y := by
  rcases le_or_gt 0 x with hx | hx
  · exact rndIEEE_mono_nonneg hp x y hx h
  · rcases le_or_gt 0 y with hy | hy
    · have h1 := rndIEEE_nonneg (emin := emin) hp y hy
      have h2 := rndIEEE_nonneg (emin := emin) hp (-x) (by linarith)
      rw [rndIEEE_neg] at h2
      linarith
    · have := rndIEEE_mono_nonneg (emin := emin) hp (-y) (-x) (by linarith) (by linarith)
      rw [rndIEEE_neg, rndIEEE_neg] at this
      linarith

/-- multiples of the smallest number that are not above the smallest normal number are representable -/
theorem rndIEEE_small_fix (hp : 1 ≤ p) (k : ℤ) (h : |(k:ℝ) * (2:ℝ) ^ emin| ≤ (2:ℝ) ^ (emin + p - 1)) :
    rndIEEE p emin (k * (2:ℝ) ^ emin) = k * (2:ℝ) ^ emin := by
  have hs : (0:ℝ) < (2:ℝ) ^ emin := by positivity
  rcases h.lt_or_eq with h | h
  · unfold rndIEEE
    rw [if_pos h, mul_div_cancel_right₀ _ hs.ne', rne_int]
  · unfold rndIEEE
    rw [if_neg (by rw [h]; exact lt_irrefl _)]
    rcases le_or_gt 0 ((k:ℝ) * (2:ℝ) ^ emin) with h0 | h0
    · rw [abs_of_nonneg h0] at h
      rw [h]; exact rndNearest_pow p hp _
    · rw [abs_of_neg h0] at h
      rw [show (k:ℝ) * (2:ℝ) ^ emin = -(2:ℝ) ^ (emin + p - 1) by linarith, rndNearest_neg, rndNearest_pow p hp]

theorem small_abs_le (hp : 1 ≤ p) (x : ℝ) (h : |x| ≤ (2:ℝ) ^ (emin + p - 1)) :
    |(rne (x / (2:ℝ) ^ emin) : ℝ) * (2:ℝ) ^ emin| ≤ (2:ℝ) ^ (emin + p - 1) := by
  rw [abs_le] at h ⊢
  constructor
  · have := small_le hp (-x) (by linarith)
    rw [neg_div, rne_neg] at this
    push_cast at this
    linarith
  · exact small_le hp x h.2

theorem rndNearest_abs (p : ℕ) (x : ℝ) : |rndNearest p x| = |rndNearest p (|x|)| := by
  rcases le_or_gt 0 x with h | h
  · rw [abs_of_nonneg h]
  · rw [abs_of_neg h, rndNearest_neg, abs_neg]

theorem rndIEEE_idem (hp : 1 ≤ p) (x : ℝ) : rndIEEE p emin (rndIEEE p emin x) = rndIEEE p emin x := by
  by_cases h : |x| < (2:ℝ) ^ (emin + p - 1)
  · have e : rndIEEE p emin x = rne (x / (2:ℝ) ^ emin) * (2:ℝ) ^ emin := by unfold rndIEEE; rw [if_pos h]
    rw [e]
    exact rndIEEE_small_fix hp _ (small_abs_le hp x h.le)
  · have e : rndIEEE p emin x = rndNearest p x := by unfold rndIEEE; rw [if_neg h]
    rw [e]
    have hl := normal_le hp (|x|) (not_lt.1 h)
    have : ¬ |rndNearest p x| < (2:ℝ) ^ (emin + p - 1) := by
      rw [rndNearest_abs, not_lt]
      exact hl.trans (le_abs_self _)
    unfold rndIEEE
    rw [if_neg this]
    exact (Rounding.nearest p hp).idem x

theorem rndIEEE_pow (hp : 1 ≤ p) (e : ℤ) (he : emin ≤ e) : rndIEEE p emin ((2:ℝ) ^ e) = (2:ℝ) ^ e := by
  by_cases h : (2:ℝ) ^ e < (2:ℝ) ^ (emin + p - 1)
  · obtain ⟨j, hj⟩ : ∃ j : ℕ, (j : ℤ) = e - emin := ⟨(e - emin).toNat, Int.toNat_of_nonneg (by omega)⟩
    have e1 : (2:ℝ) ^ e = ((2 ^ j : ℤ) : ℝ) * (2:ℝ) ^ emin := by
      push_cast
      rw [← zpow_natCast, ← zpow_add₀ (by norm_num), hj]
      congr 1; ring
    have hpos : (0:ℝ) < (2:ℝ) ^ e := by positivity
    rw [e1] at h hpos ⊢
    exact rndIEEE_small_fix hp _ (by rw [abs_of_pos hpos]; exact h.le)
  · unfold rndIEEE
    rw [if_neg (by rw [abs_of_pos (by positivity)]; exact h)]
    exact rndNearest_pow p hp e

/-- representable numbers are multiples of the smallest one -/
theorem rndIEEE_multiple (x : ℝ) : ∃ k : ℤ, rndIEEE p emin x = k * (2:ℝ) ^ emin := by
  unfold rndIEEE
  split
  · exact ⟨_, rfl⟩
  · rename_i h
    rw [not_lt] at h
    have hx0 : 0 < |x| := lt_of_lt_of_le (by positivity) h
    have hb := binade (|x|) hx0
    rw [abs_abs] at hb
    have : emin + p - 1 < Int.log 2 |x| + 1 :=
      (zpow_lt_zpow_iff_right₀ (by norm_num : (1:ℝ) < 2)).1 (lt_of_le_of_lt h hb.2)
    obtain ⟨j, hj⟩ : ∃ j : ℕ, (j : ℤ) = Int.log 2 |x| + 1 - p - emin :=
      ⟨(Int.log 2 |x| + 1 - p - emin).toNat, Int.toNat_of_nonneg (by omega)⟩
    refine ⟨rne (x / ulp p x) * 2 ^ j, ?_⟩
    unfold rndNearest
    have e : ulp p x = (2:ℝ) ^ j * (2:ℝ) ^ emin := by
      unfold ulp
      rw [← zpow_natCast, ← zpow_add₀ (by norm_num), hj]
      congr 1; ring
    conv_lhs => rw [show (rne (x / ulp p x) : ℝ) * ulp p x = rne (x / ulp p x) * ((2:ℝ) ^ j * (2:ℝ) ^ emin) by rw [← e]]
    push_cast; ring

theorem rndIEEE_zero : rndIEEE p emin 0 = 0 := by
  have := rndIEEE_neg (p := p) (emin := emin) 0
  rw [neg_zero] at this
  linarith

theorem rndIEEE_tame (hp : 1 ≤ p) (he : emin ≤ -1) (a b : ℝ) (ha : rndIEEE p emin a = a) (hb : rndIEEE p emin b = b)
    (h : a ≤ b) : rndIEEE p emin (rndIEEE p emin ((3 - Real.sqrt 5) / 2) * rndIEEE p emin (b - a)) ≤ b - a := by
  obtain ⟨g0, g1⟩ := gold_bounds
  have hg0 := rndIEEE_nonneg (emin := emin) hp _ g0
  have hg1 : rndIEEE p emin ((3 - Real.sqrt 5) / 2) ≤ 1 / 2 := by
    have := rndIEEE_mono (emin := emin) hp _ _ g1
    have e := rndIEEE_pow (emin := emin) hp (-1) he
    rw [show (1:ℝ) / 2 = (2:ℝ) ^ (-1 : ℤ) by norm_num] at this ⊢
    rwa [e] at this
  rcases h.lt_or_eq with h | h
  · obtain ⟨k, hk⟩ := rndIEEE_multiple (p := p) (emin := emin) a
    obtain ⟨l, hl⟩ := rndIEEE_multiple (p := p) (emin := emin) b
    rw [ha] at hk
    rw [hb] at hl
    have hs : (0:ℝ) < (2:ℝ) ^ emin := by positivity
    have hd : b - a = ((l - k : ℤ) : ℝ) * (2:ℝ) ^ emin := by rw [hk, hl]; push_cast; ring
    have hlk : 1 ≤ l - k := by
      by_contra hc
      have h1 : ((l - k : ℤ) : ℝ) ≤ 0 := by exact_mod_cast (by omega : l - k ≤ 0)
      have : b - a ≤ 0 := by rw [hd]; exact mul_nonpos_of_nonpos_of_nonneg h1 hs.le
      linarith
    have hlk' : (1:ℝ) ≤ ((l - k : ℤ) : ℝ) := by exact_mod_cast hlk
    have hge : (2:ℝ) ^ emin ≤ b - a := by rw [hd]; nlinarith
    have hpos : 0 < b - a := by linarith
    have bin := binade (b - a) hpos
    have hlog : emin < Int.log 2 |b - a| + 1 :=
      (zpow_lt_zpow_iff_right₀ (by norm_num : (1:ℝ) < 2)).1 (lt_of_le_of_lt hge bin.2)
    have r1 : rndIEEE p emin (b - a) ≤ (2:ℝ) ^ (Int.log 2 |b - a| + 1) := by
      rw [← rndIEEE_pow (emin := emin) hp (Int.log 2 |b - a| + 1) (by omega)]
      exact rndIEEE_mono hp _ _ bin.2.le
    have r0 := rndIEEE_nonneg (emin := emin) hp (b - a) hpos.le
    have r2 : rndIEEE p emin ((3 - Real.sqrt 5) / 2) * rndIEEE p emin (b - a) ≤ (2:ℝ) ^ (Int.log 2 |b - a|) := by
      calc _ ≤ 1 / 2 * (2:ℝ) ^ (Int.log 2 |b - a| + 1) := mul_le_mul hg1 r1 r0 (by norm_num)
        _ = _ := by rw [zpow_add_one₀ (by norm_num)]; ring
    refine le_trans (rndIEEE_mono hp _ _ r2) ?_
    rw [rndIEEE_pow hp _ (by omega)]
    exact bin.1
  · rw [← h, sub_self, rndIEEE_zero, mul_zero, rndIEEE_zero]

end

/-- the binary format with `p` significant bits, smallest positive number `2^emin`, largest exponent `emax` -/
noncomputable def Grid.ieee (p : ℕ) (emin emax : ℤ) (hp : 2 ≤ p) (h1 : emin ≤ -2) (h2 : emin + p - 1 ≤ emax) (h3 : 1 ≤ emax) :
    Grid where
  rnd := rndIEEE p emin
  big := (2 ^ p - 1) * (2:ℝ) ^ (emax + 1 - p)
  mono := rndIEEE_mono (by omega)
  idem := rndIEEE_idem (by omega)
  neg := rndIEEE_neg
  big_fix := by
    have hs : (0:ℝ) < (2:ℝ) ^ (emax + 1 - p) := by positivity
    have hp2 : (2:ℝ) ^ p = 2 * 2 ^ (p - 1) := by rw [← pow_succ']; congr 1; omega
    have hq : (1:ℝ) ≤ 2 ^ (p - 1) := one_le_pow₀ (by norm_num)
    have e0 : (2:ℝ) ^ emax = 2 ^ (p - 1) * (2:ℝ) ^ (emax + 1 - p) := by
      rw [← zpow_natCast, ← zpow_add₀ (by norm_num)]
      congr 1; push_cast [Nat.cast_sub (show 1 ≤ p by omega)]; ring
    have e1 : (2:ℝ) ^ (emax + 1) = 2 ^ p * (2:ℝ) ^ (emax + 1 - p) := by
      rw [← zpow_natCast, ← zpow_add₀ (by norm_num)]
      congr 1; ring
    have lo : (2:ℝ) ^ emax ≤ (2 ^ p - 1) * (2:ℝ) ^ (emax + 1 - p) := by
      rw [e0]; exact mul_le_mul_of_nonneg_right (by linarith) hs.le
    have hi : (2 ^ p - 1) * (2:ℝ) ^ (emax + 1 - p) < (2:ℝ) ^ (emax + 1) := by
      rw [e1]; exact mul_lt_mul_of_pos_right (by linarith) hs
    have hge : (2:ℝ) ^ (emin + p - 1) ≤ (2 ^ p - 1) * (2:ℝ) ^ (emax + 1 - p) :=
      (zpow_le_zpow_right₀ (by norm_num) h2).trans lo
    unfold rndIEEE
    rw [if_neg (by rw [abs_of_pos (lt_of_lt_of_le (by positivity) lo), not_lt]; exact hge)]
    unfold rndNearest
    rw [ulp_of_binade p _ emax lo hi, mul_div_cancel_right₀ _ hs.ne',
      show (2:ℝ) ^ p - 1 = ((2 ^ p - 1 : ℤ) : ℝ) by push_cast; ring, rne_int]
  two_le := by
    have hs : (0:ℝ) < (2:ℝ) ^ (emax + 1 - p) := by positivity
    have hp2 : (2:ℝ) ^ p = 2 * 2 ^ (p - 1) := by rw [← pow_succ']; congr 1; omega
    have hq : (1:ℝ) ≤ 2 ^ (p - 1) := one_le_pow₀ (by norm_num)
    have e0 : (2:ℝ) ^ emax = 2 ^ (p - 1) * (2:ℝ) ^ (emax + 1 - p) := by
      rw [← zpow_natCast, ← zpow_add₀ (by norm_num)]
      congr 1; push_cast [Nat.cast_sub (show 1 ≤ p by omega)]; ring
    have : (2:ℝ) ≤ (2:ℝ) ^ emax := by
      calc (2:ℝ) = (2:ℝ) ^ (1:ℤ) := by norm_num
        _ ≤ _ := zpow_le_zpow_right₀ (by norm_num) h3
    refine this.trans ?_
    rw [e0]; exact mul_le_mul_of_nonneg_right (by linarith) hs.le
  one := by simpa using rndIEEE_pow (p := p) (emin := emin) (by omega) 0 (by omega)
  half := by simpa using rndIEEE_pow (p := p) (emin := emin) (by omega) (-1) (by omega)
  quarter := by
    have := rndIEEE_pow (p := p) (emin := emin) (by omega) (-2) h1
    rwa [show (2:ℝ) ^ (-2 : ℤ) = 1 / 4 by norm_num] at this
  two := by simpa using rndIEEE_pow (p := p) (emin := emin) (by omega) 1 (by omega)
  tame := rndIEEE_tame (by omega) (by omega)

/-- C++ `float` and `double` with subnormal numbers and overflow -/
noncomputable def Grid.float : Grid := .ieee 24 (-149) 127 (by norm_num) (by norm_num) (by norm_num) (by norm_num)
noncomputable def Grid.double : Grid := .ieee 53 (-1074) 1023 (by norm_num) (by norm_num) (by norm_num) (by norm_num)

end TooN
