import Verif.Proof.Bridge
/-!
# Facts about a floating-point format with gradual underflow

Everything that the error analysis of complete programs (C78) uses: `u` is the unit roundoff and `η` the smallest positive number.
`fmt_ieee` shows that the IEEE-754 formats satisfy them.
-/
namespace TooN.Special
open scoped Classical

/-- `G` has unit roundoff `u` and smallest positive number `η` -/
structure Fmt (G : Grid) (u η : ℝ) : Prop where
  u0 : 0 ≤ u
  u1 : u ≤ 1 / 4
  eta0 : 0 < η
  /-- relative error `u`, plus half of the smallest number for tiny results -/
  err : ∀ z, |G.rnd z - z| ≤ u * |z| + η / 2
  /-- sums never underflow -/
  add : ∀ {x y}, G.rnd x = x → G.rnd y = y → |G.rnd (x + y) - (x + y)| ≤ u * |x + y|
  /-- no number of the format is closer -/
  near : ∀ {x} z, G.rnd x = x → |G.rnd z - z| ≤ |x - z|
  /-- every number of the format is a multiple of the smallest one -/
  mult : ∀ {x}, G.rnd x = x → ∃ k : ℤ, x = k * η
  /-- small whole numbers are numbers of the format -/
  int : ∀ k : ℕ, k * u ≤ 1 → G.rnd k = k

theorem nearest_u (p : ℕ) (hp : 1 ≤ p) : (Rounding.nearest p hp).u = 1 / 2 ^ p := by
  change (2:ℝ) ^ (-(p:ℤ)) = _
  rw [zpow_neg, zpow_natCast, one_div]

theorem rne_nearest (t : ℝ) (k : ℤ) : |(rne t : ℝ) - t| ≤ |(k:ℝ) - t| := by
  by_cases h : k = rne t
  · rw [h]
  · have h1 := rne_err t
    have h2 : (1:ℝ) ≤ |(k:ℝ) - rne t| := by
      have : (1:ℤ) ≤ |k - rne t| := Int.one_le_abs (sub_ne_zero.2 h)
      exact_mod_cast this
    have h3 := abs_add_le ((k:ℝ) - t) (t - rne t)
    rw [sub_add_sub_cancel, abs_sub_comm t] at h3
    linarith

theorem mult_nearest (z h : ℝ) (hh : 0 < h) (k : ℤ) : |(rne (z / h) : ℝ) * h - z| ≤ |(k:ℝ) * h - z| := by
  have e : ∀ w : ℝ, |w * h - z| = |w - z / h| * h := fun w => by
    rw [← abs_of_pos hh, ← abs_mul, abs_of_pos hh, sub_mul, div_mul_cancel₀ _ hh.ne']
  rw [e, e]
  exact mul_le_mul_of_nonneg_right (rne_nearest _ k) hh.le

theorem rndNearest_near (p : ℕ) (hp : 1 ≤ p) (x z : ℝ) (hx : rndNearest p x = x) (hz : z ≠ 0) : |rndNearest p z - z| ≤ |x - z| := by
  have hz0 : 0 < |z| := abs_pos.2 hz
  have hb := binade |z| hz0
  rw [abs_abs] at hb
  set e := Int.log 2 |z| with he
  have hh : ulp p z = (2:ℝ) ^ (e + 1 - p) := rfl
  have hmult : ∀ e' : ℤ, e ≤ e' → ∃ k : ℤ, (2:ℝ) ^ (e' + 1 - p) = k * ulp p z := fun e' h => by
    refine ⟨2 ^ (e' - e).toNat, ?_⟩
    push_cast
    rw [hh, ← zpow_natCast, ← zpow_add₀ (by norm_num), Int.toNat_of_nonneg (by omega)]
    congr 1
    ring
  by_cases hxz : (2:ℝ) ^ e ≤ |x|
  · have hx0 : 0 < |x| := lt_of_lt_of_le (by positivity) hxz
    have hbx := binade |x| hx0
    rw [abs_abs] at hbx
    have hle : e ≤ Int.log 2 |x| := by
      have := (zpow_lt_zpow_iff_right₀ (by norm_num : (1:ℝ) < 2)).1 (lt_of_le_of_lt hxz hbx.2)
      omega
    obtain ⟨k, hk⟩ := hmult _ hle
    have e2 : x = ((rne (x / ulp p x) * k : ℤ) : ℝ) * ulp p z := by
      have : x = rne (x / ulp p x) * ulp p x := hx.symm
      push_cast
      rw [mul_assoc, ← hk]
      exact this
    rw [e2]
    exact mult_nearest z (ulp p z) (ulp_pos p z) _
  · push Not at hxz
    have h2 : ∃ k : ℤ, (2:ℝ) ^ e = k * ulp p z := by
      refine ⟨2 ^ (p - 1), ?_⟩
      push_cast
      rw [hh, ← zpow_natCast, ← zpow_add₀ (by norm_num)]
      congr 1
      push_cast [Nat.cast_sub hp]
      ring
    obtain ⟨k, hk⟩ := h2
    rcases lt_or_gt_of_ne hz with hneg | hpos
    · have := mult_nearest z (ulp p z) (ulp_pos p z) (-k)
      push_cast at this
      rw [neg_mul, ← hk] at this
      refine le_trans this ?_
      rw [abs_of_neg hneg] at hb
      rw [abs_lt] at hxz
      rw [abs_of_nonneg (by linarith [hb.1] : 0 ≤ -(2:ℝ) ^ e - z), abs_of_nonneg (by linarith [hb.1, hxz.1] : 0 ≤ x - z)]
      linarith [hxz.1]
    · have := mult_nearest z (ulp p z) (ulp_pos p z) k
      rw [← hk] at this
      refine le_trans this ?_
      rw [abs_of_pos hpos] at hb
      rw [abs_lt] at hxz
      rw [abs_of_nonpos (by linarith [hb.1] : (2:ℝ) ^ e - z ≤ 0), abs_of_nonpos (by linarith [hb.1, hxz.2] : x - z ≤ 0)]
      linarith [hxz.2]

theorem rndIEEE_near (p : ℕ) (emin : ℤ) (hp : 1 ≤ p) (x z : ℝ) (hx : rndIEEE p emin x = x) : |rndIEEE p emin z - z| ≤ |x - z| := by
  have hs : (0:ℝ) < (2:ℝ) ^ emin := by positivity
  obtain ⟨k, hk⟩ := rndIEEE_multiple (p := p) (emin := emin) x
  rw [hx] at hk
  by_cases h : |z| < (2:ℝ) ^ (emin + p - 1)
  · have e : rndIEEE p emin z = rne (z / (2:ℝ) ^ emin) * (2:ℝ) ^ emin := by unfold rndIEEE; rw [if_pos h]
    rw [e, hk]
    exact mult_nearest z _ hs k
  · have e : rndIEEE p emin z = rndNearest p z := by unfold rndIEEE; rw [if_neg h]
    have hz : z ≠ 0 := by
      rintro rfl
      rw [abs_zero] at h
      exact h (by positivity)
    rw [e]
    refine rndNearest_near p hp x z ?_ hz
    have := agree_multiple (p := p) (emin := emin) hp k
    rw [← hk, hx] at this
    exact this.symm

theorem fmt_ieee (p : ℕ) (emin emax : ℤ) (hp : 2 ≤ p) (h1 : emin ≤ -2) (h2 : emin + p - 1 ≤ emax) (h3 : 1 ≤ emax) :
    Fmt (Grid.ieee p emin emax hp h1 h2 h3) (1 / 2 ^ p) ((2:ℝ) ^ emin) where
  u0 := by positivity
  u1 := by
    rw [div_le_div_iff₀ (by positivity) (by norm_num)]
    have : (2:ℝ) ^ 2 ≤ 2 ^ p := pow_le_pow_right₀ (by norm_num) hp
    linarith
  eta0 := by positivity
  err := by
    intro z
    have hs : (0:ℝ) < (2:ℝ) ^ emin := by positivity
    have hu : (0:ℝ) ≤ 1 / 2 ^ p * |z| := by positivity
    change |rndIEEE p emin z - z| ≤ _
    unfold rndIEEE
    split
    · have := rne_err (z / (2:ℝ) ^ emin)
      have e : (rne (z / (2:ℝ) ^ emin) : ℝ) * (2:ℝ) ^ emin - z = ((rne (z / (2:ℝ) ^ emin) : ℝ) - z / (2:ℝ) ^ emin) * (2:ℝ) ^ emin := by
        field_simp
      rw [e, abs_mul, abs_of_pos hs]
      nlinarith
    · have := (Rounding.nearest p (by omega)).err z
      change |rndNearest p z - z| ≤ _ at this
      have e : (Rounding.nearest p (by omega)).u = 1 / 2 ^ p := nearest_u p _
      rw [e] at this
      linarith
  add := by
    intro x y hx hy
    have := agree_add (p := p) (emin := emin) (by omega) hx hy
    change |rndIEEE p emin (x + y) - (x + y)| ≤ _
    rw [this]
    have := (Rounding.nearest p (by omega)).err (x + y)
    rw [nearest_u] at this
    exact this
  near := fun z hx => rndIEEE_near p emin (by omega) _ z hx
  mult := by
    intro x hx
    obtain ⟨k, hk⟩ := rndIEEE_multiple (p := p) (emin := emin) x
    exact ⟨k, by rw [← hk]; exact hx.symm⟩
  int := by
    intro k hk
    change rndIEEE p emin (k:ℝ) = k
    rw [mul_one_div, div_le_one (by positivity)] at hk
    have hk' : k ≤ 2 ^ p := by exact_mod_cast hk
    have hz : (|(k:ℤ)|) ≤ 2 ^ p := by
      rw [abs_of_nonneg (by positivity)]
      exact_mod_cast hk'
    have e : ((k:ℕ):ℝ) = ((k * 2 ^ (-emin).toNat : ℤ) : ℝ) * (2:ℝ) ^ emin := by
      push_cast
      rw [mul_assoc, ← zpow_natCast, ← zpow_add₀ (by norm_num), Int.toNat_of_nonneg (by omega)]
      simp
    have := agree_multiple (p := p) (emin := emin) (by omega) (k * 2 ^ (-emin).toNat)
    rw [← e] at this
    rw [this]
    exact_mod_cast rndNearest_int p (by omega) (k:ℤ) hz

end TooN.Special
