import Verif.Spec.Fmt
import Verif.Model.Special
import Verif.Proof.Ops
import Verif.Proof.Flags
/-!
# Arithmetic of finite numbers of a format
-/
set_option linter.unusedSectionVars false
namespace TooN.Special
open TooN.Ops Finset
open scoped Classical

variable {G : Grid} {u η : ℝ}

/-- `x` is the finite number `v` -/
def Is (x : XF G) (v : ℝ) : Prop := ∃ h, x = .fin v h

theorem Is.rep {x : XF G} {v : ℝ} (h : Is x v) : G.rnd v = v := h.choose.1
theorem Is.le {x : XF G} {v : ℝ} (h : Is x v) : |v| ≤ G.big := h.choose.2
theorem Is.inj {x : XF G} {v w : ℝ} (h : Is x v) (h' : Is x w) : v = w := by
  obtain ⟨h1, rfl⟩ := h
  obtain ⟨h2, e⟩ := h'
  cases e
  rfl

theorem is_zero : Is (0 : XF G) 0 := ⟨_, rfl⟩
theorem is_one : Is (1 : XF G) 1 := ⟨_, rfl⟩

theorem is_ofReal {z : ℝ} (h : |G.rnd z| ≤ G.big) : Is (XF.ofReal G z) (G.rnd z) := by
  refine ⟨⟨G.idem z, h⟩, ?_⟩
  unfold XF.ofReal
  rw [dif_pos ⟨(abs_le.1 h).2, (abs_le.1 h).1⟩]

theorem Is.add {x y : XF G} {v w : ℝ} (h1 : Is x v) (h2 : Is y w) (h : |G.rnd (v + w)| ≤ G.big) : Is (x + y) (G.rnd (v + w)) := by
  obtain ⟨g1, rfl⟩ := h1
  obtain ⟨g2, rfl⟩ := h2
  exact is_ofReal h

theorem Is.mul {x y : XF G} {v w : ℝ} (h1 : Is x v) (h2 : Is y w) (h : |G.rnd (v * w)| ≤ G.big) : Is (x * y) (G.rnd (v * w)) := by
  obtain ⟨g1, rfl⟩ := h1
  obtain ⟨g2, rfl⟩ := h2
  exact is_ofReal h

theorem Is.neg {x : XF G} {v : ℝ} (h1 : Is x v) : Is (-x) (-v) := by
  obtain ⟨g1, rfl⟩ := h1
  exact ⟨_, rfl⟩

theorem Is.abs {x : XF G} {v : ℝ} (h1 : Is x v) : Is (XF.abs x) |v| := by
  obtain ⟨g1, rfl⟩ := h1
  exact ⟨_, rfl⟩

theorem Is.sub {x y : XF G} {v w : ℝ} (h1 : Is x v) (h2 : Is y w) (h : |G.rnd (v - w)| ≤ G.big) : Is (x - y) (G.rnd (v - w)) := by
  rw [sub_eq_add_neg] at h ⊢
  exact h1.add h2.neg h

theorem Is.div {x y : XF G} {v w : ℝ} (h1 : Is x v) (h2 : Is y w) (hw : w ≠ 0) (h : |G.rnd (v / w)| ≤ G.big) : Is (x / y) (G.rnd (v / w)) := by
  obtain ⟨g1, rfl⟩ := h1
  obtain ⟨g2, rfl⟩ := h2
  have e : (XF.fin v g1 : XF G) / .fin w g2 = XF.ofReal G (v / w) := if_neg hw
  rw [e]
  exact is_ofReal h

variable (F : Fmt G u η)
include F

theorem Fmt.abs_rnd (z : ℝ) : |G.rnd z| ≤ (1 + u) * |z| + η / 2 := by
  have h := F.err z
  have := abs_add_le (G.rnd z - z) z
  rw [sub_add_cancel] at this
  linarith

theorem Fmt.tiny {x : ℝ} (hx : G.rnd x = x) (h : |x| < η) : x = 0 := by
  obtain ⟨k, rfl⟩ := F.mult hx
  have h0 := F.eta0
  rw [abs_mul, abs_of_pos h0] at h
  have h1 : |(k:ℝ)| < 1 := by nlinarith
  have h2 : |k| < 1 := by exact_mod_cast h1
  have : k = 0 := by
    rw [abs_lt] at h2
    omega
  subst this
  simp

/-- a quarter of a number rounds to at most its half, even if it is subnormal -/
theorem Fmt.quarter {x z : ℝ} (hx : G.rnd x = x) (h0 : 0 ≤ x) (h : |z| ≤ x / 4) : |G.rnd z| ≤ x / 2 := by
  have he := F.eta0
  obtain ⟨k, hk⟩ := F.mult hx
  obtain ⟨l, hl⟩ := F.mult (G.idem z)
  have hb := F.abs_rnd z
  have hb2 : |G.rnd z| ≤ 5 / 16 * x + η / 2 := by
    have := F.u1
    have := abs_nonneg z
    nlinarith
  rw [hl, abs_mul, abs_of_pos he] at hb2 ⊢
  subst hk
  have hk0 : (0:ℝ) ≤ k := by
    by_contra hc
    push Not at hc
    nlinarith
  have hk0' : 0 ≤ k := by exact_mod_cast hk0
  have h2 : |(l:ℝ)| ≤ 5 / 16 * k + 1 / 2 := by
    have : |(l:ℝ)| * η ≤ (5 / 16 * k + 1 / 2) * η := by linarith
    exact le_of_mul_le_mul_right this he
  suffices hh : |(l:ℝ)| ≤ k / 2 by nlinarith
  have h3 : 16 * |l| ≤ 5 * k + 8 := by
    have : 16 * |(l:ℝ)| ≤ 5 * k + 8 := by linarith
    exact_mod_cast this
  have h4 : 2 * |l| ≤ k ∨ k < 3 := by omega
  rcases h4 with h4 | h4
  · have : 2 * |(l:ℝ)| ≤ k := by exact_mod_cast h4
    linarith
  · have h5 : 2 * |l| ≤ k := by
      by_cases hk3 : k = 0
      · -- z = 0
        subst hk3
        have hz : z = 0 := by
          have : |z| ≤ 0 := by simpa using h
          exact abs_eq_zero.1 (le_antisymm this (abs_nonneg _))
        rw [hz, G.rnd_zero] at hl
        have : (l:ℝ) = 0 := by
          rcases mul_eq_zero.1 hl.symm with h | h
          · exact h
          · exact absurd h he.ne'
        have : l = 0 := by exact_mod_cast this
        subst this
        simp
      · omega
    have : 2 * |(l:ℝ)| ≤ k := by exact_mod_cast h5
    linarith

/-- if the rounded difference is zero, the numbers are the same -/
theorem Fmt.sub_eq_zero {x y : ℝ} (hx : G.rnd x = x) (hy : G.rnd y = y) (h : G.rnd (x - y) = 0) : x = y := by
  have := F.add hx (show G.rnd (-y) = -y by rw [G.neg, hy])
  rw [← sub_eq_add_neg, h, zero_sub, abs_neg] at this
  have h1 := F.u1
  have : |x - y| ≤ 0 := by
    have := abs_nonneg (x - y)
    nlinarith
  have := abs_eq_zero.1 (le_antisymm this (abs_nonneg _))
  linarith

/-- dot product of finite numbers, with underflow -/
theorem Fmt.dot (n : ℕ) (a b : Vec (XF G)) (x y : Vec ℝ) (ha : ∀ i, i < n → Is (a i) (x i)) (hb : ∀ i, i < n → Is (b i) (y i))
    (hbig : (1 + u) ^ (n + 1) * ∑ i ∈ range n, |x i * y i| + n * (1 + u) ^ n * (η / 2) ≤ G.big) :
    ∃ s, Is (dot n a b) s ∧
      |s - ∑ i ∈ range n, x i * y i| ≤ ((1 + u) ^ (n + 1) - 1) * ∑ i ∈ range n, |x i * y i| + n * (1 + u) ^ n * (η / 2) := by
  have u0 := F.u0
  have he := F.eta0
  have hP : ∀ k, (1:ℝ) ≤ (1 + u) ^ k := fun k => one_le_pow₀ (by linarith)
  have hD : ∀ k, 0 ≤ ∑ i ∈ range k, |x i * y i| := fun k => sum_nonneg fun i _ => abs_nonneg _
  have mono : ∀ k, k ≤ n → (1 + u) ^ (k + 1) * ∑ i ∈ range k, |x i * y i| + k * (1 + u) ^ k * (η / 2) ≤ G.big := by
    intro k hk
    refine le_trans (add_le_add ?_ ?_) hbig
    · refine mul_le_mul (pow_le_pow_right₀ (by linarith) (by omega)) ?_ (hD k) (by positivity)
      exact sum_le_sum_of_subset_of_nonneg (range_subset_range.2 hk) (fun _ _ _ => abs_nonneg _)
    · refine mul_le_mul_of_nonneg_right ?_ (by linarith)
      exact mul_le_mul (by exact_mod_cast hk) (pow_le_pow_right₀ (by linarith) hk) (by positivity) (by positivity)
  have key : ∀ k, k ≤ n → ∃ s, Is (forN k (fun i s => s + a i * b i) 0) s ∧
      |s - ∑ i ∈ range k, x i * y i| ≤ ((1 + u) ^ (k + 1) - 1) * ∑ i ∈ range k, |x i * y i| + k * (1 + u) ^ k * (η / 2) := by
    intro k
    induction k with
    | zero => intro _; exact ⟨0, is_zero, by simp⟩
    | succ k ih =>
      intro hk
      obtain ⟨s, hs, es⟩ := ih (by omega)
      set D := ∑ i ∈ range k, |x i * y i| with hDdef
      have hD0 : 0 ≤ D := hD k
      have hm := mono (k+1) hk
      rw [sum_range_succ] at hm
      have hxy := abs_nonneg (x k * y k)
      have hPk := hP k
      have hpk0 : (0:ℝ) ≤ (1 + u) ^ k := by linarith
      have hkk : (0:ℝ) ≤ k := Nat.cast_nonneg k
      -- the product
      have ht := F.err (x k * y k)
      have ht2 := F.abs_rnd (x k * y k)
      have htb : |G.rnd (x k * y k)| ≤ G.big := by
        refine le_trans ht2 (le_trans (add_le_add (b := (1 + u) ^ (k+1+1) * (D + |x k * y k|)) (d := ((k+1:ℕ):ℝ) * (1 + u) ^ (k+1) * (η / 2)) ?_ ?_) hm)
        · have h1 : (1 + u) * |x k * y k| ≤ (1 + u) ^ (k+1+1) * |x k * y k| := by
            refine mul_le_mul_of_nonneg_right ?_ hxy
            rw [pow_succ]
            have := hP (k+1)
            nlinarith
          have h2 : 0 ≤ (1 + u) ^ (k+1+1) * D := by positivity
          linarith
        · have h1 := hP (k+1)
          have h2 : (1:ℝ) ≤ ((k+1:ℕ):ℝ) := by exact_mod_cast Nat.succ_pos k
          have h3 : (1:ℝ) ≤ ((k+1:ℕ):ℝ) * (1 + u) ^ (k+1) := by nlinarith
          nlinarith
      have hprod := (ha k (by omega)).mul (hb k (by omega)) htb
      set t := G.rnd (x k * y k) with htdef
      -- the sum
      have hadd := F.add hs.rep hprod.rep
      have hS : |∑ i ∈ range k, x i * y i| ≤ D := abs_sum_le_sum_abs _ _
      have herr : |G.rnd (s + t) - (∑ i ∈ range k, x i * y i + x k * y k)| ≤
          ((1 + u) ^ (k + 1 + 1) - 1) * (D + |x k * y k|) + ((k+1:ℕ):ℝ) * (1 + u) ^ (k+1) * (η / 2) := by
        set S := ∑ i ∈ range k, x i * y i with hSdef
        have e1 : |s + t - (S + x k * y k)| ≤ ((1 + u) ^ (k + 1) - 1) * D + k * (1 + u) ^ k * (η / 2) + (u * |x k * y k| + η / 2) := by
          have := abs_add_le (s - S) (t - x k * y k)
          rw [show s - S + (t - x k * y k) = s + t - (S + x k * y k) by ring] at this
          linarith
        have e2 : |s + t| ≤ |s + t - (S + x k * y k)| + (D + |x k * y k|) := by
          have g1 := abs_add_le (s + t - (S + x k * y k)) (S + x k * y k)
          have g2 := abs_add_le S (x k * y k)
          rw [sub_add_cancel] at g1
          linarith
        have e3 : |G.rnd (s + t) - (S + x k * y k)| ≤ (1 + u) * |s + t - (S + x k * y k)| + u * (D + |x k * y k|) := by
          have g1 := abs_add_le (G.rnd (s + t) - (s + t)) (s + t - (S + x k * y k))
          rw [show G.rnd (s + t) - (s + t) + (s + t - (S + x k * y k)) = G.rnd (s + t) - (S + x k * y k) by ring] at g1
          nlinarith
        have e4 : (1 + u) * |s + t - (S + x k * y k)| ≤
            (1 + u) * (((1 + u) ^ (k + 1) - 1) * D + k * (1 + u) ^ k * (η / 2) + (u * |x k * y k| + η / 2)) :=
          mul_le_mul_of_nonneg_left e1 (by linarith)
        have e5 : (1 + u) * (η / 2) ≤ (1 + u) ^ (k+1) * (η / 2) := by
          refine mul_le_mul_of_nonneg_right ?_ (by linarith)
          rw [pow_succ]
          nlinarith
        have e6 : ((1 + u) * u + u) * |x k * y k| ≤ ((1 + u) ^ (k + 1 + 1) - 1) * |x k * y k| := by
          refine mul_le_mul_of_nonneg_right ?_ hxy
          have : (1 + u) ^ (k+1+1) = (1 + u) ^ k * ((1 + u) * (1 + u)) := by ring
          rw [this]
          nlinarith
        have e7 : (1 + u) * (((1 + u) ^ (k + 1) - 1) * D) + u * D = ((1 + u) ^ (k + 1 + 1) - 1) * D := by ring
        have e8 : (1 + u) * (k * (1 + u) ^ k * (η / 2)) + (1 + u) ^ (k+1) * (η / 2) = ((k+1:ℕ):ℝ) * (1 + u) ^ (k+1) * (η / 2) := by
          push_cast; ring
        have e9 : (1 + u) * (u * |x k * y k|) + u * |x k * y k| = ((1 + u) * u + u) * |x k * y k| := by ring
        linarith
      have hsb : |G.rnd (s + t)| ≤ G.big := by
        have g1 := abs_add_le (G.rnd (s + t) - (∑ i ∈ range k, x i * y i + x k * y k)) (∑ i ∈ range k, x i * y i + x k * y k)
        have g2 := abs_add_le (∑ i ∈ range k, x i * y i) (x k * y k)
        rw [sub_add_cancel] at g1
        linarith
      refine ⟨G.rnd (s + t), ?_, ?_⟩
      · rw [forN_succ]
        exact hs.add hprod hsb
      · rw [sum_range_succ, sum_range_succ]
        exact herr
  exact key n (le_refl _)

/-- sums of finite numbers: no underflow -/
theorem Fmt.sum (n : ℕ) (a : Vec (XF G)) (x : Vec ℝ) (ha : ∀ i, i < n → Is (a i) (x i))
    (hbig : (1 + u) ^ n * ∑ i ∈ range n, |x i| ≤ G.big) (k : ℕ) (hk : k ≤ n) :
    ∃ s, Is (forN k (fun i s => s + a i) 0) s ∧
      |s - ∑ i ∈ range k, x i| ≤ ((1 + u) ^ k - 1) * ∑ i ∈ range k, |x i| := by
  have u0 := F.u0
  have hP : ∀ k, (1:ℝ) ≤ (1 + u) ^ k := fun k => one_le_pow₀ (by linarith)
  have hD : ∀ k, 0 ≤ ∑ i ∈ range k, |x i| := fun k => sum_nonneg fun i _ => abs_nonneg _
  have mono : ∀ k, k ≤ n → (1 + u) ^ k * ∑ i ∈ range k, |x i| ≤ G.big := by
    intro k hk
    refine le_trans ?_ hbig
    refine mul_le_mul (pow_le_pow_right₀ (by linarith) (by omega)) ?_ (hD k) (by positivity)
    exact sum_le_sum_of_subset_of_nonneg (range_subset_range.2 hk) (fun _ _ _ => abs_nonneg _)
  induction k with
  | zero => exact ⟨0, is_zero, by simp⟩
  | succ k ih =>
    obtain ⟨s, hs, es⟩ := ih (by omega)
    have hm := mono (k+1) hk
    rw [sum_range_succ] at hm
    have hx := ha k (by omega)
    have hadd := F.add hs.rep hx.rep
    have hS : |∑ i ∈ range k, x i| ≤ ∑ i ∈ range k, |x i| := abs_sum_le_sum_abs _ _
    have hD0 := hD k
    have hPk := hP k
    have hxk := abs_nonneg (x k)
    have herr : |G.rnd (s + x k) - (∑ i ∈ range k, x i + x k)| ≤ ((1 + u) ^ (k + 1) - 1) * (∑ i ∈ range k, |x i| + |x k|) := by
      have g0 : |s + x k - (∑ i ∈ range k, x i + x k)| = |s - ∑ i ∈ range k, x i| := by congr 1; ring
      have g1 := abs_add_le (G.rnd (s + x k) - (s + x k)) (s + x k - (∑ i ∈ range k, x i + x k))
      rw [sub_add_sub_cancel, g0] at g1
      have g2 : |s + x k| ≤ |s - ∑ i ∈ range k, x i| + (∑ i ∈ range k, |x i| + |x k|) := by
        have g3 := abs_add_le (s - ∑ i ∈ range k, x i) (∑ i ∈ range k, x i + x k)
        have g4 := abs_add_le (∑ i ∈ range k, x i) (x k)
        rw [show s - ∑ i ∈ range k, x i + (∑ i ∈ range k, x i + x k) = s + x k by ring] at g3
        linarith
      have g5 : u * |s + x k| ≤ u * (((1 + u) ^ k - 1) * ∑ i ∈ range k, |x i| + (∑ i ∈ range k, |x i| + |x k|)) :=
        mul_le_mul_of_nonneg_left (by linarith) u0
      have g6 : u * |x k| ≤ ((1 + u) ^ (k + 1) - 1) * |x k| := by
        refine mul_le_mul_of_nonneg_right ?_ hxk
        rw [pow_succ]; nlinarith
      have g7 : u * (((1 + u) ^ k - 1) * ∑ i ∈ range k, |x i|) + u * ∑ i ∈ range k, |x i| + ((1 + u) ^ k - 1) * ∑ i ∈ range k, |x i| =
        ((1 + u) ^ (k + 1) - 1) * ∑ i ∈ range k, |x i| := by ring
      nlinarith
    have hsb : |G.rnd (s + x k)| ≤ G.big := by
      have g1 := abs_add_le (G.rnd (s + x k) - (∑ i ∈ range k, x i + x k)) (∑ i ∈ range k, x i + x k)
      have g2 := abs_add_le (∑ i ∈ range k, x i) (x k)
      rw [sub_add_cancel] at g1
      linarith
    refine ⟨G.rnd (s + x k), ?_, ?_⟩
    · rw [forN_succ]
      exact hs.add hx hsb
    · rw [sum_range_succ, sum_range_succ]
      exact herr

end TooN.Special
