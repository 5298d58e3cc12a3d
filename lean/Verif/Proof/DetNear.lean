import Mathlib.LinearAlgebra.Matrix.Determinant.Basic
import Mathlib.LinearAlgebra.Matrix.Gershgorin
import Mathlib.LinearAlgebra.Matrix.NonsingularInverse
import Mathlib.Topology.Instances.Matrix
import Mathlib.Topology.Order.IntermediateValue
import Mathlib.Tactic
/-!
# Determinants of matrices close to the identity
-/
namespace TooN.SLF
open Finset

/-- `|det A| ≤ ∏ᵢ Σⱼ |Aᵢⱼ|` -/
theorem abs_det_le_prod {n : ℕ} (A : Matrix (Fin n) (Fin n) ℝ) : |A.det| ≤ ∏ i, ∑ j, |A i j| := by
  rw [← Matrix.det_transpose, Matrix.det_apply']
  refine le_trans (abs_sum_le_sum_abs _ _) ?_
  have e : ∀ σ : Equiv.Perm (Fin n), |((Equiv.Perm.sign σ : ℤ) : ℝ) * ∏ i, A.transpose (σ i) i| = ∏ i, |A i (σ i)| := by
    intro σ
    rw [abs_mul, abs_prod]
    have : |((Equiv.Perm.sign σ : ℤ) : ℝ)| = 1 := by
      rcases Int.units_eq_one_or (Equiv.Perm.sign σ) with h | h <;> simp [h]
    rw [this, one_mul]
    rfl
  rw [sum_congr rfl fun σ _ => e σ, prod_univ_sum]
  have hinj : Set.InjOn (fun σ : Equiv.Perm (Fin n) => (σ : Fin n → Fin n)) (univ : Finset (Equiv.Perm (Fin n))) :=
    fun a _ b _ h => DFunLike.coe_injective h
  rw [← sum_image (s := univ) (g := fun σ : Equiv.Perm (Fin n) => (σ : Fin n → Fin n)) (f := fun f => ∏ i, |A i (f i)|) hinj]
  refine sum_le_sum_of_subset_of_nonneg ?_ fun _ _ _ => prod_nonneg fun _ _ => abs_nonneg _
  intro f _
  simp [Fintype.mem_piFinset]

theorem det_one_add_ne {n : ℕ} (G : Matrix (Fin n) (Fin n) ℝ) (ε : ℝ) (hG : ∀ i, ∑ j, |G i j| ≤ ε) (hε : ε < 1) :
    (1 + G).det ≠ 0 := by
  refine det_ne_zero_of_sum_row_lt_diag fun k => ?_
  have h := hG k
  rw [← add_sum_erase univ (fun j => |G k j|) (mem_univ k)] at h
  have e : ∑ j ∈ univ.erase k, ‖(1 + G) k j‖ = ∑ j ∈ univ.erase k, |G k j| := by
    refine sum_congr rfl fun j hj => ?_
    rw [Matrix.add_apply, Matrix.one_apply_ne (ne_of_mem_erase hj).symm, zero_add, Real.norm_eq_abs]
  rw [e, Matrix.add_apply, Matrix.one_apply_eq, Real.norm_eq_abs]
  have := neg_abs_le (G k k)
  have := le_abs_self (1 + G k k)
  linarith

theorem det_one_add_pos {n : ℕ} (G : Matrix (Fin n) (Fin n) ℝ) (ε : ℝ) (hG : ∀ i, ∑ j, |G i j| ≤ ε) (hε : ε < 1) :
    0 < (1 + G).det := by
  have hc : Continuous fun t : ℝ => (1 + t • G).det := by fun_prop
  by_contra hn
  have h0 : (1 + (0:ℝ) • G).det = 1 := by simp
  have h1 : (1 + (1:ℝ) • G).det ≤ 0 := by rw [one_smul]; exact not_lt.1 hn
  have himg := intermediate_value_Icc' (zero_le_one' ℝ) hc.continuousOn
  obtain ⟨t, ht, he⟩ := himg ⟨h1, by rw [h0]; exact zero_le_one⟩
  refine det_one_add_ne (t • G) ε (fun i => ?_) hε he
  have : ∀ j, |(t • G) i j| ≤ |G i j| := by
    intro j
    rw [Matrix.smul_apply, smul_eq_mul, abs_mul, abs_of_nonneg ht.1]
    exact mul_le_of_le_one_left (abs_nonneg _) ht.2
  exact (sum_le_sum fun j _ => this j).trans (hG i)

/-- `(1-ε)ⁿ ≤ det (I+G) ≤ (1+ε)ⁿ` when every row of `|G|` sums to at most `ε < 1` -/
theorem det_near_one {n : ℕ} (G : Matrix (Fin n) (Fin n) ℝ) (ε : ℝ) (h0 : 0 ≤ ε) (hG : ∀ i, ∑ j, |G i j| ≤ ε) (hε : ε < 1) :
    (1 - ε)^n ≤ (1 + G).det ∧ (1 + G).det ≤ (1 + ε)^n := by
  have hpos := det_one_add_pos G ε hG hε
  constructor
  · have hu : IsUnit (1 + G).det := isUnit_iff_ne_zero.2 hpos.ne'
    set B := (1 + G)⁻¹ with hBdef
    have hB : (1 + G) * B = 1 := Matrix.mul_nonsing_inv _ hu
    have hBe : B = 1 - G * B := by
      have : B + G * B = 1 := by rw [← hB, add_mul, one_mul]
      rw [← this]; abel
    have hrow : ∀ i, ∑ j, |B i j| ≤ 1 / (1 - ε) := by
      rcases Nat.eq_zero_or_pos n with hz | hn
      · subst hz; exact fun i => i.elim0
      have : Nonempty (Fin n) := ⟨⟨0, hn⟩⟩
      obtain ⟨m, -, hm⟩ := exists_max_image (univ : Finset (Fin n)) (fun i => ∑ j, |B i j|) univ_nonempty
      have hb : ∑ j, |B m j| ≤ 1 + ε * ∑ j, |B m j| := by
        have h1 : ∀ j, |B m j| ≤ |(1 : Matrix (Fin n) (Fin n) ℝ) m j| + ∑ k, |G m k| * |B k j| := by
          intro j
          conv_lhs => rw [hBe]
          rw [Matrix.sub_apply, Matrix.mul_apply]
          refine le_trans (abs_sub _ _) (add_le_add le_rfl (le_trans (abs_sum_le_sum_abs _ _) ?_))
          exact le_of_eq (sum_congr rfl fun k _ => abs_mul _ _)
        have h2 : ∑ j, |(1 : Matrix (Fin n) (Fin n) ℝ) m j| = 1 := by
          rw [sum_eq_single m (fun j _ hj => by rw [Matrix.one_apply_ne hj.symm, abs_zero]) (fun h => absurd (mem_univ _) h),
            Matrix.one_apply_eq, abs_one]
        refine le_trans (sum_le_sum fun j _ => h1 j) ?_
        rw [sum_add_distrib, h2, sum_comm]
        refine add_le_add le_rfl ?_
        have h3 : ∀ k, ∑ j, |G m k| * |B k j| ≤ |G m k| * ∑ j, |B m j| := by
          intro k
          rw [← mul_sum]
          exact mul_le_mul_of_nonneg_left (hm k (mem_univ _)) (abs_nonneg _)
        refine le_trans (sum_le_sum fun k _ => h3 k) ?_
        rw [← sum_mul]
        exact mul_le_mul_of_nonneg_right (hG m) (sum_nonneg fun _ _ => abs_nonneg _)
      intro i
      refine le_trans (hm i (mem_univ _)) ?_
      rw [le_div_iff₀ (by linarith)]
      linarith
    have hdB : |B.det| ≤ (1 / (1 - ε))^n := by
      refine (abs_det_le_prod B).trans ?_
      refine (prod_le_prod (fun i _ => sum_nonneg fun _ _ => abs_nonneg _) fun i _ => hrow i).trans ?_
      rw [prod_const, card_univ, Fintype.card_fin]
    have hm : (1 + G).det * B.det = 1 := by rw [← Matrix.det_mul, hB, Matrix.det_one]
    have hpe : 0 < (1 - ε)^n := pow_pos (by linarith) n
    have h4 : (1 - ε)^n * B.det ≤ 1 := by
      have := mul_le_mul_of_nonneg_left ((le_abs_self _).trans hdB) hpe.le
      rwa [← mul_pow, mul_one_div, div_self (by linarith : (1 - ε) ≠ 0), one_pow] at this
    have hBp : 0 < B.det := by
      by_contra hc
      nlinarith [mul_nonneg hpos.le (neg_nonneg.2 (not_lt.1 hc))]
    nlinarith
  · refine (le_abs_self _).trans ((abs_det_le_prod _).trans ?_)
    have hrow : ∀ i, ∑ j, |(1 + G) i j| ≤ 1 + ε := by
      intro i
      have h2 : ∑ j, |(1 : Matrix (Fin n) (Fin n) ℝ) i j| = 1 := by
        rw [sum_eq_single i (fun j _ hj => by rw [Matrix.one_apply_ne hj.symm, abs_zero]) (fun h => absurd (mem_univ _) h),
          Matrix.one_apply_eq, abs_one]
      have : ∀ j, |(1 + G) i j| ≤ |(1 : Matrix (Fin n) (Fin n) ℝ) i j| + |G i j| := fun j => by
        rw [Matrix.add_apply]; exact abs_add_le _ _
      refine (sum_le_sum fun j _ => this j).trans ?_
      rw [sum_add_distrib, h2]
      linarith [hG i]
    refine (prod_le_prod (fun i _ => sum_nonneg fun _ _ => abs_nonneg _) fun i _ => hrow i).trans ?_
    rw [prod_const, card_univ, Fintype.card_fin]

end TooN.SLF
