import Verif.Model.Helpers
import Verif.Proof.Ops
import Verif.Props.Ops
import Mathlib.Analysis.InnerProductSpace.PiL2
import Mathlib.LinearAlgebra.Matrix.Trace
import Mathlib.LinearAlgebra.Matrix.NonsingularInverse
import Mathlib.LinearAlgebra.CrossProduct
import Mathlib.Tactic.FieldSimp
import Mathlib.Tactic.LinearCombination
import Mathlib.Tactic.FinCases
/-!
# C42 (norms, projection, 2×2 inverse), C52 (Symmetrize, trace, cross_product_matrix), C55 (isnan, isfinite, Fill)

For all sizes and contents.  `u` is the uninitialised memory of a result.
-/
set_option linter.unusedSectionVars false
namespace TooN.Helpers
open Finset TooN.Ops
variable {K : Type _}

/-! ## C42: norms -/

/-- **C42** `norm(v)` is the Euclidean norm (so it is ≥ 0, zero only for the zero vector, homogeneous, and satisfies the
triangle inequality). -/
theorem c42_norm (n : Nat) (v : Vec ℝ) : norm n v = ‖(WithLp.toLp 2 (asV n v) : EuclideanSpace ℝ (Fin n))‖ := by
  rw [EuclideanSpace.norm_eq]
  unfold norm
  rw [dot_eq, sum_range_fin]
  congr 1
  refine sum_congr rfl (fun i _ => ?_)
  rw [Real.norm_eq_abs, sq_abs]
  exact (sq _).symm

/-- **C42** `norm_sq(v)` is the square of `norm(v)` and the sum of the squares. -/
theorem c42_norm_sq (n : Nat) (v : Vec ℝ) :
    normSq n v = norm n v ^ 2 ∧ normSq n v = ∑ i : Fin n, v i ^ 2 ∧ 0 ≤ norm n v := by
  have h : dot n v v = ∑ i : Fin n, v i ^ 2 := by
    rw [dot_eq, sum_range_fin]
    exact sum_congr rfl (fun i _ => (sq _).symm)
  refine ⟨?_, h, Real.sqrt_nonneg _⟩
  unfold normSq norm
  rw [Real.sq_sqrt]
  rw [h]; exact sum_nonneg (fun i _ => sq_nonneg _)

/-- **C42** `norm(v) = 0` exactly for the zero vector -/
theorem c42_norm_eq_zero (n : Nat) (v : Vec ℝ) : norm n v = 0 ↔ ∀ i, i < n → v i = 0 := by
  rw [c42_norm, norm_eq_zero]
  constructor
  · intro h i hi
    exact congrFun (congrArg WithLp.ofLp h) ⟨i, hi⟩
  · intro h
    apply WithLp.ofLp_injective
    funext i
    exact h i i.2

/-- **C42** triangle inequality and homogeneity -/
theorem c42_norm_laws (n : Nat) (v w u u' : Vec ℝ) (c : ℝ) :
    norm n (addV n v w u) ≤ norm n v + norm n w ∧ norm n (applyScalarV (· * ·) n v c u') = |c| * norm n v := by
  rw [c42_norm, c42_norm, c42_norm, c42_norm, (c09_add_sub_vector n v w u).1, (c09_scalar n 0 0 c v u' (fun _ _ => 0) (fun _ _ => 0) (fun _ _ => 0) u').1]
  refine ⟨?_, ?_⟩
  · rw [WithLp.toLp_add]; exact norm_add_le _ _
  · rw [WithLp.toLp_smul, norm_smul, Real.norm_eq_abs]

theorem norm1_sum [LinearOrder K] [AddCommGroup K] [IsOrderedAddMonoid K] (n : Nat) (v : Vec K) :
    norm1 n v = ∑ i : Fin n, |v i| := by
  unfold norm1
  rw [forN_sum, zero_add, sum_range_fin]

/-- **C42** `norm_1(v)` is the sum of the absolute values; zero only for zero, triangle inequality. -/
theorem c42_norm_1 [LinearOrder K] [AddCommGroup K] [IsOrderedAddMonoid K] (n : Nat) (v w u : Vec K) :
    norm1 n v = ∑ i : Fin n, |v i| ∧ (norm1 n v = 0 ↔ ∀ i, i < n → v i = 0) ∧
    norm1 n (addV n v w u) ≤ norm1 n v + norm1 n w := by
  refine ⟨norm1_sum n v, ?_, ?_⟩
  · rw [norm1_sum, sum_eq_zero_iff_of_nonneg (fun i _ => abs_nonneg _)]
    constructor
    · intro h i hi; exact abs_eq_zero.1 (h ⟨i, hi⟩ (mem_univ _))
    · intro h i _; exact abs_eq_zero.2 (h i i.2)
  · rw [norm1_sum, norm1_sum, norm1_sum, ← sum_add_distrib]
    refine sum_le_sum (fun i _ => ?_)
    have : addV n v w u i = v i + w i := by
      show pairwiseV _ _ _ _ _ _ = _
      rw [pairwiseV, forN_vecset, if_pos i.2]
    rw [this]; exact abs_add_le _ _

/-- **C42** `norm_inf(v)` of a nonempty vector is the largest absolute value. -/
theorem c42_norm_inf [LinearOrder K] [AddCommGroup K] [IsOrderedAddMonoid K] (n : Nat) (hn : 1 ≤ n) (v : Vec K) :
    IsGreatest {x | ∃ i, i < n ∧ x = |v i|} (normInf n v) := by
  refine forRange_inv (fun k s => IsGreatest {x | ∃ i, i < k ∧ x = |v i|} s) 1 n hn _ _ ?_ ?_
  · refine ⟨⟨0, by omega, rfl⟩, ?_⟩
    rintro x ⟨i, hi, rfl⟩
    have : i = 0 := by omega
    rw [this]
  · intro i t _ _ ht
    refine ⟨?_, ?_⟩
    · rcases max_choice t |v i| with h | h
      · obtain ⟨j, hj, e⟩ := ht.1
        exact ⟨j, by omega, by rw [h, e]⟩
      · exact ⟨i, by omega, h⟩
    · rintro x ⟨j, hj, rfl⟩
      by_cases e : j = i
      · rw [e]; exact le_max_right _ _
      · exact le_trans (ht.2 ⟨j, by omega, rfl⟩) (le_max_left _ _)

/-- **C42** on real vectors `norm_inf` is Mathlib's supremum norm. -/
theorem c42_norm_inf_sup (n : Nat) (hn : 1 ≤ n) (v : Vec ℝ) : normInf n v = ‖asV n v‖ := by
  have h := c42_norm_inf n hn v
  apply le_antisymm
  · obtain ⟨i, hi, e⟩ := h.1
    rw [e]; exact norm_le_pi_norm (asV n v) ⟨i, hi⟩
  · refine (pi_norm_le_iff_of_nonneg ?_).2 (fun i => h.2 ⟨i, i.2, rfl⟩)
    obtain ⟨i, hi, e⟩ := h.1
    rw [e]; exact abs_nonneg _

theorem forN_max_isGreatest [LinearOrder K] (n : Nat) (f : Nat → K) (z : K) :
    IsGreatest {x | x = z ∨ ∃ i, i < n ∧ x = f i} (forN n (fun i s => max s (f i)) z) := by
  refine forN_inv (fun k s => IsGreatest {x | x = z ∨ ∃ i, i < k ∧ x = f i} s) n _ _ ?_ ?_
  · refine ⟨Or.inl rfl, ?_⟩
    rintro x (rfl | ⟨i, hi, rfl⟩)
    · exact le_rfl
    · omega
  · intro i t _ ht
    refine ⟨?_, ?_⟩
    · rcases max_choice t (f i) with h | h
      · rcases ht.1 with e | ⟨j, hj, e⟩
        · exact Or.inl (by rw [h, e])
        · exact Or.inr ⟨j, by omega, by rw [h, e]⟩
      · exact Or.inr ⟨i, by omega, h⟩
    · rintro x (rfl | ⟨j, hj, rfl⟩)
      · exact le_trans (ht.2 (Or.inl rfl)) (le_max_left _ _)
      · by_cases e : j = i
        · rw [e]; exact le_max_right _ _
        · exact le_trans (ht.2 (Or.inr ⟨j, by omega, rfl⟩)) (le_max_left _ _)

theorem abssum [LinearOrder K] [AddCommGroup K] [IsOrderedAddMonoid K] (n : Nat) (f : Nat → K) :
    forN n (fun c s => s + |f c|) 0 = ∑ c : Fin n, |f c| := by
  rw [forN_sum, zero_add, sum_range_fin]

/-- **C42** `norm_inf(m)` is the largest absolute row sum, `norm_1(m)` the largest absolute column sum (0 for an empty
matrix). -/
theorem c42_matrix_norms [LinearOrder K] [AddCommGroup K] [IsOrderedAddMonoid K] (R C : Nat) (m : Mat K) :
    IsGreatest {x | x = 0 ∨ ∃ r, r < R ∧ x = ∑ c : Fin C, |m r c|} (normInfM R C m) ∧
    IsGreatest {x | x = 0 ∨ ∃ c, c < C ∧ x = ∑ r : Fin R, |m r c|} (norm1M R C m) := by
  refine ⟨?_, ?_⟩
  · unfold normInfM
    simp only [abssum]
    exact forN_max_isGreatest R (fun r => ∑ c : Fin C, |m r c|) 0
  · unfold norm1M
    have : ∀ c, forN R (fun r s => s + |m r c|) 0 = ∑ r : Fin R, |m r c| := fun c => abssum R (fun r => m r c)
    simp only [this]
    exact forN_max_isGreatest C (fun c => ∑ r : Fin R, |m r c|) 0

/-- **C42** `norm_inf` of a matrix bounds its action: `norm_inf(A x) ≤ norm_inf(A) norm_inf(x)`. -/
theorem c42_matrix_norm_compatible [CommRing K] [LinearOrder K] [IsStrictOrderedRing K] (R C : Nat) (hC : 1 ≤ C)
    (hR : 1 ≤ R) (A : Mat K) (x u : Vec K) :
    normInf R (mulMV R C A x u) ≤ normInfM R C A * normInf C x := by
  obtain ⟨i, hi, e⟩ := (c42_norm_inf R hR (mulMV R C A x u)).1
  have hx := c42_norm_inf C hC x
  have hA := (c42_matrix_norms R C A).1
  rw [e]
  have hm : mulMV R C A x u i = ∑ c : Fin C, A i c * x c := by
    have := congrFun (c09_mul_vector R C A x (fun _ => 0) u (fun _ => 0)).1 ⟨i, hi⟩
    exact this
  have hx0 : 0 ≤ normInf C x := by
    obtain ⟨j, hj, e⟩ := hx.1; rw [e]; exact abs_nonneg _
  rw [hm]
  calc |∑ c : Fin C, A i c * x c| ≤ ∑ c : Fin C, |A i c * x c| := abs_sum_le_sum_abs _ _
    _ ≤ ∑ c : Fin C, |A i c| * normInf C x := by
        refine sum_le_sum (fun c _ => ?_)
        rw [abs_mul]
        exact mul_le_mul_of_nonneg_left (hx.2 ⟨c, c.2, rfl⟩) (abs_nonneg _)
    _ = (∑ c : Fin C, |A i c|) * normInf C x := by rw [sum_mul]
    _ ≤ _ := mul_le_mul_of_nonneg_right (hA.2 (Or.inr ⟨i, hi, rfl⟩)) hx0

/-- **C42** `norm_fro(m)` is the root of the sum of the squares of all elements. -/
theorem c42_norm_fro (R C : Nat) (m : Mat ℝ) :
    normFro R C m = Real.sqrt (∑ r : Fin R, ∑ c : Fin C, m r c ^ 2) := by
  unfold normFro
  congr 1
  have h : ∀ r n, forN C (fun c n => n + m r c * m r c) n = n + ∑ c : Fin C, m r c ^ 2 := by
    intro r n
    rw [forN_sum, sum_range_fin]
    congr 1
    exact sum_congr rfl (fun i _ => (sq _).symm)
  simp only [h]
  rw [forN_sum, zero_add, sum_range_fin]

/-! ## C42: unit, normalize -/

theorem dot_self_pos (n : Nat) (v : Vec ℝ) (h : ∃ i, i < n ∧ v i ≠ 0) : 0 < Real.sqrt (dot n v v) := by
  have h1 : norm n v ≠ 0 := by
    rw [Ne, c42_norm_eq_zero]
    obtain ⟨i, hi, h⟩ := h
    exact fun h' => h (h' i hi)
  exact lt_of_le_of_ne (Real.sqrt_nonneg _) (Ne.symm h1)

/-- **C42** `unit(v)` and `normalize(v)` produce `v / |v|`, of norm 1, for every nonzero `v`; they divide by zero exactly for
the zero vector. -/
theorem c42_unit (n : Nat) (v u : Vec ℝ) :
    ((∃ i, i < n ∧ v i ≠ 0) → ∃ w w', unit n v u = some w ∧ normalize n v = some w' ∧
      (∀ i, i < n → w i = v i / norm n v) ∧ (∀ i, i < n → w' i = v i / norm n v) ∧
      (∀ i, n ≤ i → w' i = v i) ∧ norm n w = 1 ∧ norm n w' = 1) ∧
    ((∀ i, i < n → v i = 0) → unit n v u = none ∧ normalize n v = none) := by
  have hunit : ∀ w : Vec ℝ, (∃ i, i < n ∧ v i ≠ 0) → (∀ i, i < n → w i = v i / norm n v) → norm n w = 1 := by
    intro w hv hw
    have hp := dot_self_pos n v hv
    have : asV n w = (norm n v)⁻¹ • asV n v := by
      funext i; rw [asV_apply, hw i i.2]; simp [div_eq_inv_mul]
    rw [c42_norm, this, WithLp.toLp_smul, norm_smul, ← c42_norm, Real.norm_eq_abs, abs_inv,
      abs_of_pos (show 0 < norm n v from hp)]
    exact inv_mul_cancel₀ (ne_of_gt hp)
  refine ⟨?_, ?_⟩
  · intro hv
    have hp := dot_self_pos n v hv
    have h1 : ∀ i, i < n → applyScalarV (· * ·) n v (1 / Real.sqrt (dot n v v)) u i = v i / norm n v := by
      intro i hi
      rw [applyScalarV, forN_vecset, if_pos hi, mul_one_div]; rfl
    have h2 : ∀ i, forN n (fun i w => Vec.set w i (w i / Real.sqrt (dot n v v))) v i =
        if i < n then v i / norm n v else v i :=
      fun i => forN_vecupd n (fun _ x => x / Real.sqrt (dot n v v)) v i
    have h3 : ∀ i, i < n → forN n (fun i w => Vec.set w i (w i / Real.sqrt (dot n v v))) v i = v i / norm n v := by
      intro i hi; rw [h2, if_pos hi]
    refine ⟨_, _, if_neg (ne_of_gt hp), if_neg (ne_of_gt hp), h1, h3, ?_, hunit _ hv h1, hunit _ hv h3⟩
    intro i hi; rw [h2, if_neg (by omega)]
  · intro h
    have h0 : Real.sqrt (dot n v v) = 0 := (c42_norm_eq_zero n v).2 h
    exact ⟨if_pos h0, if_pos h0⟩

/-- a vector meeting the hypothesis: `(3, 4)`, with norm 5 -/
example : ∃ w, unit 2 (fun i => if i = 0 then 3 else 4) (fun _ => 7) = some w ∧ w 0 = 3 / 5 ∧ w 1 = 4 / 5 := by
  obtain ⟨w, _, h, _, h2, _⟩ := (c42_unit 2 (fun i => if i = 0 then 3 else 4) (fun _ => 7)).1 ⟨0, by omega, by norm_num⟩
  have hn : norm 2 (fun i => if i = 0 then 3 else 4) = 5 := by
    unfold norm
    rw [show dot 2 (fun i => if i = 0 then (3:ℝ) else 4) (fun i => if i = 0 then 3 else 4) = 5 ^ 2 by
      simp [dot]; norm_num]
    exact Real.sqrt_sq (by norm_num)
  refine ⟨w, h, ?_, ?_⟩
  · rw [h2 0 (by omega), hn]; norm_num
  · rw [h2 1 (by omega), hn]; norm_num

/-! ## C42: project, unproject, inv -/

/-- **C42** `project` divides by the last coordinate and fails exactly when this is zero; `unproject` appends a one. -/
theorem c42_project_values [Field K] [DecidableEq K] (n : Nat) (v u : Vec K) :
    (v n ≠ 0 → ∃ w, project n v u = some w ∧ ∀ i, i < n → w i = v i / v n) ∧
    (v n = 0 → project n v u = none) ∧
    (∀ i, i < n → unproject n v u i = v i) ∧ unproject n v u n = 1 := by
  refine ⟨?_, fun h => if_pos h, ?_, ?_⟩
  · intro h
    refine ⟨_, if_neg h, ?_⟩
    intro i hi
    rw [applyScalarV, forN_vecset, if_pos hi]
  · intro i hi
    unfold unproject
    rw [Vec.set_ne _ _ _ _ (by omega), forN_vecset, if_pos hi]
  · unfold unproject; rw [Vec.set_self]

/-- **C42** `project(unproject(v)) = v` always succeeds, and `unproject(project(h)) * h_last = h` when `h_last ≠ 0`. -/
theorem c42_project_unproject [Field K] [DecidableEq K] (n : Nat) (v h u u' : Vec K) :
    (∃ w, project n (unproject n v u) u' = some w ∧ asV n w = asV n v) ∧
    (h n ≠ 0 → ∃ w, project n h u = some w ∧ ∀ i, i ≤ n → unproject n w u' i * h n = h i) := by
  refine ⟨?_, ?_⟩
  · obtain ⟨h1, _, _, _⟩ := c42_project_values n (unproject n v u) u'
    obtain ⟨_, _, h3, h4⟩ := c42_project_values n v u
    obtain ⟨w, hw, hv⟩ := h1 (by rw [h4]; exact one_ne_zero)
    refine ⟨w, hw, ?_⟩
    funext i
    rw [asV_apply, asV_apply, hv i i.2, h4, div_one, h3 i i.2]
  · intro hn
    obtain ⟨w, hw, hv⟩ := (c42_project_values n h u).1 hn
    obtain ⟨_, _, h3, h4⟩ := c42_project_values n w u'
    refine ⟨w, hw, ?_⟩
    intro i hi
    by_cases e : i = n
    · subst e; rw [h4, one_mul]
    · rw [h3 i (by omega), hv i (by omega), div_mul_cancel₀ _ hn]

/-- **C42** the matrix forms act column by column. -/
theorem c42_project_matrix [Field K] [DecidableEq K] (n C : Nat) (m u : Mat K) :
    ((∀ c, c < C → m n c ≠ 0) → ∃ P, projectM n C m u = some P ∧
      ∀ r c, r < n → c < C → P r c = m r c / m n c) ∧
    ((∃ c, c < C ∧ m n c = 0) → projectM n C m u = none) ∧
    (∀ r c, r < n → c < C → unprojectM n C m u r c = m r c) ∧ (∀ c, c < C → unprojectM n C m u n c = 1) := by
  refine ⟨?_, ?_, ?_, ?_⟩
  · intro h
    obtain ⟨P, h1, h2⟩ := forNM_total (fun k (P : Mat K) => ∀ r c, r < n → c < C →
        P r c = if c < k then m r c / m n c else m r c) C
      (fun c result => if m n c = 0 then none
        else some (forN n (fun r result => Mat.set result r c (result r c / m n c)) result)) (evalM n C m u)
      (by intro r c hr hc; rw [evalM_apply, if_pos ⟨hr, hc⟩, if_neg (Nat.not_lt_zero _)])
      (by
        intro k t hk ht
        refine ⟨_, if_neg (h k hk), ?_⟩
        intro r c hr hc
        have hcol : ∀ q (t : Mat K), (∀ i j, forN q (fun r result => Mat.set result r k (result r k / m n k)) t i j =
            if i < q ∧ j = k then t i j / m n k else t i j) := by
          intro q t
          induction q with
          | zero => intro i j; simp
          | succ q ih =>
            intro i j
            rw [forN_succ, Mat.set]
            by_cases e : i = q ∧ j = k
            · obtain ⟨rfl, rfl⟩ := e
              rw [if_pos ⟨rfl, rfl⟩, if_pos ⟨by omega, rfl⟩, ih, if_neg (by omega)]
            · rw [if_neg e, ih]
              by_cases e2 : i < q ∧ j = k
              · rw [if_pos e2, if_pos ⟨by omega, e2.2⟩]
              · rw [if_neg e2, if_neg (by omega)]
        rw [hcol, ht r c hr hc]
        by_cases e : c = k
        · subst e; rw [if_pos ⟨hr, rfl⟩, if_neg (by omega), if_pos (by omega)]
        · rw [if_neg (fun h => e h.2)]
          by_cases e2 : c < k
          · rw [if_pos e2, if_pos (by omega)]
          · rw [if_neg e2, if_neg (by omega)])
    refine ⟨P, h1, fun r c hr hc => ?_⟩
    rw [h2 r c hr hc, if_pos hc]
  · rintro ⟨c, hc, h0⟩
    unfold projectM
    have : ∀ k, c < k → forNM k (fun c result => if m n c = 0 then none
        else some (forN n (fun r result => Mat.set result r c (result r c / m n c)) result)) (evalM n C m u) = none := by
      intro k hk
      induction k with
      | zero => omega
      | succ k ih =>
        rw [forNM_succ]
        by_cases e : c = k
        · subst e
          cases forNM c _ _ with
          | none => rfl
          | some t => exact if_pos h0
        · rw [ih (by omega)]; rfl
    exact this C hc
  · intro r c hr hc
    unfold unprojectM
    have : ∀ q (t : Mat K), forN q (fun c res => Mat.set res n c 1) t r c = t r c := by
      intro q t
      induction q with
      | zero => rfl
      | succ q ih => rw [forN_succ, Mat.set_ne _ _ _ _ _ _ (by omega), ih]
    rw [this, evalM_apply, if_pos ⟨hr, hc⟩]
  · intro c hc
    unfold unprojectM
    have := forN_rowupd C n (fun _ (_ : K) => 1) (evalM n C m u) n c
    rw [if_pos ⟨rfl, hc⟩] at this
    exact this

/-- **C42** `inv` of a 2×2 matrix is the inverse, and divides by zero exactly for singular matrices. -/
theorem c42_inv [Field K] [DecidableEq K] (m u : Mat K) :
    ((asM 2 2 m).det ≠ 0 → ∃ w, inv2 m u = some w ∧ asM 2 2 w = (asM 2 2 m)⁻¹ ∧ asM 2 2 w * asM 2 2 m = 1) ∧
    ((asM 2 2 m).det = 0 → inv2 m u = none) := by
  have hd : (asM 2 2 m).det = m 0 0 * m 1 1 - m 1 0 * m 0 1 := by
    rw [Matrix.det_fin_two]
    simp only [asM_apply, Fin.val_zero, Fin.val_one]
    ring
  refine ⟨?_, ?_⟩
  · intro h
    rw [hd] at h
    refine ⟨_, if_neg h, ?_⟩
    have key : asM 2 2 (Mat.set (Mat.set (Mat.set (Mat.set u 0 0 (m 1 1 * (1 / (m 0 0 * m 1 1 - m 1 0 * m 0 1)))) 0 1
          (-(m 0 1) * (1 / (m 0 0 * m 1 1 - m 1 0 * m 0 1)))) 1 0 (-(m 1 0) * (1 / (m 0 0 * m 1 1 - m 1 0 * m 0 1)))) 1 1
          (m 0 0 * (1 / (m 0 0 * m 1 1 - m 1 0 * m 0 1)))) * asM 2 2 m = 1 := by
      have hdd : (m 0 0 * m 1 1 - m 1 0 * m 0 1) * (1 / (m 0 0 * m 1 1 - m 1 0 * m 0 1)) = 1 := mul_one_div_cancel h
      generalize 1 / (m 0 0 * m 1 1 - m 1 0 * m 0 1) = d at hdd
      ext i j
      rw [Matrix.mul_apply, Fin.sum_univ_two]
      fin_cases i <;> fin_cases j <;> simp [Mat.set] <;> first | linear_combination hdd | ring
    exact ⟨(Matrix.inv_eq_left_inv key).symm, key⟩
  · intro h
    rw [hd] at h
    exact if_pos h

/-! ## C52: Symmetrize, trace, cross_product_matrix -/

theorem symRow (n r : Nat) (hr : r < n) [Field K] (m : Mat K) (k : Nat) (hk : r + 1 ≤ k) (i j : Nat) :
    forRange (r+1) k (fun c m => Mat.set (Mat.set m r c ((m r c + m c r) / 2)) c r ((m r c + m c r) / 2)) m i j =
      if (i = r ∧ r < j ∧ j < k) ∨ (j = r ∧ r < i ∧ i < k) then (m i j + m j i) / 2 else m i j := by
  have := forRange_inv (fun q (t : Mat K) => ∀ i j, t i j =
    if (i = r ∧ r < j ∧ j < q) ∨ (j = r ∧ r < i ∧ i < q) then (m i j + m j i) / 2 else m i j) (r+1) k hk
    (fun c m => Mat.set (Mat.set m r c ((m r c + m c r) / 2)) c r ((m r c + m c r) / 2)) m
    (by intro i j; rw [if_neg (by omega)])
    (by
      intro c t hc _ ht i j
      have e1 : t r c = m r c := by rw [ht, if_neg (by omega)]
      have e2 : t c r = m c r := by rw [ht, if_neg (by omega)]
      rw [e1, e2]
      by_cases h1 : i = c ∧ j = r
      · obtain ⟨rfl, rfl⟩ := h1
        rw [Mat.set_self, if_pos (by omega), add_comm]
      · rw [Mat.set_ne _ _ _ _ _ _ h1]
        by_cases h2 : i = r ∧ j = c
        · obtain ⟨rfl, rfl⟩ := h2
          rw [Mat.set_self, if_pos (by omega)]
        · rw [Mat.set_ne _ _ _ _ _ _ h2, ht]
          by_cases h3 : (i = r ∧ r < j ∧ j < c) ∨ (j = r ∧ r < i ∧ i < c)
          · rw [if_pos h3, if_pos (by omega)]
          · rw [if_neg h3, if_neg (by omega)])
  exact this i j

/-- **C52** `Symmetrize(m)` replaces `m` by `(m + mᵀ)/2`; nothing outside the matrix is written. -/
theorem c52_symmetrize [Field K] (h2 : (2 : K) ≠ 0) (n : Nat) (m : Mat K) :
    (∀ i j, i < n → j < n → symmetrize n m i j = (m i j + m j i) / 2) ∧
    (∀ i j, ¬ (i < n ∧ j < n) → symmetrize n m i j = m i j) := by
  have key : ∀ i j, symmetrize n m i j =
      if (i < j ∧ i < n - 1 ∧ j < n) ∨ (j < i ∧ j < n - 1 ∧ i < n) then (m i j + m j i) / 2 else m i j := by
    refine forN_inv (fun k (t : Mat K) => ∀ i j, t i j =
      if (i < j ∧ i < k ∧ j < n) ∨ (j < i ∧ j < k ∧ i < n) then (m i j + m j i) / 2 else m i j) (n-1) _ m
      (by intro i j; rw [if_neg (by omega)]) ?_
    intro r t hr ht i j
    have := symRow n r (by omega) t n (by omega) i j
    refine this.trans ?_
    by_cases h3 : (i = r ∧ r < j ∧ j < n) ∨ (j = r ∧ r < i ∧ i < n)
    · rw [if_pos h3, if_pos (by omega), ht, ht, if_neg (by omega), if_neg (by omega)]
    · rw [if_neg h3, ht]
      by_cases h4 : (i < j ∧ i < r ∧ j < n) ∨ (j < i ∧ j < r ∧ i < n)
      · rw [if_pos h4, if_pos (by omega)]
      · rw [if_neg h4, if_neg (by omega)]
  refine ⟨?_, ?_⟩
  · intro i j hi hj
    rw [key]
    by_cases e : i = j
    · subst e
      rw [if_neg (by omega)]
      field_simp
      ring
    · rw [if_pos (by omega)]
  · intro i j h
    rw [key, if_neg (by omega)]

/-- **C52** in matrix form: the result is symmetric, `(m + mᵀ)/2`, and a symmetric matrix is left unchanged. -/
theorem c52_symmetrize_matrix [Field K] (h2 : (2 : K) ≠ 0) (n : Nat) (m : Mat K) :
    asM n n (symmetrize n m) = (2:K)⁻¹ • (asM n n m + (asM n n m).transpose) ∧
    (asM n n (symmetrize n m)).transpose = asM n n (symmetrize n m) ∧
    ((asM n n m).transpose = asM n n m → asM n n (symmetrize n m) = asM n n m) := by
  have h := (c52_symmetrize h2 n m).1
  have e : asM n n (symmetrize n m) = (2:K)⁻¹ • (asM n n m + (asM n n m).transpose) := by
    ext i j
    rw [asM_apply, h i j i.2 j.2]
    simp [div_eq_inv_mul]
  refine ⟨e, ?_, ?_⟩
  · ext i j
    rw [Matrix.transpose_apply, asM_apply, asM_apply, h i j i.2 j.2, h j i j.2 i.2, add_comm]
  · intro hs
    rw [e, hs, ← two_smul K, smul_smul, inv_mul_cancel₀ h2, one_smul]

/-- **C52** `trace` is the matrix trace and `trace(A*B) = trace(B*A)`. -/
theorem c52_trace [CommRing K] (n k : Nat) (m A B u u' : Mat K) :
    trace n m = (asM n n m).trace ∧
    trace n (mulMM n k n A B u) = trace k (mulMM k n k B A u') := by
  have h : ∀ (n : Nat) (m : Mat K), trace n m = (asM n n m).trace := by
    intro n m
    unfold trace
    rw [forN_sum, zero_add, sum_range_fin]; rfl
  refine ⟨h n m, ?_⟩
  rw [h, h, c09_mul_matrix, c09_mul_matrix, Matrix.trace_mul_comm]

/-- **C52** `cross_product_matrix(a) * b = a ^ b`, the mathematical cross product. -/
theorem c52_cross_product_matrix [CommRing K] (a b : Vec K) (u : Mat K) (u' w : Vec K) :
    asV 3 (mulMV 3 3 (crossProductMatrix a u) b u') = asV 3 (cross a b w) ∧
    asV 3 (cross a b w) = crossProduct (asV 3 a) (asV 3 b) ∧
    (asM 3 3 (crossProductMatrix a u)).transpose = - asM 3 3 (crossProductMatrix a u) := by
  refine ⟨?_, ?_, ?_⟩
  · rw [(c09_mul_vector 3 3 (crossProductMatrix a u) b (fun _ => 0) u' (fun _ => 0)).1]
    funext i
    rw [Matrix.mulVec, dotProduct, Fin.sum_univ_three]
    fin_cases i <;> simp [crossProductMatrix, cross, Mat.set, Vec.set] <;> ring
  · funext i
    rw [cross_apply]
    fin_cases i <;> simp [cross, Vec.set]
  · ext i j
    fin_cases i <;> fin_cases j <;> simp [crossProductMatrix, Mat.set]

/-! ## C55 -/

/-- **C55** `isnan(v)` iff some element is NaN, `isnan(m)` iff some element is, `isfinite(v)` iff all elements are
finite; `Fill` sets every element and nothing else. -/
theorem c55_predicates (nan fin : K → Bool) (n R C : Nat) (v : Vec K) (m : Mat K) :
    (isNan nan n v = true ↔ ∃ i, i < n ∧ nan (v i) = true) ∧
    (isNanM nan R C m = true ↔ ∃ r c, r < R ∧ c < C ∧ nan (m r c) = true) ∧
    (isFinite fin n v = true ↔ ∀ i, i < n → fin (v i) = true) := by
  have hn : ∀ (n : Nat) (v : Vec K), isNan nan n v = true ↔ ∃ i, i < n ∧ nan (v i) = true := by
    intro n v
    unfold isNan
    rw [Option.isNone_iff_eq_none, ← Option.not_isSome_iff_eq_none, forNM_unit_isSome]
    simp
  refine ⟨hn n v, ?_, ?_⟩
  · unfold isNanM
    rw [Option.isNone_iff_eq_none, ← Option.not_isSome_iff_eq_none, forNM_unit_isSome]
    simp only [not_forall]
    constructor
    · rintro ⟨r, hr, h⟩
      have : isNan nan C (m r) = true := by simpa using h
      obtain ⟨c, hc, h⟩ := (hn C (m r)).1 this
      exact ⟨r, c, hr, hc, h⟩
    · rintro ⟨r, c, hr, hc, h⟩
      refine ⟨r, hr, ?_⟩
      have : isNan nan C (m r) = true := (hn C (m r)).2 ⟨c, hc, h⟩
      simpa using this
  · unfold isFinite
    rw [forNM_unit_isSome]
    simp

theorem c55_fill (n R C : Nat) (p : K) (v : Vec K) (m : Mat K) :
    (∀ i, fillV n p v i = if i < n then p else v i) ∧
    (∀ r c, fillM R C p m r c = if r < R ∧ c < C then p else m r c) := by
  refine ⟨fun i => ?_, fun r c => ?_⟩
  · unfold fillV; rw [forN_vecset]
  · unfold fillM; rw [evalM_apply]

end TooN.Helpers
