import Verif.Model.Special
import Verif.Proof.PinvF
import Verif.Props.Helpers
/-!
# C87: the functions of helpers.h in rounded arithmetic

`Fl ρ` are the representable numbers of a floating-point format; every operation is rounded once.  The functions are those of
`Model/Helpers.lean` and `Model/Special.lean` run in this arithmetic.  `Fl.abs` is `std::abs` (exact), `Fl.sqrt` is `std::sqrt`.
`rvec v`, `rmat m` are the real vector and matrix represented.
-/
set_option linter.unusedSectionVars false
namespace TooN.HelpersF
open Finset TooN.Helpers
variable {ρ : Rounding}

/-- the constant `2` of `Symmetrize` (helpers.h:421) converted to the element type -/
noncomputable instance : OfNat (Fl ρ) 2 := ⟨Fl.of ρ 2⟩

theorem smax_val (a b : Fl ρ) : (Special.smax a b).val = max a.val b.val := by
  unfold Special.smax
  by_cases h : a < b
  · rw [if_pos h, max_eq_right (le_of_lt h)]
  · rw [if_neg h, max_eq_left (not_lt.1 h)]

theorem abssum_fac (n : ℕ) (v : Vec (Fl ρ)) :
    ∃ g, Fac ρ.u (n-1) g ∧ (forN n (fun i s => s + Fl.abs (v i)) (0 : Fl ρ)).val = (∑ i ∈ range n, |(v i).val|) * g := by
  obtain ⟨f, hf, e⟩ := forN_add_fac n (fun i => Fl.abs (v i))
  obtain ⟨g, hg, eg⟩ := fac_mean ρ.u_nonneg ρ.u_lt_one n (n-1) (fun i => |(v i).val|) f (fun i => abs_nonneg _) hf
  exact ⟨g, hg, e.trans eg⟩

theorem rel {N : ℕ} (hN : N * ρ.u < 1) {x g : ℝ} (hx : 0 ≤ x) (hg : Fac ρ.u N g) : |x * g - x| ≤ gam ρ.u N * x := by
  rw [show x * g - x = (g - 1) * x by ring, abs_mul, abs_of_nonneg hx]
  exact mul_le_mul_of_nonneg_right (hg.gam ρ.u_nonneg ρ.u_lt_one hN) hx

theorem abssum_err (n : ℕ) (hn : ((n - 1 : ℕ) : ℝ) * ρ.u < 1) (v : Vec (Fl ρ)) :
    abs ((forN n (fun i s => s + Fl.abs (v i)) (0 : Fl ρ)).val - ∑ i ∈ range n, |(v i).val|) ≤
      gam ρ.u (n-1) * ∑ i ∈ range n, |(v i).val| := by
  obtain ⟨g, hg, e⟩ := abssum_fac n v
  rw [e]
  exact rel hn (sum_nonneg fun i _ => abs_nonneg _) hg

/-- **C87** `norm_1(v)` has a small relative error -/
theorem c87_norm_1 (n : ℕ) (hn : ((n - 1 : ℕ) : ℝ) * ρ.u < 1) (v : Vec (Fl ρ)) :
    abs ((Special.norm1 Fl.abs n v).val - ∑ i ∈ range n, |(v i).val|) ≤ gam ρ.u (n-1) * ∑ i ∈ range n, |(v i).val| :=
  abssum_err n hn v

/-- **C87** `norm_inf(v)` is exact: it is the largest absolute value of an element -/
theorem c87_norm_inf (n : ℕ) (hn : 1 ≤ n) (v : Vec (Fl ρ)) :
    IsGreatest {x | ∃ i, i < n ∧ x = |(v i).val|} (Special.normInf Fl.abs n v).val := by
  have e : (Special.normInf Fl.abs n v).val = Helpers.normInf n (rvec v) := by
    have key : ∀ k (s : Fl ρ) (t : ℝ), s.val = t →
        (forRange 1 k (fun i s => Special.smax s (Fl.abs (v i))) s).val = forRange 1 k (fun i s => max s |rvec v i|) t := by
      intro k
      induction k with
      | zero => intro s t h; rw [forRange_empty _ _ (by omega), forRange_empty _ _ (by omega)]; exact h
      | succ k ih =>
        intro s t h
        by_cases hk : 1 ≤ k
        · rw [forRange_succ _ _ hk, forRange_succ _ _ hk, smax_val, ih s t h]; rfl
        · rw [forRange_empty _ _ (by omega), forRange_empty _ _ (by omega)]; exact h
    exact key n _ _ rfl
  rw [e]
  exact c42_norm_inf n hn (rvec v)

theorem max_loop (n : ℕ) (a : ℕ → Fl ρ) (z : Fl ρ) :
    (forN n (fun i s => Special.smax s (a i)) z).val = forN n (fun i s => max s (a i).val) z.val := by
  induction n with
  | zero => rfl
  | succ n ih => rw [forN_succ, forN_succ, smax_val, ih]

theorem max_err (n : ℕ) (a b : ℕ → ℝ) (ε : ℝ) (hε : 0 ≤ ε)
    (h : ∀ i, i < n → |a i - b i| ≤ ε * b i) :
    |forN n (fun i s => max s (a i)) 0 - forN n (fun i s => max s (b i)) 0| ≤ ε * forN n (fun i s => max s (b i)) 0 := by
  have ha := forN_max_isGreatest n a (0 : ℝ)
  have hB := forN_max_isGreatest n b (0 : ℝ)
  set X := forN n (fun i s => max s (a i)) 0
  set Y := forN n (fun i s => max s (b i)) 0
  have hY : 0 ≤ Y := hB.2 (Or.inl rfl)
  have hX : 0 ≤ X := ha.2 (Or.inl rfl)
  rw [abs_le]
  constructor
  · rcases hB.1 with e | ⟨i, hi, e⟩
    · rw [e]; linarith
    · have h1 := ha.2 (Or.inr ⟨i, hi, rfl⟩)
      have h2 := abs_le.1 (h i hi)
      rw [e]; linarith [h2.1]
  · rcases ha.1 with e | ⟨i, hi, e⟩
    · have := mul_nonneg hε hY
      linarith
    · have h1 := hB.2 (Or.inr ⟨i, hi, rfl⟩)
      have h2 := abs_le.1 (h i hi)
      have h3 := mul_le_mul_of_nonneg_left h1 hε
      rw [e]; linarith [h2.2]

/-- **C87** `norm_inf(m)` and `norm_1(m)` have the relative error of the sums of the rows or columns, however large the maximum is
taken over -/
theorem c87_matrix_norms (R C : ℕ) (m : Mat (Fl ρ)) :
    (((C - 1 : ℕ) : ℝ) * ρ.u < 1 → |(Special.normInfM Fl.abs R C m).val - Helpers.normInfM R C (rmat m)| ≤
      gam ρ.u (C-1) * Helpers.normInfM R C (rmat m)) ∧
    (((R - 1 : ℕ) : ℝ) * ρ.u < 1 → |(Special.norm1M Fl.abs R C m).val - Helpers.norm1M R C (rmat m)| ≤
      gam ρ.u (R-1) * Helpers.norm1M R C (rmat m)) := by
  constructor
  · intro h
    have e1 := max_loop R (fun r => forN C (fun c s => s + Fl.abs (m r c)) 0) 0
    have e2 : ∀ r, forN C (fun c s => s + |rmat m r c|) 0 = ∑ c ∈ range C, |(m r c).val| := fun r => by
      rw [abssum, sum_range_fin]; rfl
    have e3 : Helpers.normInfM R C (rmat m) = forN R (fun r s => max s (∑ c ∈ range C, |(m r c).val|)) 0 := by
      unfold Helpers.normInfM
      exact forN_congr _ _ _ _ fun r s _ => by rw [e2]
    rw [e3]
    unfold Special.normInfM
    rw [e1]
    exact max_err R _ _ _ (gam_nonneg ρ.u_nonneg ρ.u_lt_one h) (fun i _ => abssum_err C h (m i))
  · intro h
    have e1 := max_loop C (fun c => forN R (fun r s => s + Fl.abs (m r c)) 0) 0
    have e2 : ∀ c, forN R (fun r s => s + |rmat m r c|) 0 = ∑ r ∈ range R, |(m r c).val| := fun c => by
      rw [abssum R (fun r => rmat m r c), sum_range_fin]; rfl
    have e3 : Helpers.norm1M R C (rmat m) = forN C (fun c s => max s (∑ r ∈ range R, |(m r c).val|)) 0 := by
      unfold Helpers.norm1M
      exact forN_congr _ _ _ _ fun r s _ => by rw [e2]
    rw [e3]
    unfold Special.norm1M
    rw [e1]
    exact max_err C _ _ _ (gam_nonneg ρ.u_nonneg ρ.u_lt_one h) (fun i _ => abssum_err R h (fun r => m r i))

theorem forN_add' {σ : Type} (a b : ℕ) (f : ℕ → σ → σ) (s : σ) :
    forN (a + b) f s = forN b (fun i => f (a + i)) (forN a f s) := by
  induction b with
  | zero => rfl
  | succ b ih => rw [← Nat.add_assoc, forN_succ, forN_succ, ih]

theorem forN_flat {σ : Type} (R C : ℕ) (f : ℕ → ℕ → σ → σ) (s : σ) :
    forN R (fun r s => forN C (f r) s) s = forN (R * C) (fun i => f (i / C) (i % C)) s := by
  induction R with
  | zero => simp
  | succ R ih =>
    rw [forN_succ, ih, Nat.succ_mul, forN_add']
    refine forN_congr _ _ _ _ fun i t hi => ?_
    rw [show (R * C + i) / C = R by
        rw [Nat.add_comm, Nat.add_mul_div_right _ _ (by omega), Nat.div_eq_of_lt hi, Nat.zero_add],
      show (R * C + i) % C = i by rw [Nat.add_comm, Nat.add_mul_mod_self_right, Nat.mod_eq_of_lt hi]]

theorem sum_flat (R C : ℕ) (f : ℕ → ℕ → ℝ) :
    ∑ r ∈ range R, ∑ c ∈ range C, f r c = ∑ i ∈ range (R * C), f (i / C) (i % C) := by
  induction R with
  | zero => simp
  | succ R ih =>
    rw [sum_range_succ, ih, Nat.succ_mul, sum_range_add]
    congr 1
    refine sum_congr rfl fun i hi => ?_
    have hi := mem_range.1 hi
    rw [show (R * C + i) / C = R by
        rw [Nat.add_comm, Nat.add_mul_div_right _ _ (by omega), Nat.div_eq_of_lt hi, Nat.zero_add],
      show (R * C + i) % C = i by rw [Nat.add_comm, Nat.add_mul_mod_self_right, Nat.mod_eq_of_lt hi]]

/-- **C87** `norm_fro(m)` has a small relative error -/
theorem c87_norm_fro (R C : ℕ) (h : ((R * C + 1 : ℕ) : ℝ) * ρ.u < 1) (m : Mat (Fl ρ)) :
    |(Special.normFro Fl.sqrt R C m).val - Real.sqrt (∑ r ∈ range R, ∑ c ∈ range C, (m r c).val ^ 2)| ≤
      gam ρ.u (R * C + 1) * Real.sqrt (∑ r ∈ range R, ∑ c ∈ range C, (m r c).val ^ 2) := by
  have e := forN_flat R C (fun r c n => n + m r c * m r c) (0 : Fl ρ)
  have ed : forN (R * C) (fun i n => n + m (i / C) (i % C) * m (i / C) (i % C)) (0 : Fl ρ) =
      Ops.dot (R * C) (fun i => m (i / C) (i % C)) (fun i => m (i / C) (i % C)) := rfl
  obtain ⟨g, hg, en⟩ := norm_fac (R * C) (fun i => m (i / C) (i % C))
  have : (Special.normFro Fl.sqrt R C m).val = Real.sqrt (∑ i ∈ range (R * C), (m (i / C) (i % C)).val ^ 2) * g := by
    unfold Special.normFro
    rw [e, ed]
    exact en
  rw [this, sum_flat R C (fun r c => (m r c).val ^ 2)]
  exact rel h (Real.sqrt_nonneg _) hg

/-- **C87** `trace(m)`: the error is small relative to the sum of the absolute values of the diagonal -/
theorem c87_trace (n : ℕ) (hn : ((n - 1 : ℕ) : ℝ) * ρ.u < 1) (m : Mat (Fl ρ)) :
    |(Helpers.trace n m).val - ∑ i ∈ range n, (m i i).val| ≤ gam ρ.u (n-1) * ∑ i ∈ range n, |(m i i).val| := by
  obtain ⟨f, hf, e⟩ := forN_add_fac n (fun i => m i i)
  unfold Helpers.trace
  rw [e]
  exact fac_sum_err ρ.u_nonneg ρ.u_lt_one hn _ _ f (fun i hi => hf i (mem_range.1 hi))

/-- **C87** `project(v)` divides by zero only for a zero last element and rounds every element once; `unproject` rounds
nothing; `project(unproject(v))` is `v`, exactly -/
theorem c87_project (n : ℕ) (v u u' : Vec (Fl ρ)) :
    ((v n).val = 0 → project n v u = none) ∧
    ((v n).val ≠ 0 → ∃ w, project n v u = some w ∧
      ∀ i, i < n → |(w i).val - (v i).val / (v n).val| ≤ ρ.u * |(v i).val / (v n).val|) ∧
    (∀ i, i < n → (unproject n v u i).val = (v i).val) ∧ (unproject n v u n).val = 1 ∧
    (∃ w, project n (unproject n v u) u' = some w ∧ ∀ i, i < n → w i = v i) := by
  have un : ∀ i, i < n → unproject n v u i = v i := by
    intro i hi
    unfold unproject
    rw [Vec.set, if_neg (by omega), forN_vecset, if_pos hi]
  have u1 : unproject n v u n = 1 := by
    unfold unproject
    rw [Vec.set, if_pos rfl]
  refine ⟨fun h => if_pos ((Fl.eq_zero_iff _).2 h), fun h => ⟨_, if_neg (fun e => h ((Fl.eq_zero_iff _).1 e)), ?_⟩,
    fun i hi => by rw [un i hi], by rw [u1]; rfl, _, if_neg ?_, ?_⟩
  · intro i hi
    rw [Ops.applyScalarV, forN_vecset, if_pos hi]
    exact ρ.err _
  · rw [u1]
    intro e
    exact one_ne_zero ((Fl.eq_zero_iff _).1 e)
  · intro i hi
    rw [Ops.applyScalarV, forN_vecset, if_pos hi, u1, un i hi]
    apply Fl.ext
    rw [Fl.val_div, Fl.val_one, div_one, (v i).repr]

theorem symRow {K : Type} [Add K] [Div K] [OfNat K 2] (hc : ∀ a b : K, a + b = b + a) (n r : Nat) (t : Mat K) :
    ∀ k, r + 1 ≤ k → ∀ i j, (forRange (r+1) k (fun c m =>
      let temp := (m r c + m c r) / 2
      Mat.set (Mat.set m r c temp) c r temp) t) i j =
      if (i = r ∧ r < j ∧ j < k) ∨ (j = r ∧ r < i ∧ i < k) then (t i j + t j i) / 2 else t i j := by
  intro k hk
  refine forRange_inv (fun k (s : Mat K) => ∀ i j, s i j =
    if (i = r ∧ r < j ∧ j < k) ∨ (j = r ∧ r < i ∧ i < k) then (t i j + t j i) / 2 else t i j) (r+1) k hk _ _ ?_ ?_
  · intro i j; rw [if_neg (by omega)]
  · intro c s hc1 _ hs i j
    have a1 : s r c = t r c := by rw [hs, if_neg (by omega)]
    have a2 : s c r = t c r := by rw [hs, if_neg (by omega)]
    rw [a1, a2]
    by_cases h1 : i = c ∧ j = r
    · obtain ⟨rfl, rfl⟩ := h1
      rw [Mat.set_self, if_pos (by omega), hc]
    · by_cases h2 : i = r ∧ j = c
      · obtain ⟨rfl, rfl⟩ := h2
        rw [Mat.set_ne _ _ _ _ _ _ (by omega), Mat.set_self, if_pos (by omega)]
      · rw [Mat.set_ne _ _ _ _ _ _ (by omega), Mat.set_ne _ _ _ _ _ _ (by omega), hs]
        by_cases h3 : (i = r ∧ r < j ∧ j < c) ∨ (j = r ∧ r < i ∧ i < c)
        · rw [if_pos h3, if_pos (by omega)]
        · rw [if_neg h3, if_neg (by omega)]

/-- **C87** `Symmetrize(m)`: the result is exactly symmetric, its diagonal is untouched, an off-diagonal element is the average
with two roundings, and nothing outside the matrix is written -/
theorem c87_symmetrize (n : ℕ) (h2 : ρ.rnd 2 = 2) (hu : 2 * ρ.u < 1) (m : Mat (Fl ρ)) :
    (∀ i j, i < n → j < n → symmetrize n m i j = symmetrize n m j i) ∧
    (∀ i j, i < n → j < n → |(symmetrize n m i j).val - ((m i j).val + (m j i).val) / 2| ≤
      gam ρ.u 2 * |((m i j).val + (m j i).val) / 2|) ∧
    (∀ i, symmetrize n m i i = m i i) ∧
    (∀ i j, ¬ (i < n ∧ j < n) → symmetrize n m i j = m i j) := by
  have h0 := ρ.u_nonneg
  have h1 := ρ.u_lt_one
  have hc : ∀ a b : Fl ρ, a + b = b + a := fun a b => Fl.ext (by rw [Fl.val_add, Fl.val_add, add_comm])
  have key : ∀ i j, symmetrize n m i j =
      if (i < j ∧ i < n - 1 ∧ j < n) ∨ (j < i ∧ j < n - 1 ∧ i < n) then (m i j + m j i) / 2 else m i j := by
    refine forN_inv (fun k (t : Mat (Fl ρ)) => ∀ i j, t i j =
      if (i < j ∧ i < k ∧ j < n) ∨ (j < i ∧ j < k ∧ i < n) then (m i j + m j i) / 2 else m i j) (n-1) _ m
      (by intro i j; rw [if_neg (by omega)]) ?_
    intro r t hr ht i j
    refine (symRow hc n r t n (by omega) i j).trans ?_
    by_cases h3 : (i = r ∧ r < j ∧ j < n) ∨ (j = r ∧ r < i ∧ i < n)
    · rw [if_pos h3, if_pos (by omega), ht, ht, if_neg (by omega), if_neg (by omega)]
    · rw [if_neg h3, ht]
      by_cases h4 : (i < j ∧ i < r ∧ j < n) ∨ (j < i ∧ j < r ∧ i < n)
      · rw [if_pos h4, if_pos (by omega)]
      · rw [if_neg h4, if_neg (by omega)]
  have diag : ∀ i, symmetrize n m i i = m i i := fun i => by rw [key, if_neg (by omega)]
  refine ⟨?_, ?_, diag, ?_⟩
  · intro i j hi hj
    by_cases e : i = j
    · rw [e]
    · rw [key, key, if_pos (by omega), if_pos (by omega), hc]
  · intro i j hi hj
    have hg : 0 ≤ gam ρ.u 2 := gam_nonneg h0 h1 (by exact_mod_cast hu)
    by_cases e : i = j
    · subst e
      rw [diag, show ((m i i).val + (m i i).val) / 2 = (m i i).val by ring, sub_self, abs_zero]
      exact mul_nonneg hg (abs_nonneg _)
    · rw [key, if_pos (by omega)]
      obtain ⟨f, hf, ef⟩ := Fl.add_fac (m i j) (m j i)
      obtain ⟨g, hg', eg⟩ := Fl.div_fac (m i j + m j i) 2
      have e2 : (2 : Fl ρ).val = 2 := h2
      rw [eg, ef, e2, show ((m i j).val + (m j i).val) * f / 2 * g - ((m i j).val + (m j i).val) / 2 =
        (f * g - 1) * (((m i j).val + (m j i).val) / 2) by ring, abs_mul]
      exact mul_le_mul_of_nonneg_right ((hf.mul h0 h1 hg').gam h0 h1 (by push_cast; linarith)) (abs_nonneg _)
  · intro i j h
    rw [key, if_neg (by omega)]

/-- **C87** `inv(m)` of a 2×2 matrix is the adjugate divided by a determinant with an error of two roundings, relative to the size of
its terms; it divides by zero exactly when that computed determinant is zero -/
theorem c87_inv (hu : 2 * ρ.u < 1) (m u : Mat (Fl ρ)) :
    ∃ d : ℝ, |d - ((m 0 0).val * (m 1 1).val - (m 1 0).val * (m 0 1).val)| ≤
        gam ρ.u 2 * (|(m 0 0).val * (m 1 1).val| + |(m 1 0).val * (m 0 1).val|) ∧
      (d = 0 → inv2 m u = none) ∧
      (d ≠ 0 → ∃ w, inv2 m u = some w ∧
        |(w 0 0).val - (m 1 1).val / d| ≤ gam ρ.u 2 * |(m 1 1).val / d| ∧
        |(w 0 1).val - -(m 0 1).val / d| ≤ gam ρ.u 2 * |(m 0 1).val / d| ∧
        |(w 1 0).val - -(m 1 0).val / d| ≤ gam ρ.u 2 * |(m 1 0).val / d| ∧
        |(w 1 1).val - (m 0 0).val / d| ≤ gam ρ.u 2 * |(m 0 0).val / d|) := by
  have h0 := ρ.u_nonneg
  have h1 := ρ.u_lt_one
  have h2 : ((1 + 1 : ℕ) : ℝ) * ρ.u < 1 := by push_cast; linarith
  set D : Fl ρ := m 0 0 * m 1 1 - m 1 0 * m 0 1 with hD
  refine ⟨D.val, ?_, fun h => if_pos ((Fl.eq_zero_iff _).2 h), fun h =>
    ⟨_, if_neg (fun e => h ((Fl.eq_zero_iff _).1 e)), ?_⟩⟩
  · obtain ⟨f, hf, ef⟩ := Fl.mul_fac (m 0 0) (m 1 1)
    obtain ⟨g, hg, eg⟩ := Fl.mul_fac (m 1 0) (m 0 1)
    obtain ⟨k, hk, ek⟩ := Fl.sub_fac (m 0 0 * m 1 1) (m 1 0 * m 0 1)
    rw [ek, ef, eg]
    have a := (hf.mul h0 h1 hk).gam h0 h1 h2
    have b := (hg.mul h0 h1 hk).gam h0 h1 h2
    rw [show ((m 0 0).val * (m 1 1).val * f - (m 1 0).val * (m 0 1).val * g) * k -
        ((m 0 0).val * (m 1 1).val - (m 1 0).val * (m 0 1).val) =
        (f * k - 1) * ((m 0 0).val * (m 1 1).val) - (g * k - 1) * ((m 1 0).val * (m 0 1).val) by ring, mul_add]
    refine le_trans (abs_sub _ _) (add_le_add ?_ ?_)
    · rw [abs_mul]; exact mul_le_mul_of_nonneg_right a (abs_nonneg _)
    · rw [abs_mul]; exact mul_le_mul_of_nonneg_right b (abs_nonneg _)
  · have key : ∀ x : Fl ρ, |(x * (1 / D)).val - x.val / D.val| ≤ gam ρ.u 2 * |x.val / D.val| := by
      intro x
      obtain ⟨f, hf, ef⟩ := Fl.div_fac 1 D
      obtain ⟨g, hg, eg⟩ := Fl.mul_fac x (1 / D)
      rw [eg, ef, Fl.val_one, show x.val * (1 / D.val * f) * g - x.val / D.val = (f * g - 1) * (x.val / D.val) by ring, abs_mul]
      exact mul_le_mul_of_nonneg_right ((hf.mul h0 h1 hg).gam h0 h1 h2) (abs_nonneg _)
    have neg : ∀ x : Fl ρ, |(-x * (1 / D)).val - -x.val / D.val| ≤ gam ρ.u 2 * |x.val / D.val| := by
      intro x
      have := key (-x)
      rwa [Fl.val_neg, neg_div, abs_neg, ← neg_div] at this
    refine ⟨?_, ?_, ?_, ?_⟩
    · exact key (m 1 1)
    · exact neg (m 0 1)
    · exact neg (m 1 0)
    · exact key (m 0 0)

/-- **C87** consequently `inv(m)` has a small relative error whenever the determinant does not cancel: if its two products have
opposite signs, or one of them vanishes, then every element is accurate to four roundings -/
theorem c87_inv_accurate (hu : 4 * ρ.u < 1) (m u : Mat (Fl ρ))
    (hs : (m 0 0).val * (m 1 1).val * ((m 1 0).val * (m 0 1).val) ≤ 0)
    (hd : (m 0 0).val * (m 1 1).val - (m 1 0).val * (m 0 1).val ≠ 0) :
    ∃ w, inv2 m u = some w ∧ ∀ i j, i < 2 → j < 2 →
      |(w i j).val - (asM 2 2 (rmat m))⁻¹ (Fin.ofNat 2 i) (Fin.ofNat 2 j)| ≤
        gam ρ.u 4 * |(asM 2 2 (rmat m))⁻¹ (Fin.ofNat 2 i) (Fin.ofNat 2 j)| := by
  have h0 := ρ.u_nonneg
  have h1 := ρ.u_lt_one
  set p := (m 0 0).val * (m 1 1).val with hp
  set q := (m 1 0).val * (m 0 1).val with hq
  set D : Fl ρ := m 0 0 * m 1 1 - m 1 0 * m 0 1 with hD
  obtain ⟨k, hk, ek⟩ : ∃ k, Fac ρ.u 2 k ∧ D.val = (p - q) * k := by
    obtain ⟨f, hf, ef⟩ := Fl.mul_fac (m 0 0) (m 1 1)
    obtain ⟨g, hg, eg⟩ := Fl.mul_fac (m 1 0) (m 0 1)
    obtain ⟨k, hk, ek⟩ := Fl.sub_fac (m 0 0 * m 1 1) (m 1 0 * m 0 1)
    rw [ef, eg] at ek
    rcases mul_nonpos_iff.1 hs with ⟨a, b⟩ | ⟨a, b⟩
    · obtain ⟨t, ht, et⟩ := fac_mean h0 h1 2 1 (fun i => if i = 0 then p else -q) (fun i => if i = 0 then f else g)
        (fun i => by split_ifs <;> linarith) (fun i hi => by split_ifs; exacts [hf, hg])
      rw [sum_range_succ, sum_range_succ, sum_range_succ, sum_range_succ] at et
      simp at et
      refine ⟨t * k, ht.mul h0 h1 hk, ?_⟩
      rw [ek, show p * f - q * g = p * f + -(q * g) by ring, et]; ring
    · obtain ⟨t, ht, et⟩ := fac_mean h0 h1 2 1 (fun i => if i = 0 then -p else q) (fun i => if i = 0 then f else g)
        (fun i => by split_ifs <;> linarith) (fun i hi => by split_ifs; exacts [hf, hg])
      rw [sum_range_succ, sum_range_succ, sum_range_succ, sum_range_succ] at et
      simp at et
      refine ⟨t * k, ht.mul h0 h1 hk, ?_⟩
      rw [ek, show p * f - q * g = -(-(p * f) + q * g) by ring, et]; ring
  have hDne : D.val ≠ 0 := by rw [ek]; exact mul_ne_zero hd (hk.pos h0 h1).ne'
  have h4 : ((1 + 1 + 2 : ℕ) : ℝ) * ρ.u < 1 := by push_cast; linarith
  have key : ∀ x : Fl ρ, |(x * (1 / D)).val - x.val / (p - q)| ≤ gam ρ.u 4 * |x.val / (p - q)| := by
    intro x
    obtain ⟨f, hf, ef⟩ := Fl.div_fac 1 D
    obtain ⟨g, hg, eg⟩ := Fl.mul_fac x (1 / D)
    rw [eg, ef, Fl.val_one, ek, show x.val * (1 / ((p - q) * k) * f) * g - x.val / (p - q) =
      (f * g / k - 1) * (x.val / (p - q)) by
        have := (hk.pos h0 h1).ne'
        field_simp, abs_mul]
    exact mul_le_mul_of_nonneg_right (((hf.mul h0 h1 hg).div h0 h1 hk).gam h0 h1 h4) (abs_nonneg _)
  have neg : ∀ x : Fl ρ, |(-x * (1 / D)).val - -x.val / (p - q)| ≤ gam ρ.u 4 * |-x.val / (p - q)| := fun x => key (-x)
  refine ⟨_, if_neg (fun e => hDne ((Fl.eq_zero_iff _).1 e)), ?_⟩
  have hdet : (asM 2 2 (rmat m)).det = p - q := by
    rw [Matrix.det_fin_two]
    simp only [asM_apply, Fin.val_zero, Fin.val_one, rmat]
    rw [hp, hq]; ring
  have hinv : ∀ i j, (asM 2 2 (rmat m))⁻¹ i j = (asM 2 2 (rmat m)).adjugate i j / (p - q) := by
    intro i j
    rw [Matrix.inv_def, hdet, Ring.inverse_eq_inv', Matrix.smul_apply, smul_eq_mul, div_eq_inv_mul]
  intro i j hi hj
  rw [hinv, Matrix.adjugate_fin_two]
  rcases (show i = 0 ∨ i = 1 by omega) with rfl | rfl <;> rcases (show j = 0 ∨ j = 1 by omega) with rfl | rfl
  · exact key (m 1 1)
  · exact neg (m 0 1)
  · exact neg (m 1 0)
  · exact key (m 0 0)

/-- **C87** `cross_product_matrix(v)` rounds nothing -/
theorem c87_cross_product_matrix (v : Vec (Fl ρ)) (u : Mat (Fl ρ)) (w : Mat ℝ) (i j : ℕ) (hi : i < 3) (hj : j < 3) :
    (crossProductMatrix v u i j).val = crossProductMatrix (rvec v) w i j := by
  rcases (show i = 0 ∨ i = 1 ∨ i = 2 by omega) with rfl | rfl | rfl <;>
    rcases (show j = 0 ∨ j = 1 ∨ j = 2 by omega) with rfl | rfl | rfl <;> simp [crossProductMatrix, Mat.set, rvec]

/-- the hypotheses hold for `double` and every matrix with fewer than `2^53 - 1` elements -/
example (R C : ℕ) (h : R * C + 1 < 2^53) : ((R * C + 1 : ℕ) : ℝ) * Rounding.double.u < 1 := by
  have h : ((R * C + 1 : ℕ) : ℝ) < 2^53 := by exact_mod_cast h
  rw [Rounding.double_u, mul_one_div, div_lt_one (by positivity)]; exact h
example : Rounding.double.rnd 2 = 2 ∧ 4 * Rounding.double.u < 1 := by
  refine ⟨?_, by rw [Rounding.double_u]; norm_num⟩
  have := rndNearest_int 53 (by norm_num) 2 (by norm_num)
  exact_mod_cast this
/-- and those of `c87_inv_accurate` by the rotation `(0 -1; 1 0)` -/
example : ∃ m : Mat (Fl Rounding.double), (m 0 0).val * (m 1 1).val * ((m 1 0).val * (m 0 1).val) ≤ 0 ∧
    (m 0 0).val * (m 1 1).val - (m 1 0).val * (m 0 1).val ≠ 0 :=
  ⟨fun r c => if r = c then 0 else if r < c then -1 else 1, by simp, by simp⟩

end TooN.HelpersF
